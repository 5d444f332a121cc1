/-! Specification of reading a number written in digits, most significant digit first. -/
namespace ZkEvm.Spec

/-- The value of a digit character `0`..`9`, `a`..`f` -/
def digitValue (c : Char) : Nat :=
  if c.toNat ≤ '9'.toNat then c.toNat - '0'.toNat else 10 + (c.toNat - 'a'.toNat)

/-- The number written by `digits` in base `base` -/
def readNumber (base : Nat) (digits : List Char) : Nat :=
  digits.foldl (fun acc c => acc * base + digitValue c) 0

/-- The lines of a text -/
def lines : List Char → List (List Char)
  | [] => [[]]
  | c :: s =>
    if c = '\n' then [] :: lines s
    else match lines s with
      | l :: ls => (c :: l) :: ls
      | [] => [[c]]

end ZkEvm.Spec
