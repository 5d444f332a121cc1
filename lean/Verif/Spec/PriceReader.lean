import Verif.Spec.Text
import Verif.Spec.PriceFile
/-! Reading a file of price constants, line by line. -/
namespace ZkEvm.Spec

/-- What a line says -/
inductive Line
  | constant (name : String) (value : Nat)
  | nothing
  | malformed
deriving DecidableEq, Repr

/-- Remove a prefix -/
def dropPrefix : List Char → List Char → Option (List Char)
  | [], s => some s
  | c :: p, d :: s => if c = d then dropPrefix p s else none
  | _ :: _, [] => none

/-- The decimal digits followed by a final `;`: `pub const …: u32 = 123;` -/
def readValue (s : List Char) : Option Nat :=
  match s.getLast? with
  | some ';' =>
    let d := s.dropLast
    if d ≠ [] ∧ d.all Char.isDigit then some (readNumber 10 d) else none
  | _ => none

/-- Read one line: empty, a `//` comment, or a `u32` constant -/
def readLine (s : List Char) : Line :=
  if s = [] then .nothing
  else if (dropPrefix "//".toList s).isSome then .nothing
  else match dropPrefix "pub const ".toList s with
    | none => .malformed
    | some r =>
      let name := r.takeWhile fun c => c.isUpper || c.isDigit || c = '_'
      match dropPrefix ": u32 = ".toList (r.drop name.length) with
      | none => .malformed
      | some v => match readValue v with
        | none => .malformed
        | some n => if name = [] then .malformed else .constant (String.ofList name) n

/-- The constants of the lines, unless some line is malformed -/
def readConstants : List (List Char) → Option (List (String × Nat))
  | [] => some []
  | l :: ls => match readLine l, readConstants ls with
    | .malformed, _ => none
    | _, none => none
    | .nothing, some r => some r
    | .constant n v, some r => some ((n, v) :: r)

/-- The constants a file of bytes (ASCII) declares, if it is well formed -/
def readPrices (file : List (BitVec 8)) : Option (List (String × Nat)) :=
  readConstants (lines (file.map fun b => Char.ofNat b.toNat))

end ZkEvm.Spec
