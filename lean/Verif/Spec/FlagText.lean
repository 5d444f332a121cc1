import Verif.Spec.Exceptions
/-! Grammar of the texts that name a set of problems. Nothing in this file is a function of the crate. -/
namespace ZkEvm.Spec

/-- A white space character of Unicode -/
def Blank (c : Char) : Prop :=
  c.toNat ∈ [0x9, 0xa, 0xb, 0xc, 0xd, 0x20, 0x85, 0xa0, 0x1680, 0x2000, 0x2001, 0x2002, 0x2003, 0x2004, 0x2005, 0x2006, 0x2007,
    0x2008, 0x2009, 0x200a, 0x2028, 0x2029, 0x202f, 0x205f, 0x3000]

/-- Only white space -/
def AllBlank (t : List Char) : Prop := ∀ c ∈ t, Blank c

/-- Digits of base 16, both cases, at the position of their value -/
def lowerDigits : List Char := "0123456789abcdef".toList
def upperDigits : List Char := "0123456789ABCDEF".toList

/-- `c` is a digit of value `d`. -/
def IsDigit (c : Char) (d : Nat) : Prop := lowerDigits[d]? = some c ∨ upperDigits[d]? = some c

/-- `t` is at least one digit of base 16 and stands for `n`; leading zeros are allowed. -/
inductive IsHex : List Char → Nat → Prop
  | one {c d} : IsDigit c d → IsHex [c] d
  | more {t n c d} : IsHex t n → IsDigit c d → IsHex (t ++ [c]) (n * 16 + d)

/-- `t` names the bits `n`: it is the name of a problem, or a number of at most 64 bits with or without a plus sign. -/
inductive NamesBits : List Char → Nat → Prop
  | name (q : Problem) : NamesBits q.name.toList (2 ^ q.bit)
  | hex {t n} : IsHex t n → n < 2 ^ 64 → NamesBits ('0' :: 'x' :: t) n
  | hexPlus {t n} : IsHex t n → n < 2 ^ 64 → NamesBits ('0' :: 'x' :: '+' :: t) n

/-- The same without numbers -/
inductive NamesProblem : List Char → Nat → Prop
  | name (q : Problem) : NamesProblem q.name.toList (2 ^ q.bit)

/-- `t` is one or more parts that `one` accepts, with white space around them and bars between them, and `n` is the union of
their bits. -/
inductive IsUnion (one : List Char → Nat → Prop) : List Char → Nat → Prop
  | last {l t r n} : AllBlank l → one t n → AllBlank r → IsUnion one (l ++ t ++ r) n
  | cons {l t r n u m} : AllBlank l → one t n → AllBlank r → IsUnion one u m → IsUnion one (l ++ t ++ r ++ '|' :: u) (n ||| m)

/-- `t` describes the set of bits `n`: white space is the empty set. -/
def Describes (one : List Char → Nat → Prop) (t : List Char) (n : Nat) : Prop := (AllBlank t ∧ n = 0) ∨ IsUnion one t n

/-- What can be wrong with a part -/
inductive Fault
  | empty
  | name
  | number
deriving DecidableEq

/-- Neither the first nor the last character is white space. -/
def Trimmed (t : List Char) : Prop := (∀ c, t.head? = some c → ¬ Blank c) ∧ (∀ c, t.getLast? = some c → ¬ Blank c)

/-- A part that `one` does not accept, with its fault: there is nothing in it, or it starts like a number, or it does not. -/
inductive BadPart (one : List Char → Nat → Prop) : List Char → Fault → Prop
  | empty {p} : AllBlank p → BadPart one p .empty
  | number {l t r} : AllBlank l → Trimmed ('0' :: 'x' :: t) → AllBlank r → (∀ n, ¬ one ('0' :: 'x' :: t) n) →
      BadPart one (l ++ '0' :: 'x' :: t ++ r) .number
  | name {l t r} : AllBlank l → Trimmed t → AllBlank r → t ≠ [] → (∀ u, t ≠ '0' :: 'x' :: u) → (∀ n, ¬ one t n) →
      BadPart one (l ++ t ++ r) .name

/-- The first part of the text that `one` does not accept has this fault. -/
inductive FirstFault (one : List Char → Nat → Prop) : List Char → Fault → Prop
  | last {p k} : '|' ∉ p → BadPart one p k → FirstFault one p k
  | here {p k u} : '|' ∉ p → BadPart one p k → FirstFault one (p ++ '|' :: u) k
  | later {l t r n u k} : AllBlank l → one t n → AllBlank r → FirstFault one u k → FirstFault one (l ++ t ++ r ++ '|' :: u) k

end ZkEvm.Spec
