import Verif.Spec.Words
/-! What a linker does: fill in parts of instructions in assembled code, byte by byte. Nothing in this file is a function of
the crate. -/
namespace ZkEvm.Spec

/-- A part of an instruction, and what it shall be -/
inductive Fill (w : Nat)
  | imm0 (x : BitVec w)
  | imm1 (x : BitVec w)
  | src (r0 r1 : Byte)
  | dst (r0 r1 : Byte)
deriving DecidableEq

namespace Fill
variable {w : Nat}

/-- Only registers r0..r15 are filled in. -/
def Ok : Fill w → Prop
  | imm0 _ | imm1 _ => True
  | src r0 r1 | dst r0 r1 => r0.toNat < 16 ∧ r1.toNat < 16

/-- The instruction with that part filled in -/
def into : Fill w → DecodedOpcode w → DecodedOpcode w
  | imm0 x, o => { o with imm0 := x }
  | imm1 x, o => { o with imm1 := x }
  | src r0 r1, o => { o with src0RegIdx := r0, src1RegIdx := r1 }
  | dst r0 r1, o => { o with dst0RegIdx := r0, dst1RegIdx := r1 }

/-- The number that stands for the part in code -/
def number : Fill w → Nat
  | imm0 x | imm1 x => x.toNat
  | src r0 r1 | dst r0 r1 => r1.toNat * 16 + r0.toNat

/-- Two fillings of the same part -/
def SamePart : Fill w → Fill w → Prop
  | imm0 _, imm0 _ | imm1 _, imm1 _ | src _ _, src _ _ | dst _ _, dst _ _ => True
  | _, _ => False

/-- Production mode: the first byte of the part within the 8 bytes of an instruction, and the number of its bytes -/
def placeProduction : Fill 16 → Nat × Nat
  | imm1 _ => (0, 2)
  | imm0 _ => (2, 2)
  | dst _ _ => (4, 1)
  | src _ _ => (5, 1)

/-- Testing mode: the same within the 16 bytes of an instruction -/
def placeTesting : Fill 32 → Nat × Nat
  | imm1 _ => (4, 4)
  | imm0 _ => (8, 4)
  | dst _ _ => (12, 1)
  | src _ _ => (13, 1)

end Fill

/-- `new` is `old` except that `len` bytes from `start` on are `number`, written big-endian. -/
def Overwritten (old new : List Byte) (start len number : Nat) : Prop :=
  ∃ before gone put after, old = before ++ gone ++ after ∧ new = before ++ put ++ after ∧ before.length = start ∧
    gone.length = len ∧ put.length = len ∧ beNat put = number

/-- A linker's run over code: each entry names the position of an instruction and overwrites one of its parts. -/
inductive LinkedCode {w : Nat} (size : Nat) (place : Fill w → Nat × Nat) : List (Nat × Fill w) → List Byte → List Byte → Prop
  | nil {code} : LinkedCode size place [] code code
  | cons {i f l code next last} : Overwritten code next (size * i + (place f).1) (place f).2 f.number →
      LinkedCode size place l next last → LinkedCode size place ((i, f) :: l) code last

/-- The program that is meant: each entry fills in the named part of the instruction at its position. -/
def linked {w : Nat} : List (Nat × Fill w) → List (DecodedOpcode w) → List (DecodedOpcode w)
  | [], prog => prog
  | (i, f) :: l, prog => linked l (prog.modify i f.into)

end ZkEvm.Spec
