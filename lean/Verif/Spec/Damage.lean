import Verif.Spec.Words
import Verif.Spec.Isa
import Verif.Model.Decoding
/-! Damage to instruction words. Nothing in this file is a function of the crate; the positions are those of C01. -/
namespace ZkEvm.Spec

/-- The parts of an instruction -/
inductive Field where
  | variant | condition | src0 | src1 | dst0 | dst1 | imm0 | imm1
  deriving DecidableEq

/-- The two instructions differ in this part. -/
def Differ {n : Nat} (o o' : DecodedOpcode n) : Field → Prop
  | .variant => o.variant ≠ o'.variant
  | .condition => o.condition ≠ o'.condition
  | .src0 => o.src0RegIdx ≠ o'.src0RegIdx
  | .src1 => o.src1RegIdx ≠ o'.src1RegIdx
  | .dst0 => o.dst0RegIdx ≠ o'.dst0RegIdx
  | .dst1 => o.dst1RegIdx ≠ o'.dst1RegIdx
  | .imm0 => o.imm0 ≠ o'.imm0
  | .imm1 => o.imm1 ≠ o'.imm1

/-- Where in a word each part is written, as a first bit and a number of bits, for immediates of `n` bits -/
def partPlace (n : Nat) : Field → Nat × Nat
  | .variant => (0, 11)
  | .condition => (13, 3)
  | .src0 => (16, 4)
  | .src1 => (20, 4)
  | .dst0 => (24, 4)
  | .dst1 => (28, 4)
  | .imm0 => (32, n)
  | .imm1 => (32 + n, n)

/-- The two words differ in bit `i`. -/
def BitDiffers {w : Nat} (x y : BitVec w) (i : Nat) : Prop := x.toNat / 2 ^ i % 2 ≠ y.toNat / 2 ^ i % 2

/-- The two words differ in a bit where this part is written. -/
def DamagedAt {w : Nat} (n : Nat) (x y : BitVec w) (f : Field) : Prop :=
  ∃ i, (partPlace n f).1 ≤ i ∧ i < (partPlace n f).1 + (partPlace n f).2 ∧ BitDiffers x y i

/-- No instruction has this number. -/
def Unassigned (m : Nat) : Prop := m = 0 ∨ 1093 ≤ m

end ZkEvm.Spec
