import Verif.Spec.Disassembly
/-! Checking code instruction by instruction. Nothing in this file is a function of the crate. -/
namespace ZkEvm.Spec

/-- Every piece of `N` bytes of a code passes a check. -/
def Passes {k : Nat} (N : Nat) (check : BitVec k → Bool) (words : List (Vector Byte 32)) : Prop :=
  ∀ (i : Nat) (raw : BitVec k), N * (i + 1) ≤ 32 * words.length → raw.toNat = beNat (piece N words i) → check raw = true

end ZkEvm.Spec
