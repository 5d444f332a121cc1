import Verif.Spec.Deploy
/-! Disassembling arbitrary code. Nothing in this file is a function of the crate. -/
namespace ZkEvm.Spec

/-- Bytes `N * i`, ..., `N * i + N - 1` of a code -/
def piece (N : Nat) (words : List (Vector Byte 32)) (i : Nat) : List Byte :=
  ((words.flatMap Vector.toList).drop (N * i)).take N

/-- `prog` lists the instructions that the pieces of `N` bytes of a code decode to, from the first to the last. -/
def Disassembled {w k : Nat} (N : Nat) (parse : BitVec k → Res (DecodedOpcode w × VariantMonotonicNumber))
    (words : List (Vector Byte 32)) (prog : List (DecodedOpcode w)) : Prop :=
  N * prog.length = 32 * words.length ∧
  ∀ (i : Nat) o, prog[i]? = some o → ∃ raw n, raw.toNat = beNat (piece N words i) ∧ parse raw = .ok (o, n)

end ZkEvm.Spec
