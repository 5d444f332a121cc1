import Verif.Spec.Machine
/-! Carrying programs from the production encoding to the testing encoding. Nothing in this file is a function of the
crate, but immediates and positions are converted with the crate's `as_u64` and `from_u64_clipped`. -/
namespace ZkEvm.Spec

/-- The instruction of the testing encoding with the same variant, condition, registers and immediates -/
def widen (o : DecodedOpcode 16) : DecodedOpcode 32 where
  variant := o.variant
  condition := o.condition
  src0RegIdx := o.src0RegIdx
  src1RegIdx := o.src1RegIdx
  dst0RegIdx := o.dst0RegIdx
  dst1RegIdx := o.dst1RegIdx
  imm0 := fromU64Clipped 32 (asU64 o.imm0)
  imm1 := fromU64Clipped 32 (asU64 o.imm1)

variable {State State' Contract : Type}

/-- `R` relates the states of two machines that run the same contracts, stand at the same position, and do the same when
they execute the same instruction with the same price and mask. -/
structure SameEffect (M : Machine 16 State Contract) (M' : Machine 32 State' Contract) (R : State → State' → Prop) : Prop where
  contract : ∀ s s', R s s' → M'.contract s' = M.contract s
  pc : ∀ s s', R s s' → M'.pc s' = fromU64Clipped 32 (asU64 (M.pc s))
  execute : ∀ s s' o price mask, R s s' → R (M.execute s o price mask) (M'.execute s' (widen o) price mask)

end ZkEvm.Spec
