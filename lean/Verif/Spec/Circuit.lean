import Verif.Spec.Machine
/-! A machine that, like a circuit, never decodes an instruction: it cuts a word into bit fields, looks up price and
property mask under the number, and replaces the mask by the published ones of panic and nop where needed. Nothing in this
file is a function of the crate. -/
namespace ZkEvm.Spec

/-- What a circuit knows of an instruction -/
structure View where
  mask : BitVec 64
  condition : Nat
  src0 : Nat
  src1 : Nat
  dst0 : Nat
  dst1 : Nat
  imm0 : Nat
  imm1 : Nat
deriving DecidableEq

/-- The bit fields of a word with immediates of `w` bits, beside a mask -/
def fieldsOf {k : Nat} (w : Nat) (raw : BitVec k) (mask : BitVec 64) : View :=
  ⟨mask, bits raw 13 3, bits raw 16 4, bits raw 20 4, bits raw 24 4, bits raw 28 4, bits raw 32 w, bits raw (32 + w) w⟩

/-- The number of a condition -/
def conditionNumber : Condition → Nat
  | .always => 0
  | .gt => 1
  | .lt => 2
  | .eq => 3
  | .ge => 4
  | .le => 5
  | .ne => 6
  | .gtOrLt => 7

/-- What a circuit ought to know of an instruction -/
def viewOf {w : Nat} (mask : OpcodeVariant → BitVec 64) (o : DecodedOpcode w) : View :=
  ⟨mask o.variant, conditionNumber o.condition, o.src0RegIdx.toNat, o.src1RegIdx.toNat, o.dst0RegIdx.toNat,
    o.dst1RegIdx.toNat, o.imm0.toNat, o.imm1.toNat⟩

/-- What a circuit checks: as `Checks`, but by the number of the condition -/
structure NumberedChecks where
  ergs : Nat
  kernel : Bool
  isStatic : Bool
  holds : Nat → Bool

/-- The same checks by condition -/
def NumberedChecks.checks (c : NumberedChecks) : Checks := ⟨c.ergs, c.kernel, c.isStatic, fun d => c.holds (conditionNumber d)⟩

/-- The view with another mask, the condition `always` and no registers -/
def View.replacedBy (v : View) (mask : BitVec 64) : View :=
  { v with mask := mask, condition := 0, src0 := 0, src1 := 0, dst0 := 0, dst1 := 0 }

/-- What a circuit really executes, see `guarded` -/
def guardedView (c : NumberedChecks) (base : Nat) (nop panic : BitVec 64) (v : View) (price : Nat) : View :=
  if c.ergs < price ∨ v.mask.getLsbD (base + EXPLICIT_PANIC_FLAG_IDX) = true ∨
      (v.mask.getLsbD (base + KERNER_MODE_FLAG_IDX) = true ∧ c.kernel = false) ∨
      (v.mask.getLsbD (base + CAN_BE_USED_IN_STATIC_CONTEXT_FLAG_IDX) = false ∧ c.isStatic = true)
  then v.replacedBy panic
  else if c.holds v.condition then v else v.replacedBy nop

variable {State Contract : Type} {w k : Nat}

/-- One cycle of a circuit: fetch the word, cut it into fields, look up, replace, execute. -/
def circuitCycle (split : BitVec w → BitVec w × BitVec w) (fetch : U256 → BitVec w → Res (BitVec k))
    (contract : State → Contract) (pc : State → BitVec w) (checks : State → NumberedChecks)
    (effect : State → View → Nat → State) (base : Nat) (page : Contract → Nat → U256) (s : State) : Res State := do
  let raw ← fetch (page (contract s) (split (pc s)).1.toNat) (split (pc s)).2
  let price ← index (← OPCODES_PRICES) (bits raw 0 11)
  let mask ← index (← OPCODES_PROPS_INTEGER_BITMASKS) (bits raw 0 11)
  let nop ← NOP_BITSPREAD_U64
  let panic ← PANIC_BITSPREAD_U64
  pure (effect s (guardedView (checks s) base nop panic (fieldsOf w raw mask) price) price)

end ZkEvm.Spec
