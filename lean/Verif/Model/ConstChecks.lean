import Verif.Model.Abi
import Verif.Model.ImmMem
import Verif.Model.SystemParams
/-! Model of the unnamed constants `const _: () = if … { panic!() }` of the crate: the compiler evaluates them, and a
panic is a compilation error. Each is a function of the constants that it mentions. -/
namespace ZkEvm.ConstChecks

/-- `src/lib.rs:47-49`, as a function of `MEMORY_GROWTH_ERGS_PER_BYTE` -/
def memoryGrowth (ergsPerByte : Nat) : Res Unit :=
  if ergsPerByte ≠ 1 then .error .explicitPanic else .ok ()

/-- `src/lib.rs:255-257`, as a function of `CODE_DECOMMITTER_SORTER_COST_IN_ERGS`; `u16::MAX` is 65535 -/
def decommitterSorter (cost : Nat) : Res Unit :=
  if cost > 65535 then .error .explicitPanic else .ok ()

/-- `src/imm_mem_modifiers.rs:120-124` and `src/imm_mem_modifiers.rs:125-129`, as a function of the two indices -/
def operandIndices (full regOrImm : Nat) : Res Unit :=
  if full ≠ regOrImm then .error .explicitPanic else .ok ()

/-- `src/definitions/abi/ret.rs:5-9`, as a function of the two positions -/
def forwardingByte (ret farCall : Nat) : Res Unit :=
  if ret ≠ farCall then .error .explicitPanic else .ok ()

/-- All compile-time checks of the crate: `src/lib.rs:47-49`, `src/lib.rs:255-257`,
`src/imm_mem_modifiers.rs:120-129`, `src/definitions/abi/ret.rs:5-9` -/
def all : Res Unit := do
  memoryGrowth MEMORY_GROWTH_ERGS_PER_BYTE
  decommitterSorter CODE_DECOMMITTER_SORTER_COST_IN_ERGS
  operandIndices ImmMemHandlerFlags.useRegOnly.variantIndex RegOrImmFlags.useRegOnly.variantIndex
  operandIndices ImmMemHandlerFlags.useImm16Only.variantIndex RegOrImmFlags.useImm16Only.variantIndex
  forwardingByte RET_FORWARDING_MODE_BYTE_IDX FAR_CALL_FORWARDING_MODE_BYTE_IDX

end ZkEvm.ConstChecks
