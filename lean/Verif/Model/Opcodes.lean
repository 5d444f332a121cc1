import Verif.Model.OpcodeTrait
import Verif.Model.Prices
/-!
Model of the sixteen opcode definition files `src/definitions/{invalid_opcode, noop, add, sub, mul,
div, jump, context, shift, binop, ptr, near_call, log, far_call, ret, uma}.rs`.

Enum discriminants (`(*self as u8) as usize` on a `#[repr(u8)]` enum starting at 0) are the
declaration positions and are written out.
-/
namespace ZkEvm

/-- `ALL_ISA_VERSIONS[0]`, `src/definitions/opcode_trait.rs:40` -/
def firstIsaVersion : ISAVersion := ⟨0⟩

/-! ## `src/definitions/invalid_opcode.rs` -/

/-- `src/definitions/invalid_opcode.rs:4` -/
inductive InvalidOpcode where
  | mk
deriving DecidableEq, Repr

namespace InvalidOpcode

/-- `variant_index`, `src/definitions/invalid_opcode.rs:19-21` -/
def variantIndex : InvalidOpcode → Nat
  | .mk => 0

/-- `from_variant_index_for_version`, `src/definitions/invalid_opcode.rs:23-28` -/
def fromVariantIndexForVersion (index : Nat) (_version : ISAVersion) : Option InvalidOpcode :=
  match index with
  | 0 => some .mk
  | _ => none

/-- `ergs_price`, `src/definitions/invalid_opcode.rs:30-32` -/
def ergsPrice (_ : InvalidOpcode) : Nat :=
  INVALID_OPCODE_ERGS

/-- `max_variant_idx_for_version`, `src/definitions/invalid_opcode.rs:11-13` -/
def maxVariantIdxForVersion (_version : ISAVersion) : Res Nat := .ok (variantIndex .mk)

/-- `src/definitions/invalid_opcode.rs:6-33`
(`all_variants` 7-9, `minimal_version` 15-17) -/
instance : OpcodeVariantProps InvalidOpcode where
  allVariants := [.mk]
  minimalVersion _ := firstIsaVersion
  maxVariantIdxForVersion := maxVariantIdxForVersion
  variantIndex := variantIndex
  fromVariantIndexForVersion := fromVariantIndexForVersion
  ergsPrice := ergsPrice

/-- `variants_data`, `src/definitions/invalid_opcode.rs:39-49` -/
def variantsData (version : ISAVersion) : Res (List OpcodeVariantData) :=
  match version.num with
  | 0 => do .ok (fullVariantsProduct (← maxVariantIdxForVersion version) 0 0)
  | 1 => do .ok (fullVariantsProduct (← maxVariantIdxForVersion version) 0 0)
  | _ => .error .unimplemented

/-- `max_variant_idx`, `src/definitions/invalid_opcode.rs:50-52` -/
def maxVariantIdx (_version : ISAVersion) : Res Nat := .ok (variantIndex .mk)

/-- `input_operands`, `src/definitions/invalid_opcode.rs:53-55` -/
def inputOperands (_self : InvalidOpcode) (_version : ISAVersion) : Res (List Operand) :=
  .ok ([])

/-- `output_operands`, `src/definitions/invalid_opcode.rs:56-58` -/
def outputOperands (_self : InvalidOpcode) (_version : ISAVersion) : Res (List Operand) :=
  .ok ([])

/-- `requires_kernel_mode`, `src/definitions/invalid_opcode.rs:59-61` -/
def requiresKernelMode : InvalidOpcode → Bool := fun _ => false

/-- `can_be_used_in_static_context`, `src/definitions/invalid_opcode.rs:62-64` -/
def canBeUsedInStaticContext : InvalidOpcode → Bool := fun _ => true

/-- `src/definitions/invalid_opcode.rs:35-65` (`name` 36-38) -/
instance : OpcodeProps InvalidOpcode where
  name _ := "Invalid opcode"
  variantsData _ := variantsData
  maxVariantIdx _ := maxVariantIdx
  inputOperands := inputOperands
  outputOperands := outputOperands
  requiresKernelMode := requiresKernelMode
  canBeUsedInStaticContext := canBeUsedInStaticContext

end InvalidOpcode

/-! ## `src/definitions/noop.rs` -/

/-- `src/definitions/noop.rs:4` -/
inductive NopOpcode where
  | mk
deriving DecidableEq, Repr

namespace NopOpcode

/-- `variant_index`, `src/definitions/noop.rs:19-21` -/
def variantIndex : NopOpcode → Nat
  | .mk => 0

/-- `from_variant_index_for_version`, `src/definitions/noop.rs:23-28` -/
def fromVariantIndexForVersion (index : Nat) (_version : ISAVersion) : Option NopOpcode :=
  match index with
  | 0 => some .mk
  | _ => none

/-- `ergs_price`, `src/definitions/noop.rs:30-32` -/
def ergsPrice (_ : NopOpcode) : Nat :=
  RICH_ADDRESSING_OPCODE_ERGS

/-- `max_variant_idx_for_version`, `src/definitions/noop.rs:11-13` -/
def maxVariantIdxForVersion (_version : ISAVersion) : Res Nat := .ok (variantIndex .mk)

/-- `src/definitions/noop.rs:6-33`
(`all_variants` 7-9, `minimal_version` 15-17) -/
instance : OpcodeVariantProps NopOpcode where
  allVariants := [.mk]
  minimalVersion _ := firstIsaVersion
  maxVariantIdxForVersion := maxVariantIdxForVersion
  variantIndex := variantIndex
  fromVariantIndexForVersion := fromVariantIndexForVersion
  ergsPrice := ergsPrice

/-- `variants_data`, `src/definitions/noop.rs:39-49` -/
def variantsData (version : ISAVersion) : Res (List OpcodeVariantData) :=
  match version.num with
  | 0 => do .ok (fullVariantsProduct (← maxVariantIdxForVersion version) 0 2)
  | 1 => do .ok (fullVariantsProduct (← maxVariantIdxForVersion version) 0 2)
  | _ => .error .unimplemented

/-- `max_variant_idx`, `src/definitions/noop.rs:50-52` -/
def maxVariantIdx (_version : ISAVersion) : Res Nat := .ok (variantIndex .mk)

/-- `input_operands`, `src/definitions/noop.rs:53-55` -/
def inputOperands (_self : NopOpcode) (_version : ISAVersion) : Res (List Operand) :=
  .ok ([.full .useRegOnly])

/-- `output_operands`, `src/definitions/noop.rs:56-58` -/
def outputOperands (_self : NopOpcode) (_version : ISAVersion) : Res (List Operand) :=
  .ok ([.full .useRegOnly])

/-- `requires_kernel_mode`, `src/definitions/noop.rs:59-61` -/
def requiresKernelMode : NopOpcode → Bool := fun _ => false

/-- `can_be_used_in_static_context`, `src/definitions/noop.rs:62-64` -/
def canBeUsedInStaticContext : NopOpcode → Bool := fun _ => true

/-- `src/definitions/noop.rs:35-65` (`name` 36-38) -/
instance : OpcodeProps NopOpcode where
  name _ := "Nop opcode"
  variantsData _ := variantsData
  maxVariantIdx _ := maxVariantIdx
  inputOperands := inputOperands
  outputOperands := outputOperands
  requiresKernelMode := requiresKernelMode
  canBeUsedInStaticContext := canBeUsedInStaticContext

end NopOpcode

/-! ## `src/definitions/add.rs` -/

/-- `src/definitions/add.rs:5-7` -/
inductive AddOpcode where
  | add
deriving DecidableEq, Repr

namespace AddOpcode

/-- `variant_index`, `src/definitions/add.rs:22-24` -/
def variantIndex : AddOpcode → Nat
  | .add => 0

/-- `from_variant_index_for_version`, `src/definitions/add.rs:26-31` -/
def fromVariantIndexForVersion (index : Nat) (_version : ISAVersion) : Option AddOpcode :=
  if index = variantIndex .add then some .add
  else none

/-- `ergs_price`, `src/definitions/add.rs:33-35` -/
def ergsPrice (_ : AddOpcode) : Nat :=
  RICH_ADDRESSING_OPCODE_ERGS

/-- `max_variant_idx_for_version`, `src/definitions/add.rs:14-16` -/
def maxVariantIdxForVersion (_version : ISAVersion) : Res Nat := .ok (variantIndex .add)

/-- `src/definitions/add.rs:9-36`
(`all_variants` 10-12, `minimal_version` 18-20) -/
instance : OpcodeVariantProps AddOpcode where
  allVariants := [.add]
  minimalVersion _ := firstIsaVersion
  maxVariantIdxForVersion := maxVariantIdxForVersion
  variantIndex := variantIndex
  fromVariantIndexForVersion := fromVariantIndexForVersion
  ergsPrice := ergsPrice

/-- `variants_data`, `src/definitions/add.rs:42-52` -/
def variantsData (version : ISAVersion) : Res (List OpcodeVariantData) :=
  match version.num with
  | 0 => do .ok (fullVariantsProduct (← maxVariantIdxForVersion version) 1 2)
  | 1 => do .ok (fullVariantsProduct (← maxVariantIdxForVersion version) 1 2)
  | _ => .error .unimplemented

/-- `max_variant_idx`, `src/definitions/add.rs:53-55` -/
def maxVariantIdx (_version : ISAVersion) : Res Nat := .ok (variantIndex .add)

/-- `input_operands`, `src/definitions/add.rs:56-61` -/
def inputOperands (_self : AddOpcode) (_version : ISAVersion) : Res (List Operand) :=
  .ok ([.full .useRegOnly, .regOnly])

/-- `output_operands`, `src/definitions/add.rs:62-64` -/
def outputOperands (_self : AddOpcode) (_version : ISAVersion) : Res (List Operand) :=
  .ok ([.full .useRegOnly])

/-- `requires_kernel_mode`, `src/definitions/add.rs:65-67` -/
def requiresKernelMode : AddOpcode → Bool := fun _ => false

/-- `can_be_used_in_static_context`, `src/definitions/add.rs:68-70` -/
def canBeUsedInStaticContext : AddOpcode → Bool := fun _ => true

/-- `src/definitions/add.rs:38-71` (`name` 39-41) -/
instance : OpcodeProps AddOpcode where
  name _ := "Add opcode"
  variantsData _ := variantsData
  maxVariantIdx _ := maxVariantIdx
  inputOperands := inputOperands
  outputOperands := outputOperands
  requiresKernelMode := requiresKernelMode
  canBeUsedInStaticContext := canBeUsedInStaticContext

end AddOpcode

/-! ## `src/definitions/sub.rs` -/

/-- `src/definitions/sub.rs:5-7` -/
inductive SubOpcode where
  | sub
deriving DecidableEq, Repr

namespace SubOpcode

/-- `variant_index`, `src/definitions/sub.rs:22-24` -/
def variantIndex : SubOpcode → Nat
  | .sub => 0

/-- `from_variant_index_for_version`, `src/definitions/sub.rs:26-31` -/
def fromVariantIndexForVersion (index : Nat) (_version : ISAVersion) : Option SubOpcode :=
  if index = variantIndex .sub then some .sub
  else none

/-- `ergs_price`, `src/definitions/sub.rs:33-35` -/
def ergsPrice (_ : SubOpcode) : Nat :=
  RICH_ADDRESSING_OPCODE_ERGS

/-- `max_variant_idx_for_version`, `src/definitions/sub.rs:14-16` -/
def maxVariantIdxForVersion (_version : ISAVersion) : Res Nat := .ok (variantIndex .sub)

/-- `src/definitions/sub.rs:9-36`
(`all_variants` 10-12, `minimal_version` 18-20) -/
instance : OpcodeVariantProps SubOpcode where
  allVariants := [.sub]
  minimalVersion _ := firstIsaVersion
  maxVariantIdxForVersion := maxVariantIdxForVersion
  variantIndex := variantIndex
  fromVariantIndexForVersion := fromVariantIndexForVersion
  ergsPrice := ergsPrice

/-- `variants_data`, `src/definitions/sub.rs:42-52` -/
def variantsData (version : ISAVersion) : Res (List OpcodeVariantData) :=
  match version.num with
  | 0 => do .ok (fullVariantsProduct (← maxVariantIdxForVersion version) 2 2)
  | 1 => do .ok (fullVariantsProduct (← maxVariantIdxForVersion version) 2 2)
  | _ => .error .unimplemented

/-- `max_variant_idx`, `src/definitions/sub.rs:53-55` -/
def maxVariantIdx (_version : ISAVersion) : Res Nat := .ok (variantIndex .sub)

/-- `input_operands`, `src/definitions/sub.rs:56-61` -/
def inputOperands (_self : SubOpcode) (_version : ISAVersion) : Res (List Operand) :=
  .ok ([.full .useRegOnly, .regOnly])

/-- `output_operands`, `src/definitions/sub.rs:62-64` -/
def outputOperands (_self : SubOpcode) (_version : ISAVersion) : Res (List Operand) :=
  .ok ([.full .useRegOnly])

/-- `requires_kernel_mode`, `src/definitions/sub.rs:65-67` -/
def requiresKernelMode : SubOpcode → Bool := fun _ => false

/-- `can_be_used_in_static_context`, `src/definitions/sub.rs:68-70` -/
def canBeUsedInStaticContext : SubOpcode → Bool := fun _ => true

/-- `src/definitions/sub.rs:38-71` (`name` 39-41) -/
instance : OpcodeProps SubOpcode where
  name _ := "Sub opcode"
  variantsData _ := variantsData
  maxVariantIdx _ := maxVariantIdx
  inputOperands := inputOperands
  outputOperands := outputOperands
  requiresKernelMode := requiresKernelMode
  canBeUsedInStaticContext := canBeUsedInStaticContext

end SubOpcode

/-! ## `src/definitions/mul.rs` -/

/-- `src/definitions/mul.rs:4` -/
inductive MulOpcode where
  | mk
deriving DecidableEq, Repr

namespace MulOpcode

/-- `variant_index`, `src/definitions/mul.rs:19-21` -/
def variantIndex : MulOpcode → Nat
  | .mk => 0

/-- `from_variant_index_for_version`, `src/definitions/mul.rs:23-28` -/
def fromVariantIndexForVersion (index : Nat) (_version : ISAVersion) : Option MulOpcode :=
  match index with
  | 0 => some .mk
  | _ => none

/-- `ergs_price`, `src/definitions/mul.rs:30-32` -/
def ergsPrice (_ : MulOpcode) : Nat :=
  RICH_ADDRESSING_OPCODE_ERGS

/-- `max_variant_idx_for_version`, `src/definitions/mul.rs:11-13` -/
def maxVariantIdxForVersion (_version : ISAVersion) : Res Nat := .ok (variantIndex .mk)

/-- `src/definitions/mul.rs:6-33`
(`all_variants` 7-9, `minimal_version` 15-17) -/
instance : OpcodeVariantProps MulOpcode where
  allVariants := [.mk]
  minimalVersion _ := firstIsaVersion
  maxVariantIdxForVersion := maxVariantIdxForVersion
  variantIndex := variantIndex
  fromVariantIndexForVersion := fromVariantIndexForVersion
  ergsPrice := ergsPrice

/-- `variants_data`, `src/definitions/mul.rs:39-49` -/
def variantsData (version : ISAVersion) : Res (List OpcodeVariantData) :=
  match version.num with
  | 0 => do .ok (fullVariantsProduct (← maxVariantIdxForVersion version) 1 2)
  | 1 => do .ok (fullVariantsProduct (← maxVariantIdxForVersion version) 1 2)
  | _ => .error .unimplemented

/-- `max_variant_idx`, `src/definitions/mul.rs:50-52` -/
def maxVariantIdx (_version : ISAVersion) : Res Nat := .ok (variantIndex .mk)

/-- `input_operands`, `src/definitions/mul.rs:53-58` -/
def inputOperands (_self : MulOpcode) (_version : ISAVersion) : Res (List Operand) :=
  .ok ([.full .useRegOnly, .regOnly])

/-- `output_operands`, `src/definitions/mul.rs:59-64` -/
def outputOperands (_self : MulOpcode) (_version : ISAVersion) : Res (List Operand) :=
  .ok ([.full .useRegOnly, .regOnly])

/-- `requires_kernel_mode`, `src/definitions/mul.rs:65-67` -/
def requiresKernelMode : MulOpcode → Bool := fun _ => false

/-- `can_be_used_in_static_context`, `src/definitions/mul.rs:68-70` -/
def canBeUsedInStaticContext : MulOpcode → Bool := fun _ => true

/-- `src/definitions/mul.rs:35-71` (`name` 36-38) -/
instance : OpcodeProps MulOpcode where
  name _ := "Mul opcode"
  variantsData _ := variantsData
  maxVariantIdx _ := maxVariantIdx
  inputOperands := inputOperands
  outputOperands := outputOperands
  requiresKernelMode := requiresKernelMode
  canBeUsedInStaticContext := canBeUsedInStaticContext

end MulOpcode

/-! ## `src/definitions/div.rs` -/

/-- `src/definitions/div.rs:4` -/
inductive DivOpcode where
  | mk
deriving DecidableEq, Repr

namespace DivOpcode

/-- `variant_index`, `src/definitions/div.rs:19-21` -/
def variantIndex : DivOpcode → Nat
  | .mk => 0

/-- `from_variant_index_for_version`, `src/definitions/div.rs:23-28` -/
def fromVariantIndexForVersion (index : Nat) (_version : ISAVersion) : Option DivOpcode :=
  match index with
  | 0 => some .mk
  | _ => none

/-- `ergs_price`, `src/definitions/div.rs:30-32` -/
def ergsPrice (_ : DivOpcode) : Nat :=
  RICH_ADDRESSING_OPCODE_ERGS

/-- `max_variant_idx_for_version`, `src/definitions/div.rs:11-13` -/
def maxVariantIdxForVersion (_version : ISAVersion) : Res Nat := .ok (variantIndex .mk)

/-- `src/definitions/div.rs:6-33`
(`all_variants` 7-9, `minimal_version` 15-17) -/
instance : OpcodeVariantProps DivOpcode where
  allVariants := [.mk]
  minimalVersion _ := firstIsaVersion
  maxVariantIdxForVersion := maxVariantIdxForVersion
  variantIndex := variantIndex
  fromVariantIndexForVersion := fromVariantIndexForVersion
  ergsPrice := ergsPrice

/-- `variants_data`, `src/definitions/div.rs:39-49` -/
def variantsData (version : ISAVersion) : Res (List OpcodeVariantData) :=
  match version.num with
  | 0 => do .ok (fullVariantsProduct (← maxVariantIdxForVersion version) 2 2)
  | 1 => do .ok (fullVariantsProduct (← maxVariantIdxForVersion version) 2 2)
  | _ => .error .unimplemented

/-- `max_variant_idx`, `src/definitions/div.rs:50-52` -/
def maxVariantIdx (_version : ISAVersion) : Res Nat := .ok (variantIndex .mk)

/-- `input_operands`, `src/definitions/div.rs:53-58` -/
def inputOperands (_self : DivOpcode) (_version : ISAVersion) : Res (List Operand) :=
  .ok ([.full .useRegOnly, .regOnly])

/-- `output_operands`, `src/definitions/div.rs:59-64` -/
def outputOperands (_self : DivOpcode) (_version : ISAVersion) : Res (List Operand) :=
  .ok ([.full .useRegOnly, .regOnly])

/-- `requires_kernel_mode`, `src/definitions/div.rs:65-67` -/
def requiresKernelMode : DivOpcode → Bool := fun _ => false

/-- `can_be_used_in_static_context`, `src/definitions/div.rs:68-70` -/
def canBeUsedInStaticContext : DivOpcode → Bool := fun _ => true

/-- `src/definitions/div.rs:35-71` (`name` 36-38) -/
instance : OpcodeProps DivOpcode where
  name _ := "Div opcode"
  variantsData _ := variantsData
  maxVariantIdx _ := maxVariantIdx
  inputOperands := inputOperands
  outputOperands := outputOperands
  requiresKernelMode := requiresKernelMode
  canBeUsedInStaticContext := canBeUsedInStaticContext

end DivOpcode

/-! ## `src/definitions/jump.rs` -/

/-- `src/definitions/jump.rs:4` -/
inductive JumpOpcode where
  | mk
deriving DecidableEq, Repr

namespace JumpOpcode

/-- `variant_index`, `src/definitions/jump.rs:19-21` -/
def variantIndex : JumpOpcode → Nat
  | .mk => 0

/-- `from_variant_index_for_version`, `src/definitions/jump.rs:23-28` -/
def fromVariantIndexForVersion (index : Nat) (_version : ISAVersion) : Option JumpOpcode :=
  match index with
  | 0 => some .mk
  | _ => none

/-- `ergs_price`, `src/definitions/jump.rs:30-32` -/
def ergsPrice (_ : JumpOpcode) : Nat :=
  RICH_ADDRESSING_OPCODE_ERGS

/-- `max_variant_idx_for_version`, `src/definitions/jump.rs:11-13` -/
def maxVariantIdxForVersion (_version : ISAVersion) : Res Nat := .ok (variantIndex .mk)

/-- `src/definitions/jump.rs:6-33`
(`all_variants` 7-9, `minimal_version` 15-17) -/
instance : OpcodeVariantProps JumpOpcode where
  allVariants := [.mk]
  minimalVersion _ := firstIsaVersion
  maxVariantIdxForVersion := maxVariantIdxForVersion
  variantIndex := variantIndex
  fromVariantIndexForVersion := fromVariantIndexForVersion
  ergsPrice := ergsPrice

/-- `variants_data`, `src/definitions/jump.rs:39-49` -/
def variantsData (version : ISAVersion) : Res (List OpcodeVariantData) :=
  match version.num with
  | 0 => do .ok (fullVariantsProduct (← maxVariantIdxForVersion version) 0 1)
  | 1 => do .ok (fullVariantsProduct (← maxVariantIdxForVersion version) 0 1)
  | _ => .error .unimplemented

/-- `max_variant_idx`, `src/definitions/jump.rs:50-52` -/
def maxVariantIdx (_version : ISAVersion) : Res Nat := .ok (variantIndex .mk)

/-- `input_operands`, `src/definitions/jump.rs:53-55` -/
def inputOperands (_self : JumpOpcode) (_version : ISAVersion) : Res (List Operand) :=
  .ok ([.full .useRegOnly])

/-- `output_operands`, `src/definitions/jump.rs:56-58` -/
def outputOperands (_self : JumpOpcode) (_version : ISAVersion) : Res (List Operand) :=
  .ok ([])

/-- `requires_kernel_mode`, `src/definitions/jump.rs:59-61` -/
def requiresKernelMode : JumpOpcode → Bool := fun _ => false

/-- `can_be_used_in_static_context`, `src/definitions/jump.rs:62-64` -/
def canBeUsedInStaticContext : JumpOpcode → Bool := fun _ => true

/-- `src/definitions/jump.rs:35-65` (`name` 36-38) -/
instance : OpcodeProps JumpOpcode where
  name _ := "Jump opcode"
  variantsData _ := variantsData
  maxVariantIdx _ := maxVariantIdx
  inputOperands := inputOperands
  outputOperands := outputOperands
  requiresKernelMode := requiresKernelMode
  canBeUsedInStaticContext := canBeUsedInStaticContext

end JumpOpcode

/-! ## `src/definitions/context.rs` -/

/-- `src/definitions/context.rs:5-16` -/
inductive ContextOpcode where
  | this
  | caller
  | codeAddress
  | metaParams
  | ergsLeft
  | sp
  | getContextU128
  | setContextU128
  | setErgsPerPubdataByte
  | incrementTxNumber
deriving DecidableEq, Repr

namespace ContextOpcode

/-- `variant_index`, `src/definitions/context.rs:42-44` -/
def variantIndex : ContextOpcode → Nat
  | .this => 0
  | .caller => 1
  | .codeAddress => 2
  | .metaParams => 3
  | .ergsLeft => 4
  | .sp => 5
  | .getContextU128 => 6
  | .setContextU128 => 7
  | .setErgsPerPubdataByte => 8
  | .incrementTxNumber => 9

/-- `from_variant_index_for_version`, `src/definitions/context.rs:46-70` -/
def fromVariantIndexForVersion (index : Nat) (_version : ISAVersion) : Option ContextOpcode :=
  if index = variantIndex .this then some .this
  else if index = variantIndex .caller then some .caller
  else if index = variantIndex .codeAddress then some .codeAddress
  else if index = variantIndex .metaParams then some .metaParams
  else if index = variantIndex .ergsLeft then some .ergsLeft
  else if index = variantIndex .sp then some .sp
  else if index = variantIndex .getContextU128 then some .getContextU128
  else if index = variantIndex .setContextU128 then some .setContextU128
  else if index = variantIndex .setErgsPerPubdataByte then some .setErgsPerPubdataByte
  else if index = variantIndex .incrementTxNumber then some .incrementTxNumber
  else none

/-- `ergs_price`, `src/definitions/context.rs:72-74` -/
def ergsPrice (_ : ContextOpcode) : Nat :=
  AVERAGE_OPCODE_ERGS

/-- `max_variant_idx_for_version`, `src/definitions/context.rs:34-36` -/
def maxVariantIdxForVersion (_version : ISAVersion) : Res Nat := .ok (variantIndex .incrementTxNumber)

/-- `src/definitions/context.rs:18-75`
(`all_variants` 19-32, `minimal_version` 38-40) -/
instance : OpcodeVariantProps ContextOpcode where
  allVariants := [.this, .caller, .codeAddress, .metaParams, .ergsLeft, .sp, .getContextU128, .setContextU128, .setErgsPerPubdataByte, .incrementTxNumber]
  minimalVersion _ := firstIsaVersion
  maxVariantIdxForVersion := maxVariantIdxForVersion
  variantIndex := variantIndex
  fromVariantIndexForVersion := fromVariantIndexForVersion
  ergsPrice := ergsPrice

/-- `variants_data`, `src/definitions/context.rs:81-91` -/
def variantsData (version : ISAVersion) : Res (List OpcodeVariantData) :=
  match version.num with
  | 0 => do .ok (fullVariantsProduct (← maxVariantIdxForVersion version) 0 0)
  | 1 => do .ok (fullVariantsProduct (← maxVariantIdxForVersion version) 0 0)
  | _ => .error .unimplemented

/-- `max_variant_idx`, `src/definitions/context.rs:92-94` -/
def maxVariantIdx (_version : ISAVersion) : Res Nat := .ok (variantIndex .incrementTxNumber)

/-- `input_operands`, `src/definitions/context.rs:95-102` -/
def inputOperands (self : ContextOpcode) (_version : ISAVersion) : Res (List Operand) :=
  .ok (match self with
    | .setContextU128 | .setErgsPerPubdataByte => [.regOnly]
    | _ => [])

/-- `output_operands`, `src/definitions/context.rs:103-110` -/
def outputOperands (self : ContextOpcode) (_version : ISAVersion) : Res (List Operand) :=
  .ok (match self with
    | .setContextU128 | .setErgsPerPubdataByte | .incrementTxNumber => []
    | _ => [.regOnly])

/-- `requires_kernel_mode`, `src/definitions/context.rs:111-118` -/
def requiresKernelMode : ContextOpcode → Bool
  | .setContextU128 | .setErgsPerPubdataByte | .incrementTxNumber => true
  | _ => false

/-- `can_be_used_in_static_context`, `src/definitions/context.rs:119-126` -/
def canBeUsedInStaticContext : ContextOpcode → Bool
  | .setContextU128 | .setErgsPerPubdataByte | .incrementTxNumber => false
  | _ => true

/-- `src/definitions/context.rs:77-127` (`name` 78-80) -/
instance : OpcodeProps ContextOpcode where
  name _ := "Context opcode"
  variantsData _ := variantsData
  maxVariantIdx _ := maxVariantIdx
  inputOperands := inputOperands
  outputOperands := outputOperands
  requiresKernelMode := requiresKernelMode
  canBeUsedInStaticContext := canBeUsedInStaticContext

end ContextOpcode

/-! ## `src/definitions/shift.rs` -/

/-- `src/definitions/shift.rs:5-10` -/
inductive ShiftOpcode where
  | shl
  | shr
  | rol
  | ror
deriving DecidableEq, Repr

namespace ShiftOpcode

/-- `variant_index`, `src/definitions/shift.rs:30-32` -/
def variantIndex : ShiftOpcode → Nat
  | .shl => 0
  | .shr => 1
  | .rol => 2
  | .ror => 3

/-- `from_variant_index_for_version`, `src/definitions/shift.rs:34-42` -/
def fromVariantIndexForVersion (index : Nat) (_version : ISAVersion) : Option ShiftOpcode :=
  if index = variantIndex .shl then some .shl
  else if index = variantIndex .shr then some .shr
  else if index = variantIndex .rol then some .rol
  else if index = variantIndex .ror then some .ror
  else none

/-- `ergs_price`, `src/definitions/shift.rs:44-46` -/
def ergsPrice (_ : ShiftOpcode) : Nat :=
  RICH_ADDRESSING_OPCODE_ERGS

/-- `max_variant_idx_for_version`, `src/definitions/shift.rs:22-24` -/
def maxVariantIdxForVersion (_version : ISAVersion) : Res Nat := .ok (variantIndex .ror)

/-- `src/definitions/shift.rs:12-47`
(`all_variants` 13-20, `minimal_version` 26-28) -/
instance : OpcodeVariantProps ShiftOpcode where
  allVariants := [.shl, .shr, .rol, .ror]
  minimalVersion _ := firstIsaVersion
  maxVariantIdxForVersion := maxVariantIdxForVersion
  variantIndex := variantIndex
  fromVariantIndexForVersion := fromVariantIndexForVersion
  ergsPrice := ergsPrice

/-- `variants_data`, `src/definitions/shift.rs:53-63` -/
def variantsData (version : ISAVersion) : Res (List OpcodeVariantData) :=
  match version.num with
  | 0 => do .ok (fullVariantsProduct (← maxVariantIdxForVersion version) 2 2)
  | 1 => do .ok (fullVariantsProduct (← maxVariantIdxForVersion version) 2 2)
  | _ => .error .unimplemented

/-- `max_variant_idx`, `src/definitions/shift.rs:64-66` -/
def maxVariantIdx (_version : ISAVersion) : Res Nat := .ok (variantIndex .ror)

/-- `input_operands`, `src/definitions/shift.rs:67-72` -/
def inputOperands (_self : ShiftOpcode) (_version : ISAVersion) : Res (List Operand) :=
  .ok ([.full .useRegOnly, .regOnly])

/-- `output_operands`, `src/definitions/shift.rs:73-75` -/
def outputOperands (_self : ShiftOpcode) (_version : ISAVersion) : Res (List Operand) :=
  .ok ([.full .useRegOnly])

/-- `requires_kernel_mode`, `src/definitions/shift.rs:76-78` -/
def requiresKernelMode : ShiftOpcode → Bool := fun _ => false

/-- `can_be_used_in_static_context`, `src/definitions/shift.rs:79-81` -/
def canBeUsedInStaticContext : ShiftOpcode → Bool := fun _ => true

/-- `src/definitions/shift.rs:49-82` (`name` 50-52) -/
instance : OpcodeProps ShiftOpcode where
  name _ := "Shift opcode"
  variantsData _ := variantsData
  maxVariantIdx _ := maxVariantIdx
  inputOperands := inputOperands
  outputOperands := outputOperands
  requiresKernelMode := requiresKernelMode
  canBeUsedInStaticContext := canBeUsedInStaticContext

end ShiftOpcode

/-! ## `src/definitions/binop.rs` -/

/-- `src/definitions/binop.rs:5-9` -/
inductive BinopOpcode where
  | xor
  | and
  | or
deriving DecidableEq, Repr

namespace BinopOpcode

/-- `variant_index`, `src/definitions/binop.rs:24-26` -/
def variantIndex : BinopOpcode → Nat
  | .xor => 0
  | .and => 1
  | .or => 2

/-- `from_variant_index_for_version`, `src/definitions/binop.rs:28-35` -/
def fromVariantIndexForVersion (index : Nat) (_version : ISAVersion) : Option BinopOpcode :=
  if index = variantIndex .xor then some .xor
  else if index = variantIndex .and then some .and
  else if index = variantIndex .or then some .or
  else none

/-- `ergs_price`, `src/definitions/binop.rs:37-39` -/
def ergsPrice (_ : BinopOpcode) : Nat :=
  RICH_ADDRESSING_OPCODE_ERGS

/-- `max_variant_idx_for_version`, `src/definitions/binop.rs:16-18` -/
def maxVariantIdxForVersion (_version : ISAVersion) : Res Nat := .ok (variantIndex .or)

/-- `src/definitions/binop.rs:11-40`
(`all_variants` 12-14, `minimal_version` 20-22) -/
instance : OpcodeVariantProps BinopOpcode where
  allVariants := [.xor, .and, .or]
  minimalVersion _ := firstIsaVersion
  maxVariantIdxForVersion := maxVariantIdxForVersion
  variantIndex := variantIndex
  fromVariantIndexForVersion := fromVariantIndexForVersion
  ergsPrice := ergsPrice

/-- `variants_data`, `src/definitions/binop.rs:46-56` -/
def variantsData (version : ISAVersion) : Res (List OpcodeVariantData) :=
  match version.num with
  | 0 => do .ok (fullVariantsProduct (← maxVariantIdxForVersion version) 1 2)
  | 1 => do .ok (fullVariantsProduct (← maxVariantIdxForVersion version) 1 2)
  | _ => .error .unimplemented

/-- `max_variant_idx`, `src/definitions/binop.rs:57-59` -/
def maxVariantIdx (_version : ISAVersion) : Res Nat := .ok (variantIndex .or)

/-- `input_operands`, `src/definitions/binop.rs:60-65` -/
def inputOperands (_self : BinopOpcode) (_version : ISAVersion) : Res (List Operand) :=
  .ok ([.full .useRegOnly, .regOnly])

/-- `output_operands`, `src/definitions/binop.rs:66-68` -/
def outputOperands (_self : BinopOpcode) (_version : ISAVersion) : Res (List Operand) :=
  .ok ([.full .useRegOnly])

/-- `requires_kernel_mode`, `src/definitions/binop.rs:69-71` -/
def requiresKernelMode : BinopOpcode → Bool := fun _ => false

/-- `can_be_used_in_static_context`, `src/definitions/binop.rs:72-74` -/
def canBeUsedInStaticContext : BinopOpcode → Bool := fun _ => true

/-- `src/definitions/binop.rs:42-75` (`name` 43-45) -/
instance : OpcodeProps BinopOpcode where
  name _ := "Binop opcode"
  variantsData _ := variantsData
  maxVariantIdx _ := maxVariantIdx
  inputOperands := inputOperands
  outputOperands := outputOperands
  requiresKernelMode := requiresKernelMode
  canBeUsedInStaticContext := canBeUsedInStaticContext

end BinopOpcode

/-! ## `src/definitions/ptr.rs` -/

/-- `src/definitions/ptr.rs:6-11` -/
inductive PtrOpcode where
  | add
  | sub
  | pack
  | shrink
deriving DecidableEq, Repr

namespace PtrOpcode

/-- `variant_index`, `src/definitions/ptr.rs:33-35` -/
def variantIndex : PtrOpcode → Nat
  | .add => 0
  | .sub => 1
  | .pack => 2
  | .shrink => 3

/-- `from_variant_index_for_version`, `src/definitions/ptr.rs:37-45` -/
def fromVariantIndexForVersion (index : Nat) (_version : ISAVersion) : Option PtrOpcode :=
  if index = variantIndex .add then some .add
  else if index = variantIndex .sub then some .sub
  else if index = variantIndex .pack then some .pack
  else if index = variantIndex .shrink then some .shrink
  else none

/-- `ergs_price`, `src/definitions/ptr.rs:47-49` -/
def ergsPrice (_ : PtrOpcode) : Nat :=
  RICH_ADDRESSING_OPCODE_ERGS

/-- `max_variant_idx_for_version`, `src/definitions/ptr.rs:25-27` -/
def maxVariantIdxForVersion (_version : ISAVersion) : Res Nat := .ok (variantIndex .shrink)

/-- `src/definitions/ptr.rs:15-50`
(`all_variants` 16-23, `minimal_version` 29-31) -/
instance : OpcodeVariantProps PtrOpcode where
  allVariants := [.add, .sub, .pack, .shrink]
  minimalVersion _ := firstIsaVersion
  maxVariantIdxForVersion := maxVariantIdxForVersion
  variantIndex := variantIndex
  fromVariantIndexForVersion := fromVariantIndexForVersion
  ergsPrice := ergsPrice

/-- `variants_data`, `src/definitions/ptr.rs:56-66` -/
def variantsData (version : ISAVersion) : Res (List OpcodeVariantData) :=
  match version.num with
  | 0 => do .ok (fullVariantsProduct (← maxVariantIdxForVersion version) 1 2)
  | 1 => do .ok (fullVariantsProduct (← maxVariantIdxForVersion version) 1 2)
  | _ => .error .unimplemented

/-- `max_variant_idx`, `src/definitions/ptr.rs:67-69` (sic: `Pack`, not `Shrink`) -/
def maxVariantIdx (_version : ISAVersion) : Res Nat := .ok (variantIndex .pack)

/-- `input_operands`, `src/definitions/ptr.rs:70-75` -/
def inputOperands (_self : PtrOpcode) (_version : ISAVersion) : Res (List Operand) :=
  .ok ([.full .useRegOnly, .regOnly])

/-- `output_operands`, `src/definitions/ptr.rs:76-78` -/
def outputOperands (_self : PtrOpcode) (_version : ISAVersion) : Res (List Operand) :=
  .ok ([.full .useRegOnly])

/-- `requires_kernel_mode`, `src/definitions/ptr.rs:79-81` -/
def requiresKernelMode : PtrOpcode → Bool := fun _ => false

/-- `can_be_used_in_static_context`, `src/definitions/ptr.rs:82-84` -/
def canBeUsedInStaticContext : PtrOpcode → Bool := fun _ => true

/-- `src/definitions/ptr.rs:52-85` (`name` 53-55) -/
instance : OpcodeProps PtrOpcode where
  name _ := "Ptr opcode"
  variantsData _ := variantsData
  maxVariantIdx _ := maxVariantIdx
  inputOperands := inputOperands
  outputOperands := outputOperands
  requiresKernelMode := requiresKernelMode
  canBeUsedInStaticContext := canBeUsedInStaticContext

end PtrOpcode

/-! ## `src/definitions/near_call.rs` -/

/-- `src/definitions/near_call.rs:4` -/
inductive NearCallOpcode where
  | mk
deriving DecidableEq, Repr

namespace NearCallOpcode

/-- `variant_index`, `src/definitions/near_call.rs:19-21` -/
def variantIndex : NearCallOpcode → Nat
  | .mk => 0

/-- `from_variant_index_for_version`, `src/definitions/near_call.rs:23-28` -/
def fromVariantIndexForVersion (index : Nat) (_version : ISAVersion) : Option NearCallOpcode :=
  match index with
  | 0 => some .mk
  | _ => none

/-- `ergs_price`, `src/definitions/near_call.rs:30-32` -/
def ergsPrice (_ : NearCallOpcode) : Nat :=
  AVERAGE_OPCODE_ERGS + CALL_LIKE_ERGS_COST

/-- `max_variant_idx_for_version`, `src/definitions/near_call.rs:11-13` -/
def maxVariantIdxForVersion (_version : ISAVersion) : Res Nat := .ok (variantIndex .mk)

/-- `src/definitions/near_call.rs:6-33`
(`all_variants` 7-9, `minimal_version` 15-17) -/
instance : OpcodeVariantProps NearCallOpcode where
  allVariants := [.mk]
  minimalVersion _ := firstIsaVersion
  maxVariantIdxForVersion := maxVariantIdxForVersion
  variantIndex := variantIndex
  fromVariantIndexForVersion := fromVariantIndexForVersion
  ergsPrice := ergsPrice

/-- `variants_data`, `src/definitions/near_call.rs:39-49` -/
def variantsData (version : ISAVersion) : Res (List OpcodeVariantData) :=
  match version.num with
  | 0 => do .ok (fullVariantsProduct (← maxVariantIdxForVersion version) 0 2)
  | 1 => do .ok (fullVariantsProduct (← maxVariantIdxForVersion version) 0 2)
  | _ => .error .unimplemented

/-- `max_variant_idx`, `src/definitions/near_call.rs:50-52` -/
def maxVariantIdx (_version : ISAVersion) : Res Nat := .ok (variantIndex .mk)

/-- `input_operands`, `src/definitions/near_call.rs:53-55` -/
def inputOperands (_self : NearCallOpcode) (_version : ISAVersion) : Res (List Operand) :=
  .ok ([.regOnly])

/-- `output_operands`, `src/definitions/near_call.rs:56-58` -/
def outputOperands (_self : NearCallOpcode) (_version : ISAVersion) : Res (List Operand) :=
  .ok ([])

/-- `requires_kernel_mode`, `src/definitions/near_call.rs:59-61` -/
def requiresKernelMode : NearCallOpcode → Bool := fun _ => false

/-- `can_be_used_in_static_context`, `src/definitions/near_call.rs:62-64` -/
def canBeUsedInStaticContext : NearCallOpcode → Bool := fun _ => true

/-- `src/definitions/near_call.rs:35-65` (`name` 36-38) -/
instance : OpcodeProps NearCallOpcode where
  name _ := "Near call opcode"
  variantsData _ := variantsData
  maxVariantIdx _ := maxVariantIdx
  inputOperands := inputOperands
  outputOperands := outputOperands
  requiresKernelMode := requiresKernelMode
  canBeUsedInStaticContext := canBeUsedInStaticContext

end NearCallOpcode

/-! ## `src/definitions/log.rs` -/

/-- `src/definitions/log.rs:16-22` -/
inductive LogOpcode where
  | storageRead
  | storageWrite
  | toL1Message
  | event
  | precompileCall
deriving DecidableEq, Repr

namespace LogOpcode

/-- `variant_index`, `src/definitions/log.rs:43-45` -/
def variantIndex : LogOpcode → Nat
  | .storageRead => 0
  | .storageWrite => 1
  | .toL1Message => 2
  | .event => 3
  | .precompileCall => 4

/-- `from_variant_index_for_version`, `src/definitions/log.rs:47-56` -/
def fromVariantIndexForVersion (index : Nat) (_version : ISAVersion) : Option LogOpcode :=
  if index = variantIndex .storageRead then some .storageRead
  else if index = variantIndex .storageWrite then some .storageWrite
  else if index = variantIndex .toL1Message then some .toL1Message
  else if index = variantIndex .event then some .event
  else if index = variantIndex .precompileCall then some .precompileCall
  else none

/-- `ergs_price`, `src/definitions/log.rs:58-97` -/
def ergsPrice : LogOpcode → Nat
  | .storageRead =>
    STORAGE_READ_IO_PRICE + VM_CYCLE_COST_IN_ERGS + RAM_PERMUTATION_COST_IN_ERGS
      + LOG_DEMUXER_COST_IN_ERGS + STORAGE_SORTER_COST_IN_ERGS
  | .storageWrite =>
    let intrinsic := STORAGE_WRITE_IO_PRICE + 2 * VM_CYCLE_COST_IN_ERGS
      + RAM_PERMUTATION_COST_IN_ERGS + 2 * LOG_DEMUXER_COST_IN_ERGS
      + 2 * STORAGE_SORTER_COST_IN_ERGS
    max intrinsic MIN_STORAGE_WRITE_COST
  | .toL1Message =>
    let intrinsicCost := L1_MESSAGE_IO_PRICE + 2 * VM_CYCLE_COST_IN_ERGS
      + RAM_PERMUTATION_COST_IN_ERGS + 2 * LOG_DEMUXER_COST_IN_ERGS
      + 2 * EVENTS_OR_L1_MESSAGES_SORTER_COST_IN_ERGS
    max intrinsicCost L1_MESSAGE_MIN_COST_IN_ERGS
  | .event =>
    EVENT_IO_PRICE + 2 * VM_CYCLE_COST_IN_ERGS + RAM_PERMUTATION_COST_IN_ERGS
      + 2 * LOG_DEMUXER_COST_IN_ERGS + 2 * EVENTS_OR_L1_MESSAGES_SORTER_COST_IN_ERGS
  | .precompileCall =>
    VM_CYCLE_COST_IN_ERGS + RAM_PERMUTATION_COST_IN_ERGS + LOG_DEMUXER_COST_IN_ERGS

/-- `max_variant_idx_for_version`, `src/definitions/log.rs:35-37` -/
def maxVariantIdxForVersion (_version : ISAVersion) : Res Nat := .ok (variantIndex .precompileCall)

/-- `src/definitions/log.rs:24-98`
(`all_variants` 25-33, `minimal_version` 39-41) -/
instance : OpcodeVariantProps LogOpcode where
  allVariants := [.storageRead, .storageWrite, .toL1Message, .event, .precompileCall]
  minimalVersion _ := firstIsaVersion
  maxVariantIdxForVersion := maxVariantIdxForVersion
  variantIndex := variantIndex
  fromVariantIndexForVersion := fromVariantIndexForVersion
  ergsPrice := ergsPrice

/-- `variants_data`, `src/definitions/log.rs:104-142` -/
def variantsData (version : ISAVersion) : Res (List OpcodeVariantData) :=
  let all : List OpcodeVariantData :=
    [ ⟨variantIndex .storageRead, 0, 0⟩,
      ⟨variantIndex .storageWrite, 0, 0⟩,
      ⟨variantIndex .toL1Message, 1, 0⟩,
      ⟨variantIndex .event, 1, 0⟩,
      ⟨variantIndex .precompileCall, 0, 0⟩ ]
  match version.num with
  | 0 => .ok all
  | 1 => .ok all
  | _ => .error .unimplemented

/-- `max_variant_idx`, `src/definitions/log.rs:143-145` -/
def maxVariantIdx (_version : ISAVersion) : Res Nat := .ok (variantIndex .precompileCall)

/-- `input_operands`, `src/definitions/log.rs:146-154` -/
def inputOperands (self : LogOpcode) (_version : ISAVersion) : Res (List Operand) :=
  .ok (match self with
    | .storageWrite | .event | .toL1Message => [.regOnly, .regOnly]
    | .storageRead => [.regOnly]
    | .precompileCall => [.regOnly])

/-- `output_operands`, `src/definitions/log.rs:155-161` -/
def outputOperands (self : LogOpcode) (_version : ISAVersion) : Res (List Operand) :=
  .ok (match self with
    | .storageWrite | .event | .toL1Message => []
    | .storageRead => [.regOnly]
    | .precompileCall => [.regOnly])

/-- `requires_kernel_mode`, `src/definitions/log.rs:162-167` -/
def requiresKernelMode : LogOpcode → Bool
  | .event | .toL1Message | .precompileCall => true
  | _ => false

/-- `can_be_used_in_static_context`, `src/definitions/log.rs:168-173` -/
def canBeUsedInStaticContext : LogOpcode → Bool
  | .storageWrite | .event | .toL1Message => false
  | _ => true

/-- `src/definitions/log.rs:100-174` (`name` 101-103) -/
instance : OpcodeProps LogOpcode where
  name _ := "Log opcode"
  variantsData _ := variantsData
  maxVariantIdx _ := maxVariantIdx
  inputOperands := inputOperands
  outputOperands := outputOperands
  requiresKernelMode := requiresKernelMode
  canBeUsedInStaticContext := canBeUsedInStaticContext

end LogOpcode

/-! ## `src/definitions/far_call.rs` -/

/-- `src/definitions/far_call.rs:17-21` -/
inductive FarCallOpcode where
  | normal
  | delegate
  | mimic
deriving DecidableEq, Repr

namespace FarCallOpcode

/-- `variant_index`, `src/definitions/far_call.rs:43-45` -/
def variantIndex : FarCallOpcode → Nat
  | .normal => 0
  | .delegate => 1
  | .mimic => 2

/-- `from_variant_index_for_version`, `src/definitions/far_call.rs:47-54` -/
def fromVariantIndexForVersion (index : Nat) (_version : ISAVersion) : Option FarCallOpcode :=
  if index = variantIndex .normal then some .normal
  else if index = variantIndex .delegate then some .delegate
  else if index = variantIndex .mimic then some .mimic
  else none

/-- `ergs_price`, `src/definitions/far_call.rs:56-63` -/
def ergsPrice (_ : FarCallOpcode) : Nat :=
  2 * VM_CYCLE_COST_IN_ERGS + RAM_PERMUTATION_COST_IN_ERGS + STORAGE_READ_IO_PRICE
    + CALL_LIKE_ERGS_COST + STORAGE_SORTER_COST_IN_ERGS + CODE_DECOMMITMENT_SORTER_COST_IN_ERGS

/-- `max_variant_idx_for_version`, `src/definitions/far_call.rs:35-37` -/
def maxVariantIdxForVersion (_version : ISAVersion) : Res Nat := .ok (variantIndex .mimic)

/-- `src/definitions/far_call.rs:26-64`
(`all_variants` 27-33, `minimal_version` 39-41) -/
instance : OpcodeVariantProps FarCallOpcode where
  allVariants := [.normal, .delegate, .mimic]
  minimalVersion _ := firstIsaVersion
  maxVariantIdxForVersion := maxVariantIdxForVersion
  variantIndex := variantIndex
  fromVariantIndexForVersion := fromVariantIndexForVersion
  ergsPrice := ergsPrice

/-- `variants_data`, `src/definitions/far_call.rs:70-80` -/
def variantsData (version : ISAVersion) : Res (List OpcodeVariantData) :=
  match version.num with
  | 0 => do .ok (fullVariantsProduct (← maxVariantIdxForVersion version) 2 1)
  | 1 => do .ok (fullVariantsProduct (← maxVariantIdxForVersion version) 2 1)
  | _ => .error .unimplemented

/-- `max_variant_idx`, `src/definitions/far_call.rs:81-83` -/
def maxVariantIdx (_version : ISAVersion) : Res Nat := .ok (variantIndex .mimic)

/-- `input_operands`, `src/definitions/far_call.rs:84-86` -/
def inputOperands (_self : FarCallOpcode) (_version : ISAVersion) : Res (List Operand) :=
  .ok ([.regOnly, .regOnly])

/-- `output_operands`, `src/definitions/far_call.rs:87-89` -/
def outputOperands (_self : FarCallOpcode) (_version : ISAVersion) : Res (List Operand) :=
  .ok ([])

/-- `requires_kernel_mode`, `src/definitions/far_call.rs:90-95` -/
def requiresKernelMode : FarCallOpcode → Bool
  | .mimic => true
  | _ => false

/-- `can_be_used_in_static_context`, `src/definitions/far_call.rs:96-98` -/
def canBeUsedInStaticContext : FarCallOpcode → Bool := fun _ => true

/-- `src/definitions/far_call.rs:66-99` (`name` 67-69) -/
instance : OpcodeProps FarCallOpcode where
  name _ := "Far call opcode"
  variantsData _ := variantsData
  maxVariantIdx _ := maxVariantIdx
  inputOperands := inputOperands
  outputOperands := outputOperands
  requiresKernelMode := requiresKernelMode
  canBeUsedInStaticContext := canBeUsedInStaticContext

end FarCallOpcode

/-! ## `src/definitions/ret.rs` -/

/-- `src/definitions/ret.rs:12-16` -/
inductive RetOpcode where
  | ok
  | revert
  | panic
deriving DecidableEq, Repr

namespace RetOpcode

/-- `variant_index`, `src/definitions/ret.rs:31-33` -/
def variantIndex : RetOpcode → Nat
  | .ok => 0
  | .revert => 1
  | .panic => 2

/-- `from_variant_index_for_version`, `src/definitions/ret.rs:35-42` -/
def fromVariantIndexForVersion (index : Nat) (_version : ISAVersion) : Option RetOpcode :=
  if index = variantIndex .ok then some .ok
  else if index = variantIndex .revert then some .revert
  else if index = variantIndex .panic then some .panic
  else none

/-- `ergs_price`, `src/definitions/ret.rs:44-46` -/
def ergsPrice (_ : RetOpcode) : Nat :=
  AVERAGE_OPCODE_ERGS

/-- `max_variant_idx_for_version`, `src/definitions/ret.rs:23-25` -/
def maxVariantIdxForVersion (_version : ISAVersion) : Res Nat := .ok (variantIndex .panic)

/-- `src/definitions/ret.rs:18-47`
(`all_variants` 19-21, `minimal_version` 27-29) -/
instance : OpcodeVariantProps RetOpcode where
  allVariants := [.ok, .revert, .panic]
  minimalVersion _ := firstIsaVersion
  maxVariantIdxForVersion := maxVariantIdxForVersion
  variantIndex := variantIndex
  fromVariantIndexForVersion := fromVariantIndexForVersion
  ergsPrice := ergsPrice

/-- `variants_data`, `src/definitions/ret.rs:53-63` -/
def variantsData (version : ISAVersion) : Res (List OpcodeVariantData) :=
  match version.num with
  | 0 => do .ok (fullVariantsProduct (← maxVariantIdxForVersion version) 1 1)
  | 1 => do .ok (fullVariantsProduct (← maxVariantIdxForVersion version) 1 1)
  | _ => .error .unimplemented

/-- `max_variant_idx`, `src/definitions/ret.rs:64-66` -/
def maxVariantIdx (_version : ISAVersion) : Res Nat := .ok (variantIndex .panic)

/-- `input_operands`, `src/definitions/ret.rs:67-72` -/
def inputOperands (self : RetOpcode) (_version : ISAVersion) : Res (List Operand) :=
  .ok (match self with
    | .ok | .revert => [.regOnly]
    | .panic => [])

/-- `output_operands`, `src/definitions/ret.rs:73-75` -/
def outputOperands (_self : RetOpcode) (_version : ISAVersion) : Res (List Operand) :=
  .ok ([])

/-- `requires_kernel_mode`, `src/definitions/ret.rs:76-78` -/
def requiresKernelMode : RetOpcode → Bool := fun _ => false

/-- `can_be_used_in_static_context`, `src/definitions/ret.rs:79-81` -/
def canBeUsedInStaticContext : RetOpcode → Bool := fun _ => true

/-- `src/definitions/ret.rs:49-82` (`name` 50-52) -/
instance : OpcodeProps RetOpcode where
  name _ := "Ret opcode"
  variantsData _ := variantsData
  maxVariantIdx _ := maxVariantIdx
  inputOperands := inputOperands
  outputOperands := outputOperands
  requiresKernelMode := requiresKernelMode
  canBeUsedInStaticContext := canBeUsedInStaticContext

end RetOpcode

/-! ## `src/definitions/uma.rs` -/

/-- `src/definitions/uma.rs:15-21` -/
inductive UMAOpcode where
  | heapRead
  | heapWrite
  | auxHeapRead
  | auxHeapWrite
  | fatPointerRead
deriving DecidableEq, Repr

namespace UMAOpcode

/-- `variant_index`, `src/definitions/uma.rs:50-52` -/
def variantIndex : UMAOpcode → Nat
  | .heapRead => 0
  | .heapWrite => 1
  | .auxHeapRead => 2
  | .auxHeapWrite => 3
  | .fatPointerRead => 4

/-- `from_variant_index_for_version`, `src/definitions/uma.rs:54-63` -/
def fromVariantIndexForVersion (index : Nat) (_version : ISAVersion) : Option UMAOpcode :=
  if index = variantIndex .heapRead then some .heapRead
  else if index = variantIndex .heapWrite then some .heapWrite
  else if index = variantIndex .auxHeapRead then some .auxHeapRead
  else if index = variantIndex .auxHeapWrite then some .auxHeapWrite
  else if index = variantIndex .fatPointerRead then some .fatPointerRead
  else none

/-- `ergs_price`, `src/definitions/uma.rs:65-79` -/
def ergsPrice : UMAOpcode → Nat
  | .auxHeapWrite | .heapWrite => 2 * VM_CYCLE_COST_IN_ERGS + 5 * RAM_PERMUTATION_COST_IN_ERGS
  | .heapRead | .auxHeapRead | .fatPointerRead =>
    VM_CYCLE_COST_IN_ERGS + 3 * RAM_PERMUTATION_COST_IN_ERGS

/-- `max_variant_idx_for_version`, `src/definitions/uma.rs:36-42` -/
def maxVariantIdxForVersion (version : ISAVersion) : Res Nat :=
  match version.num with
  | 0 => .ok (variantIndex .fatPointerRead)
  | 1 => .ok (variantIndex .fatPointerRead)
  | _ => .error .unimplemented

/-- `src/definitions/uma.rs:25-80`
(`all_variants` 26-34, `minimal_version` 44-48) -/
instance : OpcodeVariantProps UMAOpcode where
  allVariants := [.heapRead, .heapWrite, .auxHeapRead, .auxHeapWrite, .fatPointerRead]
  minimalVersion _ := firstIsaVersion
  maxVariantIdxForVersion := maxVariantIdxForVersion
  variantIndex := variantIndex
  fromVariantIndexForVersion := fromVariantIndexForVersion
  ergsPrice := ergsPrice

/-- `variants_data`, `src/definitions/uma.rs:86-96` -/
def variantsData (version : ISAVersion) : Res (List OpcodeVariantData) :=
  match version.num with
  | 0 => do .ok (fullVariantsProduct (← maxVariantIdxForVersion version) 1 0)
  | 1 => do .ok (fullVariantsProduct (← maxVariantIdxForVersion version) 1 0)
  | _ => .error .unimplemented

/-- `max_variant_idx`, `src/definitions/uma.rs:97-103` -/
def maxVariantIdx (version : ISAVersion) : Res Nat :=
  match version.num with
  | 0 => .ok (variantIndex .fatPointerRead)
  | 1 => .ok (variantIndex .fatPointerRead)
  | _ => .error .unimplemented

/-- `input_operands`, `src/definitions/uma.rs:104-129` -/
def inputOperands (self : UMAOpcode) (version : ISAVersion) : Res (List Operand) :=
  match version.num with
  | 0 => .ok (match self with
    | .heapWrite | .auxHeapWrite => [.regOnly, .regOnly]
    | _ => [.regOnly])
  | 1 => .ok (match self with
    | .heapWrite | .auxHeapWrite => [.regOrImm .useRegOnly, .regOnly]
    | .heapRead | .auxHeapRead => [.regOrImm .useRegOnly]
    | .fatPointerRead => [.regOnly])
  | _ => .error .unimplemented

/-- `output_operands`, `src/definitions/uma.rs:130-135` -/
def outputOperands (self : UMAOpcode) (_version : ISAVersion) : Res (List Operand) :=
  .ok (match self with
    | .heapWrite | .auxHeapWrite => [.regOnly]
    | _ => [.regOnly, .regOnly])

/-- `requires_kernel_mode`, `src/definitions/uma.rs:136-138` -/
def requiresKernelMode : UMAOpcode → Bool := fun _ => false

/-- `can_be_used_in_static_context`, `src/definitions/uma.rs:139-141` -/
def canBeUsedInStaticContext : UMAOpcode → Bool := fun _ => true

/-- `src/definitions/uma.rs:82-142` (`name` 83-85) -/
instance : OpcodeProps UMAOpcode where
  name _ := "UMA opcode"
  variantsData _ := variantsData
  maxVariantIdx _ := maxVariantIdx
  inputOperands := inputOperands
  outputOperands := outputOperands
  requiresKernelMode := requiresKernelMode
  canBeUsedInStaticContext := canBeUsedInStaticContext

end UMAOpcode

end ZkEvm
