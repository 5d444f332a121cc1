import Verif.Model.ImmMem
/-! Model of `src/definitions/opcode_trait.rs`. -/
namespace ZkEvm

/-- `src/definitions/opcode_trait.rs:3-8` -/
inductive Operand where
  | regOnly
  | regOrImm (f : RegOrImmFlags)
  | full (f : ImmMemHandlerFlags)
deriving DecidableEq, Repr

/-- `Operand::variant_idx`, `src/definitions/opcode_trait.rs:10-16` -/
def Operand.variantIdx : Operand → Nat
  | regOnly => 0
  | regOrImm v => v.variantIndex
  | full v => v.variantIndex

/-- `ISAVersion(pub u8)`, `src/definitions/opcode_trait.rs:19-20`.
Simplification: the payload is any natural number, a superset of `u8`. -/
structure ISAVersion where
  num : Nat
deriving DecidableEq, Repr

/-- `as_index`, `src/definitions/opcode_trait.rs:23-25` -/
def ISAVersion.asIndex (v : ISAVersion) : Nat := v.num

/-- Derived `PartialOrd` on the newtype: comparison of the payload,
`src/definitions/opcode_trait.rs:19` -/
def ISAVersion.le (a b : ISAVersion) : Bool := decide (a.num ≤ b.num)

/-- `NUM_ISA_VERSIONS`, `src/definitions/opcode_trait.rs:39` -/
def NUM_ISA_VERSIONS : Nat := 2
/-- `ALL_ISA_VERSIONS`, `src/definitions/opcode_trait.rs:40` -/
def allIsaVersions : List ISAVersion := [⟨0⟩, ⟨1⟩]

/-- `all_backward_compatible_versions`, `src/definitions/opcode_trait.rs:27-36` -/
def ISAVersion.allBackwardCompatibleVersions (including : ISAVersion) : List ISAVersion :=
  allIsaVersions.filter (fun v => v.le including)

/-- `OpcodeVariantData`, `src/definitions/opcode_trait.rs:42-47` -/
structure OpcodeVariantData where
  variantIdx : Nat
  numNonExclusiveFlags : Nat
  numUsedImmediates : Nat
deriving DecidableEq, Repr

/-- `full_variants_product`, `src/definitions/opcode_trait.rs:117-133`;
the range argument is always `0..=max`, and is given by `max`. -/
def fullVariantsProduct (max numFlags numImm : Nat) : List OpcodeVariantData :=
  (List.range (max + 1)).map fun idx => ⟨idx, numFlags, numImm⟩

/-- `trait OpcodeVariantProps`, `src/definitions/opcode_trait.rs:88-113` (required methods) -/
class OpcodeVariantProps (α : Type) where
  allVariants : List α
  minimalVersion : α → ISAVersion
  maxVariantIdxForVersion : ISAVersion → Res Nat
  variantIndex : α → Nat
  fromVariantIndexForVersion : Nat → ISAVersion → Option α
  ergsPrice : α → Nat

namespace OpcodeVariantProps
variable {α : Type} [OpcodeVariantProps α]

/-- `is_available_for_version`, `src/definitions/opcode_trait.rs:92-94`
(sic: `minimal_version >= version`) -/
def isAvailableForVersion (a : α) (version : ISAVersion) : Bool :=
  version.le (minimalVersion a)

/-- `is_added_in_version`, `src/definitions/opcode_trait.rs:95-97` -/
def isAddedInVersion (a : α) (version : ISAVersion) : Bool :=
  minimalVersion a == version

/-- `variants_for_version`, `src/definitions/opcode_trait.rs:98-103` -/
def variantsForVersion (α : Type) [OpcodeVariantProps α] (version : ISAVersion) : List α :=
  (allVariants (α := α)).filter fun el => isAvailableForVersion el version

/-- `variants_added_in_version`, `src/definitions/opcode_trait.rs:104-109` -/
def variantsAddedInVersion (α : Type) [OpcodeVariantProps α] (version : ISAVersion) : List α :=
  (allVariants (α := α)).filter fun el => isAddedInVersion el version

end OpcodeVariantProps

/-- `trait OpcodeProps`, `src/definitions/opcode_trait.rs:50-59` (required methods) -/
class OpcodeProps (α : Type) where
  name : α → String
  variantsData : α → ISAVersion → Res (List OpcodeVariantData)
  maxVariantIdx : α → ISAVersion → Res Nat
  inputOperands : α → ISAVersion → Res (List Operand)
  outputOperands : α → ISAVersion → Res (List Operand)
  requiresKernelMode : α → Bool
  canBeUsedInStaticContext : α → Bool

namespace OpcodeProps
variable {α : Type} [OpcodeProps α]

/-- `can_have_src0_from_mem`, `src/definitions/opcode_trait.rs:60-72` -/
def canHaveSrc0FromMem (a : α) (version : ISAVersion) : Res Bool := do
  let possible ← inputOperands a version
  match possible with
  | [] => .ok false
  | .full _ :: _ => .ok true
  | .regOnly :: _ => .ok false
  | .regOrImm _ :: _ => .ok false

/-- `can_write_dst0_into_memory`, `src/definitions/opcode_trait.rs:73-85` -/
def canWriteDst0IntoMemory (a : α) (version : ISAVersion) : Res Bool := do
  let possible ← outputOperands a version
  match possible with
  | [] => .ok false
  | .full _ :: _ => .ok true
  | .regOnly :: _ => .ok false
  | .regOrImm _ :: _ => .error .unreachable

end OpcodeProps

/-- `Box<dyn OpcodeProps>`: the vtable entries the crate uses through the trait object. Used for
`src/definitions/mod.rs:66` -/
structure DynOpcode where
  name : String
  variantsData : ISAVersion → Res (List OpcodeVariantData)
  maxVariantIdx : ISAVersion → Res Nat
  inputOperands : ISAVersion → Res (List Operand)
  outputOperands : ISAVersion → Res (List Operand)
  requiresKernelMode : Bool
  canBeUsedInStaticContext : Bool
  canHaveSrc0FromMem : ISAVersion → Res Bool
  canWriteDst0IntoMemory : ISAVersion → Res Bool

/-- `Box::new(x) as Box<dyn OpcodeProps>`; `src/definitions/mod.rs:68-83` -/
def DynOpcode.box {α : Type} [OpcodeProps α] (a : α) : DynOpcode where
  name := OpcodeProps.name a
  variantsData := OpcodeProps.variantsData a
  maxVariantIdx := OpcodeProps.maxVariantIdx a
  inputOperands := OpcodeProps.inputOperands a
  outputOperands := OpcodeProps.outputOperands a
  requiresKernelMode := OpcodeProps.requiresKernelMode a
  canBeUsedInStaticContext := OpcodeProps.canBeUsedInStaticContext a
  canHaveSrc0FromMem := OpcodeProps.canHaveSrc0FromMem a
  canWriteDst0IntoMemory := OpcodeProps.canWriteDst0IntoMemory a

end ZkEvm
