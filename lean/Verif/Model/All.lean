import Verif.Model.Opcodes
/-! Model of `src/definitions/all.rs`. -/
namespace ZkEvm

/-- `src/definitions/all.rs:4-21` -/
inductive Opcode where
  | invalid (inner : InvalidOpcode)
  | nop (inner : NopOpcode)
  | add (inner : AddOpcode)
  | sub (inner : SubOpcode)
  | mul (inner : MulOpcode)
  | div (inner : DivOpcode)
  | jump (inner : JumpOpcode)
  | context (inner : ContextOpcode)
  | shift (inner : ShiftOpcode)
  | binop (inner : BinopOpcode)
  | ptr (inner : PtrOpcode)
  | nearCall (inner : NearCallOpcode)
  | log (inner : LogOpcode)
  | farCall (inner : FarCallOpcode)
  | ret (inner : RetOpcode)
  | uma (inner : UMAOpcode)
deriving DecidableEq, Repr

namespace Opcode

/-- `ergs_price`, `src/definitions/all.rs:24-43` -/
def ergsPrice : Opcode → Nat
  | invalid inner => OpcodeVariantProps.ergsPrice inner
  | nop inner => OpcodeVariantProps.ergsPrice inner
  | add inner => OpcodeVariantProps.ergsPrice inner
  | sub inner => OpcodeVariantProps.ergsPrice inner
  | mul inner => OpcodeVariantProps.ergsPrice inner
  | div inner => OpcodeVariantProps.ergsPrice inner
  | jump inner => OpcodeVariantProps.ergsPrice inner
  | context inner => OpcodeVariantProps.ergsPrice inner
  | shift inner => OpcodeVariantProps.ergsPrice inner
  | binop inner => OpcodeVariantProps.ergsPrice inner
  | ptr inner => OpcodeVariantProps.ergsPrice inner
  | nearCall inner => OpcodeVariantProps.ergsPrice inner
  | log inner => OpcodeVariantProps.ergsPrice inner
  | farCall inner => OpcodeVariantProps.ergsPrice inner
  | ret inner => OpcodeVariantProps.ergsPrice inner
  | uma inner => OpcodeVariantProps.ergsPrice inner

/-- `Option::expect("must materialize")`; `src/definitions/all.rs:45-102` -/
def mustMaterialize {α : Type} : Option α → Res α
  | some a => .ok a
  | none => .error .expectFailed

/-- `materialize_subvariant_from_prototype`, `src/definitions/all.rs:45-102` -/
def materializeSubvariantFromPrototype (self : Opcode) (idx : Nat) (version : ISAVersion) : Res Opcode :=
  match self with
  | invalid _ => do
    .ok (invalid (← mustMaterialize (OpcodeVariantProps.fromVariantIndexForVersion (α := InvalidOpcode) idx version)))
  | nop _ => do
    .ok (nop (← mustMaterialize (OpcodeVariantProps.fromVariantIndexForVersion (α := NopOpcode) idx version)))
  | add _ => do
    .ok (add (← mustMaterialize (OpcodeVariantProps.fromVariantIndexForVersion (α := AddOpcode) idx version)))
  | sub _ => do
    .ok (sub (← mustMaterialize (OpcodeVariantProps.fromVariantIndexForVersion (α := SubOpcode) idx version)))
  | mul _ => do
    .ok (mul (← mustMaterialize (OpcodeVariantProps.fromVariantIndexForVersion (α := MulOpcode) idx version)))
  | div _ => do
    .ok (div (← mustMaterialize (OpcodeVariantProps.fromVariantIndexForVersion (α := DivOpcode) idx version)))
  | jump _ => do
    .ok (jump (← mustMaterialize (OpcodeVariantProps.fromVariantIndexForVersion (α := JumpOpcode) idx version)))
  | context _ => do
    .ok (context (← mustMaterialize (OpcodeVariantProps.fromVariantIndexForVersion (α := ContextOpcode) idx version)))
  | shift _ => do
    .ok (shift (← mustMaterialize (OpcodeVariantProps.fromVariantIndexForVersion (α := ShiftOpcode) idx version)))
  | binop _ => do
    .ok (binop (← mustMaterialize (OpcodeVariantProps.fromVariantIndexForVersion (α := BinopOpcode) idx version)))
  | ptr _ => do
    .ok (ptr (← mustMaterialize (OpcodeVariantProps.fromVariantIndexForVersion (α := PtrOpcode) idx version)))
  | nearCall _ => do
    .ok (nearCall (← mustMaterialize (OpcodeVariantProps.fromVariantIndexForVersion (α := NearCallOpcode) idx version)))
  | log _ => do
    .ok (log (← mustMaterialize (OpcodeVariantProps.fromVariantIndexForVersion (α := LogOpcode) idx version)))
  | farCall _ => do
    .ok (farCall (← mustMaterialize (OpcodeVariantProps.fromVariantIndexForVersion (α := FarCallOpcode) idx version)))
  | ret _ => do
    .ok (ret (← mustMaterialize (OpcodeVariantProps.fromVariantIndexForVersion (α := RetOpcode) idx version)))
  | uma _ => do
    .ok (uma (← mustMaterialize (OpcodeVariantProps.fromVariantIndexForVersion (α := UMAOpcode) idx version)))

/-- `variant_idx`, `src/definitions/all.rs:104-123` -/
def variantIdx : Opcode → Nat
  | invalid _ => 0
  | nop _ => 1
  | add _ => 2
  | sub _ => 3
  | mul _ => 4
  | div _ => 5
  | jump _ => 6
  | context _ => 7
  | shift _ => 8
  | binop _ => 9
  | ptr _ => 10
  | nearCall _ => 11
  | log _ => 12
  | farCall _ => 13
  | ret _ => 14
  | uma _ => 15

/-- `materialize_subvariant_idx`, `src/definitions/all.rs:125-144` -/
def materializeSubvariantIdx : Opcode → Nat
  | invalid o => OpcodeVariantProps.variantIndex o
  | nop o => OpcodeVariantProps.variantIndex o
  | add o => OpcodeVariantProps.variantIndex o
  | sub o => OpcodeVariantProps.variantIndex o
  | mul o => OpcodeVariantProps.variantIndex o
  | div o => OpcodeVariantProps.variantIndex o
  | jump o => OpcodeVariantProps.variantIndex o
  | context o => OpcodeVariantProps.variantIndex o
  | shift o => OpcodeVariantProps.variantIndex o
  | binop o => OpcodeVariantProps.variantIndex o
  | ptr o => OpcodeVariantProps.variantIndex o
  | nearCall o => OpcodeVariantProps.variantIndex o
  | log o => OpcodeVariantProps.variantIndex o
  | farCall o => OpcodeVariantProps.variantIndex o
  | ret o => OpcodeVariantProps.variantIndex o
  | uma o => OpcodeVariantProps.variantIndex o

/-- `requires_kernel_mode`, `src/definitions/all.rs:146-165` -/
def requiresKernelMode : Opcode → Bool
  | invalid o => OpcodeProps.requiresKernelMode o
  | nop o => OpcodeProps.requiresKernelMode o
  | add o => OpcodeProps.requiresKernelMode o
  | sub o => OpcodeProps.requiresKernelMode o
  | mul o => OpcodeProps.requiresKernelMode o
  | div o => OpcodeProps.requiresKernelMode o
  | jump o => OpcodeProps.requiresKernelMode o
  | context o => OpcodeProps.requiresKernelMode o
  | shift o => OpcodeProps.requiresKernelMode o
  | binop o => OpcodeProps.requiresKernelMode o
  | ptr o => OpcodeProps.requiresKernelMode o
  | nearCall o => OpcodeProps.requiresKernelMode o
  | log o => OpcodeProps.requiresKernelMode o
  | farCall o => OpcodeProps.requiresKernelMode o
  | ret o => OpcodeProps.requiresKernelMode o
  | uma o => OpcodeProps.requiresKernelMode o

/-- `can_be_used_in_static_context`, `src/definitions/all.rs:167-186` -/
def canBeUsedInStaticContext : Opcode → Bool
  | invalid o => OpcodeProps.canBeUsedInStaticContext o
  | nop o => OpcodeProps.canBeUsedInStaticContext o
  | add o => OpcodeProps.canBeUsedInStaticContext o
  | sub o => OpcodeProps.canBeUsedInStaticContext o
  | mul o => OpcodeProps.canBeUsedInStaticContext o
  | div o => OpcodeProps.canBeUsedInStaticContext o
  | jump o => OpcodeProps.canBeUsedInStaticContext o
  | context o => OpcodeProps.canBeUsedInStaticContext o
  | shift o => OpcodeProps.canBeUsedInStaticContext o
  | binop o => OpcodeProps.canBeUsedInStaticContext o
  | ptr o => OpcodeProps.canBeUsedInStaticContext o
  | nearCall o => OpcodeProps.canBeUsedInStaticContext o
  | log o => OpcodeProps.canBeUsedInStaticContext o
  | farCall o => OpcodeProps.canBeUsedInStaticContext o
  | ret o => OpcodeProps.canBeUsedInStaticContext o
  | uma o => OpcodeProps.canBeUsedInStaticContext o

/-- `can_have_src0_from_mem`, `src/definitions/all.rs:188-207` -/
def canHaveSrc0FromMem (self : Opcode) (version : ISAVersion) : Res Bool :=
  match self with
  | invalid o => OpcodeProps.canHaveSrc0FromMem o version
  | nop o => OpcodeProps.canHaveSrc0FromMem o version
  | add o => OpcodeProps.canHaveSrc0FromMem o version
  | sub o => OpcodeProps.canHaveSrc0FromMem o version
  | mul o => OpcodeProps.canHaveSrc0FromMem o version
  | div o => OpcodeProps.canHaveSrc0FromMem o version
  | jump o => OpcodeProps.canHaveSrc0FromMem o version
  | context o => OpcodeProps.canHaveSrc0FromMem o version
  | shift o => OpcodeProps.canHaveSrc0FromMem o version
  | binop o => OpcodeProps.canHaveSrc0FromMem o version
  | ptr o => OpcodeProps.canHaveSrc0FromMem o version
  | nearCall o => OpcodeProps.canHaveSrc0FromMem o version
  | log o => OpcodeProps.canHaveSrc0FromMem o version
  | farCall o => OpcodeProps.canHaveSrc0FromMem o version
  | ret o => OpcodeProps.canHaveSrc0FromMem o version
  | uma o => OpcodeProps.canHaveSrc0FromMem o version

/-- `can_write_dst0_into_memory`, `src/definitions/all.rs:209-228` -/
def canWriteDst0IntoMemory (self : Opcode) (version : ISAVersion) : Res Bool :=
  match self with
  | invalid o => OpcodeProps.canWriteDst0IntoMemory o version
  | nop o => OpcodeProps.canWriteDst0IntoMemory o version
  | add o => OpcodeProps.canWriteDst0IntoMemory o version
  | sub o => OpcodeProps.canWriteDst0IntoMemory o version
  | mul o => OpcodeProps.canWriteDst0IntoMemory o version
  | div o => OpcodeProps.canWriteDst0IntoMemory o version
  | jump o => OpcodeProps.canWriteDst0IntoMemory o version
  | context o => OpcodeProps.canWriteDst0IntoMemory o version
  | shift o => OpcodeProps.canWriteDst0IntoMemory o version
  | binop o => OpcodeProps.canWriteDst0IntoMemory o version
  | ptr o => OpcodeProps.canWriteDst0IntoMemory o version
  | nearCall o => OpcodeProps.canWriteDst0IntoMemory o version
  | log o => OpcodeProps.canWriteDst0IntoMemory o version
  | farCall o => OpcodeProps.canWriteDst0IntoMemory o version
  | ret o => OpcodeProps.canWriteDst0IntoMemory o version
  | uma o => OpcodeProps.canWriteDst0IntoMemory o version

/-- `input_operands`, `src/definitions/all.rs:230-249` -/
def inputOperands (self : Opcode) (version : ISAVersion) : Res (List Operand) :=
  match self with
  | invalid o => OpcodeProps.inputOperands o version
  | nop o => OpcodeProps.inputOperands o version
  | add o => OpcodeProps.inputOperands o version
  | sub o => OpcodeProps.inputOperands o version
  | mul o => OpcodeProps.inputOperands o version
  | div o => OpcodeProps.inputOperands o version
  | jump o => OpcodeProps.inputOperands o version
  | context o => OpcodeProps.inputOperands o version
  | shift o => OpcodeProps.inputOperands o version
  | binop o => OpcodeProps.inputOperands o version
  | ptr o => OpcodeProps.inputOperands o version
  | nearCall o => OpcodeProps.inputOperands o version
  | log o => OpcodeProps.inputOperands o version
  | farCall o => OpcodeProps.inputOperands o version
  | ret o => OpcodeProps.inputOperands o version
  | uma o => OpcodeProps.inputOperands o version

/-- `output_operands`, `src/definitions/all.rs:251-270` -/
def outputOperands (self : Opcode) (version : ISAVersion) : Res (List Operand) :=
  match self with
  | invalid o => OpcodeProps.outputOperands o version
  | nop o => OpcodeProps.outputOperands o version
  | add o => OpcodeProps.outputOperands o version
  | sub o => OpcodeProps.outputOperands o version
  | mul o => OpcodeProps.outputOperands o version
  | div o => OpcodeProps.outputOperands o version
  | jump o => OpcodeProps.outputOperands o version
  | context o => OpcodeProps.outputOperands o version
  | shift o => OpcodeProps.outputOperands o version
  | binop o => OpcodeProps.outputOperands o version
  | ptr o => OpcodeProps.outputOperands o version
  | nearCall o => OpcodeProps.outputOperands o version
  | log o => OpcodeProps.outputOperands o version
  | farCall o => OpcodeProps.outputOperands o version
  | ret o => OpcodeProps.outputOperands o version
  | uma o => OpcodeProps.outputOperands o version

end Opcode
end ZkEvm
