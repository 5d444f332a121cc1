import Verif.Spec.Isa
import Verif.Model.All
import Verif.Model.Table
/-! What an opcode declares about itself through the API (`input_operands`, `output_operands`,
`variants_data`), for ISA version 1. -/
namespace ZkEvm.Spec

/-- `Opcode::input_operands` / `output_operands` list kinds of operands; the first one describes the operand
that carries an addressing mode. No operand at all is spelled as a register. -/
def firstOrRegister : List Operand → Operand
  | [] => .regOnly
  | o :: _ => o

/-- An actual operand is of the declared kind (the flag inside the declaration is a placeholder). -/
def ofKind : (declared actual : Operand) → Prop
  | .regOnly, .regOnly => True
  | .regOrImm _, .regOrImm _ => True
  | .full _, .full _ => True
  | _, _ => False

instance : DecidableRel ofKind := by
  intro a b; cases a <;> cases b <;> unfold ofKind <;> infer_instance

/-- `variants_data` of the opcode's family -/
def familyData : Opcode → ISAVersion → Res (List OpcodeVariantData)
  | .invalid o => OpcodeProps.variantsData o
  | .nop o => OpcodeProps.variantsData o
  | .add o => OpcodeProps.variantsData o
  | .sub o => OpcodeProps.variantsData o
  | .mul o => OpcodeProps.variantsData o
  | .div o => OpcodeProps.variantsData o
  | .jump o => OpcodeProps.variantsData o
  | .context o => OpcodeProps.variantsData o
  | .shift o => OpcodeProps.variantsData o
  | .binop o => OpcodeProps.variantsData o
  | .ptr o => OpcodeProps.variantsData o
  | .nearCall o => OpcodeProps.variantsData o
  | .log o => OpcodeProps.variantsData o
  | .farCall o => OpcodeProps.variantsData o
  | .ret o => OpcodeProps.variantsData o
  | .uma o => OpcodeProps.variantsData o

/-- The number of flags declared for this very sub-variant -/
def declaredFlags (op : Opcode) (version : ISAVersion) : Option Nat :=
  match familyData op version with
  | .ok l => (l.find? fun d => d.variantIdx == op.materializeSubvariantIdx).map
      OpcodeVariantData.numNonExclusiveFlags
  | .error _ => none

/-- `max_variant_idx` of the opcode's family (`OpcodeProps`) -/
def familyMaxIdx : Opcode → ISAVersion → Res Nat
  | .invalid o => OpcodeProps.maxVariantIdx o
  | .nop o => OpcodeProps.maxVariantIdx o
  | .add o => OpcodeProps.maxVariantIdx o
  | .sub o => OpcodeProps.maxVariantIdx o
  | .mul o => OpcodeProps.maxVariantIdx o
  | .div o => OpcodeProps.maxVariantIdx o
  | .jump o => OpcodeProps.maxVariantIdx o
  | .context o => OpcodeProps.maxVariantIdx o
  | .shift o => OpcodeProps.maxVariantIdx o
  | .binop o => OpcodeProps.maxVariantIdx o
  | .ptr o => OpcodeProps.maxVariantIdx o
  | .nearCall o => OpcodeProps.maxVariantIdx o
  | .log o => OpcodeProps.maxVariantIdx o
  | .farCall o => OpcodeProps.maxVariantIdx o
  | .ret o => OpcodeProps.maxVariantIdx o
  | .uma o => OpcodeProps.maxVariantIdx o

/-- `max_variant_idx_for_version` of the opcode's family (`OpcodeVariantProps`) -/
def familyMaxIdxForVersion : Opcode → ISAVersion → Res Nat
  | .invalid (_ : InvalidOpcode) => OpcodeVariantProps.maxVariantIdxForVersion InvalidOpcode
  | .nop (_ : NopOpcode) => OpcodeVariantProps.maxVariantIdxForVersion NopOpcode
  | .add (_ : AddOpcode) => OpcodeVariantProps.maxVariantIdxForVersion AddOpcode
  | .sub (_ : SubOpcode) => OpcodeVariantProps.maxVariantIdxForVersion SubOpcode
  | .mul (_ : MulOpcode) => OpcodeVariantProps.maxVariantIdxForVersion MulOpcode
  | .div (_ : DivOpcode) => OpcodeVariantProps.maxVariantIdxForVersion DivOpcode
  | .jump (_ : JumpOpcode) => OpcodeVariantProps.maxVariantIdxForVersion JumpOpcode
  | .context (_ : ContextOpcode) => OpcodeVariantProps.maxVariantIdxForVersion ContextOpcode
  | .shift (_ : ShiftOpcode) => OpcodeVariantProps.maxVariantIdxForVersion ShiftOpcode
  | .binop (_ : BinopOpcode) => OpcodeVariantProps.maxVariantIdxForVersion BinopOpcode
  | .ptr (_ : PtrOpcode) => OpcodeVariantProps.maxVariantIdxForVersion PtrOpcode
  | .nearCall (_ : NearCallOpcode) => OpcodeVariantProps.maxVariantIdxForVersion NearCallOpcode
  | .log (_ : LogOpcode) => OpcodeVariantProps.maxVariantIdxForVersion LogOpcode
  | .farCall (_ : FarCallOpcode) => OpcodeVariantProps.maxVariantIdxForVersion FarCallOpcode
  | .ret (_ : RetOpcode) => OpcodeVariantProps.maxVariantIdxForVersion RetOpcode
  | .uma (_ : UMAOpcode) => OpcodeVariantProps.maxVariantIdxForVersion UMAOpcode

/-- Immediates an opcode can need for its operands in an ISA version: `imm_0` when the first input can come from an
immediate or from memory, `imm_1` when the first output can go to memory. -/
def operandImmediates (op : Opcode) (version : ISAVersion) : Option Nat :=
  match op.inputOperands version, op.outputOperands version with
  | .ok ins, .ok outs =>
    some ((match firstOrRegister ins with | .regOnly => 0 | _ => 1) + (match firstOrRegister outs with | .full _ => 1 | _ => 0))
  | _, _ => none

/-- Immediates that name code positions: the destination and the exception handler of a near call, the handler of a far
call, the label of a return -/
def controlImmediates : Opcode → Nat
  | .nearCall _ => 2
  | .farCall _ => 1
  | .ret _ => 1
  | _ => 0

/-- How many inputs an instruction reads: two for arithmetic, bit operations, shifts, pointers, far calls and everything
that writes (key and value, address and value); one for reads; none when there is nothing to read. -/
def inputCount : Opcode → Nat
  | .invalid _ => 0
  | .nop _ | .jump _ | .nearCall _ => 1
  | .add _ | .sub _ | .mul _ | .div _ | .binop _ | .shift _ | .ptr _ | .farCall _ => 2
  | .context .setContextU128 | .context .setErgsPerPubdataByte => 1
  | .context _ => 0
  | .log .storageRead | .log .precompileCall => 1
  | .log _ => 2
  | .ret .panic => 0
  | .ret _ => 1
  | .uma .heapWrite | .uma .auxHeapWrite => 2
  | .uma _ => 1

/-- How many outputs an instruction produces: `mul` has the high and the low word, `div` quotient and remainder, a
memory read the value and the incremented pointer. -/
def outputCount : Opcode → Nat
  | .invalid _ | .jump _ | .nearCall _ | .farCall _ | .ret _ => 0
  | .nop _ | .add _ | .sub _ | .binop _ | .shift _ | .ptr _ => 1
  | .mul _ | .div _ => 2
  | .context .setContextU128 | .context .setErgsPerPubdataByte | .context .incrementTxNumber => 0
  | .context _ => 1
  | .log .storageRead | .log .precompileCall => 1
  | .log _ => 0
  | .uma .heapWrite | .uma .auxHeapWrite => 1
  | .uma _ => 2

/-- Declared operands: `first` stands for the first one, all others are plain registers. -/
def operandList (first : Operand) : Nat → List Operand
  | 0 => []
  | n + 1 => first :: List.replicate n .regOnly

/-- How a declaration writes the first input; the kinds with several modes are written in register mode. Version 0 has
no "register or immediate". -/
def declaredSource (version : ISAVersion) : SrcKind → Operand
  | .register => .regOnly
  | .registerOrImm => if version.num = 0 then .regOnly else .regOrImm .useRegOnly
  | .any => .full .useRegOnly

/-- How a declaration writes the first output -/
def declaredDestination : DstKind → Operand
  | .register => .regOnly
  | .memory => .full .useRegOnly

end ZkEvm.Spec
