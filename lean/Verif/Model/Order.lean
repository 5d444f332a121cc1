import Verif.Model.Table
import Verif.Model.Condition
/-! Model of the derived `Ord` (and `PartialOrd`, which agrees with it) of the instruction types. Derived comparison
compares enum variants by declaration position (`ctorIdx`), equal variants by their payload, and structs and arrays
field by field. -/
namespace ZkEvm

/-- `#[derive(Ord)]`, `src/definitions/add.rs:3-7` -/
def AddOpcode.cmp (a b : AddOpcode) : Ordering := compare a.ctorIdx b.ctorIdx
/-- `#[derive(Ord)]`, `src/definitions/sub.rs:3-7` -/
def SubOpcode.cmp (a b : SubOpcode) : Ordering := compare a.ctorIdx b.ctorIdx
/-- `#[derive(Ord)]`, `src/definitions/context.rs:3-16` -/
def ContextOpcode.cmp (a b : ContextOpcode) : Ordering := compare a.ctorIdx b.ctorIdx
/-- `#[derive(Ord)]`, `src/definitions/shift.rs:3-10` -/
def ShiftOpcode.cmp (a b : ShiftOpcode) : Ordering := compare a.ctorIdx b.ctorIdx
/-- `#[derive(Ord)]`, `src/definitions/binop.rs:3-9` -/
def BinopOpcode.cmp (a b : BinopOpcode) : Ordering := compare a.ctorIdx b.ctorIdx
/-- `#[derive(Ord)]`, `src/definitions/ptr.rs:4-11` -/
def PtrOpcode.cmp (a b : PtrOpcode) : Ordering := compare a.ctorIdx b.ctorIdx
/-- `#[derive(Ord)]`, `src/definitions/log.rs:14-22` -/
def LogOpcode.cmp (a b : LogOpcode) : Ordering := compare a.ctorIdx b.ctorIdx
/-- `#[derive(Ord)]`, `src/definitions/far_call.rs:15-21` -/
def FarCallOpcode.cmp (a b : FarCallOpcode) : Ordering := compare a.ctorIdx b.ctorIdx
/-- `#[derive(Ord)]`, `src/definitions/ret.rs:10-16` -/
def RetOpcode.cmp (a b : RetOpcode) : Ordering := compare a.ctorIdx b.ctorIdx
/-- `#[derive(Ord)]`, `src/definitions/uma.rs:13-21` -/
def UMAOpcode.cmp (a b : UMAOpcode) : Ordering := compare a.ctorIdx b.ctorIdx

/-- The payloads of two equal variants of `Opcode`; unit structs
(`src/definitions/{invalid_opcode, noop, mul, div, jump, near_call}.rs:3-4`) are always equal. -/
def Opcode.cmpPayload : Opcode → Opcode → Ordering
  | .add a, .add b => a.cmp b
  | .sub a, .sub b => a.cmp b
  | .context a, .context b => a.cmp b
  | .shift a, .shift b => a.cmp b
  | .binop a, .binop b => a.cmp b
  | .ptr a, .ptr b => a.cmp b
  | .log a, .log b => a.cmp b
  | .farCall a, .farCall b => a.cmp b
  | .ret a, .ret b => a.cmp b
  | .uma a, .uma b => a.cmp b
  | _, _ => .eq

/-- `#[derive(Ord)]`, `src/definitions/all.rs:3-21` -/
def Opcode.cmp (a b : Opcode) : Ordering := (compare a.ctorIdx b.ctorIdx).then (a.cmpPayload b)

/-- `#[derive(Ord)]`, `src/imm_mem_modifiers.rs:1-10` -/
def ImmMemHandlerFlags.cmp (a b : ImmMemHandlerFlags) : Ordering := compare a.ctorIdx b.ctorIdx
/-- `#[derive(Ord)]`, `src/imm_mem_modifiers.rs:80-85` -/
def RegOrImmFlags.cmp (a b : RegOrImmFlags) : Ordering := compare a.ctorIdx b.ctorIdx

/-- The payloads of two equal variants of `Operand`; `src/definitions/opcode_trait.rs:3-8` -/
def Operand.cmpPayload : Operand → Operand → Ordering
  | .regOrImm a, .regOrImm b => a.cmp b
  | .full a, .full b => a.cmp b
  | _, _ => .eq

/-- `#[derive(Ord)]`, `src/definitions/opcode_trait.rs:3-8` -/
def Operand.cmp (a b : Operand) : Ordering := (compare a.ctorIdx b.ctorIdx).then (a.cmpPayload b)

/-- `Ord for bool` (standard library), flags of `src/definitions/mod.rs:124` -/
def boolCmp (a b : Bool) : Ordering := compare a.toNat b.toNat

/-- `Ord for [bool; 2]` (standard library): lexicographic, flags of `src/definitions/mod.rs:124` -/
def Flags.cmp (a b : Flags) : Ordering := (boolCmp a.f0 b.f0).then (boolCmp a.f1 b.f1)

/-- `#[derive(Ord)]`, `src/definitions/mod.rs:119-125`: the fields in declaration order -/
def OpcodeVariant.cmp (a b : OpcodeVariant) : Ordering :=
  (a.opcode.cmp b.opcode).then ((a.src0OperandType.cmp b.src0OperandType).then
    ((a.dst0OperandType.cmp b.dst0OperandType).then (a.flags.cmp b.flags)))

/-- `#[derive(Ord)]`, `src/definitions/condition.rs:1-12` -/
def Condition.cmp (a b : Condition) : Ordering := compare a.ctorIdx b.ctorIdx

end ZkEvm
