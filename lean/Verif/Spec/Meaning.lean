import Verif.Model.Table
/-! Specification of "the same instruction, up to spelling of a register source". -/
namespace ZkEvm.Spec

/-- `RegOnly` and `RegOrImm(UseRegOnly)` are two spellings of "the source is a register". -/
def sourceMeaning : Operand → Operand
  | .regOrImm .useRegOnly => .regOnly
  | o => o

/-- Two variants that denote the same instruction. -/
def SameMeaning (a b : OpcodeVariant) : Prop :=
  a.opcode = b.opcode ∧ a.dst0OperandType = b.dst0OperandType ∧ a.flags = b.flags ∧
    sourceMeaning a.src0OperandType = sourceMeaning b.src0OperandType

/-- A computation panics. -/
def Panics {α : Type} (r : Res α) : Prop := ∃ e, r = .error e

end ZkEvm.Spec
