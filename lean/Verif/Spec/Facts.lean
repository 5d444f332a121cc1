import Verif.Model.Table
/-! Independent tables of facts about opcodes: their numbers, operand mode numbers, privileges, and the layout of
the integer bitmask. Written out opcode by opcode, without the functions of the model. -/
namespace ZkEvm.Spec

/-- Number of the opcode family (bit position in the one-hot opcode group) -/
def familyNumber : Opcode → Nat
  | .invalid _ => 0 | .nop _ => 1 | .add _ => 2 | .sub _ => 3 | .mul _ => 4 | .div _ => 5 | .jump _ => 6
  | .context _ => 7 | .shift _ => 8 | .binop _ => 9 | .ptr _ => 10 | .nearCall _ => 11 | .log _ => 12
  | .farCall _ => 13 | .ret _ => 14 | .uma _ => 15

/-- Number of the sub-variant inside its family -/
def subNumber : Opcode → Nat
  | .context .this => 0 | .context .caller => 1 | .context .codeAddress => 2 | .context .metaParams => 3
  | .context .ergsLeft => 4 | .context .sp => 5 | .context .getContextU128 => 6
  | .context .setContextU128 => 7 | .context .setErgsPerPubdataByte => 8 | .context .incrementTxNumber => 9
  | .shift .shl => 0 | .shift .shr => 1 | .shift .rol => 2 | .shift .ror => 3
  | .binop .xor => 0 | .binop .and => 1 | .binop .or => 2
  | .ptr .add => 0 | .ptr .sub => 1 | .ptr .pack => 2 | .ptr .shrink => 3
  | .log .storageRead => 0 | .log .storageWrite => 1 | .log .toL1Message => 2 | .log .event => 3
  | .log .precompileCall => 4
  | .farCall .normal => 0 | .farCall .delegate => 1 | .farCall .mimic => 2
  | .ret .ok => 0 | .ret .revert => 1 | .ret .panic => 2
  | .uma .heapRead => 0 | .uma .heapWrite => 1 | .uma .auxHeapRead => 2 | .uma .auxHeapWrite => 3
  | .uma .fatPointerRead => 4
  | .invalid _ | .nop _ | .add _ | .sub _ | .mul _ | .div _ | .jump _ | .nearCall _ => 0

/-- How many sub-variants the family of an opcode has -/
def familySize : Opcode → Nat
  | .context _ => 10 | .shift _ => 4 | .binop _ => 3 | .ptr _ => 4 | .log _ => 5 | .farCall _ => 3
  | .ret _ => 3 | .uma _ => 5
  | .invalid _ | .nop _ | .add _ | .sub _ | .mul _ | .div _ | .jump _ | .nearCall _ => 1

/-- Number of an operand's addressing mode -/
def modeNumber : Operand → Nat
  | .regOnly | .regOrImm .useRegOnly | .full .useRegOnly => 0
  | .full .useStackWithPushPop => 1
  | .full .useStackWithOffset => 2
  | .full .useAbsoluteOnStack => 3
  | .regOrImm .useImm16Only | .full .useImm16Only => 4
  | .full .useCodePage => 5

/-- Opcodes only system contracts may execute -/
def kernelOnly : Opcode → Bool
  | .context .setContextU128 | .context .setErgsPerPubdataByte | .context .incrementTxNumber => true
  | .log .event | .log .toL1Message | .log .precompileCall => true
  | .farCall .mimic => true
  | _ => false

/-- Opcodes that change state visible outside the call and so are forbidden in static calls -/
def changesState : Opcode → Bool
  | .context .setContextU128 | .context .setErgsPerPubdataByte | .context .incrementTxNumber => true
  | .log .storageWrite | .log .event | .log .toL1Message => true
  | _ => false

/-- The invalid instruction -/
def isInvalid : Opcode → Bool
  | .invalid _ => true
  | _ => false

/-- Whether bit `i` of the bitmask of `v` is set -/
def bitSpec (v : OpcodeVariant) (i : Nat) : Bool :=
  if i < 16 then i == familyNumber v.opcode
  else if i < 26 then i - 16 == subNumber v.opcode
  else if i = 26 then v.flags.f0
  else if i = 27 then v.flags.f1
  else if i < 34 then i - 28 == modeNumber v.src0OperandType
  else if i < 40 then i - 34 == modeNumber v.dst0OperandType
  else if i = 48 then kernelOnly v.opcode
  else if i = 49 then !changesState v.opcode
  else if i = 50 then isInvalid v.opcode
  else false

/-- `w` has exactly one set bit among the positions `lo ≤ i < hi`, namely `lo + k` -/
def OneHot (w : BitVec 64) (lo hi k : Nat) : Prop :=
  lo + k < hi ∧ ∀ i, lo ≤ i → i < hi → (w.getLsbD i = true ↔ i = lo + k)

/-- The same opcode with the same flags and operand mode numbers -/
def SameProps (a b : OpcodeVariant) : Prop :=
  a.opcode = b.opcode ∧ a.flags = b.flags ∧
    modeNumber a.src0OperandType = modeNumber b.src0OperandType ∧
    modeNumber a.dst0OperandType = modeNumber b.dst0OperandType

instance : DecidableRel SameProps := by intro a b; unfold SameProps; infer_instance

/-- The first operand of a declaration is of the kind with all addressing modes -/
def firstIsFull : List Operand → Bool
  | .full _ :: _ => true
  | _ => false

/-- The operand accesses memory (stack or code page) -/
def usesMemory : Operand → Bool
  | .full .useStackWithPushPop | .full .useStackWithOffset | .full .useAbsoluteOnStack | .full .useCodePage => true
  | _ => false

end ZkEvm.Spec
