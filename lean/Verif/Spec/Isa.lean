import Verif.Model.Table
/-!
# Independent specification of the instruction set

Two descriptions, neither of which uses the table-building code of the model:

* `entry n` / `entryV0 n`: a closed formula for the variant with opcode number `n`;
* `WellFormed v`: which combinations of opcode, operands and flags exist.
-/
namespace ZkEvm.Spec

/-- Number of assigned opcode numbers in ISA version 0 -/
def assignedV0 : Nat := 1085
/-- Number of assigned opcode numbers in ISA version 1 -/
def assigned : Nat := 1093

/-- The unassigned/invalid instruction -/
def invalidVariant : OpcodeVariant := ⟨.invalid .mk, .regOnly, .regOnly, ⟨false, false⟩⟩

/-- Memory modes in encoding order -/
def mode : Nat → ImmMemHandlerFlags
  | 0 => .useRegOnly
  | 1 => .useStackWithPushPop
  | 2 => .useStackWithOffset
  | 3 => .useAbsoluteOnStack
  | 4 => .useImm16Only
  | _ => .useCodePage

/-- The `k`-th setting of `nf` flags; the first flag is the most significant digit -/
def flagDigits (nf k : Nat) : Flags :=
  match nf with
  | 0 => ⟨false, false⟩
  | 1 => ⟨k == 1, false⟩
  | _ => ⟨k / 2 == 1, k % 2 == 1⟩

/-- The `k`-th variant of an opcode with a memory-capable source (6 modes), a memory-capable destination
(4 modes) and `nf` flags: source, destination and flags are the digits of `k`, most significant first. -/
def rich (op : Opcode) (nf k : Nat) : OpcodeVariant where
  opcode := op
  src0OperandType := .full (mode (k / (4 * 2 ^ nf)))
  dst0OperandType := .full (mode (k / 2 ^ nf % 4))
  flags := flagDigits nf (k % 2 ^ nf)

/-- A register-only variant with the `k`-th setting of `nf` flags -/
def plain (op : Opcode) (nf k : Nat) : OpcodeVariant :=
  ⟨op, .regOnly, .regOnly, flagDigits nf k⟩

def binopAt : Nat → BinopOpcode
  | 0 => .xor | 1 => .and | _ => .or
def shiftAt : Nat → ShiftOpcode
  | 0 => .shl | 1 => .shr | 2 => .rol | _ => .ror
def ptrAt : Nat → PtrOpcode
  | 0 => .add | 1 => .sub | 2 => .pack | _ => .shrink
def contextAt : Nat → ContextOpcode
  | 0 => .this | 1 => .caller | 2 => .codeAddress | 3 => .metaParams | 4 => .ergsLeft | 5 => .sp
  | 6 => .getContextU128 | 7 => .setContextU128 | 8 => .setErgsPerPubdataByte | _ => .incrementTxNumber
def farCallAt : Nat → FarCallOpcode
  | 0 => .normal | 1 => .delegate | _ => .mimic
def retAt : Nat → RetOpcode
  | 0 => .ok | 1 => .revert | _ => .panic
def umaAt : Nat → UMAOpcode
  | 0 => .heapRead | 1 => .heapWrite | 2 => .auxHeapRead | 3 => .auxHeapWrite | _ => .fatPointerRead

/-- Everything before the UMA opcodes (numbers below 1075), the same in both versions -/
def common (n : Nat) : OpcodeVariant :=
  if n < 1 then invalidVariant
  else if n < 25 then rich (.nop .mk) 0 (n - 1)
  else if n < 73 then rich (.add .add) 1 (n - 25)
  else if n < 169 then rich (.sub .sub) 2 (n - 73)
  else if n < 217 then rich (.mul .mk) 1 (n - 169)
  else if n < 313 then rich (.div .mk) 2 (n - 217)
  else if n < 319 then ⟨.jump .mk, .full (mode (n - 313)), .regOnly, ⟨false, false⟩⟩
  else if n < 463 then rich (.binop (binopAt ((n - 319) / 48))) 1 ((n - 319) % 48)
  else if n < 847 then rich (.shift (shiftAt ((n - 463) / 96))) 2 ((n - 463) % 96)
  else if n < 1039 then rich (.ptr (ptrAt ((n - 847) / 48))) 1 ((n - 847) % 48)
  else if n < 1040 then plain (.nearCall .mk) 0 0
  else if n < 1050 then plain (.context (contextAt (n - 1040))) 0 0
  else if n < 1051 then plain (.log .storageRead) 0 0
  else if n < 1052 then plain (.log .storageWrite) 0 0
  else if n < 1054 then plain (.log .toL1Message) 1 (n - 1052)
  else if n < 1056 then plain (.log .event) 1 (n - 1054)
  else if n < 1057 then plain (.log .precompileCall) 0 0
  else if n < 1069 then plain (.farCall (farCallAt ((n - 1057) / 4))) 2 ((n - 1057) % 4)
  else if n < 1075 then plain (.ret (retAt ((n - 1069) / 2))) 1 ((n - 1069) % 2)
  else invalidVariant

/-- The variant with opcode number `n` in ISA version 0 -/
def entryV0 (n : Nat) : OpcodeVariant :=
  if n < 1075 then common n
  else if n < 1085 then plain (.uma (umaAt ((n - 1075) / 2))) 1 ((n - 1075) % 2)
  else invalidVariant

/-- The variant with opcode number `n` in ISA version 1: the register forms of the four heap accesses are
spelled `RegOrImm(UseRegOnly)`, and their immediate forms follow after all version-0 numbers. -/
def entry (n : Nat) : OpcodeVariant :=
  if n < 1075 then common n
  else if n < 1083 then
    ⟨.uma (umaAt ((n - 1075) / 2)), .regOrImm .useRegOnly, .regOnly, flagDigits 1 ((n - 1075) % 2)⟩
  else if n < 1085 then
    ⟨.uma .fatPointerRead, .regOnly, .regOnly, flagDigits 1 (n - 1083)⟩
  else if n < 1093 then
    ⟨.uma (umaAt ((n - 1085) / 2)), .regOrImm .useImm16Only, .regOnly, flagDigits 1 ((n - 1085) % 2)⟩
  else invalidVariant

/-! ## Which variants exist -/

/-- What may stand in the (first) source position -/
inductive SrcKind
  | register        -- a register only
  | registerOrImm   -- a register or a 16-bit immediate
  | any             -- any of the six addressing modes
/-- What may stand in the (first) destination position -/
inductive DstKind
  | register
  | memory          -- register, stack push, stack offset, absolute stack

/-- Shape of an opcode: source kind, destination kind, number of flags -/
def shape : Opcode → SrcKind × DstKind × Nat
  | .invalid _ => (.register, .register, 0)
  | .nop _ => (.any, .memory, 0)
  | .add _ | .mul _ | .binop _ | .ptr _ => (.any, .memory, 1)
  | .sub _ | .div _ | .shift _ => (.any, .memory, 2)
  | .jump _ => (.any, .register, 0)
  | .nearCall _ | .context _ => (.register, .register, 0)
  | .log .toL1Message | .log .event => (.register, .register, 1)
  | .log _ => (.register, .register, 0)
  | .farCall _ => (.register, .register, 2)
  | .ret _ => (.register, .register, 1)
  | .uma .fatPointerRead => (.register, .register, 1)
  | .uma _ => (.registerOrImm, .register, 1)

/-- The source operand has the right kind -/
def srcOk : SrcKind → Operand → Bool
  | .register, .regOnly => true
  | .registerOrImm, .regOrImm _ => true
  | .any, .full _ => true
  | _, _ => false

/-- The destination operand has the right kind -/
def dstOk : DstKind → Operand → Bool
  | .register, .regOnly => true
  | .memory, .full .useRegOnly => true
  | .memory, .full .useStackWithPushPop => true
  | .memory, .full .useStackWithOffset => true
  | .memory, .full .useAbsoluteOnStack => true
  | _, _ => false

/-- Flags beyond the declared number are not set -/
def flagsOk : Nat → Flags → Bool
  | 0, f => !f.f0 && !f.f1
  | 1, f => !f.f1
  | _, _ => true

/-- Well-formed variants (ISA version 1) -/
def WellFormed (v : OpcodeVariant) : Bool :=
  let s := shape v.opcode
  srcOk s.1 v.src0OperandType && dstOk s.2.1 v.dst0OperandType && flagsOk s.2.2 v.flags

/-- Well-formed variants of ISA version 0: as in version 1, except that heap accesses take their offset from a
register only. -/
def WellFormedV0 (v : OpcodeVariant) : Bool :=
  let s := shape v.opcode
  let src := match v.opcode with
    | .uma _ => SrcKind.register
    | _ => s.1
  srcOk src v.src0OperandType && dstOk s.2.1 v.dst0OperandType && flagsOk s.2.2 v.flags

end ZkEvm.Spec
