import Verif.Spec.Frames
/-! How a virtual machine uses the crate to find operands on the stack of a frame: it looks at the groups of source and
destination bits in the property mask of the instruction that is executed. What instructions compute is left open. Beside
it stands what a programmer expects: a stack is a list of words. Nothing in this file is a function of the crate. -/
namespace ZkEvm.Spec.Stack
open Frames

/-- Where an operand is -/
inductive Place (w : Nat)
  | register
  | immediate
  | stack (cell : BitVec w)
  | code (cell : BitVec w)
deriving DecidableEq, Repr

/-- The place of the source operand and the stack pointer afterwards, from the six bits of a mask that start at `base`. A
pop moves the stack pointer down by `offset` and reads there. -/
def sourcePlace {w : Nat} (mask : BitVec 64) (base : Nat) (sp offset : BitVec w) : Option (Place w × BitVec w) :=
  if mask.getLsbD base then some (.register, sp)
  else if mask.getLsbD (base + 1) then some (.stack (sp - offset), sp - offset)
  else if mask.getLsbD (base + 2) then some (.stack (sp - offset), sp)
  else if mask.getLsbD (base + 3) then some (.stack offset, sp)
  else if mask.getLsbD (base + 4) then some (.immediate, sp)
  else if mask.getLsbD (base + 5) then some (.code offset, sp)
  else none

/-- The place of the destination operand and the stack pointer afterwards, from the four bits of a mask that start at
`base`. A push writes at the stack pointer and moves it up by `offset`. -/
def destPlace {w : Nat} (mask : BitVec 64) (base : Nat) (sp offset : BitVec w) : Option (Place w × BitVec w) :=
  if mask.getLsbD base then some (.register, sp)
  else if mask.getLsbD (base + 1) then some (.stack sp, sp + offset)
  else if mask.getLsbD (base + 2) then some (.stack (sp - offset), sp)
  else if mask.getLsbD (base + 3) then some (.stack offset, sp)
  else none

/-- Where the source bits start in a mask: after family, sub-variant and flags -/
def sourceBase : Res Nat := do
  .ok (OPCODE_TYPE_BITS + (← maxNumVariantsForVersion DEFAULT_ISA_VERSION) + (← maxNumFlagsForVersion DEFAULT_ISA_VERSION))

/-- For the word the instruction `o` is executed, with property mask `mask`: the one it decodes to, or, if a check fails or
the condition does not hold, a panic or a nop. -/
inductive Executed (m : Mode) (word : BitVec m.bits) : DecodedOpcode (pcBits m) → BitVec 64 → Prop
  | decoded {o n masks mask} : decode m word = .ok (o, n) → OPCODES_PROPS_INTEGER_BITMASKS = .ok masks →
      masks[n.intoUsize]? = some mask → Executed m word o mask
  | nop {o n mask} : decode m word = .ok (o, n) → NOP_BITSPREAD_U64 = .ok mask → Executed m word o.maskIntoNop mask
  | panic {o n mask} : decode m word = .ok (o, n) → PANIC_BITSPREAD_U64 = .ok mask → Executed m word o.maskIntoPanic mask

/-- What is seen of a cycle: the word, the instruction executed for it, the values of the registers that are added to its
two immediates, the word read from the stack, and the word written to the destination, if any. -/
structure Access (m : Mode) where
  word : BitVec m.bits
  executed : DecodedOpcode (pcBits m)
  srcReg : BitVec (pcBits m)
  dstReg : BitVec (pcBits m)
  read : Option U256
  written : Option U256

/-- Offset of the source operand -/
def Access.srcOffset {m : Mode} (a : Access m) : BitVec (pcBits m) := a.srcReg + a.executed.imm0
/-- Offset of the destination operand -/
def Access.dstOffset {m : Mode} (a : Access m) : BitVec (pcBits m) := a.dstReg + a.executed.imm1

/-- The stack of a frame as the machine keeps it: the stack pointer, and a page with a cell for every address -/
structure Page (w : Nat) where
  sp : BitVec w
  cells : BitVec w → U256

/-- The page with `written` at a place, if that is on the stack -/
def Page.write {w : Nat} (cells : BitVec w → U256) : Place w → Option U256 → BitVec w → U256
  | .stack c, some v => fun a => if a = c then v else cells a
  | _, _ => cells

/-- What is read at a place, if that is on the stack -/
def Page.read {w : Nat} (cells : BitVec w → U256) : Place w → Option U256
  | .stack c => some (cells c)
  | _ => none

/-- One cycle of the machine on the stack of the running frame: first the source, then the destination. -/
inductive Step (m : Mode) : Page (pcBits m) → Access m → Page (pcBits m) → Prop
  | mk {s : Page (pcBits m)} {a : Access m} {mask base src sp dst sp'} :
      Executed m a.word a.executed mask → sourceBase = .ok base →
      sourcePlace mask base s.sp a.srcOffset = some (src, sp) →
      destPlace mask (base + OPCODE_INPUT_VARIANT_FLAGS) sp a.dstOffset = some (dst, sp') →
      a.read = Page.read s.cells src →
      Step m s a ⟨sp', Page.write s.cells dst a.written⟩

/-- Cycles one after the other -/
inductive Run (m : Mode) : Page (pcBits m) → List (Access m) → Page (pcBits m) → Prop
  | none (s) : Run m s [] s
  | step {s t u a as} : Step m s a t → Run m t as u → Run m s (a :: as) u

/-- The stack of a frame at its start, whatever its cells hold -/
def fresh (m : Mode) (cells : BitVec (pcBits m) → U256) : Page (pcBits m) := ⟨BitVec.ofNat _ INITIAL_SP_ON_FAR_CALL, cells⟩

/-! What a programmer expects -/

/-- The place a source operand of the mode names, and the stack pointer afterwards -/
def namedSource {w : Nat} (mode : Operand) (sp offset : BitVec w) : Place w × BitVec w :=
  match mode with
  | .full .useStackWithPushPop => (.stack (sp - offset), sp - offset)
  | .full .useStackWithOffset => (.stack (sp - offset), sp)
  | .full .useAbsoluteOnStack => (.stack offset, sp)
  | .full .useCodePage => (.code offset, sp)
  | .full .useImm16Only | .regOrImm .useImm16Only => (.immediate, sp)
  | .full .useRegOnly | .regOrImm .useRegOnly | .regOnly => (.register, sp)

/-- The place a destination operand of the mode names, and the stack pointer afterwards; nothing can be written to an
immediate or to the code page. -/
def namedDest {w : Nat} (mode : Operand) (sp offset : BitVec w) : Option (Place w × BitVec w) :=
  match mode with
  | .full .useStackWithPushPop => some (.stack sp, sp + offset)
  | .full .useStackWithOffset => some (.stack (sp - offset), sp)
  | .full .useAbsoluteOnStack => some (.stack offset, sp)
  | .full .useRegOnly | .regOrImm .useRegOnly | .regOnly => some (.register, sp)
  | .full .useCodePage | .full .useImm16Only | .regOrImm .useImm16Only => none

/-- Reading an operand from a stack, the oldest word first: `l'` is the stack afterwards. -/
def Takes (mode : Operand) (offset : Nat) (l : List U256) (read : Option U256) (l' : List U256) : Prop :=
  match mode with
  | .full .useStackWithPushPop => ∃ popped, l = l' ++ popped ∧ popped.length = offset ∧ read = popped.head?
  | .full .useStackWithOffset => l' = l ∧ read = l[l.length - offset]?
  | .full .useAbsoluteOnStack => l' = l ∧ read = l[offset]?
  | _ => l' = l ∧ read = none

/-- The stack with a word replaced, if there is something to write -/
def replace (l : List U256) (i : Nat) : Option U256 → List U256
  | some v => l.set i v
  | none => l

/-- Writing an operand to a stack. A push makes room for `offset` words, and the first of them gets what is written. -/
def Puts (mode : Operand) (offset : Nat) (l : List U256) (written : Option U256) (l' : List U256) : Prop :=
  match mode with
  | .full .useStackWithPushPop => ∃ pushed, l' = l ++ pushed ∧ pushed.length = offset ∧
      ∀ v, written = some v → pushed.head? = some v
  | .full .useStackWithOffset => l' = replace l (l.length - offset) written
  | .full .useAbsoluteOnStack => l' = replace l offset written
  | _ => l' = l

/-- Cycles of a machine whose stack is a list -/
inductive ListRun (m : Mode) : List U256 → List (Access m) → List U256 → Prop
  | none (l) : ListRun m l [] l
  | step {l l₁ l₂ l₃ a as} :
      Takes a.executed.variant.src0OperandType a.srcOffset.toNat l a.read l₁ →
      Puts a.executed.variant.dst0OperandType a.dstOffset.toNat l₁ a.written l₂ →
      ListRun m l₂ as l₃ → ListRun m l (a :: as) l₃

/-- The depth of the stack after the source operand, if the operand lies in a stack of depth `d` -/
def depthTaken (mode : Operand) (offset d : Nat) : Option Nat :=
  match mode with
  | .full .useStackWithPushPop => if 1 ≤ offset ∧ offset ≤ d then some (d - offset) else none
  | .full .useStackWithOffset => if 1 ≤ offset ∧ offset ≤ d then some d else none
  | .full .useAbsoluteOnStack => if offset < d then some d else none
  | _ => some d

/-- The depth of the stack after the destination operand, if the operand lies in it, and at most `limit` words are on it
after a push -/
def depthPut (limit : Nat) (mode : Operand) (offset d : Nat) : Option Nat :=
  match mode with
  | .full .useStackWithPushPop => if 1 ≤ offset ∧ d + offset ≤ limit then some (d + offset) else none
  | .full .useStackWithOffset => if 1 ≤ offset ∧ offset ≤ d then some d else none
  | .full .useAbsoluteOnStack => if offset < d then some d else none
  | _ => some d

/-- The depth after some cycles, if each of them keeps to the stack -/
def depth {m : Mode} (limit : Nat) : Nat → List (Access m) → Option Nat
  | d, [] => some d
  | d, a :: as =>
    (depthTaken a.executed.variant.src0OperandType a.srcOffset.toNat d).bind fun d =>
    (depthPut limit a.executed.variant.dst0OperandType a.dstOffset.toNat d).bind fun d => depth limit d as

end ZkEvm.Spec.Stack
