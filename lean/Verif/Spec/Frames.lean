import Verif.Spec.Machine
import Verif.Spec.System
import Verif.Spec.Published
import Verif.Spec.Decommitment
import Verif.Model.Abi
/-! How a virtual machine with call frames uses the crate: each cycle decodes a word, looks up its price and mask, replaces
the instruction by a panic or a nop where the checks demand it, and then acts on the stack of frames: it continues, calls or
returns. What instructions do to registers, memory and storage is left open. Nothing in this file is a function of the
crate. -/
namespace ZkEvm.Spec.Frames

/-- A call frame: the ergs it holds, the address whose storage and rights it uses, the address whose code it runs, the
address it was called from, whether it is static, whether it was made by a near call, and the bytes of heap and auxiliary heap
it may use. -/
structure CallFrame where
  ergs : Nat
  this : Nat
  code : Nat
  caller : Nat
  isStatic : Bool
  isLocal : Bool
  heap : Nat
  auxHeap : Nat
deriving DecidableEq, Repr

/-- Contracts below the unrestricted space have kernel rights. -/
def CallFrame.kernel (f : CallFrame) : Bool := decide (f.this < ADDRESS_UNRESTRICTED_SPACE.toNat)

/-- What is checked before an instruction of the frame is executed; `holds` says which conditions hold. -/
def CallFrame.checks (f : CallFrame) (holds : Condition → Bool) : Checks := ⟨f.ergs, f.kernel, f.isStatic, holds⟩

/-- Bits of a program counter -/
abbrev pcBits : Mode → Nat
  | .production => 16
  | .testing => 32

/-- The decoder of the mode -/
def decode : (m : Mode) → BitVec m.bits → Res (DecodedOpcode (pcBits m) × VariantMonotonicNumber)
  | .production => Production.parse
  | .testing => Testing.parse

/-- In frame `f` the word `w` has price `price`, and `issued` is what is executed for it. -/
def Issues (m : Mode) (f : CallFrame) (w : BitVec m.bits) (price : Nat) (issued : OpcodeVariant) : Prop :=
  ∃ prices masks base o n mask holds,
    OPCODES_PRICES = .ok prices ∧ OPCODES_PROPS_INTEGER_BITMASKS = .ok masks ∧
    totalDescriptionBitsRoundedForVersion DEFAULT_ISA_VERSION = .ok base ∧
    decode m w = .ok (o, n) ∧ prices[n.intoUsize]? = some price ∧ masks[n.intoUsize]? = some mask ∧
    (guarded (f.checks holds) base o price mask).variant = issued

/-- What is recorded of a cycle: the word, what was executed for it, whether its price was paid (otherwise the frame had
too few ergs, and lost them), the bytes of heap and auxiliary heap bought, the code that was loaded, and of a call its
ABI word and its destination. -/
structure Cycle (m : Mode) where
  word : BitVec m.bits
  issued : OpcodeVariant
  paid : Bool
  grown : Nat
  loaded : List (List (Vector Byte 32))
  call : Option (U256 × Nat)

/-- The frame with `e` ergs left and larger heaps, bought for `MEMORY_GROWTH_ERGS_PER_BYTE` a byte: `f'` is the frame after
that and after spending any further ergs, `bytes` is what was bought. -/
def Spends (f : CallFrame) (e : Nat) (f' : CallFrame) (bytes : Nat) : Prop :=
  ∃ heap auxHeap further, f.heap ≤ heap ∧ f.auxHeap ≤ auxHeap ∧
    bytes = heap - f.heap + (auxHeap - f.auxHeap) ∧
    bytes * MEMORY_GROWTH_ERGS_PER_BYTE + further ≤ e ∧
    f' = { f with ergs := e - bytes * MEMORY_GROWTH_ERGS_PER_BYTE - further, heap, auxHeap }

/-- Ergs passed by a near call out of `e`: zero in the ABI word means all of them. -/
def nearPassed (abi : U256) (e : Nat) : Nat :=
  let n := (NearCallABI.fromU256 abi).ergsPassed.toNat
  if n = 0 then e else min n e

/-- Ergs passed by a far call to `dest` out of `e`: at most what the ABI word asks for, and to the message-value simulator
its additive cost besides. -/
def FarPassed (abi : U256) (dest e passed : Nat) : Prop :=
  passed ≤ e ∧ passed ≤ (FarCallABI.fromU256 abi).ergsPassed.toNat +
    if dest = ADDRESS_MSG_VALUE.toNat then MSG_VALUE_SIMULATOR_ADDITIVE_COST else 0

/-- The frame of a far call of kind `k` to `dest`. A normal call runs the callee in its own name; a delegate call runs its
code in the name of the caller; a mimic call pretends to come from `pretended`. -/
def farCallee (f : CallFrame) (v : OpcodeVariant) (k : FarCallOpcode) (dest pretended passed : Nat) : CallFrame where
  ergs := passed
  this := match k with | .delegate => f.this | _ => dest
  code := dest
  caller := match k with | .normal => f.this | .delegate => f.caller | .mimic => pretended
  isStatic := f.isStatic || flagAt v.flags FAR_CALL_STATIC_FLAG_IDX
  isLocal := false
  heap := NEW_FRAME_MEMORY_STIPEND
  auxHeap := NEW_FRAME_MEMORY_STIPEND

/-- The stack after frame `f` has ended and gives back `back` ergs: a local frame also hands its heaps over. -/
def resume (f : CallFrame) (back : Nat) : List CallFrame → List CallFrame
  | [] => []
  | g :: rest =>
    { g with ergs := g.ergs + back, heap := if f.isLocal then f.heap else g.heap,
             auxHeap := if f.isLocal then f.auxHeap else g.auxHeap } :: rest

/-- One cycle, on the stack of frames, running frame first. -/
inductive Step (m : Mode) : List CallFrame → Cycle m → List CallFrame → Prop
  /-- anything but calls and returns -/
  | proceed {f f' : CallFrame} {rest : List CallFrame} {w : BitVec m.bits} {p bytes : Nat} {v : OpcodeVariant} :
      Issues m f w p v → (∀ o, v.opcode ≠ .nearCall o) → (∀ o, v.opcode ≠ .farCall o) → (∀ o, v.opcode ≠ .ret o) →
      p ≤ f.ergs → Spends f (f.ergs - p) f' bytes →
      Step m (f :: rest) ⟨w, v, true, bytes, [], none⟩ (f' :: rest)
  /-- a near call with the ABI word `abi` -/
  | nearCall {f : CallFrame} {rest : List CallFrame} {w : BitVec m.bits} {p : Nat} {v : OpcodeVariant} (abi : U256) :
      Issues m f w p v → v.opcode = .nearCall .mk → p ≤ f.ergs →
      Step m (f :: rest) ⟨w, v, true, 0, [], some (abi, f.code)⟩
        ({ f with ergs := nearPassed abi (f.ergs - p), isLocal := true } ::
         { f with ergs := f.ergs - p - nearPassed abi (f.ergs - p) } :: rest)
  /-- a far call with the ABI word `abi` to `dest`, which buys memory for its arguments and pays for loading the callee's code
  if that has to be loaded -/
  | farCall {f f' : CallFrame} {rest : List CallFrame} {w : BitVec m.bits} {p bytes : Nat} {v : OpcodeVariant}
      {k : FarCallOpcode} {loaded : List (List (Vector Byte 32))} (abi : U256) (dest pretended passed : Nat) :
      Issues m f w p v → v.opcode = .farCall k → p ≤ f.ergs → loaded.length ≤ 1 →
      (loaded.map List.length).sum * ERGS_PER_CODE_WORD_DECOMMITTMENT ≤ f.ergs - p →
      Spends f (f.ergs - p - (loaded.map List.length).sum * ERGS_PER_CODE_WORD_DECOMMITTMENT) f' bytes →
      FarPassed abi dest f'.ergs passed →
      Step m (f :: rest) ⟨w, v, true, bytes, loaded, some (abi, dest)⟩
        (farCallee f v k dest pretended passed :: { f' with ergs := f'.ergs - passed } :: rest)
  /-- return or revert: the caller gets what is left -/
  | ret {f f' : CallFrame} {rest : List CallFrame} {w : BitVec m.bits} {p bytes : Nat} {v : OpcodeVariant} {r : RetOpcode} :
      Issues m f w p v → v.opcode = .ret r → r ≠ .panic → p ≤ f.ergs → Spends f (f.ergs - p) f' bytes →
      Step m (f :: rest) ⟨w, v, true, bytes, [], none⟩ (resume f' f'.ergs rest)
  /-- panic, also the one that replaces an instruction that is not allowed or cannot be paid for: the ergs are lost -/
  | panic {f : CallFrame} {rest : List CallFrame} {w : BitVec m.bits} {p : Nat} {v : OpcodeVariant} :
      Issues m f w p v → v.opcode = .ret .panic →
      Step m (f :: rest) ⟨w, v, decide (p ≤ f.ergs), 0, [], none⟩ (resume f 0 rest)
  /-- an exception left by the cycle before, as by a far call that cannot be made: panic whatever the word is -/
  | pending {f : CallFrame} {rest : List CallFrame} {w : BitVec m.bits} {v : OpcodeVariant} :
      v.opcode = .ret .panic → Step m (f :: rest) ⟨w, v, false, 0, [], none⟩ (resume f 0 rest)

/-- `During m k s cs t`: the cycles `cs`, oldest first, lead from the stack `s` to `t`, and each of them starts with more than
`k` frames. So with `k + 1` frames in `s` they are a whole call, or its beginning. -/
inductive During (m : Mode) (k : Nat) : List CallFrame → List (Cycle m) → List CallFrame → Prop
  | none (s : List CallFrame) : During m k s [] s
  | step {s t u : List CallFrame} {c : Cycle m} {cs : List (Cycle m)} : k < s.length → Step m s c t → During m k t cs u →
      During m k s (c :: cs) u

/-- Ergs of all frames -/
def totalErgs (s : List CallFrame) : Nat := (s.map (·.ergs)).sum

/-- The words whose price was paid -/
def executed {m : Mode} (cs : List (Cycle m)) : List (BitVec m.bits) := (cs.filter (·.paid)).map (·.word)

/-- Bytes of heap and auxiliary heap bought -/
def grown {m : Mode} (cs : List (Cycle m)) : Nat := (cs.map (·.grown)).sum

/-- Codes loaded -/
def loaded {m : Mode} (cs : List (Cycle m)) : List (List (Vector Byte 32)) := cs.flatMap (·.loaded)

/-- Where the program counter stands after the first frame has ended: a return leads to the successful exit, anything else to
the location of the exception handler of that frame. -/
def exitPc : RetOpcode → BitVec 16
  | .ok => INITIAL_FRAME_SUCCESSFUL_EXIT_PC
  | .revert | .panic => INITIAL_FRAME_FORMAL_EH_LOCATION

end ZkEvm.Spec.Frames
