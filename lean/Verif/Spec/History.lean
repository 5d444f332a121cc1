import Verif.Model.Decoding
import Verif.Model.PriceGenerator
/-! Specification of executions and histories: instruction streams paid from an ergs budget, call stacks, circuits,
storage writes. Nothing in this file is a function of the crate; it says what its prices are used for. -/
namespace ZkEvm.Spec

/-- The two encodings of instructions -/
inductive Mode
  | production
  | testing
deriving DecidableEq, Repr

/-- Bits of a program word -/
abbrev Mode.bits : Mode → Nat
  | .production => 64
  | .testing => 128

/-- The opcode a program word decodes to -/
def opcodeOf : (m : Mode) → BitVec m.bits → Option Opcode
  | .production, w => (Production.parse w).toOption.map fun (decoded, _) => decoded.variant.opcode
  | .testing, w => (Testing.parse w).toOption.map fun (decoded, _) => decoded.variant.opcode

/-- `Executes prices e ws e'`: starting with `e` ergs the instructions `ws` are executed one after the other, each
paid for in full by the entry of `prices` at the word's low 11 bits; `e'` ergs are left. -/
inductive Executes {n : Nat} (prices : List Nat) : Nat → List (BitVec n) → Nat → Prop
  | stop (e : Nat) : Executes prices e [] e
  | step {w : BitVec n} {ws : List (BitVec n)} {p e e' : Nat} : prices[w.toNat % 2048]? = some p → p ≤ e →
      Executes prices (e - p) ws e' → Executes prices e (w :: ws) e'

/-- A call frame: the ergs it holds, and whether the instruction that pushed it was paid for -/
structure Frame where
  ergs : Nat
  paid : Bool
deriving DecidableEq, Repr

/-- Near call and the three far calls -/
def IsCall (o : Opcode) : Prop := (∃ x, o = .nearCall x) ∨ ∃ x, o = .farCall x

/-- One step of a call stack (top frame first). -/
inductive CallStep (m : Mode) (prices : List Nat) : List Frame → List Frame → Prop
  /-- the running frame spends ergs on anything -/
  | spend {f : Frame} {s : List Frame} {n : Nat} : n ≤ f.ergs →
      CallStep m prices (f :: s) ({ f with ergs := f.ergs - n } :: s)
  /-- a call instruction: pays its price, then passes any part of the rest to the new frame -/
  | call {f : Frame} {s : List Frame} {w : BitVec m.bits} {o : Opcode} {p passed : Nat} :
      opcodeOf m w = some o → IsCall o → prices[w.toNat % 2048]? = some p → p + passed ≤ f.ergs →
      CallStep m prices (f :: s) (⟨passed, true⟩ :: { f with ergs := f.ergs - p - passed } :: s)
  /-- a frame pushed without paying (by the system itself) -/
  | pushUnpaid {f : Frame} {s : List Frame} {passed : Nat} : passed ≤ f.ergs →
      CallStep m prices (f :: s) (⟨passed, false⟩ :: { f with ergs := f.ergs - passed } :: s)
  /-- return, revert or panic: the caller gets back at most what the frame still holds -/
  | ret {f g : Frame} {s : List Frame} {back : Nat} : back ≤ f.ergs →
      CallStep m prices (f :: g :: s) ({ g with ergs := g.ergs + back } :: s)

/-- Frames that were not paid for (the initial one included) -/
def unpaidFrames (s : List Frame) : Nat := s.countP fun f => !f.paid

/-- Histories of any length from a single frame with `e` ergs, that never have more than `k` unpaid frames besides
the initial one -/
inductive CallHistory (m : Mode) (prices : List Nat) (e k : Nat) : List Frame → Prop
  | start : CallHistory m prices e k [⟨e, false⟩]
  | step {s t : List Frame} : CallHistory m prices e k s → CallStep m prices s t → unpaidFrames t ≤ 1 + k →
      CallHistory m prices e k t

/-- `q` is the least number with `a ≤ b * q`, the quotient rounded up -/
def IsCeilDiv (a b q : Nat) : Prop := a ≤ b * q ∧ ∀ k, a ≤ b * k → q ≤ k

/-- A storage write is initial or repeated. -/
inductive WriteKind
  | initial
  | repeated
deriving DecidableEq, Repr

/-- Published bytes of a sequence of writes -/
def pubdata (ws : List WriteKind) : Nat :=
  (ws.map fun | .initial => INITIAL_STORAGE_WRITE_PUBDATA_BYTES | .repeated => REPEATED_STORAGE_WRITE_PUBDATA_BYTES).sum

/-- The price list in ergs, opcode by opcode -/
def priceOf : Opcode → Nat
  | .invalid _ => 4294967295
  | .nop _ | .add _ | .sub _ | .mul _ | .div _ | .jump _ | .shift _ | .binop _ | .ptr _ => 6
  | .context _ | .ret _ => 5
  | .nearCall _ => 25
  | .farCall _ => 182
  | .log .storageRead => 158
  | .log .storageWrite => 3501
  | .log .toL1Message => 156250
  | .log .event => 38
  | .log .precompileCall => 6
  | .uma .heapRead | .uma .auxHeapRead | .uma .fatPointerRead => 7
  | .uma .heapWrite | .uma .auxHeapWrite => 13

end ZkEvm.Spec
