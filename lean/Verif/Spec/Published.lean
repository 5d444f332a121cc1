import Verif.Model.Table
import Verif.Model.Decoding
import Verif.Model.PriceGenerator
import Verif.Spec.History
/-! Vocabulary for the constants the crate publishes: names of flags, what circuits an instruction uses. -/
namespace ZkEvm.Spec

/-- What a flag of an instruction means -/
inductive FlagName
  | setFlags | swapOperands | staticCall | shardCall | firstMessage | toLabel | increment
deriving DecidableEq, Repr

/-- The flags of an opcode and their published positions -/
def flagPositions : Opcode → List (FlagName × Nat)
  | .add _ | .mul _ | .binop _ => [(.setFlags, SET_FLAGS_FLAG_IDX)]
  | .sub _ | .div _ | .shift _ =>
    [(.setFlags, SET_FLAGS_FLAG_IDX), (.swapOperands, SWAP_OPERANDS_FLAG_IDX_FOR_ARITH_OPCODES)]
  | .ptr _ => [(.swapOperands, SWAP_OPERANDS_FLAG_IDX_FOR_PTR_OPCODE)]
  | .farCall _ => [(.staticCall, FAR_CALL_STATIC_FLAG_IDX), (.shardCall, FAR_CALL_SHARD_FLAG_IDX)]
  | .log .toL1Message | .log .event => [(.firstMessage, FIRST_MESSAGE_FLAG_IDX)]
  | .ret _ => [(.toLabel, RET_TO_LABEL_BIT_IDX)]
  | .uma _ => [(.increment, UMA_INCREMENT_FLAG_IDX)]
  | .invalid _ | .nop _ | .jump _ | .nearCall _ | .context _ | .log _ => []

/-- Flag number `i` -/
def flagAt (f : Flags) (i : Nat) : Bool := if i = 0 then f.f0 else if i = 1 then f.f1 else false

/-- The instruction with flag number `i` set to `b` -/
def setFlagAt (v : OpcodeVariant) (i : Nat) (b : Bool) : OpcodeVariant :=
  { v with flags := if i = 0 then { v.flags with f0 := b } else if i = 1 then { v.flags with f1 := b } else v.flags }

/-- What an instruction uses of the circuits: VM cycles, RAM accesses, log queue entries, storage queue entries, event
and message queue entries, code requests -/
structure Usage where
  cycles : Nat
  ram : Nat
  logs : Nat
  storage : Nat
  events : Nat
  code : Nat
deriving DecidableEq, Repr

/-- Usage by opcode. Instructions with memory operands are charged for two RAM accesses, heap writes for five (one to
fetch the instruction, two reads and two writes); far calls, writes, events and messages take a second cycle or a
second queue entry for a possible rollback. -/
def usage : Opcode → Usage
  | .invalid _ | .context _ | .ret _ | .nearCall _ => ⟨1, 1, 0, 0, 0, 0⟩
  | .nop _ | .add _ | .sub _ | .mul _ | .div _ | .jump _ | .shift _ | .binop _ | .ptr _ => ⟨1, 2, 0, 0, 0, 0⟩
  | .farCall _ => ⟨2, 1, 0, 1, 0, 1⟩
  | .log .storageRead => ⟨1, 1, 1, 1, 0, 0⟩
  | .log .storageWrite => ⟨2, 1, 2, 2, 0, 0⟩
  | .log .toL1Message | .log .event => ⟨2, 1, 2, 0, 2, 0⟩
  | .log .precompileCall => ⟨1, 1, 1, 0, 0, 0⟩
  | .uma .heapRead | .uma .auxHeapRead | .uma .fatPointerRead => ⟨1, 3, 0, 0, 0, 0⟩
  | .uma .heapWrite | .uma .auxHeapWrite => ⟨2, 5, 0, 0, 0, 0⟩

/-- Usage of the instruction in a program word -/
def usageOf (m : Mode) (w : BitVec m.bits) : Usage := ((opcodeOf m w).map usage).getD ⟨0, 0, 0, 0, 0, 0⟩

/-- The ergs for this usage at the unit prices of the circuits -/
def circuitErgs (u : Usage) : Nat :=
  u.cycles * VM_CYCLE_COST_IN_ERGS + u.ram * RAM_PERMUTATION_COST_IN_ERGS + u.logs * LOG_DEMUXER_COST_IN_ERGS
  + u.storage * STORAGE_SORTER_COST_IN_ERGS + u.events * EVENTS_OR_L1_MESSAGES_SORTER_COST_IN_ERGS
  + u.code * CODE_DECOMMITMENT_SORTER_COST_IN_ERGS

/-- The ergs for access to the state and for callstack entries, by the published prices. A far call reads the code hash
of its target from storage. -/
def stateErgs : Opcode → Nat
  | .log .storageRead => STORAGE_READ_IO_PRICE
  | .log .storageWrite => STORAGE_WRITE_IO_PRICE
  | .log .event => EVENT_IO_PRICE
  | .log .toL1Message => L1_MESSAGE_IO_PRICE
  | .nearCall _ => CALL_LIKE_ERGS_COST
  | .farCall _ => STORAGE_READ_IO_PRICE + CALL_LIKE_ERGS_COST
  | _ => 0

/-- The published minimal prices: protection against reentrancy, against too many messages, and the invalid opcode -/
def leastErgs : Opcode → Nat
  | .log .storageWrite => MIN_STORAGE_WRITE_COST
  | .log .toL1Message => L1_MESSAGE_MIN_COST_IN_ERGS
  | .invalid _ => INVALID_OPCODE_ERGS
  | _ => 0

/-- Circuits that are filled up completely by a sequence of instructions, over all six kinds -/
def filledCircuits (m : Mode) (ws : List (BitVec m.bits)) : Nat :=
  (ws.map fun w => (usageOf m w).cycles).sum / PriceGenerator.CYCLES_PER_VM_SNAPSHOT
  + (ws.map fun w => (usageOf m w).ram).sum / PriceGenerator.CYCLES_PER_RAM_PERMUTATION
  + (ws.map fun w => (usageOf m w).logs).sum / PriceGenerator.CYCLES_FOR_LOG_DEMUXER
  + (ws.map fun w => (usageOf m w).storage).sum / PriceGenerator.CYCLES_FOR_STORAGE_SORTER
  + (ws.map fun w => (usageOf m w).events).sum / PriceGenerator.CYCLES_FOR_EVENTS_OR_L1_MESSAGES_SORTER
  + (ws.map fun w => (usageOf m w).code).sum / PriceGenerator.CYCLES_FOR_CODE_DECOMMITTER_SORTER

end ZkEvm.Spec
