import Verif.Model.Prices
import Verif.Model.Basic
/-! Model of `src/circuit_pricing_generator/main.rs`, the program that writes `src/circuit_prices.rs`.
The text handed to `write_all` is the result; the writing of the file is in `Model/GeneratorRun.lean`. -/
namespace ZkEvm.PriceGenerator

/-- `src/circuit_pricing_generator/main.rs:13` -/
def CYCLES_PER_VM_SNAPSHOT : Nat := 23000
/-- `src/circuit_pricing_generator/main.rs:14` -/
def CYCLES_PER_RAM_PERMUTATION : Nat := 260000
/-- `src/circuit_pricing_generator/main.rs:15` -/
def CYCLES_PER_CODE_DECOMMITTER : Nat := 12100
/-- `src/circuit_pricing_generator/main.rs:16` -/
def CYCLES_PER_STORAGE_APPLICATION : Nat := 118
/-- `src/circuit_pricing_generator/main.rs:17` -/
def CYCLES_PER_KECCAK256_CIRCUIT : Nat := 2050
/-- `src/circuit_pricing_generator/main.rs:18` -/
def CYCLES_PER_SHA256_CIRCUIT : Nat := 11500
/-- `src/circuit_pricing_generator/main.rs:19` -/
def CYCLES_PER_ECRECOVER_CIRCUIT : Nat := 72
/-- `src/circuit_pricing_generator/main.rs:20` -/
def CYCLES_FOR_CODE_DECOMMITTER_SORTER : Nat := 192500
/-- `src/circuit_pricing_generator/main.rs:21` -/
def CYCLES_FOR_LOG_DEMUXER : Nat := 101500
/-- `src/circuit_pricing_generator/main.rs:22` -/
def CYCLES_FOR_STORAGE_SORTER : Nat := 79000
/-- `src/circuit_pricing_generator/main.rs:23` -/
def CYCLES_FOR_EVENTS_OR_L1_MESSAGES_SORTER : Nat := 88000
/-- `src/circuit_pricing_generator/main.rs:26` -/
def LIMIT_FOR_L1_MESSAGES_MERKLIZER : Nat := 512
/-- `src/circuit_pricing_generator/main.rs:27` -/
def LIMIT_FOR_INITIAL_WRITES_PUBDATA_HASHER : Nat := 4600
/-- `src/circuit_pricing_generator/main.rs:28` -/
def LIMIT_FOR_REPEATED_WRITES_PUBDATA_HASHER : Nat := 7400

/-- Everything the generator computes from: the constants `src/circuit_pricing_generator/main.rs:4-7,13-28`, as a
parameter, so that what `main` does can be stated for other values than the present ones. All are `u32` but the two
numbers of pubdata bytes, which are `usize` and are cast where they are used. -/
structure Params where
  ergsPerCircuit : Nat
  maxTxErgsLimit : Nat
  maxPubdataPerBlock : Nat
  initialStorageWritePubdataBytes : Nat
  repeatedStorageWritePubdataBytes : Nat
  cyclesPerVmSnapshot : Nat
  cyclesPerRamPermutation : Nat
  cyclesPerCodeDecommitter : Nat
  cyclesPerStorageApplication : Nat
  cyclesPerKeccak256Circuit : Nat
  cyclesPerSha256Circuit : Nat
  cyclesPerEcrecoverCircuit : Nat
  cyclesForCodeDecommitterSorter : Nat
  cyclesForLogDemuxer : Nat
  cyclesForStorageSorter : Nat
  cyclesForEventsOrL1MessagesSorter : Nat
  limitForL1MessagesMerklizer : Nat
  limitForInitialWritesPubdataHasher : Nat
  limitForRepeatedWritesPubdataHasher : Nat

/-- The present values, `src/circuit_pricing_generator/main.rs:4-7,13-28` -/
def current : Params where
  ergsPerCircuit := ERGS_PER_CIRCUIT
  maxTxErgsLimit := MAX_TX_ERGS_LIMIT
  maxPubdataPerBlock := MAX_PUBDATA_PER_BLOCK
  initialStorageWritePubdataBytes := INITIAL_STORAGE_WRITE_PUBDATA_BYTES
  repeatedStorageWritePubdataBytes := REPEATED_STORAGE_WRITE_PUBDATA_BYTES
  cyclesPerVmSnapshot := CYCLES_PER_VM_SNAPSHOT
  cyclesPerRamPermutation := CYCLES_PER_RAM_PERMUTATION
  cyclesPerCodeDecommitter := CYCLES_PER_CODE_DECOMMITTER
  cyclesPerStorageApplication := CYCLES_PER_STORAGE_APPLICATION
  cyclesPerKeccak256Circuit := CYCLES_PER_KECCAK256_CIRCUIT
  cyclesPerSha256Circuit := CYCLES_PER_SHA256_CIRCUIT
  cyclesPerEcrecoverCircuit := CYCLES_PER_ECRECOVER_CIRCUIT
  cyclesForCodeDecommitterSorter := CYCLES_FOR_CODE_DECOMMITTER_SORTER
  cyclesForLogDemuxer := CYCLES_FOR_LOG_DEMUXER
  cyclesForStorageSorter := CYCLES_FOR_STORAGE_SORTER
  cyclesForEventsOrL1MessagesSorter := CYCLES_FOR_EVENTS_OR_L1_MESSAGES_SORTER
  limitForL1MessagesMerklizer := LIMIT_FOR_L1_MESSAGES_MERKLIZER
  limitForInitialWritesPubdataHasher := LIMIT_FOR_INITIAL_WRITES_PUBDATA_HASHER
  limitForRepeatedWritesPubdataHasher := LIMIT_FOR_REPEATED_WRITES_PUBDATA_HASHER

/-- `u32` addition: panics on overflow with overflow checks (debug), wraps without (release);
`src/circuit_pricing_generator/main.rs:30-33` -/
def addU32 (a b : Nat) (build : Build := .debug) : Res Nat :=
  match build with
  | .debug => if a + b < 2 ^ 32 then .ok (a + b) else .error .arithOverflow
  | .release => .ok ((a + b) % 2 ^ 32)
/-- `u32` subtraction: panics on overflow with overflow checks (debug), wraps without (release);
`src/circuit_pricing_generator/main.rs:30-33` -/
def subU32 (a b : Nat) (build : Build := .debug) : Res Nat :=
  match build with
  | .debug => if b ≤ a then .ok (a - b) else .error .arithOverflow
  | .release => .ok ((a + 2 ^ 32 - b) % 2 ^ 32)
/-- `u32` multiplication: panics on overflow with overflow checks (debug), wraps without (release);
`src/circuit_pricing_generator/main.rs:56-57` -/
def mulU32 (a b : Nat) (build : Build := .debug) : Res Nat :=
  match build with
  | .debug => if a * b < 2 ^ 32 then .ok (a * b) else .error .arithOverflow
  | .release => .ok (a * b % 2 ^ 32)
/-- `u32` division; `src/circuit_pricing_generator/main.rs:30-33` -/
def divU32 (a b : Nat) : Res Nat := if b = 0 then .error .divByZero else .ok (a / b)

/-- `ceil_div`, `src/circuit_pricing_generator/main.rs:31-33`, arguments are `u32` values -/
def ceilDiv (a b : Nat) (build : Build := .debug) : Res Nat := do
  divU32 (← subU32 (← addU32 a b build) 1 build) b

/-- `ergs_constant`, `src/circuit_pricing_generator/main.rs:35-37` -/
def ergsConstant (name : String) (value : Nat) : String :=
  "pub const " ++ name ++ ": u32 = " ++ toString value ++ ";\n"

/-- `comment`, `src/circuit_pricing_generator/main.rs:39-41` -/
def comment (c : String) : String := "\n// " ++ c ++ "\n"

/-- An item of the `vec![…]` in `main`: a named constant or a comment; `src/circuit_pricing_generator/main.rs:78-157` -/
inductive Item
  | const (name : String) (value : Nat)
  | comment (text : String)
deriving DecidableEq, Repr

/-- Text of an item, `src/circuit_pricing_generator/main.rs:35-41` -/
def Item.text : Item → String
  | .const n v => ergsConstant n v
  | .comment c => PriceGenerator.comment c

/-- `min_price_for_initial_pubdata_write`, `src/circuit_pricing_generator/main.rs:56-65`; `as u32` is `% 2 ^ 32` -/
def minPriceForInitialPubdataWrite (build : Build := .debug) (p : Params := current) : Res Nat := do
  let maxPossible ← mulU32 p.limitForInitialWritesPubdataHasher (p.initialStorageWritePubdataBytes % 2 ^ 32) build
  if p.maxPubdataPerBlock ≤ maxPossible then .ok 0
  else ceilDiv p.maxTxErgsLimit p.limitForInitialWritesPubdataHasher build

/-- `min_price_for_repeated_pubdata_write`, `src/circuit_pricing_generator/main.rs:67-76`; `as u32` is `% 2 ^ 32` -/
def minPriceForRepeatedPubdataWrite (build : Build := .debug) (p : Params := current) : Res Nat := do
  let maxPossible ← mulU32 p.limitForRepeatedWritesPubdataHasher (p.repeatedStorageWritePubdataBytes % 2 ^ 32) build
  if p.maxPubdataPerBlock ≤ maxPossible then .ok 0
  else ceilDiv p.maxTxErgsLimit p.limitForRepeatedWritesPubdataHasher build

/-- The items of `circuit_prices`, `src/circuit_pricing_generator/main.rs:78-157` -/
def circuitPrices (build : Build := .debug) (p : Params := current) : Res (List Item) := do
  let initial ← minPriceForInitialPubdataWrite build p
  let repeated ← minPriceForRepeatedPubdataWrite build p
  .ok [
    .const "VM_CYCLE_COST_IN_ERGS" (← ceilDiv p.ergsPerCircuit p.cyclesPerVmSnapshot build),
    .const "RAM_PERMUTATION_COST_IN_ERGS" (← ceilDiv p.ergsPerCircuit p.cyclesPerRamPermutation build),
    .const "CODE_DECOMMITMENT_COST_PER_WORD_IN_ERGS"
      (← ceilDiv p.ergsPerCircuit (← mulU32 2 p.cyclesPerCodeDecommitter build) build),
    .const "STORAGE_APPLICATION_COST_IN_ERGS" (← ceilDiv p.ergsPerCircuit p.cyclesPerStorageApplication build),
    .const "CODE_DECOMMITTER_SORTER_COST_IN_ERGS"
      (← ceilDiv p.ergsPerCircuit p.cyclesForCodeDecommitterSorter build),
    .const "LOG_DEMUXER_COST_IN_ERGS" (← ceilDiv p.ergsPerCircuit p.cyclesForLogDemuxer build),
    .const "STORAGE_SORTER_COST_IN_ERGS" (← ceilDiv p.ergsPerCircuit p.cyclesForStorageSorter build),
    .const "EVENTS_OR_L1_MESSAGES_SORTER_COST_IN_ERGS"
      (← ceilDiv p.ergsPerCircuit p.cyclesForEventsOrL1MessagesSorter build),
    .const "INITIAL_WRITES_PUBDATA_HASHER_COST_IN_ERGS"
      (← ceilDiv p.ergsPerCircuit p.limitForInitialWritesPubdataHasher build),
    .const "REPEATED_WRITES_PUBDATA_HASHER_COST_IN_ERGS"
      (← ceilDiv p.ergsPerCircuit p.limitForRepeatedWritesPubdataHasher build),
    .const "CODE_DECOMMITMENT_SORTER_COST_IN_ERGS"
      (← ceilDiv p.ergsPerCircuit p.cyclesForCodeDecommitterSorter build),
    .comment "The following circuits are single-instance and so the provided prices are just minimal prices to preserve DDoS safety",
    .const "L1_MESSAGE_MIN_COST_IN_ERGS" (← ceilDiv p.maxTxErgsLimit p.limitForL1MessagesMerklizer build),
    .const "INITIAL_WRITES_PUBDATA_HASHER_MIN_COST_IN_ERGS" initial,
    .const "REPEATED_WRITES_PUBDATA_HASHER_MIN_COST_IN_ERGS" repeated,
    .comment "Equals to max(INITIAL_WRITES_PUBDATA_HASHER_MIN_COST_IN_ERGS, REPEATED_WRITES_PUBDATA_HASHER_MIN_COST_IN_ERGS)",
    .const "STORAGE_WRITE_HASHER_MIN_COST_IN_ERGS" (max initial repeated),
    .comment "The following constants should not be used in the VM directly, but only in Solidity wrappers",
    .const "KECCAK256_CIRCUIT_COST_IN_ERGS" (← ceilDiv p.ergsPerCircuit p.cyclesPerKeccak256Circuit build),
    .const "SHA256_CIRCUIT_COST_IN_ERGS" (← ceilDiv p.ergsPerCircuit p.cyclesPerSha256Circuit build),
    .const "ECRECOVER_CIRCUIT_COST_IN_ERGS" (← ceilDiv p.ergsPerCircuit p.cyclesPerEcrecoverCircuit build) ]

/-- The text written by `main` through `save_circiut_prices`,
`src/circuit_pricing_generator/main.rs:43-53,78-159` -/
def fileContent (build : Build := .debug) (p : Params := current) : Res String := do
  let items ← circuitPrices build p
  .ok ("// This file is auto-generated, do not edit it manually\n"
    ++ "// Any changes to this file require system upgrade!\n\n"
    ++ String.join (items.map Item.text))

end ZkEvm.PriceGenerator
