import Verif.Model.Prices
/-! The text of the committed `src/circuit_prices.rs`, line by line, and the circuits' capacities. -/
namespace ZkEvm.Spec

/-- `src/circuit_prices.rs:1-27`, the whole file -/
def committedPriceFile : String :=
  "// This file is auto-generated, do not edit it manually\n" ++
  "// Any changes to this file require system upgrade!\n" ++
  "\n" ++
  "pub const VM_CYCLE_COST_IN_ERGS: u32 = 4;\n" ++
  "pub const RAM_PERMUTATION_COST_IN_ERGS: u32 = 1;\n" ++
  "pub const CODE_DECOMMITMENT_COST_PER_WORD_IN_ERGS: u32 = 4;\n" ++
  "pub const STORAGE_APPLICATION_COST_IN_ERGS: u32 = 678;\n" ++
  "pub const CODE_DECOMMITTER_SORTER_COST_IN_ERGS: u32 = 1;\n" ++
  "pub const LOG_DEMUXER_COST_IN_ERGS: u32 = 1;\n" ++
  "pub const STORAGE_SORTER_COST_IN_ERGS: u32 = 2;\n" ++
  "pub const EVENTS_OR_L1_MESSAGES_SORTER_COST_IN_ERGS: u32 = 1;\n" ++
  "pub const INITIAL_WRITES_PUBDATA_HASHER_COST_IN_ERGS: u32 = 18;\n" ++
  "pub const REPEATED_WRITES_PUBDATA_HASHER_COST_IN_ERGS: u32 = 11;\n" ++
  "pub const CODE_DECOMMITMENT_SORTER_COST_IN_ERGS: u32 = 1;\n" ++
  "\n" ++
  "// The following circuits are single-instance and so the provided prices are just minimal prices to preserve DDoS safety\n" ++
  "pub const L1_MESSAGE_MIN_COST_IN_ERGS: u32 = 156250;\n" ++
  "pub const INITIAL_WRITES_PUBDATA_HASHER_MIN_COST_IN_ERGS: u32 = 0;\n" ++
  "pub const REPEATED_WRITES_PUBDATA_HASHER_MIN_COST_IN_ERGS: u32 = 0;\n" ++
  "\n" ++
  "// Equals to max(INITIAL_WRITES_PUBDATA_HASHER_MIN_COST_IN_ERGS, REPEATED_WRITES_PUBDATA_HASHER_MIN_COST_IN_ERGS)\n" ++
  "pub const STORAGE_WRITE_HASHER_MIN_COST_IN_ERGS: u32 = 0;\n" ++
  "\n" ++
  "// The following constants should not be used in the VM directly, but only in Solidity wrappers\n" ++
  "pub const KECCAK256_CIRCUIT_COST_IN_ERGS: u32 = 40;\n" ++
  "pub const SHA256_CIRCUIT_COST_IN_ERGS: u32 = 7;\n" ++
  "pub const ECRECOVER_CIRCUIT_COST_IN_ERGS: u32 = 1112;\n"

/-- The price constants of the file with the values the crate is compiled with (`Model/Prices.lean`), in file order -/
def priceConstants : List (String × Nat) := [
  ("VM_CYCLE_COST_IN_ERGS", VM_CYCLE_COST_IN_ERGS),
  ("RAM_PERMUTATION_COST_IN_ERGS", RAM_PERMUTATION_COST_IN_ERGS),
  ("CODE_DECOMMITMENT_COST_PER_WORD_IN_ERGS", CODE_DECOMMITMENT_COST_PER_WORD_IN_ERGS),
  ("STORAGE_APPLICATION_COST_IN_ERGS", STORAGE_APPLICATION_COST_IN_ERGS),
  ("CODE_DECOMMITTER_SORTER_COST_IN_ERGS", CODE_DECOMMITTER_SORTER_COST_IN_ERGS),
  ("LOG_DEMUXER_COST_IN_ERGS", LOG_DEMUXER_COST_IN_ERGS),
  ("STORAGE_SORTER_COST_IN_ERGS", STORAGE_SORTER_COST_IN_ERGS),
  ("EVENTS_OR_L1_MESSAGES_SORTER_COST_IN_ERGS", EVENTS_OR_L1_MESSAGES_SORTER_COST_IN_ERGS),
  ("INITIAL_WRITES_PUBDATA_HASHER_COST_IN_ERGS", INITIAL_WRITES_PUBDATA_HASHER_COST_IN_ERGS),
  ("REPEATED_WRITES_PUBDATA_HASHER_COST_IN_ERGS", REPEATED_WRITES_PUBDATA_HASHER_COST_IN_ERGS),
  ("CODE_DECOMMITMENT_SORTER_COST_IN_ERGS", CODE_DECOMMITMENT_SORTER_COST_IN_ERGS),
  ("L1_MESSAGE_MIN_COST_IN_ERGS", L1_MESSAGE_MIN_COST_IN_ERGS),
  ("INITIAL_WRITES_PUBDATA_HASHER_MIN_COST_IN_ERGS", INITIAL_WRITES_PUBDATA_HASHER_MIN_COST_IN_ERGS),
  ("REPEATED_WRITES_PUBDATA_HASHER_MIN_COST_IN_ERGS", REPEATED_WRITES_PUBDATA_HASHER_MIN_COST_IN_ERGS),
  ("STORAGE_WRITE_HASHER_MIN_COST_IN_ERGS", STORAGE_WRITE_HASHER_MIN_COST_IN_ERGS),
  ("KECCAK256_CIRCUIT_COST_IN_ERGS", KECCAK256_CIRCUIT_COST_IN_ERGS),
  ("SHA256_CIRCUIT_COST_IN_ERGS", SHA256_CIRCUIT_COST_IN_ERGS),
  ("ECRECOVER_CIRCUIT_COST_IN_ERGS", ECRECOVER_CIRCUIT_COST_IN_ERGS)]

/-- Units of work one circuit takes, for each price computed from a circuit's capacity -/
def capacities : List (String × Nat) := [
  ("VM_CYCLE_COST_IN_ERGS", 23000),
  ("RAM_PERMUTATION_COST_IN_ERGS", 260000),
  ("CODE_DECOMMITMENT_COST_PER_WORD_IN_ERGS", 2 * 12100),
  ("STORAGE_APPLICATION_COST_IN_ERGS", 118),
  ("CODE_DECOMMITTER_SORTER_COST_IN_ERGS", 192500),
  ("LOG_DEMUXER_COST_IN_ERGS", 101500),
  ("STORAGE_SORTER_COST_IN_ERGS", 79000),
  ("EVENTS_OR_L1_MESSAGES_SORTER_COST_IN_ERGS", 88000),
  ("INITIAL_WRITES_PUBDATA_HASHER_COST_IN_ERGS", 4600),
  ("REPEATED_WRITES_PUBDATA_HASHER_COST_IN_ERGS", 7400),
  ("CODE_DECOMMITMENT_SORTER_COST_IN_ERGS", 192500),
  ("KECCAK256_CIRCUIT_COST_IN_ERGS", 2050),
  ("SHA256_CIRCUIT_COST_IN_ERGS", 11500),
  ("ECRECOVER_CIRCUIT_COST_IN_ERGS", 72)]

end ZkEvm.Spec
