/-! Model of `src/circuit_prices.rs`, and of the price constants of `src/lib.rs` and
`src/system_params.rs`.  Rust types are `u32` (a few `usize`); modelled as `Nat`. The constant
expressions are evaluated by the compiler, which rejects overflow; `Nat` subtraction occurs once
(`MSG_VALUE_SIMULATOR_ADDITIVE_COST - MSG_VALUE_SIMULATOR_MIN_USED_ERGS`) and does not truncate. -/
namespace ZkEvm

/-! `src/circuit_prices.rs:4-27` -/
/-- `src/circuit_prices.rs:4` -/
def VM_CYCLE_COST_IN_ERGS : Nat := 4
/-- `src/circuit_prices.rs:5` -/
def RAM_PERMUTATION_COST_IN_ERGS : Nat := 1
/-- `src/circuit_prices.rs:6` -/
def CODE_DECOMMITMENT_COST_PER_WORD_IN_ERGS : Nat := 4
/-- `src/circuit_prices.rs:7` -/
def STORAGE_APPLICATION_COST_IN_ERGS : Nat := 678
/-- `src/circuit_prices.rs:8` -/
def CODE_DECOMMITTER_SORTER_COST_IN_ERGS : Nat := 1
/-- `src/circuit_prices.rs:9` -/
def LOG_DEMUXER_COST_IN_ERGS : Nat := 1
/-- `src/circuit_prices.rs:10` -/
def STORAGE_SORTER_COST_IN_ERGS : Nat := 2
/-- `src/circuit_prices.rs:11` -/
def EVENTS_OR_L1_MESSAGES_SORTER_COST_IN_ERGS : Nat := 1
/-- `src/circuit_prices.rs:12` -/
def INITIAL_WRITES_PUBDATA_HASHER_COST_IN_ERGS : Nat := 18
/-- `src/circuit_prices.rs:13` -/
def REPEATED_WRITES_PUBDATA_HASHER_COST_IN_ERGS : Nat := 11
/-- `src/circuit_prices.rs:14` -/
def CODE_DECOMMITMENT_SORTER_COST_IN_ERGS : Nat := 1
/-- `src/circuit_prices.rs:17` -/
def L1_MESSAGE_MIN_COST_IN_ERGS : Nat := 156250
/-- `src/circuit_prices.rs:18` -/
def INITIAL_WRITES_PUBDATA_HASHER_MIN_COST_IN_ERGS : Nat := 0
/-- `src/circuit_prices.rs:19` -/
def REPEATED_WRITES_PUBDATA_HASHER_MIN_COST_IN_ERGS : Nat := 0
/-- `src/circuit_prices.rs:22` -/
def STORAGE_WRITE_HASHER_MIN_COST_IN_ERGS : Nat := 0
/-- `src/circuit_prices.rs:25` -/
def KECCAK256_CIRCUIT_COST_IN_ERGS : Nat := 40
/-- `src/circuit_prices.rs:26` -/
def SHA256_CIRCUIT_COST_IN_ERGS : Nat := 7
/-- `src/circuit_prices.rs:27` -/
def ECRECOVER_CIRCUIT_COST_IN_ERGS : Nat := 1112

/-! `src/lib.rs:230-257` -/
/-- `src/lib.rs:230`: `u32::MAX` -/
def INVALID_OPCODE_ERGS : Nat := 2 ^ 32 - 1
/-- `src/lib.rs:239-240` -/
def RICH_ADDRESSING_OPCODE_ERGS : Nat := VM_CYCLE_COST_IN_ERGS + 2 * RAM_PERMUTATION_COST_IN_ERGS
/-- `src/lib.rs:241` -/
def AVERAGE_OPCODE_ERGS : Nat := VM_CYCLE_COST_IN_ERGS + RAM_PERMUTATION_COST_IN_ERGS
/-- `src/lib.rs:245` -/
def STORAGE_READ_IO_PRICE : Nat := 150
/-- `src/lib.rs:246` -/
def STORAGE_WRITE_IO_PRICE : Nat := 250
/-- `src/lib.rs:247` -/
def EVENT_IO_PRICE : Nat := 25
/-- `src/lib.rs:248` -/
def L1_MESSAGE_IO_PRICE : Nat := 100
/-- `src/lib.rs:251` -/
def CALL_LIKE_ERGS_COST : Nat := 20
/-- `src/lib.rs:253` -/
def ERGS_PER_CODE_WORD_DECOMMITTMENT : Nat := CODE_DECOMMITMENT_COST_PER_WORD_IN_ERGS

/-! `src/system_params.rs` -/
/-- `src/system_params.rs:4` -/
def MAX_TX_ERGS_LIMIT : Nat := 80000000
/-- `src/system_params.rs:6`: `u32::MAX` -/
def VM_INITIAL_FRAME_ERGS : Nat := 2 ^ 32 - 1
/-- `src/system_params.rs:9` -/
def ERGS_PER_CIRCUIT : Nat := 80000
/-- `src/system_params.rs:15` -/
def VM_MAX_STACK_DEPTH : Nat := VM_INITIAL_FRAME_ERGS / CALL_LIKE_ERGS_COST + 80
/-- `src/system_params.rs:26` -/
def INITIAL_STORAGE_WRITE_PUBDATA_BYTES : Nat := 64
/-- `src/system_params.rs:27` -/
def REPEATED_STORAGE_WRITE_PUBDATA_BYTES : Nat := 40
/-- `src/system_params.rs:28` -/
def L1_MESSAGE_PUBDATA_BYTES : Nat := 1 + 1 + 2 + 20 + 32 + 32
/-- `src/system_params.rs:33` -/
def MAX_PUBDATA_PER_BLOCK : Nat := 110000
/-- `src/system_params.rs:77` -/
def DECOMMITMENT_MSG_VALUE_SIMULATOR_OVERHEAD : Nat := 64000
/-- `src/system_params.rs:78-79` -/
def MSG_VALUE_SIMULATOR_ADDITIVE_COST : Nat := 11500 + DECOMMITMENT_MSG_VALUE_SIMULATOR_OVERHEAD
/-- `src/system_params.rs:83` -/
def MSG_VALUE_SIMULATOR_MIN_USED_ERGS : Nat := 8000 + DECOMMITMENT_MSG_VALUE_SIMULATOR_OVERHEAD

/-- `const fn max`, `src/system_params.rs:86-92` -/
def constMax (a b : Nat) : Nat := if a > b then a else b

/-- `src/system_params.rs:97-100` -/
def MIN_STORAGE_WRITE_PRICE_FOR_REENTRANCY_PROTECTION : Nat :=
  constMax (MSG_VALUE_SIMULATOR_ADDITIVE_COST - MSG_VALUE_SIMULATOR_MIN_USED_ERGS + 1) (2300 + 1)
/-- `src/system_params.rs:103-106` -/
def MIN_STORAGE_WRITE_COST : Nat :=
  constMax MIN_STORAGE_WRITE_PRICE_FOR_REENTRANCY_PROTECTION STORAGE_WRITE_HASHER_MIN_COST_IN_ERGS

end ZkEvm
