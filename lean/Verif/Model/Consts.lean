import Verif.Model.Basic
/-! Model of the free-standing constants: register conventions, flag positions and pointer bounds. -/
namespace ZkEvm

/-- `REGISTERS_COUNT`, `src/lib.rs:1` -/
def REGISTERS_COUNT : Nat := 15
/-- `REGISTER_INDEX_ENCODING_BITS`, `src/lib.rs:53` -/
def REGISTER_INDEX_ENCODING_BITS : Nat := 4
/-- `VARIANT_AND_CONDITION_ENCODING_BITS`, `src/lib.rs:51` -/
def VARIANT_AND_CONDITION_ENCODING_BITS : Nat := 16

/-- `CALL_IMPLICIT_CALLDATA_FAT_PTR_REGISTER`, `src/definitions/far_call.rs:9` -/
def CALL_IMPLICIT_CALLDATA_FAT_PTR_REGISTER : Nat := 0
/-- `CALL_IMPLICIT_CONSTRUCTOR_MARKER_REGISTER`, `src/definitions/far_call.rs:10` -/
def CALL_IMPLICIT_CONSTRUCTOR_MARKER_REGISTER : Nat := 1
/-- `CALL_SYSTEM_ABI_REGISTERS = 2..12`, `src/definitions/far_call.rs:11` (start, end-exclusive) -/
def CALL_SYSTEM_ABI_REGISTERS : Nat × Nat := (2, 12)
/-- `CALL_RESERVED_RANGE = 12..14`, `src/definitions/far_call.rs:12` (start, end-exclusive) -/
def CALL_RESERVED_RANGE : Nat × Nat := (12, 14)
/-- `CALL_IMPLICIT_PARAMETER_REG_IDX`, `src/definitions/far_call.rs:13` -/
def CALL_IMPLICIT_PARAMETER_REG_IDX : Nat := 14

/-- `RET_IMPLICIT_RETURNDATA_PARAMS_REGISTER`, `src/definitions/ret.rs:3` -/
def RET_IMPLICIT_RETURNDATA_PARAMS_REGISTER : Nat := 0
/-- `RET_RESERVED_REGISTER_0`, `src/definitions/ret.rs:4` -/
def RET_RESERVED_REGISTER_0 : Nat := 1
/-- `RET_RESERVED_REGISTER_1`, `src/definitions/ret.rs:5` -/
def RET_RESERVED_REGISTER_1 : Nat := 2
/-- `RET_RESERVED_REGISTER_2`, `src/definitions/ret.rs:6` -/
def RET_RESERVED_REGISTER_2 : Nat := 3

/-- `MAX_OFFSET_TO_DEREF_LOW_U32`, `src/definitions/uma.rs:6` -/
def MAX_OFFSET_TO_DEREF_LOW_U32 : BitVec 32 := ((1#64 <<< 32) - 33#64).setWidth 32
/-- `MAX_OFFSET_TO_DEREF`, `src/definitions/uma.rs:11` -/
def MAX_OFFSET_TO_DEREF : U256 := ⟨MAX_OFFSET_TO_DEREF_LOW_U32.setWidth 64, 0, 0, 0⟩
/-- `MAX_OFFSET_FOR_ADD_SUB`, `src/definitions/ptr.rs:13` -/
def MAX_OFFSET_FOR_ADD_SUB : U256 := ⟨1#64 <<< 32, 0, 0, 0⟩

/-! Positions of the named flags in `OpcodeVariant::flags`. -/

/-- `SET_FLAGS_FLAG_IDX`, `src/definitions/mod.rs:127` -/
def SET_FLAGS_FLAG_IDX : Nat := 0
/-- `SWAP_OPERANDS_FLAG_IDX_FOR_ARITH_OPCODES`, `src/definitions/mod.rs:128` -/
def SWAP_OPERANDS_FLAG_IDX_FOR_ARITH_OPCODES : Nat := 1
/-- `SWAP_OPERANDS_FLAG_IDX_FOR_PTR_OPCODE`, `src/definitions/mod.rs:129` -/
def SWAP_OPERANDS_FLAG_IDX_FOR_PTR_OPCODE : Nat := 0
/-- `FAR_CALL_STATIC_FLAG_IDX`, `src/definitions/far_call.rs:23` -/
def FAR_CALL_STATIC_FLAG_IDX : Nat := 0
/-- `FAR_CALL_SHARD_FLAG_IDX`, `src/definitions/far_call.rs:24` -/
def FAR_CALL_SHARD_FLAG_IDX : Nat := 1
/-- `FIRST_MESSAGE_FLAG_IDX`, `src/definitions/log.rs:12` -/
def FIRST_MESSAGE_FLAG_IDX : Nat := 0
/-- `RET_TO_LABEL_BIT_IDX`, `src/definitions/ret.rs:8` -/
def RET_TO_LABEL_BIT_IDX : Nat := 0
/-- `UMA_INCREMENT_FLAG_IDX`, `src/definitions/uma.rs:23` -/
def UMA_INCREMENT_FLAG_IDX : Nat := 0

end ZkEvm
