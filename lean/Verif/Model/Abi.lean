import Verif.Model.Utils
/-! Model of `src/definitions/abi/*.rs` and of the address bounds of `src/definitions/uma.rs`. -/
namespace ZkEvm

/-- `FatPointer`, `src/definitions/abi/fat_pointer.rs:3-9` -/
structure FatPointer where
  offset : BitVec 32
  memoryPage : BitVec 32
  start : BitVec 32
  length : BitVec 32
deriving DecidableEq, Repr

/-- `FatPointerValidationException` (a bit set in a `u64`), `src/definitions/abi/fat_pointer.rs:11-16` -/
structure FatPointerValidationException where
  bits : BitVec 64
deriving DecidableEq, Repr

namespace FatPointerValidationException
/-- `src/definitions/abi/fat_pointer.rs:13` -/
def OFFSET_IS_NOT_ZERO_WHEN_EXPECTED : FatPointerValidationException := ⟨1#64 <<< 0⟩
/-- `src/definitions/abi/fat_pointer.rs:14` -/
def DEREF_BEYOND_HEAP_RANGE : FatPointerValidationException := ⟨1#64 <<< 1⟩
/-- `empty()` (generated by `bitflags`), at `src/definitions/abi/fat_pointer.rs:48` -/
def empty : FatPointerValidationException := ⟨0#64⟩
/-- `set(flag, true)` (generated by `bitflags`), at `src/definitions/abi/fat_pointer.rs:53,61` -/
def insert (e f : FatPointerValidationException) : FatPointerValidationException := ⟨e.bits ||| f.bits⟩
/-- `contains(flag)` (generated by `bitflags`), from the `bitflags!` block `src/definitions/abi/fat_pointer.rs:11-16` -/
def contains (e f : FatPointerValidationException) : Bool := (e.bits &&& f.bits) == f.bits
/-- `is_empty()` (generated by `bitflags`), from the `bitflags!` block `src/definitions/abi/fat_pointer.rs:11-16` -/
def isEmpty (e : FatPointerValidationException) : Bool := e.bits == 0#64
end FatPointerValidationException

namespace FatPointer

/-- `FAT_POINTER_PACKED_WIDTH`, `src/definitions/abi/fat_pointer.rs:19` -/
def FAT_POINTER_PACKED_WIDTH : Nat := 128

/-- `empty`, `src/definitions/abi/fat_pointer.rs:22-29` -/
def empty : FatPointer := { length := 0, start := 0, memoryPage := 0, offset := 0 }

/-- `from_u256`, `src/definitions/abi/fat_pointer.rs:31-45` -/
def fromU256 (value : U256) : FatPointer where
  offset := value.l0.setWidth 32
  memoryPage := (value.l0 >>> 32).setWidth 32
  start := value.l1.setWidth 32
  length := (value.l1 >>> 32).setWidth 32

/-- `u32::overflowing_add` (standard library; used at `src/definitions/abi/fat_pointer.rs:59`) -/
def overflowingAddU32 (a b : BitVec 32) : BitVec 32 × Bool := (a + b, decide (2 ^ 32 ≤ a.toNat + b.toNat))

/-- `validate`, `src/definitions/abi/fat_pointer.rs:47-65` -/
def validate (self : FatPointer) (isFresh : Bool) : FatPointerValidationException :=
  let exceptions := FatPointerValidationException.empty
  let exceptions := if isFresh && self.offset != 0#32 then
      exceptions.insert FatPointerValidationException.OFFSET_IS_NOT_ZERO_WHEN_EXPECTED
    else exceptions
  let of := (overflowingAddU32 self.start self.length).2
  if of then exceptions.insert FatPointerValidationException.DEREF_BEYOND_HEAP_RANGE else exceptions

/-- `validate_in_bounds`, `src/definitions/abi/fat_pointer.rs:70-74` -/
def validateInBounds (self : FatPointer) : Bool := decide (self.offset < self.length)

/-- `validate_as_slice`, `src/definitions/abi/fat_pointer.rs:77-81` -/
def validateAsSlice (self : FatPointer) : Bool := decide (self.offset ≤ self.length)

/-- `is_trivial`, `src/definitions/abi/fat_pointer.rs:84-86` -/
def isTrivial (self : FatPointer) : Bool := self.length == 0#32 && self.offset == 0#32

/-- `to_u256`, `src/definitions/abi/fat_pointer.rs:88-95` -/
def toU256 (self : FatPointer) : U256 :=
  let result := U256.zero
  let result := { result with l0 := self.offset.setWidth 64 ||| (self.memoryPage.setWidth 64 <<< 32) }
  { result with l1 := self.start.setWidth 64 ||| (self.length.setWidth 64 <<< 32) }

end FatPointer

/-- `FAR_CALL_FORWARDING_MODE_BYTE_IDX`, `src/definitions/abi/far_call.rs:3` -/
def FAR_CALL_FORWARDING_MODE_BYTE_IDX : Nat := 28
/-- `FAR_CALL_SHARD_ID_BYTE_IDX`, `src/definitions/abi/far_call.rs:4` -/
def FAR_CALL_SHARD_ID_BYTE_IDX : Nat := 29
/-- `FAR_CALL_CONSTRUCTOR_CALL_BYTE_IDX`, `src/definitions/abi/far_call.rs:5` -/
def FAR_CALL_CONSTRUCTOR_CALL_BYTE_IDX : Nat := 30
/-- `FAR_CALL_SYSTEM_CALL_BYTE_IDX`, `src/definitions/abi/far_call.rs:6` -/
def FAR_CALL_SYSTEM_CALL_BYTE_IDX : Nat := 31
/-- `RET_FORWARDING_MODE_BYTE_IDX`, `src/definitions/abi/ret.rs:3` -/
def RET_FORWARDING_MODE_BYTE_IDX : Nat := 28

/-- `FarCallForwardPageType`, `src/definitions/abi/far_call.rs:8-14` -/
inductive FarCallForwardPageType
  | useHeap | forwardFatPointer | useAuxHeap
deriving DecidableEq, Repr

/-- `FarCallForwardPageType::from_u8`, `src/definitions/abi/far_call.rs:17-24` -/
def FarCallForwardPageType.fromU8 (value : Byte) : FarCallForwardPageType :=
  if value = 0#8 then .useHeap
  else if value = 1#8 then .forwardFatPointer
  else if value = 2#8 then .useAuxHeap
  else .useHeap

/-- The discriminant (`#[repr(u8)]`, `as u8`), `src/definitions/abi/far_call.rs:9-14` -/
def FarCallForwardPageType.asU8 : FarCallForwardPageType → Byte
  | .useHeap => 0
  | .forwardFatPointer => 1
  | .useAuxHeap => 2

/-- `FarCallABI`, `src/definitions/abi/far_call.rs:27-35` -/
structure FarCallABI where
  memoryQuasiFatPointer : FatPointer
  ergsPassed : BitVec 32
  shardId : Byte
  forwardingMode : FarCallForwardPageType
  constructorCall : Bool
  toSystem : Bool
deriving DecidableEq, Repr

/-- `FarCallABI::from_u256`, `src/definitions/abi/far_call.rs:38-63` -/
def FarCallABI.fromU256 (rawValue : U256) : FarCallABI :=
  let quasiFatPointer := FatPointer.fromU256 rawValue
  let extraData := rawValue.l3
  let ergsPassed : BitVec 32 := extraData.setWidth 32
  let extraData : BitVec 32 := (extraData >>> 32).setWidth 32
  let (forwardingByte, shardId, constructorCallByte, toSystemByte) := u32ToLeBytes extraData
  { memoryQuasiFatPointer := quasiFatPointer
    ergsPassed := ergsPassed
    shardId := shardId
    forwardingMode := FarCallForwardPageType.fromU8 forwardingByte
    constructorCall := constructorCallByte != 0#8
    toSystem := toSystemByte != 0#8 }

/-- `RetForwardPageType`, `src/definitions/abi/ret.rs:11-17` -/
inductive RetForwardPageType
  | useHeap | forwardFatPointer | useAuxHeap
deriving DecidableEq, Repr

/-- `RetForwardPageType::from_u8`, `src/definitions/abi/ret.rs:20-28` -/
def RetForwardPageType.fromU8 (value : Byte) : RetForwardPageType :=
  if value = 0#8 then .useHeap
  else if value = 1#8 then .forwardFatPointer
  else if value = 2#8 then .useAuxHeap
  else .useHeap

/-- The discriminant (`#[repr(u8)]`, `as u8`), `src/definitions/abi/ret.rs:12-17` -/
def RetForwardPageType.asU8 : RetForwardPageType → Byte
  | .useHeap => 0
  | .forwardFatPointer => 1
  | .useAuxHeap => 2

/-- `RetABI`, `src/definitions/abi/ret.rs:31-35` -/
structure RetABI where
  memoryQuasiFatPointer : FatPointer
  pageForwardingMode : RetForwardPageType
deriving DecidableEq, Repr

/-- `RetABI::from_u256`, `src/definitions/abi/ret.rs:38-50` -/
def RetABI.fromU256 (rawValue : U256) : RetABI :=
  let quasiFatPointer := FatPointer.fromU256 rawValue
  let extraData : BitVec 32 := (rawValue.l3 >>> 32).setWidth 32
  let (forwardingByte, _, _, _) := u32ToLeBytes extraData
  { memoryQuasiFatPointer := quasiFatPointer
    pageForwardingMode := RetForwardPageType.fromU8 forwardingByte }

/-- `NearCallABI`, `src/definitions/abi/near_call.rs:3-6` -/
structure NearCallABI where
  ergsPassed : BitVec 32
deriving DecidableEq, Repr

/-- `NearCallABI::from_u256`, `src/definitions/abi/near_call.rs:9-14` -/
def NearCallABI.fromU256 (rawValue : U256) : NearCallABI where
  ergsPassed := rawValue.l0.setWidth 32

/-- `PrecompileCallABI`, `src/definitions/abi/precompile_call.rs:3-10` -/
structure PrecompileCallABI where
  inputMemoryOffset : BitVec 32
  inputMemoryLength : BitVec 32
  outputMemoryOffset : BitVec 32
  outputMemoryLength : BitVec 32
  perPrecompileInterpreted : BitVec 64
deriving DecidableEq, Repr

/-- `PrecompileCallABI::from_u256`, `src/definitions/abi/precompile_call.rs:13-30` -/
def PrecompileCallABI.fromU256 (rawValue : U256) : PrecompileCallABI where
  inputMemoryOffset := rawValue.l0.setWidth 32
  inputMemoryLength := (rawValue.l0 >>> 32).setWidth 32
  outputMemoryOffset := rawValue.l1.setWidth 32
  outputMemoryLength := (rawValue.l1 >>> 32).setWidth 32
  perPrecompileInterpreted := rawValue.l3

/-- `PrecompileCallInnerABI`, `src/definitions/abi/precompile_call.rs:33-42` -/
structure PrecompileCallInnerABI where
  inputMemoryOffset : BitVec 32
  inputMemoryLength : BitVec 32
  outputMemoryOffset : BitVec 32
  outputMemoryLength : BitVec 32
  memoryPageToRead : BitVec 32
  memoryPageToWrite : BitVec 32
  precompileInterpretedData : BitVec 64
deriving DecidableEq, Repr

/-- `PrecompileCallInnerABI::from_u256`, `src/definitions/abi/precompile_call.rs:45-64` -/
def PrecompileCallInnerABI.fromU256 (rawValue : U256) : PrecompileCallInnerABI where
  inputMemoryOffset := rawValue.l0.setWidth 32
  inputMemoryLength := (rawValue.l0 >>> 32).setWidth 32
  outputMemoryOffset := rawValue.l1.setWidth 32
  outputMemoryLength := (rawValue.l1 >>> 32).setWidth 32
  memoryPageToRead := rawValue.l2.setWidth 32
  memoryPageToWrite := (rawValue.l2 >>> 32).setWidth 32
  precompileInterpretedData := rawValue.l3

/-- `PrecompileCallInnerABI::to_u256`, `src/definitions/abi/precompile_call.rs:66-76` -/
def PrecompileCallInnerABI.toU256 (self : PrecompileCallInnerABI) : U256 where
  l0 := self.inputMemoryOffset.setWidth 64 ||| (self.inputMemoryLength.setWidth 64 <<< 32)
  l1 := self.outputMemoryOffset.setWidth 64 ||| (self.outputMemoryLength.setWidth 64 <<< 32)
  l2 := self.memoryPageToRead.setWidth 64 ||| (self.memoryPageToWrite.setWidth 64 <<< 32)
  l3 := self.precompileInterpretedData

/-- `VmMetaParameters`, `src/definitions/abi/meta.rs:3-11` -/
structure VmMetaParameters where
  ergsPerPubdataByte : BitVec 32
  heapSize : BitVec 32
  auxHeapSize : BitVec 32
  thisShardId : Byte
  callerShardId : Byte
  codeShardId : Byte
deriving DecidableEq, Repr

/-- `VmMetaParameters::to_u256`, `src/definitions/abi/meta.rs:14-25` -/
def VmMetaParameters.toU256 (self : VmMetaParameters) : U256 :=
  let result := U256.zero
  let result := { result with l0 := self.ergsPerPubdataByte.setWidth 64 }
  let result := { result with l1 := self.heapSize.setWidth 64 ||| (self.auxHeapSize.setWidth 64 <<< 32) }
  let tmp : BitVec 64 := self.thisShardId.setWidth 64 ||| (self.callerShardId.setWidth 64 <<< 8)
    ||| (self.codeShardId.setWidth 64 <<< 16)
  { result with l3 := tmp <<< 32 }

end ZkEvm
