import Verif.Model.Order
import Verif.Model.Abi
import Verif.Model.Hash
import Verif.Model.Lib
/-! Model of the derived `Hash` of the crate's types and of the derived `Ord` of the ABI types. Derived hashing makes a
sequence of calls to a hasher: the discriminant of an enum (none if there is a single variant) in the integer type of its
`repr` (`isize` without one), then the fields in declaration order. Arrays are preceded by their length; an array of `u8`
is written at once. `std::hash` is modelled from its documentation. -/
namespace ZkEvm

/-- A call to a hasher (`std::hash::Hasher`), made by the code derived at `src/definitions/mod.rs:119` and the like.
Numbers of type `usize` and `isize` are natural numbers: the crate hashes no negative ones. -/
inductive HasherCall
  | writeU8 (v : Byte)
  | writeU16 (v : BitVec 16)
  | writeU32 (v : BitVec 32)
  | writeU64 (v : BitVec 64)
  | writeUsize (v : Nat)
  | writeIsize (v : Nat)
  | write (bytes : List Byte)
deriving DecidableEq, Repr

/-- Discriminant of an enum with `#[repr(u8)]`, as hashed by the derived code, e.g. `src/definitions/condition.rs:1-12` -/
def hashDiscrU8 (n : Nat) : List HasherCall := [.writeU8 (BitVec.ofNat 8 n)]

/-- `#[derive(Hash)]`, `src/definitions/add.rs:3-7`: a single variant, nothing is hashed -/
def AddOpcode.hash (_ : AddOpcode) : List HasherCall := []
/-- `#[derive(Hash)]`, `src/definitions/sub.rs:3-7`: a single variant, nothing is hashed -/
def SubOpcode.hash (_ : SubOpcode) : List HasherCall := []
/-- `#[derive(Hash)]`, `src/definitions/context.rs:3-16` -/
def ContextOpcode.hash (a : ContextOpcode) : List HasherCall := hashDiscrU8 a.ctorIdx
/-- `#[derive(Hash)]`, `src/definitions/shift.rs:3-10` -/
def ShiftOpcode.hash (a : ShiftOpcode) : List HasherCall := hashDiscrU8 a.ctorIdx
/-- `#[derive(Hash)]`, `src/definitions/binop.rs:3-9` -/
def BinopOpcode.hash (a : BinopOpcode) : List HasherCall := hashDiscrU8 a.ctorIdx
/-- `#[derive(Hash)]`, `src/definitions/ptr.rs:4-11` -/
def PtrOpcode.hash (a : PtrOpcode) : List HasherCall := hashDiscrU8 a.ctorIdx
/-- `#[derive(Hash)]`, `src/definitions/log.rs:14-22` -/
def LogOpcode.hash (a : LogOpcode) : List HasherCall := hashDiscrU8 a.ctorIdx
/-- `#[derive(Hash)]`, `src/definitions/far_call.rs:15-21` -/
def FarCallOpcode.hash (a : FarCallOpcode) : List HasherCall := hashDiscrU8 a.ctorIdx
/-- `#[derive(Hash)]`, `src/definitions/ret.rs:10-16` -/
def RetOpcode.hash (a : RetOpcode) : List HasherCall := hashDiscrU8 a.ctorIdx
/-- `#[derive(Hash)]`, `src/definitions/uma.rs:13-21` -/
def UMAOpcode.hash (a : UMAOpcode) : List HasherCall := hashDiscrU8 a.ctorIdx

/-- The payload of a variant of `Opcode` (`src/definitions/all.rs:3-21`); for the unit structs
(`src/definitions/{invalid_opcode, noop, mul, div, jump, near_call}.rs:3-4`) nothing is hashed. -/
def Opcode.hashPayload : Opcode → List HasherCall
  | .add a => a.hash
  | .sub a => a.hash
  | .context a => a.hash
  | .shift a => a.hash
  | .binop a => a.hash
  | .ptr a => a.hash
  | .log a => a.hash
  | .farCall a => a.hash
  | .ret a => a.hash
  | .uma a => a.hash
  | _ => []

/-- `#[derive(Hash)]`, `src/definitions/all.rs:3-21` -/
def Opcode.hash (a : Opcode) : List HasherCall := .writeIsize a.ctorIdx :: a.hashPayload

/-- `#[derive(Hash)]`, `src/imm_mem_modifiers.rs:1-10` -/
def ImmMemHandlerFlags.hash (a : ImmMemHandlerFlags) : List HasherCall := hashDiscrU8 a.ctorIdx
/-- `#[derive(Hash)]`, `src/imm_mem_modifiers.rs:80-85` -/
def RegOrImmFlags.hash (a : RegOrImmFlags) : List HasherCall := hashDiscrU8 a.ctorIdx

/-- `#[derive(Hash)]`, `src/definitions/opcode_trait.rs:3-8` -/
def Operand.hash : Operand → List HasherCall
  | .regOnly => [.writeIsize 0]
  | .regOrImm f => .writeIsize 1 :: f.hash
  | .full f => .writeIsize 2 :: f.hash

/-- `Hash for bool` (standard library), for the fields of `src/definitions/abi/far_call.rs:33-34` -/
def boolHash (b : Bool) : List HasherCall := [.writeU8 (BitVec.ofNat 8 b.toNat)]

/-- `Hash for [bool; 2]` (standard library): length, then the elements; flags of `src/definitions/mod.rs:124` -/
def Flags.hash (f : Flags) : List HasherCall := .writeUsize 2 :: (boolHash f.f0 ++ boolHash f.f1)

/-- `#[derive(Hash)]`, `src/definitions/mod.rs:119-125` -/
def OpcodeVariant.hash (a : OpcodeVariant) : List HasherCall :=
  a.opcode.hash ++ (a.src0OperandType.hash ++ (a.dst0OperandType.hash ++ a.flags.hash))

/-- `#[derive(Hash)]`, `src/definitions/condition.rs:1-12` -/
def Condition.hash (a : Condition) : List HasherCall := hashDiscrU8 a.ctorIdx

/-- `#[derive(Hash)]`, `src/definitions/abi/fat_pointer.rs:3-9` -/
def FatPointer.hash (a : FatPointer) : List HasherCall :=
  [.writeU32 a.offset, .writeU32 a.memoryPage, .writeU32 a.start, .writeU32 a.length]

/-- `#[derive(Hash)]`, `src/definitions/abi/far_call.rs:8-14` -/
def FarCallForwardPageType.hash (a : FarCallForwardPageType) : List HasherCall := hashDiscrU8 a.ctorIdx

/-- `#[derive(Hash)]`, `src/definitions/abi/far_call.rs:27-35` -/
def FarCallABI.hash (a : FarCallABI) : List HasherCall :=
  a.memoryQuasiFatPointer.hash ++ ([.writeU32 a.ergsPassed, .writeU8 a.shardId] ++
    (a.forwardingMode.hash ++ (boolHash a.constructorCall ++ boolHash a.toSystem)))

/-- `#[derive(Hash)]`, `src/definitions/abi/ret.rs:11-17` -/
def RetForwardPageType.hash (a : RetForwardPageType) : List HasherCall := hashDiscrU8 a.ctorIdx

/-- `#[derive(Hash)]`, `src/definitions/abi/ret.rs:31-35` -/
def RetABI.hash (a : RetABI) : List HasherCall := a.memoryQuasiFatPointer.hash ++ a.pageForwardingMode.hash

/-- `#[derive(Hash)]`, `src/definitions/abi/near_call.rs:3-6` -/
def NearCallABI.hash (a : NearCallABI) : List HasherCall := [.writeU32 a.ergsPassed]

/-- `#[derive(Hash)]`, `src/definitions/abi/precompile_call.rs:3-10` -/
def PrecompileCallABI.hash (a : PrecompileCallABI) : List HasherCall :=
  [.writeU32 a.inputMemoryOffset, .writeU32 a.inputMemoryLength, .writeU32 a.outputMemoryOffset,
    .writeU32 a.outputMemoryLength, .writeU64 a.perPrecompileInterpreted]

/-- `#[derive(Hash)]`, `src/definitions/abi/precompile_call.rs:33-42` -/
def PrecompileCallInnerABI.hash (a : PrecompileCallInnerABI) : List HasherCall :=
  [.writeU32 a.inputMemoryOffset, .writeU32 a.inputMemoryLength, .writeU32 a.outputMemoryOffset,
    .writeU32 a.outputMemoryLength, .writeU32 a.memoryPageToRead, .writeU32 a.memoryPageToWrite,
    .writeU64 a.precompileInterpretedData]

/-- `#[derive(Hash)]`, `src/definitions/abi/meta.rs:3-11` -/
def VmMetaParameters.hash (a : VmMetaParameters) : List HasherCall :=
  [.writeU32 a.ergsPerPubdataByte, .writeU32 a.heapSize, .writeU32 a.auxHeapSize, .writeU8 a.thisShardId,
    .writeU8 a.callerShardId, .writeU8 a.codeShardId]

/-- `#[derive(Hash)]`, `src/definitions/versioned_hash/mod.rs:54-59` -/
def ContractCodeSha256Storage.hash (a : ContractCodeSha256Storage) : List HasherCall :=
  [.writeU16 a.codeLengthInWords, .writeU8 a.extraMarker, .writeUsize 28, .write a.partialHash.toList]

/-- `#[derive(Hash)]`, `src/definitions/versioned_hash/mod.rs:11-14`, given the hashing of the storage layout -/
def VersionedHashGeneric.hash {V : VersionedHashDef} (layout : V.StorageLayout → List HasherCall)
    (a : VersionedHashGeneric V) : List HasherCall := layout a.data

/-- `#[derive(Hash)]`, `src/definitions/opcode_trait.rs:19-20`; the number is a `u8` -/
def ISAVersion.hash (a : ISAVersion) : List HasherCall := [.writeU8 (BitVec.ofNat 8 a.num)]
/-- `#[derive(Hash)]`, `src/definitions/opcode_trait.rs:42-47` -/
def OpcodeVariantData.hash (a : OpcodeVariantData) : List HasherCall :=
  [.writeUsize a.variantIdx, .writeUsize a.numNonExclusiveFlags, .writeUsize a.numUsedImmediates]
/-- `#[derive(Hash)]`, `src/decoding/mod.rs:10-11` -/
def VariantMonotonicNumber.hash (a : VariantMonotonicNumber) : List HasherCall := [.writeUsize a.val]

/-- `Hash for [T]` and `Vec<T>` (standard library), the lists `all_variants` returns (`src/definitions/opcode_trait.rs:89`):
length, then the elements -/
def sliceHash {α : Type} (h : α → List HasherCall) (l : List α) : List HasherCall := .writeUsize l.length :: l.flatMap h

/-! Derived `Ord` of the ABI types: the fields in declaration order. -/

/-- `Ord` of the unsigned integers (standard library), fields of `src/definitions/abi/fat_pointer.rs:3-9` and the like -/
def uintCmp {w : Nat} (a b : BitVec w) : Ordering := compare a.toNat b.toNat

/-- `#[derive(Ord)]`, `src/definitions/abi/fat_pointer.rs:3-9` -/
def FatPointer.cmp (a b : FatPointer) : Ordering :=
  (uintCmp a.offset b.offset).then ((uintCmp a.memoryPage b.memoryPage).then
    ((uintCmp a.start b.start).then (uintCmp a.length b.length)))

/-- `#[derive(Ord)]`, `src/definitions/abi/far_call.rs:8-14` -/
def FarCallForwardPageType.cmp (a b : FarCallForwardPageType) : Ordering := compare a.ctorIdx b.ctorIdx

/-- `#[derive(Ord)]`, `src/definitions/abi/far_call.rs:27-35` -/
def FarCallABI.cmp (a b : FarCallABI) : Ordering :=
  (a.memoryQuasiFatPointer.cmp b.memoryQuasiFatPointer).then ((uintCmp a.ergsPassed b.ergsPassed).then
    ((uintCmp a.shardId b.shardId).then ((a.forwardingMode.cmp b.forwardingMode).then
      ((boolCmp a.constructorCall b.constructorCall).then (boolCmp a.toSystem b.toSystem)))))

/-- `#[derive(Ord)]`, `src/definitions/abi/ret.rs:11-17` -/
def RetForwardPageType.cmp (a b : RetForwardPageType) : Ordering := compare a.ctorIdx b.ctorIdx

/-- `#[derive(Ord)]`, `src/definitions/abi/ret.rs:31-35` -/
def RetABI.cmp (a b : RetABI) : Ordering :=
  (a.memoryQuasiFatPointer.cmp b.memoryQuasiFatPointer).then (a.pageForwardingMode.cmp b.pageForwardingMode)

/-- `#[derive(Ord)]`, `src/definitions/abi/near_call.rs:3-6` -/
def NearCallABI.cmp (a b : NearCallABI) : Ordering := uintCmp a.ergsPassed b.ergsPassed

/-- `#[derive(Ord)]`, `src/definitions/abi/precompile_call.rs:3-10` -/
def PrecompileCallABI.cmp (a b : PrecompileCallABI) : Ordering :=
  (uintCmp a.inputMemoryOffset b.inputMemoryOffset).then ((uintCmp a.inputMemoryLength b.inputMemoryLength).then
    ((uintCmp a.outputMemoryOffset b.outputMemoryOffset).then ((uintCmp a.outputMemoryLength b.outputMemoryLength).then
      (uintCmp a.perPrecompileInterpreted b.perPrecompileInterpreted))))

/-- `#[derive(Ord)]`, `src/definitions/abi/precompile_call.rs:33-42` -/
def PrecompileCallInnerABI.cmp (a b : PrecompileCallInnerABI) : Ordering :=
  (uintCmp a.inputMemoryOffset b.inputMemoryOffset).then ((uintCmp a.inputMemoryLength b.inputMemoryLength).then
    ((uintCmp a.outputMemoryOffset b.outputMemoryOffset).then ((uintCmp a.outputMemoryLength b.outputMemoryLength).then
      ((uintCmp a.memoryPageToRead b.memoryPageToRead).then ((uintCmp a.memoryPageToWrite b.memoryPageToWrite).then
        (uintCmp a.precompileInterpretedData b.precompileInterpretedData))))))

/-- `#[derive(Ord)]`, `src/definitions/abi/meta.rs:3-11` -/
def VmMetaParameters.cmp (a b : VmMetaParameters) : Ordering :=
  (uintCmp a.ergsPerPubdataByte b.ergsPerPubdataByte).then ((uintCmp a.heapSize b.heapSize).then
    ((uintCmp a.auxHeapSize b.auxHeapSize).then ((uintCmp a.thisShardId b.thisShardId).then
      ((uintCmp a.callerShardId b.callerShardId).then (uintCmp a.codeShardId b.codeShardId)))))

/-- `#[derive(Ord)]`, `src/definitions/opcode_trait.rs:19-20` -/
def ISAVersion.cmp (a b : ISAVersion) : Ordering := compare a.num b.num

/-- `#[derive(Ord)]`, `src/definitions/opcode_trait.rs:42-47` -/
def OpcodeVariantData.cmp (a b : OpcodeVariantData) : Ordering :=
  (compare a.variantIdx b.variantIdx).then ((compare a.numNonExclusiveFlags b.numNonExclusiveFlags).then
    (compare a.numUsedImmediates b.numUsedImmediates))

end ZkEvm
