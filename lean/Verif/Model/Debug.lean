import Verif.Model.Display
import Verif.Model.Abi
import Verif.Model.Hash
/-! Model of the derived `Debug` of the crate's structs, printed with `{:?}` and with `{:#?}`. The helpers `debug_struct`,
`debug_tuple` and `debug_list` of the standard library are modelled from their documentation and source; `alt` is the `#`
of `{:#?}`, which the formatter hands to every part of a value. -/
namespace ZkEvm

/-- Texts with a separator between them (standard library); used by `debugStruct` and `debugList` for
`src/definitions/mod.rs:119-125` and the structs below -/
def joinTexts (sep : Text) : List Text → Text
  | [] => []
  | [s] => s
  | s :: t :: rest => s ++ sep ++ joinTexts sep (t :: rest)

/-- `Name { a: x, b: y }`, as derived `Debug` prints a struct with named fields (standard library: `debug_struct`);
`src/definitions/mod.rs:119-125` and the structs below -/
def debugStruct (name : String) (fields : List (String × Text)) : Text :=
  name.toList ++ " { ".toList ++ joinTexts ", ".toList (fields.map fun f => f.1.toList ++ ": ".toList ++ f.2) ++ " }".toList

/-- `[x, y]`, as `Debug` prints an array (standard library: `debug_list`); `src/definitions/mod.rs:124`,
`src/definitions/versioned_hash/mod.rs:58` -/
def debugList (items : List Text) : Text := ['['] ++ joinTexts ", ".toList items ++ [']']

/-- A struct with named fields printed with `{:#?}` (standard library: `debug_struct`); `src/definitions/mod.rs:119-125` and
the structs below -/
def prettyStruct (name : String) (fields : List (String × Text)) : Text :=
  name.toList ++ " {\n".toList ++ fields.flatMap (fun f => prettyPart (f.1.toList ++ ": ".toList ++ f.2)) ++ ['}']

/-- An array printed with `{:#?}` (standard library: `debug_list`): nothing is put between the brackets of an empty one;
`src/definitions/mod.rs:124`, `src/definitions/versioned_hash/mod.rs:58` -/
def prettyList (items : List Text) : Text :=
  if items.isEmpty then "[]".toList else "[\n".toList ++ items.flatMap prettyPart ++ [']']

/-- What derived `Debug` prints for a struct with named fields; `src/definitions/mod.rs:119-125` and the structs below -/
def fmtStruct (alt : Bool) (name : String) (fields : List (String × Text)) : Text :=
  if alt then prettyStruct name fields else debugStruct name fields

/-- What `Debug` prints for an array; `src/definitions/mod.rs:124`, `src/definitions/versioned_hash/mod.rs:58` -/
def fmtList (alt : Bool) (items : List Text) : Text := if alt then prettyList items else debugList items

/-- `{:?}` of a `bool` (standard library); `src/definitions/mod.rs:124` -/
def debugBool (b : Bool) : Text := if b then "true".toList else "false".toList

/-- `{:#?}` of an opcode, `src/definitions/all.rs:3-21` -/
def Opcode.debugPretty (o : Opcode) : Text := o.fmtDebug true
/-- `{:#?}` of an operand, `src/definitions/opcode_trait.rs:3-8` -/
def Operand.debugPretty (o : Operand) : Text := o.fmtDebug true

/-- `#[derive(Debug)]`, `src/definitions/mod.rs:119-125` -/
def OpcodeVariant.fmtDebug (alt : Bool) (v : OpcodeVariant) : Text :=
  fmtStruct alt "OpcodeVariant"
    [("opcode", v.opcode.fmtDebug alt), ("src0_operand_type", v.src0OperandType.fmtDebug alt),
     ("dst0_operand_type", v.dst0OperandType.fmtDebug alt), ("flags", fmtList alt [debugBool v.flags.f0, debugBool v.flags.f1])]
/-- `{:?}`, `src/definitions/mod.rs:119-125` -/
def OpcodeVariant.debug (v : OpcodeVariant) : Text := v.fmtDebug false
/-- `{:#?}`, `src/definitions/mod.rs:119-125` -/
def OpcodeVariant.debugPretty (v : OpcodeVariant) : Text := v.fmtDebug true

/-- `#[derive(Debug)]`, `src/opcode.rs:9-19`; the immediates are `u16` or `u32` -/
def DecodedOpcode.fmtDebug {w : Nat} (alt : Bool) (o : DecodedOpcode w) : Text :=
  fmtStruct alt "DecodedOpcode"
    [("variant", o.variant.fmtDebug alt), ("condition", o.condition.debug), ("src0_reg_idx", fmtDec o.src0RegIdx.toNat),
     ("src1_reg_idx", fmtDec o.src1RegIdx.toNat), ("dst0_reg_idx", fmtDec o.dst0RegIdx.toNat),
     ("dst1_reg_idx", fmtDec o.dst1RegIdx.toNat), ("imm_0", fmtDec o.imm0.toNat), ("imm_1", fmtDec o.imm1.toNat)]
/-- `{:?}`, `src/opcode.rs:9-19` -/
def DecodedOpcode.debug {w : Nat} (o : DecodedOpcode w) : Text := o.fmtDebug false
/-- `{:#?}`, `src/opcode.rs:9-19` -/
def DecodedOpcode.debugPretty {w : Nat} (o : DecodedOpcode w) : Text := o.fmtDebug true

/-- `#[derive(Debug)]` of a tuple struct, `src/definitions/opcode_trait.rs:19-20` -/
def ISAVersion.fmtDebug (alt : Bool) (v : ISAVersion) : Text := fmtTuple alt "ISAVersion" (fmtDec v.num)
/-- `{:?}`, `src/definitions/opcode_trait.rs:19-20` -/
def ISAVersion.debug (v : ISAVersion) : Text := v.fmtDebug false
/-- `{:#?}`, `src/definitions/opcode_trait.rs:19-20` -/
def ISAVersion.debugPretty (v : ISAVersion) : Text := v.fmtDebug true
/-- `#[derive(Debug)]` of a tuple struct, `src/decoding/mod.rs:10-11` -/
def VariantMonotonicNumber.fmtDebug (alt : Bool) (n : VariantMonotonicNumber) : Text :=
  fmtTuple alt "VariantMonotonicNumber" (fmtDec n.val)
/-- `{:?}`, `src/decoding/mod.rs:10-11` -/
def VariantMonotonicNumber.debug (n : VariantMonotonicNumber) : Text := n.fmtDebug false
/-- `{:#?}`, `src/decoding/mod.rs:10-11` -/
def VariantMonotonicNumber.debugPretty (n : VariantMonotonicNumber) : Text := n.fmtDebug true
/-- `#[derive(Debug)]`, `src/definitions/opcode_trait.rs:42-47` -/
def OpcodeVariantData.fmtDebug (alt : Bool) (d : OpcodeVariantData) : Text :=
  fmtStruct alt "OpcodeVariantData"
    [("variant_idx", fmtDec d.variantIdx), ("num_non_exclusive_flags", fmtDec d.numNonExclusiveFlags),
     ("num_used_immediates", fmtDec d.numUsedImmediates)]
/-- `{:?}`, `src/definitions/opcode_trait.rs:42-47` -/
def OpcodeVariantData.debug (d : OpcodeVariantData) : Text := d.fmtDebug false
/-- `{:#?}`, `src/definitions/opcode_trait.rs:42-47` -/
def OpcodeVariantData.debugPretty (d : OpcodeVariantData) : Text := d.fmtDebug true

/-- `#[derive(Debug)]`, `src/definitions/abi/fat_pointer.rs:3-9` -/
def FatPointer.fmtDebug (alt : Bool) (p : FatPointer) : Text :=
  fmtStruct alt "FatPointer"
    [("offset", fmtDec p.offset.toNat), ("memory_page", fmtDec p.memoryPage.toNat), ("start", fmtDec p.start.toNat),
     ("length", fmtDec p.length.toNat)]
/-- `{:?}`, `src/definitions/abi/fat_pointer.rs:3-9` -/
def FatPointer.debug (p : FatPointer) : Text := p.fmtDebug false
/-- `{:#?}`, `src/definitions/abi/fat_pointer.rs:3-9` -/
def FatPointer.debugPretty (p : FatPointer) : Text := p.fmtDebug true

/-- `#[derive(Debug)]`, `src/definitions/abi/far_call.rs:8-14` -/
def FarCallForwardPageType.debug : FarCallForwardPageType → Text
  | .useHeap => "UseHeap".toList
  | .forwardFatPointer => "ForwardFatPointer".toList
  | .useAuxHeap => "UseAuxHeap".toList
/-- `#[derive(Debug)]`, `src/definitions/abi/ret.rs:11-17` -/
def RetForwardPageType.debug : RetForwardPageType → Text
  | .useHeap => "UseHeap".toList
  | .forwardFatPointer => "ForwardFatPointer".toList
  | .useAuxHeap => "UseAuxHeap".toList

/-- `#[derive(Debug)]`, `src/definitions/abi/far_call.rs:27-35` -/
def FarCallABI.fmtDebug (alt : Bool) (a : FarCallABI) : Text :=
  fmtStruct alt "FarCallABI"
    [("memory_quasi_fat_pointer", a.memoryQuasiFatPointer.fmtDebug alt), ("ergs_passed", fmtDec a.ergsPassed.toNat),
     ("shard_id", fmtDec a.shardId.toNat), ("forwarding_mode", a.forwardingMode.debug),
     ("constructor_call", debugBool a.constructorCall), ("to_system", debugBool a.toSystem)]
/-- `{:?}`, `src/definitions/abi/far_call.rs:27-35` -/
def FarCallABI.debug (a : FarCallABI) : Text := a.fmtDebug false
/-- `{:#?}`, `src/definitions/abi/far_call.rs:27-35` -/
def FarCallABI.debugPretty (a : FarCallABI) : Text := a.fmtDebug true
/-- `#[derive(Debug)]`, `src/definitions/abi/ret.rs:31-35` -/
def RetABI.fmtDebug (alt : Bool) (a : RetABI) : Text :=
  fmtStruct alt "RetABI"
    [("memory_quasi_fat_pointer", a.memoryQuasiFatPointer.fmtDebug alt), ("page_forwarding_mode", a.pageForwardingMode.debug)]
/-- `{:?}`, `src/definitions/abi/ret.rs:31-35` -/
def RetABI.debug (a : RetABI) : Text := a.fmtDebug false
/-- `{:#?}`, `src/definitions/abi/ret.rs:31-35` -/
def RetABI.debugPretty (a : RetABI) : Text := a.fmtDebug true
/-- `#[derive(Debug)]`, `src/definitions/abi/near_call.rs:3-6` -/
def NearCallABI.fmtDebug (alt : Bool) (a : NearCallABI) : Text :=
  fmtStruct alt "NearCallABI" [("ergs_passed", fmtDec a.ergsPassed.toNat)]
/-- `{:?}`, `src/definitions/abi/near_call.rs:3-6` -/
def NearCallABI.debug (a : NearCallABI) : Text := a.fmtDebug false
/-- `{:#?}`, `src/definitions/abi/near_call.rs:3-6` -/
def NearCallABI.debugPretty (a : NearCallABI) : Text := a.fmtDebug true
/-- `#[derive(Debug)]`, `src/definitions/abi/precompile_call.rs:3-10` -/
def PrecompileCallABI.fmtDebug (alt : Bool) (a : PrecompileCallABI) : Text :=
  fmtStruct alt "PrecompileCallABI"
    [("input_memory_offset", fmtDec a.inputMemoryOffset.toNat), ("input_memory_length", fmtDec a.inputMemoryLength.toNat),
     ("output_memory_offset", fmtDec a.outputMemoryOffset.toNat), ("output_memory_length", fmtDec a.outputMemoryLength.toNat),
     ("per_precompile_interpreted", fmtDec a.perPrecompileInterpreted.toNat)]
/-- `{:?}`, `src/definitions/abi/precompile_call.rs:3-10` -/
def PrecompileCallABI.debug (a : PrecompileCallABI) : Text := a.fmtDebug false
/-- `{:#?}`, `src/definitions/abi/precompile_call.rs:3-10` -/
def PrecompileCallABI.debugPretty (a : PrecompileCallABI) : Text := a.fmtDebug true
/-- `#[derive(Debug)]`, `src/definitions/abi/precompile_call.rs:33-42` -/
def PrecompileCallInnerABI.fmtDebug (alt : Bool) (a : PrecompileCallInnerABI) : Text :=
  fmtStruct alt "PrecompileCallInnerABI"
    [("input_memory_offset", fmtDec a.inputMemoryOffset.toNat), ("input_memory_length", fmtDec a.inputMemoryLength.toNat),
     ("output_memory_offset", fmtDec a.outputMemoryOffset.toNat), ("output_memory_length", fmtDec a.outputMemoryLength.toNat),
     ("memory_page_to_read", fmtDec a.memoryPageToRead.toNat), ("memory_page_to_write", fmtDec a.memoryPageToWrite.toNat),
     ("precompile_interpreted_data", fmtDec a.precompileInterpretedData.toNat)]
/-- `{:?}`, `src/definitions/abi/precompile_call.rs:33-42` -/
def PrecompileCallInnerABI.debug (a : PrecompileCallInnerABI) : Text := a.fmtDebug false
/-- `{:#?}`, `src/definitions/abi/precompile_call.rs:33-42` -/
def PrecompileCallInnerABI.debugPretty (a : PrecompileCallInnerABI) : Text := a.fmtDebug true
/-- `#[derive(Debug)]`, `src/definitions/abi/meta.rs:3-11` -/
def VmMetaParameters.fmtDebug (alt : Bool) (a : VmMetaParameters) : Text :=
  fmtStruct alt "VmMetaParameters"
    [("ergs_per_pubdata_byte", fmtDec a.ergsPerPubdataByte.toNat), ("heap_size", fmtDec a.heapSize.toNat),
     ("aux_heap_size", fmtDec a.auxHeapSize.toNat), ("this_shard_id", fmtDec a.thisShardId.toNat),
     ("caller_shard_id", fmtDec a.callerShardId.toNat), ("code_shard_id", fmtDec a.codeShardId.toNat)]
/-- `{:?}`, `src/definitions/abi/meta.rs:3-11` -/
def VmMetaParameters.debug (a : VmMetaParameters) : Text := a.fmtDebug false
/-- `{:#?}`, `src/definitions/abi/meta.rs:3-11` -/
def VmMetaParameters.debugPretty (a : VmMetaParameters) : Text := a.fmtDebug true

/-- `#[derive(Debug)]`, `src/definitions/versioned_hash/mod.rs:54-59` -/
def ContractCodeSha256Storage.fmtDebug (alt : Bool) (s : ContractCodeSha256Storage) : Text :=
  fmtStruct alt "ContractCodeSha256Storage"
    [("code_length_in_words", fmtDec s.codeLengthInWords.toNat), ("extra_marker", fmtDec s.extraMarker.toNat),
     ("partial_hash", fmtList alt (s.partialHash.toList.map fun b => fmtDec b.toNat))]
/-- `{:?}`, `src/definitions/versioned_hash/mod.rs:54-59` -/
def ContractCodeSha256Storage.debug (s : ContractCodeSha256Storage) : Text := s.fmtDebug false
/-- `{:#?}`, `src/definitions/versioned_hash/mod.rs:54-59` -/
def ContractCodeSha256Storage.debugPretty (s : ContractCodeSha256Storage) : Text := s.fmtDebug true
/-- `#[derive(Debug)]`, `src/definitions/versioned_hash/mod.rs:11-14`, for a storage layout with this `Debug` -/
def VersionedHashGeneric.fmtDebug {V : VersionedHashDef} (alt : Bool) (layout : Bool → V.StorageLayout → Text)
    (h : VersionedHashGeneric V) : Text :=
  fmtStruct alt "VersionedHashGeneric" [("data", layout alt h.data)]
/-- `{:?}`, `src/definitions/versioned_hash/mod.rs:11-14` -/
def VersionedHashGeneric.debug {V : VersionedHashDef} (layout : Bool → V.StorageLayout → Text) (h : VersionedHashGeneric V) :
    Text := h.fmtDebug false layout
/-- `{:#?}`, `src/definitions/versioned_hash/mod.rs:11-14` -/
def VersionedHashGeneric.debugPretty {V : VersionedHashDef} (layout : Bool → V.StorageLayout → Text)
    (h : VersionedHashGeneric V) : Text := h.fmtDebug true layout

end ZkEvm
