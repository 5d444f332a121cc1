import Verif.Model.Decoding
/-! Model of `src/definitions/versioned_hash/mod.rs` and of the bytecode hashing of `src/utils.rs`. The
SHA-256 digest itself comes from the external `sha2` crate and is a parameter. -/
namespace ZkEvm

/-- `ContractCodeSha256Storage`, `src/definitions/versioned_hash/mod.rs:54-59` -/
structure ContractCodeSha256Storage where
  codeLengthInWords : BitVec 16
  extraMarker : Byte
  partialHash : Vector Byte 28
deriving DecidableEq

namespace ContractCodeSha256

/-- `CODE_AT_REST_MARKER`, `src/definitions/versioned_hash/mod.rs:62` -/
def CODE_AT_REST_MARKER : Byte := 0
/-- `YET_CONSTRUCTED_MARKER`, `src/definitions/versioned_hash/mod.rs:63` -/
def YET_CONSTRUCTED_MARKER : Byte := 1
/-- `VERSION_BYTE`, `src/definitions/versioned_hash/mod.rs:67` -/
def VERSION_BYTE : Byte := 1

/-- `result[4..].copy_from_slice(&partial_hash)` together with the four header bytes,
`src/definitions/versioned_hash/mod.rs:70-74` and 79-83 -/
def layout (b0 b1 : Byte) (len : BitVec 16) (partialHash : Vector Byte 28) : Vector Byte 32 :=
  Vector.ofFn fun i =>
    if i.val = 0 then b0
    else if i.val = 1 then b1
    else if i.val = 2 then len.extractLsb' 8 8
    else if i.val = 3 then len.extractLsb' 0 8
    else partialHash.getD (i.val - 4) 0

/-- `serialize`, `src/definitions/versioned_hash/mod.rs:69-77` -/
def serialize (storage : ContractCodeSha256Storage) : Option (Vector Byte 32) :=
  some (layout VERSION_BYTE storage.extraMarker storage.codeLengthInWords storage.partialHash)

/-- `serialize_to_stored`, `src/definitions/versioned_hash/mod.rs:78-86` -/
def serializeToStored (storage : ContractCodeSha256Storage) : Option (Vector Byte 32) :=
  some (layout VERSION_BYTE 0 storage.codeLengthInWords storage.partialHash)

/-- `try_deserialize`, `src/definitions/versioned_hash/mod.rs:87-102`; `u16::from_be_bytes` is `++` -/
def tryDeserialize (input : Vector Byte 32) : Option ContractCodeSha256Storage :=
  if input[0] != VERSION_BYTE then none
  else some
    { codeLengthInWords := (input[2] ++ input[3] : BitVec 16)
      extraMarker := input[1]
      partialHash := Vector.ofFn fun (i : Fin 28) => input[4 + i.val] }

end ContractCodeSha256

/-- `trait VersionedHashDef`, `src/definitions/versioned_hash/mod.rs:1-9`: an implementation is a value with one field per
item of the trait. -/
structure VersionedHashDef where
  VERSION_BYTE : Byte
  StorageLayout : Type
  serialize : StorageLayout → Option (Vector Byte 32)
  serializeToStored : StorageLayout → Option (Vector Byte 32)
  tryDeserialize : Vector Byte 32 → Option StorageLayout

/-- `impl VersionedHashDef for ContractCodeSha256`, `src/definitions/versioned_hash/mod.rs:66-103`; the struct of
`src/definitions/versioned_hash/mod.rs:52` has no fields -/
abbrev contractCodeSha256 : VersionedHashDef where
  VERSION_BYTE := ContractCodeSha256.VERSION_BYTE
  StorageLayout := ContractCodeSha256Storage
  serialize := ContractCodeSha256.serialize
  serializeToStored := ContractCodeSha256.serializeToStored
  tryDeserialize := ContractCodeSha256.tryDeserialize

/-- `VersionedHashGeneric<V>`, `src/definitions/versioned_hash/mod.rs:11-14` -/
structure VersionedHashGeneric (V : VersionedHashDef) where
  data : V.StorageLayout

namespace VersionedHashGeneric
variable {V : VersionedHashDef}

/-- `serialize`, `src/definitions/versioned_hash/mod.rs:17-19` -/
def serialize (h : VersionedHashGeneric V) : Option (Vector Byte 32) := V.serialize h.data
/-- `serialize_to_stored`, `src/definitions/versioned_hash/mod.rs:21-23` -/
def serializeToStored (h : VersionedHashGeneric V) : Option (Vector Byte 32) := V.serializeToStored h.data
/-- `try_create_from_raw`, `src/definitions/versioned_hash/mod.rs:25-29` -/
def tryCreateFromRaw (input : Vector Byte 32) : Option (VersionedHashGeneric V) := do
  let layout ← V.tryDeserialize input
  some { data := layout }
/-- `layout_ref`, `src/definitions/versioned_hash/mod.rs:31-33` -/
def layoutRef (h : VersionedHashGeneric V) : V.StorageLayout := h.data

end VersionedHashGeneric

/-- `VersionedHashGeneric<ContractCodeSha256>`, `src/definitions/versioned_hash/mod.rs:36` -/
abbrev VersionedHash := VersionedHashGeneric contractCodeSha256

namespace VersionedHash

/-- `VersionedHashGeneric::<ContractCodeSha256>::try_create_from_raw`, `src/definitions/versioned_hash/mod.rs:25-29` -/
abbrev tryCreateFromRaw (input : Vector Byte 32) : Option VersionedHash := VersionedHashGeneric.tryCreateFromRaw input

/-- `from_digest_and_preimage_num_words`, `src/definitions/versioned_hash/mod.rs:37-48` -/
def fromDigestAndPreimageNumWords (digest : Vector Byte 32) (numWords : BitVec 16) : VersionedHash where
  data :=
    { codeLengthInWords := numWords
      extraMarker := 0
      partialHash := Vector.ofFn fun (i : Fin 28) => digest[4 + i.val] }

end VersionedHash

/-- The SHA-256 function of the `sha2` crate, a parameter of the model (`src/utils.rs:34-44`): digest of
the concatenation of all bytes fed to `update`. -/
abbrev Digest := List Byte → Vector Byte 32

/-- `bytecode_to_code_hash_for_mode`, `src/utils.rs:19-61`; `limit` is `E::PcOrImm::max().as_u64()`. The slice
length is a `usize`, `as u64` keeps it (64-bit target), `as u16` truncates it. -/
def bytecodeToCodeHashUpTo (sha256 : Digest) (limit : BitVec 64) (bytecodeWords : List (Vector Byte 32)) :
    Except Unit (Vector Byte 32) :=
  if bytecodeWords.length % 2 ≠ 1 then .error ()
  else if bytecodeWords.length > limit.toNat then .error ()
  else
    let output := sha256 (bytecodeWords.flatMap Vector.toList)
    let versionedHash := VersionedHash.fromDigestAndPreimageNumWords output
      (BitVec.ofNat 16 bytecodeWords.length)
    match versionedHash.serialize with
    | some bytes => .ok bytes
    | none => .error ()

/-- `bytecode_to_code_hash_for_mode`, `src/utils.rs:19-61`, in the modes of the crate; `w` is the width of
`E::PcOrImm` -/
def bytecodeToCodeHashForMode (sha256 : Digest) (w : Nat) (bytecodeWords : List (Vector Byte 32)) :
    Except Unit (Vector Byte 32) :=
  bytecodeToCodeHashUpTo sha256 (asU64 (pcOrImmMax w)) bytecodeWords

/-- `bytecode_to_code_hash`, `src/utils.rs:14-16` -/
def bytecodeToCodeHash (sha256 : Digest) (bytecodeWords : List (Vector Byte 32)) :
    Except Unit (Vector Byte 32) :=
  bytecodeToCodeHashForMode sha256 16 bytecodeWords

end ZkEvm
