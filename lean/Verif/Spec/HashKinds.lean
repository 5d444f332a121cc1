import Verif.Model.Hash
/-! Specification vocabulary for kinds of versioned hashes, written inside or outside the crate. -/
namespace ZkEvm.Spec

/-- The contract of a kind of versioned hashes: deserialisation and serialisation are inverse to each other, and the
first byte of a serialised hash is the version byte of the kind. -/
structure LawfulKind (V : VersionedHashDef) : Prop where
  inverse : ∀ raw d, V.tryDeserialize raw = some d ↔ V.serialize d = some raw
  version : ∀ raw d, V.serialize d = some raw → raw[0] = V.VERSION_BYTE

/-- The kind accepts these bytes. -/
def Accepts (V : VersionedHashDef) (raw : Vector Byte 32) : Prop :=
  ∃ h : VersionedHashGeneric V, VersionedHashGeneric.tryCreateFromRaw raw = some h

end ZkEvm.Spec
