import Verif.Props.Hash
import Verif.Spec.HashKinds
/-!
# Kinds of versioned hashes as an interface: C86
-/
namespace ZkEvm.Props
open Spec HashLemmas

private theorem generic_raw {V : VersionedHashDef} (raw : Vector Byte 32) :
    (VersionedHashGeneric.tryCreateFromRaw raw : Option (VersionedHashGeneric V)) =
      (V.tryDeserialize raw).map VersionedHashGeneric.mk := by
  unfold VersionedHashGeneric.tryCreateFromRaw
  cases V.tryDeserialize raw <;> rfl

/-! ## C86 -/

/-- C86: for every kind that meets the contract, bytes are accepted as a hash exactly when they are the serialisation of
that hash; so serialising is injective. -/
theorem C86_raw (V : VersionedHashDef) (hL : LawfulKind V) :
    (∀ raw (h : VersionedHashGeneric V), VersionedHashGeneric.tryCreateFromRaw raw = some h ↔ h.serialize = some raw) ∧
    (∀ (g h : VersionedHashGeneric V) raw, g.serialize = some raw → h.serialize = some raw → g = h) ∧
    (∀ raw, Accepts V raw → raw[0] = V.VERSION_BYTE) := by
  have key : ∀ raw (h : VersionedHashGeneric V),
      VersionedHashGeneric.tryCreateFromRaw raw = some h ↔ h.serialize = some raw := by
    intro raw h
    rw [generic_raw, Option.map_eq_some_iff]
    constructor
    · rintro ⟨d, hd, rfl⟩
      exact (hL.inverse raw d).1 hd
    · intro hs
      exact ⟨h.data, (hL.inverse raw h.data).2 hs, rfl⟩
  refine ⟨key, fun g h raw hg hh => ?_, fun raw ⟨h, hh⟩ => hL.version raw h.data ((key raw h).1 hh)⟩
  exact Option.some.inj (((key raw g).2 hg).symm.trans ((key raw h).2 hh))

/-- C86: among kinds with different version bytes, at most one accepts given bytes, and it is the one whose version byte
comes first: dispatching on the first byte loses nothing. -/
theorem C86_dispatch (kinds : List VersionedHashDef) (hL : ∀ V ∈ kinds, LawfulKind V)
    (hd : (kinds.map (·.VERSION_BYTE)).Nodup) (raw : Vector Byte 32) :
    (∀ V ∈ kinds, ∀ W ∈ kinds, Accepts V raw → Accepts W raw → V = W) ∧
    (∀ V ∈ kinds, Accepts V raw → kinds.find? (fun W => W.VERSION_BYTE == raw[0]) = some V) := by
  have inj : ∀ (l : List VersionedHashDef), (l.map (·.VERSION_BYTE)).Nodup → ∀ V ∈ l, ∀ W ∈ l,
      V.VERSION_BYTE = W.VERSION_BYTE → V = W := by
    intro l
    induction l with
    | nil => intro _ V hV; exact absurd hV List.not_mem_nil
    | cons X l ih =>
      intro hn V hV W hW e
      rw [List.map_cons, List.nodup_cons] at hn
      rcases List.mem_cons.1 hV with rfl | hV' <;> rcases List.mem_cons.1 hW with rfl | hW'
      · rfl
      · exact absurd (e ▸ List.mem_map_of_mem hW') hn.1
      · exact absurd (e ▸ List.mem_map_of_mem hV') hn.1
      · exact ih hn.2 V hV' W hW' e
  have hv : ∀ V ∈ kinds, Accepts V raw → V.VERSION_BYTE = raw[0] :=
    fun V hV ha => ((C86_raw V (hL V hV)).2.2 raw ha).symm
  refine ⟨fun V hV W hW h1 h2 => inj kinds hd V hV W hW ((hv V hV h1).trans (hv W hW h2).symm), fun V hV ha => ?_⟩
  cases hf : kinds.find? (fun W => W.VERSION_BYTE == raw[0]) with
  | none => exact absurd (beq_iff_eq.2 (hv V hV ha)) (List.find?_eq_none.1 hf V hV)
  | some W =>
    rw [inj kinds hd W (List.mem_of_find?_eq_some hf) V hV
      ((beq_iff_eq.1 (List.find?_some (p := fun W : VersionedHashDef => W.VERSION_BYTE == raw[0]) hf)).trans (hv V hV ha).symm)]

/-- C86: the crate's kind meets the contract, and it accepts exactly the bytes that begin with its version byte. -/
theorem C86_builtin :
    LawfulKind contractCodeSha256 ∧ ∀ raw, Accepts contractCodeSha256 raw ↔ raw[0] = contractCodeSha256.VERSION_BYTE := by
  refine ⟨⟨fun raw d => ⟨fun h => ?_, fun h => C53_roundtrip d raw h⟩, fun raw d h => ?_⟩, fun raw => (C53_raw raw).1⟩
  · exact congrArg some (layout_deserialize raw d h)
  · obtain ⟨b, hb, h0, _⟩ := C53_layout d
    rw [show raw = b from Option.some.inj ((show ContractCodeSha256.serialize d = some raw from h).symm.trans hb)]
    exact h0

-- Another kind, which is not in the crate: version byte 2, the rest free. The two kinds can be used side by side.

/-- C86: what the crate's kind reads it writes back. -/
example (raw : Vector Byte 32) (h : VersionedHash) (hr : VersionedHash.tryCreateFromRaw raw = some h) :
    h.serialize = some raw :=
  ((C86_raw contractCodeSha256 C86_builtin.1).1 raw h).1 hr

private def otherKind : VersionedHashDef where
  VERSION_BYTE := 2
  StorageLayout := { raw : Vector Byte 32 // raw[0] = 2 }
  serialize d := some d.val
  serializeToStored d := some d.val
  tryDeserialize raw := if h : raw[0] = 2 then some ⟨raw, h⟩ else none

private theorem other_lawful : LawfulKind otherKind := by
  refine ⟨fun raw d => ⟨fun h => ?_, fun h => ?_⟩, fun raw d h => ?_⟩
  · dsimp only [otherKind] at h ⊢
    split at h
    · exact congrArg some (congrArg Subtype.val (Option.some.inj h)).symm
    · exact nomatch h
  · have e : d.val = raw := Option.some.inj h
    subst e
    exact dif_pos d.property
  · have e : d.val = raw := Option.some.inj h
    subst e
    exact d.property
example : ([contractCodeSha256, otherKind].map (·.VERSION_BYTE)).Nodup := by decide


/-- C86: bytes that begin with 2 are accepted by the second kind and found by their version byte. -/
example : [contractCodeSha256, otherKind].find? (fun W => W.VERSION_BYTE == (Vector.replicate 32 (2 : Byte))[0]) =
    some otherKind := by
  refine (C86_dispatch [contractCodeSha256, otherKind] ?_ (by decide) (Vector.replicate 32 2)).2 otherKind (by simp) ?_
  · intro V hV
    rcases List.mem_cons.1 hV with rfl | hV
    · exact C86_builtin.1
    · rw [List.mem_singleton.1 hV]
      exact other_lawful
  · exact ⟨⟨⟨Vector.replicate 32 2, by decide⟩⟩, by
      have h : otherKind.tryDeserialize (Vector.replicate 32 2) = some ⟨Vector.replicate 32 2, by decide⟩ := by
        dsimp only [otherKind]
        exact dif_pos (by decide)
      unfold VersionedHashGeneric.tryCreateFromRaw
      rw [h]
      rfl⟩

end ZkEvm.Props
