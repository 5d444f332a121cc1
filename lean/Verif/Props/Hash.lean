import Verif.Lemmas.Hash
import Verif.Spec.Formats
/-!
# Versioned bytecode hashes: C53–C57

The SHA-256 function is a parameter `sha256` of every statement: they hold whatever digest it computes.
-/
namespace ZkEvm.Props
open Spec HashLemmas

/-! ## C53 -/

/-- C53: the serialised form: version byte 1, marker, length in words (big-endian), the 28 hash bytes. -/
theorem C53_layout (s : ContractCodeSha256Storage) :
    ∃ b, ContractCodeSha256.serialize s = some b ∧ b[0] = 1 ∧ b[1] = s.extraMarker ∧
      HoldsLength b[2] b[3] s.codeLengthInWords.toNat ∧ ∀ i (h : i < 28), b[4 + i] = s.partialHash[i] :=
  ⟨_, rfl, layout_bytes ..⟩

/-- C53: deserialising a serialised layout returns it. -/
theorem C53_roundtrip (s : ContractCodeSha256Storage) (b : Vector Byte 32)
    (h : ContractCodeSha256.serialize s = some b) : ContractCodeSha256.tryDeserialize b = some s := by
  injection h with h
  rw [← h]
  exact deserialize_layout s

/-- C53: a layout whose fields are all different from their defaults. -/
example : ∃ b, ContractCodeSha256.serialize ⟨0x1234, 1, Vector.replicate 28 7⟩ = some b ∧
    ContractCodeSha256.tryDeserialize b = some ⟨0x1234, 1, Vector.replicate 28 7⟩ :=
  ⟨_, rfl, C53_roundtrip _ _ rfl⟩

/-- C53: 32 bytes are accepted iff the first is 1, and then serialise to themselves. -/
theorem C53_raw (input : Vector Byte 32) :
    ((∃ h, VersionedHash.tryCreateFromRaw input = some h) ↔ input[0] = 1) ∧
    ∀ h, VersionedHash.tryCreateFromRaw input = some h → h.serialize = some input := by
  rw [raw_eq]
  constructor
  · unfold ContractCodeSha256.tryDeserialize
    by_cases h0 : (input[0] != ContractCodeSha256.VERSION_BYTE) = true
    · rw [if_pos h0]
      refine iff_of_false (fun ⟨h, hh⟩ => by cases hh) fun h => ?_
      rw [h] at h0
      exact absurd h0 (by decide)
    · rw [if_neg h0]
      exact iff_of_true ⟨_, rfl⟩ (by simpa [ContractCodeSha256.VERSION_BYTE] using h0)
  · intro h hh
    cases hd : ContractCodeSha256.tryDeserialize input with
    | none => rw [hd] at hh; cases hh
    | some s =>
      rw [hd] at hh
      have e : h = ⟨s⟩ := (Option.some.inj hh).symm
      rw [e]
      exact congrArg some (layout_deserialize input s hd)

/-- Different hashes serialise differently, and creation from raw bytes is injective. -/
theorem C53_injective (g h : VersionedHash) (hs : g.serialize = h.serialize) : g = h := by
  have hg := C53_roundtrip g.data _ rfl
  have hh := C53_roundtrip h.data _ rfl
  have e : ContractCodeSha256.layout ContractCodeSha256.VERSION_BYTE g.data.extraMarker g.data.codeLengthInWords
      g.data.partialHash = _ := Option.some.inj hs
  rw [e, hh] at hg
  cases g; cases h
  exact congrArg (VersionedHashGeneric.mk (V := contractCodeSha256)) (Option.some.inj hg).symm

example : (VersionedHash.tryCreateFromRaw (Vector.ofFn fun i => BitVec.ofNat 8 (i.val + 1))).isSome = true ∧
    VersionedHash.tryCreateFromRaw (Vector.replicate 32 2#8) = none := by decide +kernel

/-! ## C54 -/

/-- C54: the stored form has byte 1 zero and otherwise the bytes of the serialised form. -/
theorem C54_stored (s : ContractCodeSha256Storage) :
    ∃ a b, ContractCodeSha256.serialize s = some a ∧ ContractCodeSha256.serializeToStored s = some b ∧ b[1] = 0 ∧
      ∀ i (h : i < 32), i ≠ 1 → b[i] = a[i] := by
  refine ⟨_, _, rfl, rfl, (layout_bytes ..).2.1, fun i h hi => ?_⟩
  rw [layout_get, layout_get]
  simp only [if_neg hi]

/-- C54: the stored form reads back as the layout at rest, which is stored as itself. -/
theorem C54_idempotent (s : ContractCodeSha256Storage) (b : Vector Byte 32)
    (h : ContractCodeSha256.serializeToStored s = some b) :
    ContractCodeSha256.tryDeserialize b = some { s with extraMarker := ContractCodeSha256.CODE_AT_REST_MARKER } ∧
    ContractCodeSha256.serializeToStored { s with extraMarker := ContractCodeSha256.CODE_AT_REST_MARKER } = some b ∧
    ContractCodeSha256.serialize { s with extraMarker := ContractCodeSha256.CODE_AT_REST_MARKER } = some b := by
  refine ⟨?_, h, h⟩
  injection h with h
  rw [← h]
  exact deserialize_layout { s with extraMarker := ContractCodeSha256.CODE_AT_REST_MARKER }

/-- C54: the stored form of a contract under construction is read back as a contract at rest. -/
example : ∃ b, ContractCodeSha256.serializeToStored ⟨0x1234, 1, Vector.replicate 28 7⟩ = some b ∧
    ContractCodeSha256.tryDeserialize b = some ⟨0x1234, 0, Vector.replicate 28 7⟩ :=
  ⟨_, rfl, (C54_idempotent ⟨0x1234, 1, Vector.replicate 28 7⟩ _ rfl).1⟩

/-- C54: same stored form iff same length and same partial hash. -/
theorem C54_same_stored (s t : ContractCodeSha256Storage) :
    ContractCodeSha256.serializeToStored s = ContractCodeSha256.serializeToStored t ↔
      s.codeLengthInWords = t.codeLengthInWords ∧ s.partialHash = t.partialHash := by
  constructor
  · intro h
    have hs := (C54_idempotent s _ rfl).1
    have ht := (C54_idempotent t _ rfl).1
    have e : ContractCodeSha256.layout ContractCodeSha256.VERSION_BYTE 0 s.codeLengthInWords s.partialHash = _ :=
      Option.some.inj h
    rw [e, ht] at hs
    have := Option.some.inj hs
    exact ⟨(congrArg ContractCodeSha256Storage.codeLengthInWords this).symm,
      (congrArg ContractCodeSha256Storage.partialHash this).symm⟩
  · rintro ⟨h1, h2⟩
    unfold ContractCodeSha256.serializeToStored
    rw [h1, h2]

/-- C54: on raw bytes: storing an accepted hash clears byte 1 and keeps the rest. -/
theorem C54_raw (raw : Vector Byte 32) (v : VersionedHash) (h : VersionedHash.tryCreateFromRaw raw = some v) :
    v.serializeToStored = some (raw.set 1 0) := by
  have hs := (C53_raw raw).2 v h
  obtain ⟨a, b, ha, hb, h1, h2⟩ := C54_stored v.data
  have : raw = a := Option.some.inj (hs.symm.trans ha)
  subst this
  refine hb.trans (congrArg some ?_)
  ext i hi
  by_cases e : i = 1
  · subst e; rw [h1, Vector.getElem_set_self]
  · rw [h2 i hi e, Vector.getElem_set_ne _ _ (Ne.symm e)]

/-- C54: raw bytes with marker 2. -/
example : ∃ v, VersionedHash.tryCreateFromRaw (Vector.ofFn fun i => BitVec.ofNat 8 (i.val + 1)) = some v ∧
    v.serializeToStored = some ((Vector.ofFn fun i => BitVec.ofNat 8 (i.val + 1)).set 1 0) := by
  obtain ⟨v, hv⟩ := (C53_raw (Vector.ofFn fun i => BitVec.ofNat 8 (i.val + 1))).1.2 (by decide +kernel)
  exact ⟨v, hv, C54_raw _ v hv⟩

/-- C54: a code hash before and after construction. With the two markers it has two different serialisations, which differ
in byte 1 only and are both accepted; what is stored is the one at rest, whichever was given. -/
theorem C54_lifecycle (s : ContractCodeSha256Storage) :
    ∃ a c, (⟨{ s with extraMarker := ContractCodeSha256.CODE_AT_REST_MARKER }⟩ : VersionedHash).serialize = some a ∧
      (⟨{ s with extraMarker := ContractCodeSha256.YET_CONSTRUCTED_MARKER }⟩ : VersionedHash).serialize = some c ∧
      a[1] = 0 ∧ c[1] = 1 ∧ (∀ i (h : i < 32), i ≠ 1 → a[i] = c[i]) ∧
      ∀ raw ∈ [a, c], ∃ v, VersionedHash.tryCreateFromRaw raw = some v ∧ v.serializeToStored = some a := by
  obtain ⟨a, b, ha, hb, h1, h2⟩ := C54_stored { s with extraMarker := ContractCodeSha256.CODE_AT_REST_MARKER }
  obtain ⟨c, d, hc, hd, _, h4⟩ := C54_stored { s with extraMarker := ContractCodeSha256.YET_CONSTRUCTED_MARKER }
  obtain ⟨c', hc', c0, c1, _⟩ := C53_layout { s with extraMarker := ContractCodeSha256.YET_CONSTRUCTED_MARKER }
  rw [hc] at hc'; cases hc'
  have hab : a = b := Option.some.inj (ha.symm.trans hb)
  have hbd : b = d := Option.some.inj (hb.symm.trans hd)
  subst hab; subst hbd
  have hac : ∀ i (h : i < 32), i ≠ 1 → a[i] = c[i] := h4
  refine ⟨a, c, ha, hc, h1, c1, hac, fun raw hr => ?_⟩
  have hr2 : raw = a ∨ raw = c := by simpa using hr
  have h0 : raw[0] = 1 := by
    rcases hr2 with rfl | rfl
    · rw [hac 0 (by decide) (by decide), c0]
    · exact c0
  obtain ⟨v, hv⟩ := ((C53_raw raw).1).2 h0
  refine ⟨v, hv, (C54_raw raw v hv).trans (congrArg some ?_)⟩
  ext i hi
  by_cases e : i = 1
  · subst e; rw [h1, Vector.getElem_set_self]
  · rw [Vector.getElem_set_ne _ _ (Ne.symm e)]
    rcases hr2 with rfl | rfl
    · rfl
    · rw [hac i hi e]

/-- A contract under construction and the same at rest differ, but have the same stored form. -/
example : let s : ContractCodeSha256Storage := ⟨3, ContractCodeSha256.YET_CONSTRUCTED_MARKER, Vector.replicate 28 7⟩
    let t : ContractCodeSha256Storage := ⟨3, ContractCodeSha256.CODE_AT_REST_MARKER, Vector.replicate 28 7⟩
    ContractCodeSha256.serializeToStored s = ContractCodeSha256.serializeToStored t ∧
    ContractCodeSha256.serialize s ≠ ContractCodeSha256.serialize t := by decide +kernel

/-! ## C55 -/

/-- C55: production hashing succeeds iff the number of 32-byte words is odd and at most 65535. -/
theorem C55_production_ok (sha256 : Digest) (words : List (Vector Byte 32)) :
    (∃ b, bytecodeToCodeHash sha256 words = .ok b) ↔ words.length % 2 = 1 ∧ words.length ≤ 65535 := by
  unfold bytecodeToCodeHash
  rw [hash_eq, max16]
  split
  · exact iff_of_true ⟨_, rfl⟩ ‹_›
  · exact iff_of_false (fun ⟨b, hb⟩ => by cases hb) ‹_›

/-- C55: testing-mode hashing succeeds iff the number of words is odd and at most `u32::MAX`. -/
theorem C55_testing_ok (sha256 : Digest) (words : List (Vector Byte 32)) :
    (∃ b, bytecodeToCodeHashForMode sha256 32 words = .ok b) ↔
      words.length % 2 = 1 ∧ words.length ≤ 4294967295 := by
  rw [hash_eq, max32]
  split
  · exact iff_of_true ⟨_, rfl⟩ ‹_›
  · exact iff_of_false (fun ⟨b, hb⟩ => by cases hb) ‹_›

/-- C55: the bytes of a production hash, and its acceptance as a versioned hash at rest with that length. -/
theorem C55_production_format (sha256 : Digest) (words : List (Vector Byte 32)) (b : Vector Byte 32)
    (h : bytecodeToCodeHash sha256 words = .ok b) :
    b[0] = 1 ∧ b[1] = 0 ∧ HoldsLength b[2] b[3] words.length ∧
    (∀ i (hi : i < 28), b[4 + i] = (sha256 (words.flatMap Vector.toList))[4 + i]) ∧
    ∃ v, VersionedHash.tryCreateFromRaw b = some v ∧ v.layoutRef.codeLengthInWords.toNat = words.length ∧
      v.layoutRef.extraMarker = ContractCodeSha256.CODE_AT_REST_MARKER := by
  have hlen := (C55_production_ok sha256 words).1 ⟨b, h⟩
  unfold bytecodeToCodeHash at h
  rw [hash_eq, max16, if_pos hlen] at h
  injection h with h
  have hl : (BitVec.ofNat 16 words.length).toNat = words.length := by
    rw [BitVec.toNat_ofNat]; omega
  subst h
  obtain ⟨h0, h1, h2, h3⟩ := layout_bytes 1 0 (BitVec.ofNat 16 words.length)
    (Vector.ofFn fun (i : Fin 28) => (sha256 (words.flatMap Vector.toList))[4 + i.val])
  refine ⟨h0, h1, h2.trans hl, fun i hi => (h3 i hi).trans (Vector.getElem_ofFn _), ?_⟩
  have hd := deserialize_layout ⟨BitVec.ofNat 16 words.length, 0,
    Vector.ofFn fun (i : Fin 28) => (sha256 (words.flatMap Vector.toList))[4 + i.val]⟩
  refine ⟨⟨⟨BitVec.ofNat 16 words.length, 0,
    Vector.ofFn fun (i : Fin 28) => (sha256 (words.flatMap Vector.toList))[4 + i.val]⟩⟩, ?_, hl, rfl⟩
  rw [raw_eq]
  exact congrArg (Option.map fun d => (⟨d⟩ : VersionedHash)) hd

/-- C55: bytecode of 257 words: the length takes both bytes. -/
example (sha256 : Digest) : ∃ b, bytecodeToCodeHash sha256 (List.replicate 257 (Vector.replicate 32 7)) = .ok b ∧
    HoldsLength b[2] b[3] 257 := by
  have hl : (List.replicate 257 (Vector.replicate 32 (7 : Byte))).length = 257 := List.length_replicate
  obtain ⟨b, hb⟩ := (C55_production_ok sha256 (List.replicate 257 (Vector.replicate 32 7))).2 (by rw [hl]; decide)
  have h := (C55_production_format sha256 _ b hb).2.2.1
  rw [hl] at h
  exact ⟨b, hb, h⟩

/-! ## C56 -/

/-- C56: equal production hashes come from bytecodes of equal length whose digests agree on the last 28 bytes. -/
theorem C56_equal_hashes (sha256 : Digest) (p q : List (Vector Byte 32)) (b : Vector Byte 32)
    (hp : bytecodeToCodeHash sha256 p = .ok b) (hq : bytecodeToCodeHash sha256 q = .ok b) :
    p.length = q.length ∧
    ∀ i (hi : i < 28), (sha256 (p.flatMap Vector.toList))[4 + i] = (sha256 (q.flatMap Vector.toList))[4 + i] := by
  obtain ⟨_, _, lp, tp, _⟩ := C55_production_format sha256 p b hp
  obtain ⟨_, _, lq, tq, _⟩ := C55_production_format sha256 q b hq
  exact ⟨lp.symm.trans lq, fun i hi => (tp i hi).symm.trans (tq i hi)⟩

/-- C56: for any digest a bytecode of three words meets the hypotheses with itself. -/
example (sha256 : Digest) : ∃ b, bytecodeToCodeHash sha256 (List.replicate 3 (Vector.replicate 32 7)) = .ok b ∧
    ∀ q, bytecodeToCodeHash sha256 q = .ok b → q.length = 3 := by
  obtain ⟨b, hb⟩ := (C55_production_ok sha256 (List.replicate 3 (Vector.replicate 32 7))).2 (by decide)
  exact ⟨b, hb, fun q hq => (C56_equal_hashes sha256 q _ b hq hb).1⟩

/-- Equal-length word lists are equal if their bytes are. -/
private theorem flat_injective : ∀ (p q : List (Vector Byte 32)),
    p.flatMap Vector.toList = q.flatMap Vector.toList → p = q
  | [], [], _ => rfl
  | [], y :: q, h => by
    have := congrArg List.length h
    simp at this
    omega
  | x :: p, [], h => by
    have := congrArg List.length h
    simp at this
  | x :: p, y :: q, h => by
    rw [List.flatMap_cons, List.flatMap_cons] at h
    obtain ⟨h1, h2⟩ := List.append_inj h (by simp)
    rw [flat_injective p q h2, Vector.toList_inj.1 h1]

/-- C56: where the truncated digest has no collision, equal hashes come from equal bytecodes. -/
theorem C56_collision_free (sha256 : Digest) (p q : List (Vector Byte 32)) (b : Vector Byte 32)
    (hp : bytecodeToCodeHash sha256 p = .ok b) (hq : bytecodeToCodeHash sha256 q = .ok b)
    (hfree : (∀ i (hi : i < 28),
        (sha256 (p.flatMap Vector.toList))[4 + i] = (sha256 (q.flatMap Vector.toList))[4 + i]) →
      p.flatMap Vector.toList = q.flatMap Vector.toList) : p = q :=
  flat_injective p q (hfree (C56_equal_hashes sha256 p q b hp hq).2)

/-- With a (useless) constant digest, different bytecodes of the same length have equal hashes. -/
example : (bytecodeToCodeHash (fun _ => Vector.replicate 32 9) [Vector.replicate 32 1]).toOption
      = (bytecodeToCodeHash (fun _ => Vector.replicate 32 9) [Vector.replicate 32 2]).toOption ∧
    (bytecodeToCodeHash (fun _ => Vector.replicate 32 9) [Vector.replicate 32 1]).toOption.isSome = true := by
  decide +kernel

/-! ## C57 -/

/-- C57: in testing mode the length field is the number of words modulo `2^16`; it is the number of words iff there
are fewer than 65536. -/
theorem C57_testing_length (sha256 : Digest) (words : List (Vector Byte 32)) (b : Vector Byte 32)
    (h : bytecodeToCodeHashForMode sha256 32 words = .ok b) :
    HoldsLength b[2] b[3] (words.length % 65536) ∧ (HoldsLength b[2] b[3] words.length ↔ words.length < 65536) := by
  have hlen := (C55_testing_ok sha256 words).1 ⟨b, h⟩
  rw [hash_eq, max32, if_pos hlen] at h
  injection h with h
  subst h
  obtain ⟨_, _, h2, _⟩ := layout_bytes 1 0 (BitVec.ofNat 16 words.length)
    (Vector.ofFn fun (i : Fin 28) => (sha256 (words.flatMap Vector.toList))[4 + i.val])
  rw [BitVec.toNat_ofNat] at h2
  refine ⟨h2, ?_⟩
  unfold HoldsLength
  rw [h2]
  omega

/-- C57: 65537 words are hashed in testing mode, with length 1. -/
example (sha256 : Digest) : ∃ b,
    bytecodeToCodeHashForMode sha256 32 (List.replicate 65537 (Vector.replicate 32 7)) = .ok b ∧
    HoldsLength b[2] b[3] 1 ∧ ¬ HoldsLength b[2] b[3] 65537 := by
  have hl : (List.replicate 65537 (Vector.replicate 32 (7 : Byte))).length = 65537 := List.length_replicate
  obtain ⟨b, hb⟩ := (C55_testing_ok sha256 (List.replicate 65537 (Vector.replicate 32 7))).2 (by rw [hl]; omega)
  have h := C57_testing_length sha256 _ b hb
  rw [hl] at h
  exact ⟨b, hb, h.1, fun h' => absurd (h.2.1 h') (by omega)⟩

/-- C57: otherwise a testing-mode hash has the production format: version byte 1, at rest, and the last 28 bytes of the
digest of all words; it is accepted as a versioned hash. -/
theorem C57_testing_format (sha256 : Digest) (words : List (Vector Byte 32)) (b : Vector Byte 32)
    (h : bytecodeToCodeHashForMode sha256 32 words = .ok b) :
    b[0] = 1 ∧ b[1] = 0 ∧
    (∀ i (hi : i < 28), b[4 + i] = (sha256 (words.flatMap Vector.toList))[4 + i]) ∧
    ∃ v, VersionedHash.tryCreateFromRaw b = some v := by
  have hlen := (C55_testing_ok sha256 words).1 ⟨b, h⟩
  rw [hash_eq, max32, if_pos hlen] at h
  injection h with h
  subst h
  obtain ⟨h0, h1, _, h3⟩ := layout_bytes 1 0 (BitVec.ofNat 16 words.length)
    (Vector.ofFn fun (i : Fin 28) => (sha256 (words.flatMap Vector.toList))[4 + i.val])
  exact ⟨h0, h1, fun i hi => (h3 i hi).trans (Vector.getElem_ofFn _), ((C53_raw _).1).2 h0⟩

/-- C57: a bytecode of three words. -/
example (sha256 : Digest) : ∃ b, bytecodeToCodeHashForMode sha256 32 (List.replicate 3 (Vector.replicate 32 7)) = .ok b ∧
    b[0] = 1 ∧ b[1] = 0 := by
  obtain ⟨b, hb⟩ := (C55_testing_ok sha256 (List.replicate 3 (Vector.replicate 32 7))).2 (by decide)
  have h := C57_testing_format sha256 _ b hb
  exact ⟨b, hb, h.1, h.2.1⟩

/-- C57: where the truncated digest has no collision, equal testing-mode hashes come from equal bytecodes too (the
lengths then agree because the digested bytes do). -/
theorem C57_collision_free (sha256 : Digest) (p q : List (Vector Byte 32)) (b : Vector Byte 32)
    (hp : bytecodeToCodeHashForMode sha256 32 p = .ok b) (hq : bytecodeToCodeHashForMode sha256 32 q = .ok b)
    (hfree : (∀ i (hi : i < 28),
        (sha256 (p.flatMap Vector.toList))[4 + i] = (sha256 (q.flatMap Vector.toList))[4 + i]) →
      p.flatMap Vector.toList = q.flatMap Vector.toList) : p = q :=
  flat_injective p q (hfree fun i hi =>
    ((C57_testing_format sha256 p b hp).2.2.1 i hi).symm.trans ((C57_testing_format sha256 q b hq).2.2.1 i hi))

/-- C57: a digest that tells two bytecodes of one word apart, because its result contains the first byte. -/
example (b : Vector Byte 32) (h : bytecodeToCodeHashForMode (fun l => Vector.replicate 32 (l.headD 0)) 32
      [Vector.replicate 32 1] = .ok b) :
    bytecodeToCodeHashForMode (fun l => Vector.replicate 32 (l.headD 0)) 32 [Vector.replicate 32 2] ≠ .ok b := fun h' =>
  absurd (C57_collision_free _ _ _ b h h' fun he => absurd (he 0 (by decide)) (by decide +kernel)) (by decide +kernel)

/-- C57: so, whatever the digest function, some bytecodes of different length get hashes with the same length field. -/
theorem C57_ambiguous (sha256 : Digest) : ∃ (p q : List (Vector Byte 32)) (a b : Vector Byte 32),
    bytecodeToCodeHashForMode sha256 32 p = .ok a ∧ bytecodeToCodeHashForMode sha256 32 q = .ok b ∧
    p.length ≠ q.length ∧ a[2] = b[2] ∧ a[3] = b[3] := by
  have hp := (C55_testing_ok sha256 (List.replicate 1 (Vector.replicate 32 0))).2
    (by rw [List.length_replicate]; decide)
  have hq := (C55_testing_ok sha256 (List.replicate 65537 (Vector.replicate 32 0))).2
    (by rw [List.length_replicate]; decide)
  obtain ⟨a, ha⟩ := hp
  obtain ⟨b, hb⟩ := hq
  have la := (C57_testing_length sha256 _ a ha).1
  have lb := (C57_testing_length sha256 _ b hb).1
  rw [List.length_replicate] at la lb
  obtain ⟨e2, e3⟩ := two_bytes (la.trans lb.symm)
  exact ⟨_, _, a, b, ha, hb, by rw [List.length_replicate, List.length_replicate]; decide, e2, e3⟩

end ZkEvm.Props
