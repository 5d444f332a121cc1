import Verif.Lemmas.Hash
import Verif.Spec.Formats
import Verif.Props.EncodingMode
/-! C102: reading only the variant and condition of a word, the serialisation methods of an instruction, and the hash
made from a digest and a length. -/
namespace ZkEvm.Props
open Spec Tables Coding HashLemmas Words

/-! ## C102 -/

/-- C102, production: for every word, `variant_and_condition_from_u64_word` returns the number in bits 0–10, the
table's variant under this number and the condition in bits 13–15: the same as a full parse. -/
theorem C102_preview_production (w : BitVec 64) :
    ∃ t v c o, OPCODES_TABLE = .ok t ∧
      Production.variantAndConditionFromU64Word w = .ok (v, c, bits w 0 11) ∧
      t[bits w 0 11]? = some v ∧ [.always, .gt, .lt, .eq, .ge, .le, .ne, .gtOrLt][bits w 13 3]? = some c ∧
      Production.parse w = .ok (o, .fromUsize (bits w 0 11)) ∧ o.variant = v ∧ o.condition = c := by
  obtain ⟨c, hp, hc⟩ := prod_variant w
  obtain ⟨t, o, ht, ho, hv, _, hcond, _⟩ := C01_decode_production w
  have hb : bits w 0 11 = w.toNat % 2 ^ 11 := by unfold bits; omega
  have hcc : [.always, .gt, .lt, .eq, .ge, .le, .ne, .gtOrLt][bits w 13 3]? = some c := by
    rw [bits, ← hc]; cases c <;> rfl
  rw [OPCODES_TABLE_eq] at ht
  cases ht
  refine ⟨fullTable, entry (w.toNat % 2 ^ 11), c, o, OPCODES_TABLE_eq, by rw [hb]; exact hp, ?_, hcc, ho, ?_, ?_⟩
  · rw [hb, fullTable_get (Nat.mod_lt _ (by decide))]
  · rw [hb, fullTable_get (Nat.mod_lt _ (by decide))] at hv
    exact (Option.some.inj hv).symm
  · exact Option.some.inj (hcond.symm.trans hcc)

/-- C102, testing: the same for `variant_and_condition_from_u128_word`. -/
theorem C102_preview_testing (w : BitVec 128) :
    ∃ t v c o, OPCODES_TABLE = .ok t ∧
      Testing.variantAndConditionFromU128Word w = .ok (v, c, bits w 0 11) ∧
      t[bits w 0 11]? = some v ∧ [.always, .gt, .lt, .eq, .ge, .le, .ne, .gtOrLt][bits w 13 3]? = some c ∧
      Testing.parse w = .ok (o, .fromUsize (bits w 0 11)) ∧ o.variant = v ∧ o.condition = c := by
  obtain ⟨c, hp, hc⟩ := test_variant w
  obtain ⟨t, o, ht, ho, hv, _, hcond, _⟩ := C01_decode_testing w
  have hb : bits w 0 11 = w.toNat % 2 ^ 11 := by unfold bits; omega
  have hcc : [.always, .gt, .lt, .eq, .ge, .le, .ne, .gtOrLt][bits w 13 3]? = some c := by
    rw [bits, ← hc]; cases c <;> rfl
  rw [OPCODES_TABLE_eq] at ht
  cases ht
  refine ⟨fullTable, entry (w.toNat % 2 ^ 11), c, o, OPCODES_TABLE_eq, by rw [hb]; exact hp, ?_, hcc, ho, ?_, ?_⟩
  · rw [hb, fullTable_get (Nat.mod_lt _ (by decide))]
  · rw [hb, fullTable_get (Nat.mod_lt _ (by decide))] at hv
    exact (Option.some.inj hv).symm
  · exact Option.some.inj (hcond.symm.trans hcc)

/-- C102: a word with all bits set outside the two fields: opcode 1059 under the condition `lt`. -/
example : ∃ v, Production.variantAndConditionFromU64Word 0xffffffffffff5c23#64 = .ok (v, .lt, 1059) ∧
    v.opcode = .farCall .normal := by
  obtain ⟨t, v, c, o, ht, hp, hv, hc, _⟩ := C102_preview_production 0xffffffffffff5c23#64
  rw [OPCODES_TABLE_eq] at ht
  cases ht
  rw [show bits 0xffffffffffff5c23#64 0 11 = 1059 by decide] at hp hv
  rw [show bits 0xffffffffffff5c23#64 13 3 = 2 by decide] at hc
  rw [fullTable_get (by decide)] at hv
  cases hc
  refine ⟨v, hp, ?_⟩
  rw [← Option.some.inj hv]
  decide +kernel

/-- C102: `serialize_as_integer` and `serialize_as_bytes` of an instruction that exists, in any encoding mode that keeps
the contract: the word is canonical and parses to the instruction, and the bytes are those of the word. -/
theorem C102_serialize {N : Nat} (E : VmEncodingMode N) (valid : E.Decoded → Prop) (hL : Lawful E valid) (b : Build)
    (o : E.Decoded) (h : valid o) :
    ∃ w n, E.serializeAsInteger b o = .ok w ∧ E.serializeAsBytes b o = .ok (E.integerAsBytes w) ∧
      (E.integerAsBytes w).length = N ∧ E.isCanonicalEncoding w = true ∧ E.parse w = .ok (o, n) := by
  obtain ⟨w, n, hw, hp, hc⟩ := hL.roundtrip b o h
  exact ⟨w, n, hw, hL.bytes b o w hw, E.integerAsBytes_length w, hc, hp⟩

/-- C102: in the two modes of the crate the bytes of a word are its big-endian representation. -/
theorem C102_big_endian :
    (∀ w, (EncodingModeProduction.integerAsBytes w).length = 8 ∧
      beNat (EncodingModeProduction.integerAsBytes w) = @BitVec.toNat 64 w) ∧
    (∀ w, (EncodingModeTesting.integerAsBytes w).length = 16 ∧
      beNat (EncodingModeTesting.integerAsBytes w) = @BitVec.toNat 128 w) := by
  refine ⟨fun w => ⟨toBeBytes_length 8 w, ?_⟩, fun w => ⟨toBeBytes_length 16 w, ?_⟩⟩
  · exact (beNat_toBeBytes 8 (w := 64) w).trans (Nat.mod_eq_of_lt (BitVec.isLt (w := 64) w))
  · exact (beNat_toBeBytes 16 (w := 128) w).trans (Nat.mod_eq_of_lt (BitVec.isLt (w := 128) w))

private def shl (w : Nat) : DecodedOpcode w :=
  ⟨⟨.shift .shl, .full .useImm16Only, .full .useRegOnly, ⟨false, true⟩⟩, .ne, 0, 3, 4, 0, 5, 0⟩

/-- C102: a shift by an immediate, in both modes. -/
example : (∃ w n, EncodingModeProduction.serializeAsInteger .debug (shl 16) = .ok w ∧
      EncodingModeProduction.parse w = .ok (shl 16, n)) ∧
    ∃ bs, EncodingModeTesting.serializeAsBytes .release (shl 32) = .ok bs ∧ bs.length = 16 := by
  obtain ⟨w, n, h, _, _, _, hp⟩ :=
    C102_serialize EncodingModeProduction Encodable C85_builtin.1 .debug (shl 16) (by decide)
  obtain ⟨_, _, _, h', hl, _⟩ :=
    C102_serialize EncodingModeTesting Encodable C85_builtin.2.1 .release (shl 32) (by decide)
  exact ⟨⟨w, n, h, hp⟩, _, h', hl⟩

/-- C102: the hash made from any digest and any number of words, even or zero: it serialises to version 1, no marker,
the number of words in big-endian order and the last 28 bytes of the digest; its stored form is the same bytes; they
parse to the same hash; and it depends on nothing else. -/
theorem C102_digest (digest : Vector Byte 32) (n : BitVec 16) :
    (∃ raw, (VersionedHash.fromDigestAndPreimageNumWords digest n).serialize = some raw ∧
      raw[0] = 1 ∧ raw[1] = 0 ∧ HoldsLength raw[2] raw[3] n.toNat ∧
      (∀ i (_ : i < 28), raw[4 + i] = digest[4 + i]) ∧
      (VersionedHash.fromDigestAndPreimageNumWords digest n).serializeToStored = some raw ∧
      VersionedHash.tryCreateFromRaw raw = some (VersionedHash.fromDigestAndPreimageNumWords digest n)) ∧
    ∀ digest' n', VersionedHash.fromDigestAndPreimageNumWords digest n
        = VersionedHash.fromDigestAndPreimageNumWords digest' n' ↔
      n = n' ∧ ∀ i (_ : i < 28), digest[4 + i] = digest'[4 + i] := by
  have hl := layout_bytes 1 0 n (Vector.ofFn fun (i : Fin 28) => digest[4 + i.val])
  refine ⟨⟨_, rfl, hl.1, hl.2.1, hl.2.2.1, fun i hi => ?_, rfl, ?_⟩, fun digest' n' => ⟨fun h => ?_, fun h => ?_⟩⟩
  · exact (hl.2.2.2 i hi).trans (Vector.getElem_ofFn _)
  · rw [raw_eq]
    exact congrArg (Option.map _)
      (deserialize_layout ⟨n, 0, Vector.ofFn fun (i : Fin 28) => digest[4 + i.val]⟩)
  · have h1 := congrArg (fun v : VersionedHash => v.data.codeLengthInWords) h
    have h2 := congrArg (fun v : VersionedHash => v.data.partialHash) h
    refine ⟨h1, fun i hi => ?_⟩
    have h3 := congrArg (fun v : Vector Byte 28 => v[i]) h2
    exact (Vector.getElem_ofFn (n := 28) (f := fun (i : Fin 28) => digest[4 + i.val]) hi).symm.trans
      (h3.trans (Vector.getElem_ofFn (n := 28) (f := fun (i : Fin 28) => digest'[4 + i.val]) hi))
  · obtain ⟨rfl, h⟩ := h
    unfold VersionedHash.fromDigestAndPreimageNumWords
    have : (Vector.ofFn fun (i : Fin 28) => digest[4 + i.val]) = Vector.ofFn fun (i : Fin 28) => digest'[4 + i.val] := by
      apply Vector.ext
      intro i hi
      rw [Vector.getElem_ofFn, Vector.getElem_ofFn]
      exact h i hi
    rw [this]

/-- C102: digests that differ only in their first four bytes give the same hash, and 300 words are bytes 1 and 44. -/
example : VersionedHash.fromDigestAndPreimageNumWords (Vector.ofFn fun i => if i.val < 4 then 9 else 7) 300 =
      VersionedHash.fromDigestAndPreimageNumWords (Vector.replicate 32 7) 300 ∧
    ∃ raw, (VersionedHash.fromDigestAndPreimageNumWords (Vector.replicate 32 7) 300).serialize = some raw ∧
      raw[2] = 1 ∧ raw[3] = 44 ∧ raw[31] = 7 :=
  ⟨((C102_digest _ 300).2 _ _).2 ⟨rfl, by decide⟩, _, rfl, by decide⟩

end ZkEvm.Props
