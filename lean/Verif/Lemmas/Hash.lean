import Verif.Model.Hash
import Verif.Model.Abi
/-! Lemmas on the layout of versioned hashes. -/
namespace ZkEvm.HashLemmas
open ContractCodeSha256

theorem layout_get (b0 b1 : Byte) (len : BitVec 16) (ph : Vector Byte 28) (i : Nat) (h : i < 32) :
    (layout b0 b1 len ph)[i] = if i = 0 then b0 else if i = 1 then b1
      else if i = 2 then len.extractLsb' 8 8 else if i = 3 then len.extractLsb' 0 8 else ph.getD (i - 4) 0 := by
  unfold layout
  rw [Vector.getElem_ofFn]

theorem layout_tail (b0 b1 : Byte) (len : BitVec 16) (ph : Vector Byte 28) (i : Nat) (h : i < 28) :
    (layout b0 b1 len ph)[4 + i] = ph[i] := by
  rw [layout_get, if_neg (by omega), if_neg (by omega), if_neg (by omega), if_neg (by omega)]
  simp only [Nat.add_sub_cancel_left]
  unfold Vector.getD Array.getD
  rw [dif_pos (by rw [Vector.size_toArray]; exact h)]
  rfl

theorem length_bytes (len : BitVec 16) :
    256 * (len.extractLsb' 8 8).toNat + (len.extractLsb' 0 8).toNat = len.toNat := by
  have := len.isLt
  rw [BitVec.extractLsb'_toNat, BitVec.extractLsb'_toNat, Nat.shiftRight_eq_div_pow, Nat.shiftRight_eq_div_pow]
  omega

theorem be16 (hi lo : Byte) : (hi ++ lo : BitVec 16).toNat = 256 * hi.toNat + lo.toNat := by
  rw [BitVec.toNat_append, ← Nat.shiftLeft_add_eq_or_of_lt lo.isLt, Nat.shiftLeft_eq, Nat.mul_comm]

theorem layout_bytes (b0 b1 : Byte) (len : BitVec 16) (ph : Vector Byte 28) :
    (layout b0 b1 len ph)[0] = b0 ∧ (layout b0 b1 len ph)[1] = b1 ∧
    256 * (layout b0 b1 len ph)[2].toNat + (layout b0 b1 len ph)[3].toNat = len.toNat ∧
    ∀ i (h : i < 28), (layout b0 b1 len ph)[4 + i] = ph[i] := by
  refine ⟨layout_get .., layout_get .., ?_, fun i h => layout_tail _ _ _ _ i h⟩
  rw [layout_get, layout_get]
  exact length_bytes len

/-- A 32-byte array is determined by the four header bytes and the tail. -/
theorem array_ext {a b : Vector Byte 32} (h0 : a[0] = b[0]) (h1 : a[1] = b[1]) (h2 : a[2] = b[2]) (h3 : a[3] = b[3])
    (h : ∀ i (h : i < 28), a[4 + i] = b[4 + i]) : a = b := by
  apply Vector.ext
  intro i hi
  match i, hi with
  | 0, _ => exact h0
  | 1, _ => exact h1
  | 2, _ => exact h2
  | 3, _ => exact h3
  | n + 4, hn =>
    have := h n (by omega)
    simpa only [Nat.add_comm 4 n] using this

theorem two_bytes {a b c d : Byte} (h : 256 * a.toNat + b.toNat = 256 * c.toNat + d.toNat) : a = c ∧ b = d := by
  have h1 := b.isLt
  have h2 := d.isLt
  exact ⟨BitVec.eq_of_toNat_eq (by omega), BitVec.eq_of_toNat_eq (by omega)⟩

theorem deserialize_layout (s : ContractCodeSha256Storage) :
    tryDeserialize (layout 1 s.extraMarker s.codeLengthInWords s.partialHash) = some s := by
  obtain ⟨h0, h1, h2, h3⟩ := layout_bytes 1 s.extraMarker s.codeLengthInWords s.partialHash
  unfold tryDeserialize
  rw [h0, if_neg (by decide), h1]
  cases s with
  | mk len mark ph =>
    refine congrArg some ?_
    rw [ContractCodeSha256Storage.mk.injEq]
    refine ⟨BitVec.eq_of_toNat_eq ((be16 _ _).trans h2), rfl, ?_⟩
    apply Vector.ext
    intro i hi
    rw [Vector.getElem_ofFn]
    exact h3 i hi

theorem layout_deserialize (input : Vector Byte 32) (s : ContractCodeSha256Storage) (h : tryDeserialize input = some s) :
    layout 1 s.extraMarker s.codeLengthInWords s.partialHash = input := by
  unfold tryDeserialize at h
  by_cases h0 : (input[0] != VERSION_BYTE) = true
  · rw [if_pos h0] at h; cases h
  · rw [if_neg h0] at h
    have hv : input[0] = 1 := by simpa [VERSION_BYTE] using h0
    injection h with h
    subst h
    obtain ⟨g0, g1, g2, g3⟩ := layout_bytes 1 input[1] (input[2] ++ input[3] : BitVec 16)
      (Vector.ofFn fun (i : Fin 28) => input[4 + i.val])
    obtain ⟨e2, e3⟩ := two_bytes (g2.trans (be16 _ _))
    refine array_ext (g0.trans hv.symm) g1 e2 e3 fun i hi => ?_
    rw [g3 i hi, Vector.getElem_ofFn]

theorem raw_eq (input : Vector Byte 32) :
    VersionedHash.tryCreateFromRaw input = (tryDeserialize input).map fun d => (⟨d⟩ : VersionedHash) := by
  unfold VersionedHash.tryCreateFromRaw VersionedHashGeneric.tryCreateFromRaw
  show (tryDeserialize input).bind _ = _
  cases tryDeserialize input <;> rfl

/-- The result of hashing: `limit` is the largest program counter. -/
theorem hash_upTo_eq (sha256 : Digest) (limit : BitVec 64) (words : List (Vector Byte 32)) :
    bytecodeToCodeHashUpTo sha256 limit words =
      if words.length % 2 = 1 ∧ words.length ≤ limit.toNat then
        .ok (layout 1 0 (BitVec.ofNat 16 words.length)
          (Vector.ofFn fun (i : Fin 28) => (sha256 (words.flatMap Vector.toList))[4 + i.val]))
      else .error () := by
  unfold bytecodeToCodeHashUpTo
  by_cases h1 : words.length % 2 = 1
  · rw [if_neg (by omega)]
    by_cases h2 : words.length ≤ limit.toNat
    · rw [if_neg (by omega), if_pos ⟨h1, h2⟩]; rfl
    · rw [if_pos (by omega), if_neg (fun h => h2 h.2)]
  · rw [if_pos h1, if_neg (fun h => h1 h.1)]

theorem hash_eq (sha256 : Digest) (w : Nat) (words : List (Vector Byte 32)) :
    bytecodeToCodeHashForMode sha256 w words =
      if words.length % 2 = 1 ∧ words.length ≤ (asU64 (pcOrImmMax w)).toNat then
        .ok (layout 1 0 (BitVec.ofNat 16 words.length)
          (Vector.ofFn fun (i : Fin 28) => (sha256 (words.flatMap Vector.toList))[4 + i.val]))
      else .error () := hash_upTo_eq sha256 _ words

theorem max16 : (asU64 (pcOrImmMax 16)).toNat = 65535 := by decide
theorem max32 : (asU64 (pcOrImmMax 32)).toNat = 4294967295 := by decide

end ZkEvm.HashLemmas
