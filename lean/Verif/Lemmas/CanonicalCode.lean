import Verif.Spec.CanonicalCode
import Verif.Lemmas.Disassembly
import Verif.Lemmas.Listing
/-! Lemmas on codes of which one piece is replaced. -/
namespace ZkEvm.CanonicalCodeLemmas
open Spec Words Program Deploy DisassemblyLemmas

/-- Bytes that fill words are words. -/
theorem chunk : ∀ (n : Nat) (l : List Byte), l.length = 32 * n → ∃ words : List (Vector Byte 32), words.length = n ∧ words.flatMap Vector.toList = l
  | 0, l, h => ⟨[], rfl, (List.eq_nil_of_length_eq_zero h).symm⟩
  | n + 1, l, h => by
    obtain ⟨words, hl, hw⟩ := chunk n (l.drop 32) (by rw [List.length_drop, h]; omega)
    have ht : (l.take 32).length = 32 := by rw [List.length_take, h]; omega
    refine ⟨⟨(l.take 32).toArray, by rw [List.size_toArray, ht]⟩ :: words, by rw [List.length_cons, hl], ?_⟩
    rw [List.flatMap_cons, hw]
    exact List.take_append_drop 32 l

theorem piece_getElem? (N : Nat) (words : List (Vector Byte 32)) (i t : Nat) (ht : t < N) :
    (piece N words i)[t]? = (words.flatMap Vector.toList)[N * i + t]? := by
  unfold piece
  rw [List.getElem?_take_of_lt ht, List.getElem?_drop]

theorem piece_length_le (N : Nat) (words : List (Vector Byte 32)) (i : Nat) : (piece N words i).length ≤ N :=
  List.length_take_le ..

/-- One piece of a code can be any number, the others staying what they are. -/
theorem replace_piece {N k : Nat} (hk : k = 8 * N) (words : List (Vector Byte 32)) (i : Nat)
    (hi : N * (i + 1) ≤ 32 * words.length) (x : BitVec k) : ∃ words', words'.length = words.length ∧
      beNat (piece N words' i) = x.toNat ∧ ∀ j, j ≠ i → piece N words' j = piece N words j := by
  rw [Nat.mul_succ] at hi
  have hf := flat_length words
  obtain ⟨words', hl, hw⟩ := chunk words.length
    ((words.flatMap Vector.toList).take (N * i) ++ (toBeBytes N x ++ (words.flatMap Vector.toList).drop (N * i + N))) (by
      rw [List.length_append, List.length_append, List.length_take, List.length_drop, toBeBytes_length, hf]
      omega)
  have ht : ((words.flatMap Vector.toList).take (N * i)).length = N * i := by rw [List.length_take, hf]; omega
  refine ⟨words', hl, ?_, fun j hj => ?_⟩
  · unfold piece
    rw [hw, List.drop_left' ht, List.take_left' (toBeBytes_length N x), beNat_toBeBytes]
    subst hk
    exact Nat.mod_eq_of_lt x.isLt
  · apply List.ext_getElem?
    intro t
    by_cases htN : t < N
    · rw [piece_getElem? N words' j t htN, piece_getElem? N words j t htN, hw]
      rcases Nat.lt_or_gt_of_ne hj with h | h
      · have : N * (j + 1) ≤ N * i := Nat.mul_le_mul_left N h
        rw [Nat.mul_succ] at this
        rw [List.getElem?_append_left (by omega), List.getElem?_take_of_lt (by omega)]
      · have : N * (i + 1) ≤ N * j := Nat.mul_le_mul_left N h
        rw [Nat.mul_succ] at this
        rw [List.getElem?_append_right (by omega), List.getElem?_append_right (by rw [toBeBytes_length]; omega),
          List.getElem?_drop, toBeBytes_length, ht]
        congr 1
        omega
    · rw [List.getElem?_eq_none (Nat.le_trans (piece_length_le N words' j) (by omega)),
        List.getElem?_eq_none (Nat.le_trans (piece_length_le N words j) (by omega))]

/-- Codes with the same pieces are the same. -/
theorem words_ext {N n : Nat} {words words' : List (Vector Byte 32)} (hn : N * n = 32 * words.length)
    (hn' : N * n = 32 * words'.length) (h : ∀ i, i < n → beNat (piece N words i) = beNat (piece N words' i)) : words = words' := by
  refine ListingLemmas.flat_inj _ _ (slices_ext (N := N) (n := n) (by rw [flat_length, ← hn]) (by rw [flat_length, ← hn']) fun i hi => ?_)
  have := h i hi
  rw [piece_slice hn hi, piece_slice hn' hi] at this
  exact EncodingModeLemmas.beNat_inj (by rw [slice_length, slice_length]) this

theorem low_bits {k : Nat} (raw : BitVec k) : (raw.getLsbD 11 = false ∧ raw.getLsbD 12 = false) ↔ bits raw 11 2 = 0 := by
  unfold BitVec.getLsbD bits
  rw [Nat.testBit_eq_decide_div_mod_eq, Nat.testBit_eq_decide_div_mod_eq, decide_eq_false_iff_not, decide_eq_false_iff_not]
  omega

end ZkEvm.CanonicalCodeLemmas
