import Verif.Lemmas.Program
import Verif.Spec.Deploy
namespace ZkEvm.Deploy
open Spec Words Program

theorem flat_length (words : List (Vector Byte 32)) : (words.flatMap Vector.toList).length = 32 * words.length := by
  induction words with
  | nil => rfl
  | cons w ws ih => rw [List.flatMap_cons, List.length_append, ih, List.length_cons, Vector.length_toList]; omega

theorem pageWord_eq (words : List (Vector Byte 32)) (k : Nat) :
    pageWord words k = slice (words.flatMap Vector.toList) (32 * k) 32 := by
  induction words generalizing k with
  | nil =>
    rw [slice_nil_of_ge _ _ _ (by simp)]
    rfl
  | cons w ws ih =>
    match k with
    | 0 =>
      apply List.ext_getElem (by rw [slice_length]; exact Vector.length_toList)
      intro j h1 h2
      rw [slice_length] at h2
      simp only [slice, List.getElem_map, List.getElem_range, Nat.mul_zero, Nat.zero_add, List.flatMap_cons]
      have h3 : j < w.toList.length := by rw [Vector.length_toList]; exact h2
      rw [List.getD_eq_getElem?_getD, List.getElem?_append_left h3, List.getElem?_eq_getElem h3]
      rfl
    | k + 1 =>
      refine Eq.trans (show pageWord (w :: ws) (k + 1) = pageWord ws k from rfl) ((ih k).trans ?_)
      unfold slice
      apply List.map_congr_left
      intro j _
      rw [List.flatMap_cons, List.getD_eq_getElem?_getD, List.getD_eq_getElem?_getD, List.getElem?_append_right
        (by rw [Vector.length_toList]; omega), Vector.length_toList, show 32 * (k + 1) + j - 32 = 32 * k + j by omega]

theorem slice_pad (code : List Byte) (n p m : Nat) : slice (code ++ List.replicate n 0) p m = slice code p m := by
  unfold slice
  apply List.map_congr_left
  intro j _
  rw [List.getD_eq_getElem?_getD, List.getD_eq_getElem?_getD]
  by_cases h : p + j < code.length
  · rw [List.getElem?_append_left h]
  · rw [List.getElem?_append_right (by omega), List.getElem?_eq_none (l := code) (by omega), List.getElem?_replicate]
    split <;> rfl

theorem holds_of_page {v : U256} {code : List Byte} {words : List (Vector Byte 32)} {k : Nat}
    (hp : PaddedTo code words) (h : HoldsPageWord v words k) : HoldsWord v code k := by
  obtain ⟨_, n, _, hn⟩ := hp
  unfold HoldsPageWord at h
  rw [pageWord_eq, hn, slice_pad] at h
  exact h

theorem chunk (m : Nat) : ∀ l : List Byte, l.length = 32 * m →
    ∃ words : List (Vector Byte 32), words.length = m ∧ words.flatMap Vector.toList = l := by
  induction m with
  | zero =>
    intro l hl
    exact ⟨[], rfl, (List.length_eq_zero_iff.1 hl).symm⟩
  | succ m ih =>
    intro l hl
    obtain ⟨ws, h1, h2⟩ := ih (l.drop 32) (by rw [List.length_drop]; omega)
    refine ⟨⟨(l.take 32).toArray, by rw [List.size_toArray, List.length_take]; omega⟩ :: ws, by rw [List.length_cons, h1], ?_⟩
    rw [List.flatMap_cons, h2]
    exact List.take_append_drop 32 l

/-- Any code can be padded; the number of words is the least odd one that is large enough. -/
theorem pad_exists (code : List Byte) : ∃ words, PaddedTo code words ∧ words.length ≤ code.length / 32 + 2 := by
  have hm : ∃ m, m % 2 = 1 ∧ code.length ≤ 32 * m ∧ 32 * m < code.length + 64 ∧ m ≤ code.length / 32 + 2 := by
    by_cases h : (code.length + 31) / 32 % 2 = 1
    · exact ⟨(code.length + 31) / 32, h, by omega, by omega, by omega⟩
    · exact ⟨(code.length + 31) / 32 + 1, by omega, by omega, by omega, by omega⟩
  obtain ⟨m, h1, h2, h3, h4⟩ := hm
  obtain ⟨ws, hl, hf⟩ := chunk m (code ++ List.replicate (32 * m - code.length) 0)
    (by rw [List.length_append, List.length_replicate]; omega)
  exact ⟨ws, ⟨by rw [hl]; exact h1, _, by omega, hf⟩, by rw [hl]; exact h4⟩

end ZkEvm.Deploy
