import Verif.Lemmas.Deploy
import Verif.Spec.Constants
/-! Lemmas on contracts with constants. -/
namespace ZkEvm.ConstantsLemmas
open Spec Words Program Deploy

theorem link_exists (code : List Byte) (constants : List (Vector Byte 32)) :
    ∃ words, Linked code constants words ∧ words.length ≤ (wordsFor code.length + constants.length) / 2 * 2 + 1 := by
  obtain ⟨text, hl, hf⟩ := chunk (wordsFor code.length) (code ++ List.replicate (32 * wordsFor code.length - code.length) 0)
    (by rw [List.length_append, List.length_replicate]; unfold wordsFor; omega)
  by_cases h : (wordsFor code.length + constants.length) % 2 = 1
  · refine ⟨text ++ constants ++ [], ⟨?_, text, [], rfl, hl, ⟨_, hf⟩, .inl rfl⟩, ?_⟩ <;>
      simp only [List.length_append, List.length_nil, hl] <;> omega
  · refine ⟨text ++ constants ++ [zeroWord], ⟨?_, text, [zeroWord], rfl, hl, ⟨_, hf⟩, .inr rfl⟩, ?_⟩ <;>
      simp only [List.length_append, List.length_cons, List.length_nil, hl] <;> omega

theorem wordBytes_zero (code : List Byte) (k : Nat) (h : wordsFor code.length ≤ k) : beNat (wordBytes code k) = 0 := by
  rw [wordBytes_eq, slice_nil_of_ge _ _ _ (by unfold wordsFor at h; omega), beNat_zeros]

theorem zeroWord_nat : beNat zeroWord.toList = 0 := by decide

/-- Outside the constants, a contract holds its code, followed by zeros. -/
theorem holds_code {code : List Byte} {constants words : List (Vector Byte 32)} {v : U256} {k : Nat}
    (hl : Linked code constants words) (hv : HoldsPageWord v words k)
    (hk : k < wordsFor code.length ∨ wordsFor code.length + constants.length ≤ k) : HoldsWord v code k := by
  obtain ⟨-, text, tail, rfl, ht, ⟨n, hn⟩, hz⟩ := hl
  unfold HoldsPageWord at hv
  unfold HoldsWord
  rw [hv]
  rcases hk with hk | hk
  · have : pageWord (text ++ constants ++ tail) k = pageWord text k := by
      unfold pageWord
      rw [List.append_assoc, List.getElem?_append_left (by omega)]
    rw [this, pageWord_eq, hn, slice_pad, wordBytes_eq]
  · rw [wordBytes_zero code k (by omega)]
    unfold pageWord
    rw [List.getElem?_append_right (by rw [List.length_append]; omega)]
    rcases hz with rfl | rfl
    · rw [List.getElem?_nil]; exact beNat_zeros _
    · generalize k - (text ++ constants).length = j
      cases j with
      | zero => exact zeroWord_nat
      | succ j => exact beNat_zeros _

/-- Where the constants are -/
theorem holds_constant {code : List Byte} {constants words : List (Vector Byte 32)} {v : U256} {i : Nat} {c : Vector Byte 32}
    (hl : Linked code constants words) (hc : constants[i]? = some c)
    (hv : HoldsPageWord v words (wordsFor code.length + i)) : u256Nat v = beNat c.toList := by
  obtain ⟨-, text, tail, rfl, ht, -, -⟩ := hl
  have hi := (List.getElem?_eq_some_iff.1 hc).1
  unfold HoldsPageWord pageWord at hv
  rw [List.append_assoc, List.getElem?_append_right (by omega), ht, Nat.add_sub_cancel_left,
    List.getElem?_append_left hi, hc] at hv
  exact hv

theorem linked_length {code : List Byte} {constants words : List (Vector Byte 32)} (hl : Linked code constants words) :
    wordsFor code.length + constants.length ≤ words.length := by
  obtain ⟨-, text, tail, rfl, ht, -, -⟩ := hl
  rw [List.length_append, List.length_append]; omega

theorem wordBytes_self (c : Vector Byte 32) : wordBytes c.toList 0 = c.toList := by
  have h := pageWord_eq [c] 0
  rw [List.flatMap_cons, List.flatMap_nil, List.append_nil] at h
  exact (wordBytes_eq _ _).trans h.symm

theorem slice_prefix (a b : List Byte) (p n : Nat) (h : p + n ≤ a.length) : slice (a ++ b) p n = slice a p n := by
  unfold slice
  apply List.map_congr_left
  intro j hj
  rw [List.mem_range] at hj
  rw [List.getD_eq_getElem?_getD, List.getD_eq_getElem?_getD, List.getElem?_append_left (by omega)]

theorem linked_slice {code : List Byte} {constants words : List (Vector Byte 32)} (hl : Linked code constants words)
    (p n : Nat) (h : p + n ≤ code.length) : slice (words.flatMap Vector.toList) p n = slice code p n := by
  obtain ⟨-, text, tail, rfl, -, ⟨m, hm⟩, -⟩ := hl
  rw [List.flatMap_append, List.flatMap_append, hm, List.append_assoc, List.append_assoc, slice_prefix _ _ _ _ h]

/-- Two programs with as many instructions in the same words are the same. -/
theorem same_program {α : Type} {enc enc' : α → Res (List Byte)} {N : Nat} {prog prog' : List α} {code code' : List Byte}
    {constants constants' words : List (Vector Byte 32)}
    (hN : ∀ o bs, enc o = .ok bs → bs.length = N) (hN' : ∀ o bs, enc' o = .ok bs → bs.length = N)
    (hinj : ∀ o ∈ prog, ∀ o' ∈ prog', ∀ bs, enc o = .ok bs → enc' o' = .ok bs → o = o')
    (hA : Assembled enc prog code) (hA' : Assembled enc' prog' code')
    (hl : Linked code constants words) (hl' : Linked code' constants' words) (hlen : prog.length = prog'.length) :
    prog = prog' := by
  have h1 := assembled_length N hN hA
  have h1' := assembled_length N hN' hA'
  refine List.ext_getElem hlen fun i hi hi' => ?_
  have e1 := assembled_slice N hN hA i _ (List.getElem?_eq_getElem hi)
  have e2 := assembled_slice N hN' hA' i _ (List.getElem?_eq_getElem hi')
  have hm : N * i + N ≤ N * prog.length := by
    have := Nat.mul_le_mul_left N (show i + 1 ≤ prog.length from hi)
    rwa [Nat.mul_add, Nat.mul_one] at this
  rw [← linked_slice hl _ _ (by omega)] at e1
  rw [← linked_slice hl' _ _ (by rw [h1', ← hlen]; exact hm)] at e2
  exact hinj _ (List.getElem_mem hi) _ (List.getElem_mem hi') _ e1 e2

/-- Constants after codes of the same length in the same words are the same, but for zeros at the end. -/
theorem same_constants {code code' : List Byte} {constants constants' words : List (Vector Byte 32)}
    (hl : Linked code constants words) (hl' : Linked code' constants' words) (hlen : code.length = code'.length)
    {i : Nat} {c : Vector Byte 32} (hc : constants[i]? = some c) :
    constants'[i]? = some c ∨ constants'.length ≤ i ∧ c = zeroWord := by
  obtain ⟨-, text, tail, rfl, ht, -, -⟩ := hl
  obtain ⟨-, text', tail', he, ht', -, hz⟩ := hl'
  have hi := (List.getElem?_eq_some_iff.1 hc).1
  have hw := congrArg (fun l => l[text.length + i]?) he
  rw [List.append_assoc, List.getElem?_append_right (by omega), Nat.add_sub_cancel_left, List.getElem?_append_left hi, hc,
    List.append_assoc, List.getElem?_append_right (by rw [ht, ht', hlen]; omega), ht, ht', hlen, Nat.add_sub_cancel_left] at hw
  by_cases h : i < constants'.length
  · rw [List.getElem?_append_left h] at hw
    exact .inl hw.symm
  · rw [List.getElem?_append_right (by omega)] at hw
    refine .inr ⟨by omega, ?_⟩
    rcases hz with rfl | rfl
    · rw [List.getElem?_nil] at hw; cases hw
    · exact List.mem_singleton.1 (List.mem_of_getElem? hw.symm)

end ZkEvm.ConstantsLemmas
