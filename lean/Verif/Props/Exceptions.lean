import Verif.Lemmas.Exceptions
import Verif.Props.Abi
/-! C101: the result of validating a pointer, read by every method it has. Vocabulary in `Verif/Spec/Exceptions.lean`. -/
namespace ZkEvm.Props
open Spec ExceptionLemmas FatPointerValidationException

/-! ## C101 -/

private theorem names_of (e : FatPointerValidationException) (s : Problem → Prop) (h : ∀ q, e.bits.getLsbD q.bit = true ↔ s q) :
    (e.iterNames.map Prod.fst).Sublist [Problem.offsetNotZero.name, Problem.beyondHeap.name] ∧
    ∀ n, n ∈ e.iterNames.map Prod.fst ↔ ∃ q, s q ∧ q.name = n := by
  have h0 : e.bits.getLsbD 0 = true ↔ s .offsetNotZero := h .offsetNotZero
  have h1 : e.bits.getLsbD 1 = true ↔ s .beyondHeap := h .beyondHeap
  unfold iterNames
  rw [(iterLoop_eq e).1]
  have key : ∀ n, (∃ q, s q ∧ q.name = n) ↔ (s .offsetNotZero ∧ Problem.offsetNotZero.name = n) ∨
      (s .beyondHeap ∧ Problem.beyondHeap.name = n) := by
    intro n
    constructor
    · rintro ⟨q, hq⟩; cases q
      · exact .inl hq
      · exact .inr hq
    · rintro (h | h)
      · exact ⟨_, h⟩
      · exact ⟨_, h⟩
  simp only [key, ← h0, ← h1]
  cases e.bits.getLsbD 0 <;> cases e.bits.getLsbD 1
  · exact ⟨by simp, by simp⟩
  · exact ⟨by simp, by simp [eq_comm]⟩
  · exact ⟨by simp, by simp [eq_comm]⟩
  · exact ⟨by simp, by simp [eq_comm]⟩

private theorem validate_bit (p : FatPointer) (fresh : Bool) (q : Problem) :
    (p.validate fresh).bits.getLsbD q.bit = true ↔ q.of p fresh := by
  rw [← contains_flag]
  cases q
  · rw [← flag_offset]; exact (C44_validate p fresh).1
  · rw [← flag_heap]; exact (C44_validate p fresh).2.1

private theorem validate_high (p : FatPointer) (fresh : Bool) (i : Nat) (hi : 2 ≤ i) :
    (p.validate fresh).bits.getLsbD i = false := by
  have h := (C44_validate p fresh).2.2.1
  rw [BitVec.getLsbD, Nat.testBit_lt_two_pow (Nat.lt_of_lt_of_le h (Nat.pow_le_pow_right (n := 2) (by decide) hi))]

/-- C101: however the result of a validation is read, it says which problems the pointer has and nothing else: by its
bits, by asking for a flag, by asking for everything or nothing, by complement, and by the names it lists. -/
theorem C101_validate (p : FatPointer) (fresh : Bool) :
    (∀ i, (p.validate fresh).bitsOf.getLsbD i = true ↔ ∃ q : Problem, q.bit = i ∧ q.of p fresh) ∧
    (∀ q : Problem, ∃ f, fromName q.name = some f ∧
      ((p.validate fresh).contains f = true ↔ q.of p fresh) ∧
      ((p.validate fresh).intersects f = true ↔ q.of p fresh) ∧
      ((p.validate fresh).complement.contains f = true ↔ ¬q.of p fresh)) ∧
    ((p.validate fresh).isEmpty = true ↔ ∀ q : Problem, ¬q.of p fresh) ∧
    ((p.validate fresh).isAll = true ↔ ∀ q : Problem, q.of p fresh) ∧
    ((p.validate fresh).iterNames.map Prod.fst).Sublist [Problem.offsetNotZero.name, Problem.beyondHeap.name] ∧
    (∀ n, n ∈ (p.validate fresh).iterNames.map Prod.fst ↔ ∃ q : Problem, q.of p fresh ∧ q.name = n) ∧
    fromBits (p.validate fresh).bitsOf = some (p.validate fresh) := by
  have hb := validate_bit p fresh
  have hh := validate_high p fresh
  generalize p.validate fresh = e at hb hh
  have hbits : ∀ i, e.bits.getLsbD i = true ↔ ∃ q : Problem, q.bit = i ∧ q.of p fresh := by
    intro i
    constructor
    · intro h
      rcases i with _ | _ | i
      · exact ⟨.offsetNotZero, rfl, (hb .offsetNotZero).1 h⟩
      · exact ⟨.beyondHeap, rfl, (hb .beyondHeap).1 h⟩
      · rw [hh _ (by omega)] at h; cases h
    · rintro ⟨q, rfl, h⟩
      exact (hb q).2 h
  refine ⟨hbits, fun q => ⟨flag q, ?_, ?_, ?_, ?_⟩, ?_, ?_, (names_of e _ hb).1, (names_of e _ hb).2, ?_⟩
  · unfold fromName
    rw [FLAGS_eq]
    cases q <;> decide
  · rw [contains_flag]; exact hb q
  · rw [intersects_flag]; exact hb q
  · rw [contains_flag, complement, truncate_bit, BitVec.getLsbD_not, ← hb q]
    cases q <;> simp [Problem.bit]
  · rw [isEmpty_iff]
    constructor
    · intro h q hq
      have := (hb q).2 hq
      rw [h] at this; cases this
    · intro h i
      refine eq_false_of_ne_true fun hi => ?_
      obtain ⟨q, _, hq⟩ := (hbits i).1 hi
      exact h q hq
  · rw [isAll_iff]
    constructor
    · intro h q
      exact (hb q).1 (h _ (by cases q <;> decide))
    · intro h i hi
      rcases i with _ | _ | i
      · exact (hb .offsetNotZero).2 (h _)
      · exact (hb .beyondHeap).2 (h _)
      · omega
  · have he : fromBitsTruncate e.bits = e := ext_bits fun i => by
      rw [truncate_bit]
      by_cases hi : i < 2
      · simp [hi]
      · rw [hh i (by omega)]; rfl
    unfold fromBits bitsOf
    rw [he, if_pos rfl]

-- A fresh pointer with both problems: both names are listed.
example : (FatPointer.validate ⟨1, 0, 0xffffffff, 1⟩ true).iterNames.map Prod.fst =
    ["OFFSET_IS_NOT_ZERO_WHEN_EXPECTED", "DEREF_BEYOND_HEAP_RANGE"] ∧
    (FatPointer.validate ⟨1, 0, 0xffffffff, 1⟩ true).isAll = true ∧
    Problem.of ⟨1, 0, 0xffffffff, 1⟩ true .beyondHeap := by
  refine ⟨by decide, by decide, ?_⟩
  show 2 ^ 32 ≤ _
  decide

/-- C101: the problems of any number of pointers, collected in one set by `insert`, `|`, `extend` or `collect`, are the
problems that some of the pointers has. -/
theorem C101_collect (ps : List (FatPointer × Bool)) :
    (∀ i, (empty.extend (ps.map fun p => p.1.validate p.2)).bitsOf.getLsbD i = true ↔
      ∃ q : Problem, q.bit = i ∧ ∃ p ∈ ps, q.of p.1 p.2) ∧
    ((empty.extend (ps.map fun p => p.1.validate p.2)).isEmpty = true ↔ ∀ p ∈ ps, (p.1.validate p.2).isEmpty = true) ∧
    (∀ n, n ∈ (empty.extend (ps.map fun p => p.1.validate p.2)).iterNames.map Prod.fst ↔
      ∃ q : Problem, (∃ p ∈ ps, q.of p.1 p.2) ∧ q.name = n) := by
  have h : ∀ i, (empty.extend (ps.map fun p => p.1.validate p.2)).bits.getLsbD i = true ↔
      ∃ p ∈ ps, (p.1.validate p.2).bits.getLsbD i = true := by
    intro i
    rw [extend_bit]
    constructor
    · rintro (h | ⟨f, hf, hi⟩)
      · simp [FatPointerValidationException.empty] at h
      · obtain ⟨p, hp, rfl⟩ := List.mem_map.1 hf
        exact ⟨p, hp, hi⟩
    · rintro ⟨p, hp, hi⟩
      exact .inr ⟨_, List.mem_map.2 ⟨p, hp, rfl⟩, hi⟩
  have hq : ∀ q : Problem, (empty.extend (ps.map fun p => p.1.validate p.2)).bits.getLsbD q.bit = true ↔
      ∃ p ∈ ps, q.of p.1 p.2 := by
    intro q
    rw [h]
    simp only [validate_bit]
  refine ⟨fun i => ?_, ?_, (names_of _ _ hq).2⟩
  · unfold bitsOf
    rw [h]
    constructor
    · rintro ⟨p, hp, hi⟩
      obtain ⟨q, hqi, hq⟩ := ((C101_validate p.1 p.2).1 i).1 hi
      exact ⟨q, hqi, p, hp, hq⟩
    · rintro ⟨q, rfl, p, hp, hq⟩
      exact ⟨p, hp, (validate_bit _ _ q).2 hq⟩
  · rw [isEmpty_iff]
    constructor
    · intro h0 p hp
      rw [isEmpty_iff]
      intro i
      refine eq_false_of_ne_true fun hi => ?_
      have := (h i).2 ⟨p, hp, hi⟩
      rw [h0] at this; cases this
    · intro h0 i
      refine eq_false_of_ne_true fun hi => ?_
      obtain ⟨p, hp, hi⟩ := (h i).1 hi
      rw [(isEmpty_iff _).1 (h0 p hp)] at hi; cases hi

-- Three pointers, one with each problem and one with none.
example : (empty.extend ([(⟨1, 0, 0, 1⟩, true), (⟨0, 0, 0xffffffff, 1⟩, true), (⟨1, 0, 0, 1⟩, false)].map
    fun p : FatPointer × Bool => p.1.validate p.2)).isAll = true := by decide

/-- C101: on any values, also with undeclared bits, the methods are the operations on sets of bits; only `complement`,
`from_bits` and `from_bits_truncate` look at which bits are declared (bits 0 and 1). -/
theorem C101_sets (e f : FatPointerValidationException) (x : BitVec 64) :
    (∀ i, (e.union f).bits.getLsbD i = (e.bits.getLsbD i || f.bits.getLsbD i)) ∧ e.insert f = e.union f ∧
    (∀ i, (e.intersection f).bits.getLsbD i = (e.bits.getLsbD i && f.bits.getLsbD i)) ∧
    (∀ i, (e.remove f).bits.getLsbD i = (e.bits.getLsbD i && !f.bits.getLsbD i)) ∧
    (∀ i, (e.toggle f).bits.getLsbD i = (e.bits.getLsbD i ^^ f.bits.getLsbD i)) ∧
    (∀ i, e.complement.bits.getLsbD i = (decide (i < 2) && !e.bits.getLsbD i)) ∧
    e.set f true = e.union f ∧ e.set f false = e.remove f ∧
    (e.contains f = true ↔ ∀ i, f.bits.getLsbD i = true → e.bits.getLsbD i = true) ∧
    (e.intersects f = true ↔ ∃ i, e.bits.getLsbD i = true ∧ f.bits.getLsbD i = true) ∧
    (e.isEmpty = true ↔ ∀ i, e.bits.getLsbD i = false) ∧
    (e.isAll = true ↔ e.bits.getLsbD 0 = true ∧ e.bits.getLsbD 1 = true) ∧
    (fromBits x = some e ↔ e.bits = x ∧ ∀ i, 2 ≤ i → x.getLsbD i = false) ∧
    (∀ i, (fromBitsTruncate x).bits.getLsbD i = (x.getLsbD i && decide (i < 2))) ∧
    fromBitsRetain e.bits = e := by
  refine ⟨fun i => ?_, rfl, fun i => ?_, fun i => ?_, fun i => ?_, fun i => ?_, rfl, rfl, contains_iff e f,
    intersects_iff e f, isEmpty_iff e, ?_, ?_, truncate_bit x, rfl⟩
  · unfold union; rw [BitVec.getLsbD_or]
  · unfold intersection; rw [BitVec.getLsbD_and]
  · by_cases hi : i < 64
    · exact remove_bit e f i hi
    · rw [BitVec.getLsbD_of_ge _ _ (by omega), BitVec.getLsbD_of_ge _ _ (by omega)]; rfl
  · unfold toggle; rw [BitVec.getLsbD_xor]
  · unfold complement
    rw [truncate_bit, BitVec.getLsbD_not, Bool.and_comm]
    by_cases hi : i < 2
    · have : i < 64 := by omega
      simp [hi, this]
    · simp [hi]
  · rw [isAll_iff]
    constructor
    · intro h; exact ⟨h 0 (by decide), h 1 (by decide)⟩
    · rintro ⟨h0, h1⟩ i hi
      rcases i with _ | _ | i
      · exact h0
      · exact h1
      · omega
  · unfold fromBits
    constructor
    · intro h
      split at h
      · rename_i hx
        cases h
        refine ⟨hx, fun i hi => ?_⟩
        rw [← hx, truncate_bit]
        have : ¬ i < 2 := by omega
        simp [this]
      · cases h
    · rintro ⟨rfl, h⟩
      have he : fromBitsTruncate e.bits = e := ext_bits fun i => by
        rw [truncate_bit]
        by_cases hi : i < 2
        · simp [hi]
        · rw [h i (by omega)]; rfl
      rw [he, if_pos rfl]

-- A word with an undeclared bit is refused, truncated or kept.
example : fromBits 5 = none ∧ fromBitsTruncate 5 = ⟨1⟩ ∧ fromBitsRetain 5 = ⟨5⟩ ∧ complement ⟨5⟩ = ⟨2⟩ := by decide

/-- C101: collecting what `iter` yields gives the same value again, also with undeclared bits; `iter` and `iter_names`
yield the same flags unless there are undeclared bits. -/
theorem C101_iter (e : FatPointerValidationException) :
    empty.extend e.iter = e ∧
    (e.iter = e.iterNames.map Prod.snd ↔ ∀ i, 2 ≤ i → e.bits.getLsbD i = false) ∧
    ∀ nf ∈ e.iterNames, fromName nf.1 = some nf.2 ∧ e.contains nf.2 = true := by
  obtain ⟨h1, h2⟩ := iterLoop_eq e
  have hsplit : e.iter = e.iterNames.map Prod.snd ++ if (iterLoop e FLAGS e).2.isEmpty then [] else [(iterLoop e FLAGS e).2] := rfl
  have hrest : (iterLoop e FLAGS e).2.isEmpty = true ↔ ∀ i, 2 ≤ i → e.bits.getLsbD i = false := by
    rw [isEmpty_iff]
    constructor
    · intro h i hi
      have := h i
      rw [h2] at this
      simpa [hi] using this
    · intro h i
      rw [h2]
      by_cases hi : 2 ≤ i
      · rw [h i hi]; rfl
      · simp [hi]
  have hmem : ∀ nf, nf ∈ e.iterNames ↔ ∃ q : Problem, e.bits.getLsbD q.bit = true ∧ nf = (q.name, flag q) := by
    intro nf
    unfold iterNames
    rw [h1]
    constructor
    · intro h
      rcases List.mem_append.1 h with h | h
      · split at h
        · exact ⟨.offsetNotZero, by assumption, List.mem_singleton.1 h⟩
        · cases h
      · split at h
        · exact ⟨.beyondHeap, by assumption, List.mem_singleton.1 h⟩
        · cases h
    · rintro ⟨q, hq, rfl⟩
      refine List.mem_append.2 ?_
      cases q
      · left; rw [if_pos (show e.bits.getLsbD 0 = true from hq)]; exact List.mem_singleton.2 rfl
      · right; rw [if_pos (show e.bits.getLsbD 1 = true from hq)]; exact List.mem_singleton.2 rfl
  refine ⟨ext_bits fun i => ?_, ?_, fun nf h => ?_⟩
  · rw [Bool.eq_iff_iff, extend_bit, hsplit]
    constructor
    · rintro (h | ⟨f, hf, hi⟩)
      · simp [FatPointerValidationException.empty] at h
      · rcases List.mem_append.1 hf with hf | hf
        · obtain ⟨nf, hnf, rfl⟩ := List.mem_map.1 hf
          obtain ⟨q, hq, rfl⟩ := (hmem _).1 hnf
          rw [flag_bit, decide_eq_true_iff] at hi
          rw [hi]; exact hq
        · split at hf
          · cases hf
          · rw [List.mem_singleton.1 hf, h2, Bool.and_eq_true] at hi
            exact hi.1
    · intro hi
      right
      by_cases hlow : i < 2
      · have : ∃ q : Problem, q.bit = i := by
          rcases i with _ | _ | i
          · exact ⟨.offsetNotZero, rfl⟩
          · exact ⟨.beyondHeap, rfl⟩
          · omega
        obtain ⟨q, rfl⟩ := this
        exact ⟨flag q, List.mem_append_left _ (List.mem_map.2 ⟨_, (hmem _).2 ⟨q, hi, rfl⟩, rfl⟩), by rw [flag_bit]; simp⟩
      · have hne : ¬ (iterLoop e FLAGS e).2.isEmpty = true := by
          rw [hrest]
          intro h
          rw [h i (by omega)] at hi; cases hi
        refine ⟨_, List.mem_append_right _ (by rw [if_neg hne]; exact List.mem_singleton.2 rfl), ?_⟩
        rw [h2, hi]
        simp; omega
  · rw [← hrest, hsplit]
    by_cases h : (iterLoop e FLAGS e).2.isEmpty = true
    · simp [h]
    · simp [h]
  · obtain ⟨q, hq, rfl⟩ := (hmem _).1 h
    refine ⟨?_, by rw [contains_flag]; exact hq⟩
    unfold fromName
    rw [FLAGS_eq]
    cases q <;> decide

-- Undeclared bits come last, in one piece.
example : iter ⟨0b110010⟩ = [⟨2⟩, ⟨0b110000⟩] ∧ empty.extend (iter ⟨0b110010⟩) = ⟨0b110010⟩ := by decide

end ZkEvm.Props
