import Verif.Model.Exceptions
import Verif.Spec.Exceptions
/-! Lemmas about the methods of `FatPointerValidationException`, bit by bit. -/
namespace ZkEvm.ExceptionLemmas
open Spec FatPointerValidationException

/-- The flag of a problem -/
def flag (q : Problem) : FatPointerValidationException := ⟨BitVec.twoPow 64 q.bit⟩

theorem flag_offset : OFFSET_IS_NOT_ZERO_WHEN_EXPECTED = flag .offsetNotZero := by decide
theorem flag_heap : DEREF_BEYOND_HEAP_RANGE = flag .beyondHeap := by decide

theorem FLAGS_eq : FLAGS = [(Problem.offsetNotZero.name, flag .offsetNotZero), (Problem.beyondHeap.name, flag .beyondHeap)] := by
  rw [← flag_offset, ← flag_heap]; rfl

theorem bit_lt (q : Problem) : q.bit < 64 := by cases q <;> decide

theorem flag_bit (q : Problem) (i : Nat) : (flag q).bits.getLsbD i = decide (i = q.bit) := by
  have := bit_lt q
  rw [flag, BitVec.getLsbD_twoPow]
  by_cases h : i = q.bit
  · subst h; simp [this]
  · have h' : q.bit ≠ i := fun e => h e.symm
    simp [h, h']

theorem ext_bits {e f : FatPointerValidationException} (h : ∀ i, e.bits.getLsbD i = f.bits.getLsbD i) : e = f := by
  cases e; cases f
  exact congrArg _ (BitVec.eq_of_getLsbD_eq fun i _ => h i)

theorem all_bit (i : Nat) : all.bits.getLsbD i = decide (i < 2) := by
  have h : all.bits = 3#64 := by decide
  rw [h]
  rcases i with _ | _ | i
  · decide
  · decide
  · have : ¬ i + 1 + 1 < 2 := by omega
    simp only [this, decide_false]
    by_cases hi : i + 2 < 64
    · have hh : ∀ j : Fin 62, (3#64).getLsbD (j.val + 2) = false := by decide
      exact hh ⟨i, by omega⟩
    · exact BitVec.getLsbD_of_ge _ _ (by omega)

theorem contains_iff (e f : FatPointerValidationException) :
    e.contains f = true ↔ ∀ i, f.bits.getLsbD i = true → e.bits.getLsbD i = true := by
  unfold contains
  rw [beq_iff_eq]
  constructor
  · intro h i hi
    rw [← h, BitVec.getLsbD_and, Bool.and_eq_true] at hi
    exact hi.1
  · intro h
    refine BitVec.eq_of_getLsbD_eq fun i _ => ?_
    rw [BitVec.getLsbD_and]
    cases hf : f.bits.getLsbD i
    · simp
    · simp [h i hf]

theorem isEmpty_iff (e : FatPointerValidationException) : e.isEmpty = true ↔ ∀ i, e.bits.getLsbD i = false := by
  unfold isEmpty
  rw [beq_iff_eq]
  constructor
  · intro h i; rw [h]; simp
  · intro h
    exact BitVec.eq_of_getLsbD_eq fun i _ => by rw [h i]; simp

theorem intersects_iff (e f : FatPointerValidationException) :
    e.intersects f = true ↔ ∃ i, e.bits.getLsbD i = true ∧ f.bits.getLsbD i = true := by
  have h := isEmpty_iff ⟨e.bits &&& f.bits⟩
  unfold isEmpty at h
  rw [beq_iff_eq] at h
  unfold intersects
  rw [bne_iff_ne, Ne, h]
  simp only [BitVec.getLsbD_and, Classical.not_forall, Bool.not_eq_false, Bool.and_eq_true]

theorem isAll_iff (e : FatPointerValidationException) : e.isAll = true ↔ ∀ i, i < 2 → e.bits.getLsbD i = true := by
  unfold isAll
  rw [beq_iff_eq]
  constructor
  · intro h i hi
    rw [← h, BitVec.getLsbD_or, all_bit, decide_eq_true hi, Bool.true_or]
  · intro h
    refine BitVec.eq_of_getLsbD_eq fun i _ => ?_
    rw [BitVec.getLsbD_or, all_bit]
    by_cases hi : i < 2
    · rw [h i hi]; simp
    · simp [hi]

theorem contains_flag (e : FatPointerValidationException) (q : Problem) : e.contains (flag q) = e.bits.getLsbD q.bit := by
  rw [Bool.eq_iff_iff, contains_iff]
  constructor
  · intro h; exact h _ (by rw [flag_bit]; simp)
  · intro h i hi
    rw [flag_bit, decide_eq_true_iff] at hi
    rw [hi]; exact h

theorem intersects_flag (e : FatPointerValidationException) (q : Problem) : e.intersects (flag q) = e.bits.getLsbD q.bit := by
  rw [Bool.eq_iff_iff, intersects_iff]
  constructor
  · rintro ⟨i, h, hi⟩
    rw [flag_bit, decide_eq_true_iff] at hi
    rw [← hi]; exact h
  · intro h
    exact ⟨_, h, by rw [flag_bit]; simp⟩

theorem remove_bit (e f : FatPointerValidationException) (i : Nat) (hi : i < 64) :
    (e.remove f).bits.getLsbD i = (e.bits.getLsbD i && !f.bits.getLsbD i) := by
  unfold remove
  rw [BitVec.getLsbD_and, BitVec.getLsbD_not]
  simp [hi]

theorem truncate_bit (x : BitVec 64) (i : Nat) : (fromBitsTruncate x).bits.getLsbD i = (x.getLsbD i && decide (i < 2)) := by
  unfold fromBitsTruncate
  rw [BitVec.getLsbD_and, all_bit]

theorem extend_bit (fs : List FatPointerValidationException) (e : FatPointerValidationException) (i : Nat) :
    (e.extend fs).bits.getLsbD i = true ↔ e.bits.getLsbD i = true ∨ ∃ f ∈ fs, f.bits.getLsbD i = true := by
  unfold extend
  induction fs generalizing e with
  | nil => simp
  | cons f fs ih =>
    rw [List.foldl_cons, ih]
    have : (e.insert f).bits.getLsbD i = (e.bits.getLsbD i || f.bits.getLsbD i) := by
      unfold FatPointerValidationException.insert; rw [BitVec.getLsbD_or]
    rw [this, Bool.or_eq_true]
    simp only [List.mem_cons, exists_eq_or_imp, or_assoc]

/-- The declared flags of a word, and the word without them -/
theorem iterLoop_eq (e : FatPointerValidationException) :
    (iterLoop e FLAGS e).1 =
      (if e.bits.getLsbD 0 then [(Problem.offsetNotZero.name, flag .offsetNotZero)] else []) ++
      (if e.bits.getLsbD 1 then [(Problem.beyondHeap.name, flag .beyondHeap)] else []) ∧
    ∀ i, (iterLoop e FLAGS e).2.bits.getLsbD i = (e.bits.getLsbD i && decide (2 ≤ i)) := by
  have b0 : ∀ x : FatPointerValidationException, x.contains (flag .offsetNotZero) = x.bits.getLsbD 0 :=
    fun x => contains_flag x .offsetNotZero
  have b1 : ∀ x : FatPointerValidationException, x.contains (flag .beyondHeap) = x.bits.getLsbD 1 :=
    fun x => contains_flag x .beyondHeap
  have c0 : ∀ x : FatPointerValidationException, x.intersects (flag .offsetNotZero) = x.bits.getLsbD 0 :=
    fun x => intersects_flag x .offsetNotZero
  have c1 : ∀ x : FatPointerValidationException, x.intersects (flag .beyondHeap) = x.bits.getLsbD 1 :=
    fun x => intersects_flag x .beyondHeap
  have r0 : ∀ (x : FatPointerValidationException) i, (x.remove (flag .offsetNotZero)).bits.getLsbD i =
      (x.bits.getLsbD i && !decide (i = 0)) := by
    intro x i
    by_cases hi : i < 64
    · rw [remove_bit _ _ _ hi, flag_bit]; rfl
    · rw [BitVec.getLsbD_of_ge _ _ (by omega), BitVec.getLsbD_of_ge _ _ (by omega)]; rfl
  have r1 : ∀ (x : FatPointerValidationException) i, (x.remove (flag .beyondHeap)).bits.getLsbD i =
      (x.bits.getLsbD i && !decide (i = 1)) := by
    intro x i
    by_cases hi : i < 64
    · rw [remove_bit _ _ _ hi, flag_bit]; rfl
    · rw [BitVec.getLsbD_of_ge _ _ (by omega), BitVec.getLsbD_of_ge _ _ (by omega)]; rfl
  -- from the second flag on, for what remains after the first
  have step : ∀ x : FatPointerValidationException, x.bits.getLsbD 1 = e.bits.getLsbD 1 → x.bits.getLsbD 0 = false →
      (∀ i, 2 ≤ i → x.bits.getLsbD i = e.bits.getLsbD i) →
      (iterLoop e [(Problem.beyondHeap.name, flag .beyondHeap)] x).1 =
        (if e.bits.getLsbD 1 then [(Problem.beyondHeap.name, flag .beyondHeap)] else []) ∧
      ∀ i, (iterLoop e [(Problem.beyondHeap.name, flag .beyondHeap)] x).2.bits.getLsbD i =
        (e.bits.getLsbD i && decide (2 ≤ i)) := by
    intro x h1 h0 hx
    rw [iterLoop]
    by_cases he : x.isEmpty = true
    · rw [if_pos he]
      rw [isEmpty_iff] at he
      refine ⟨by rw [← h1, he 1]; rfl, fun i => ?_⟩
      rw [he i]
      by_cases hi : 2 ≤ i
      · rw [← hx i hi, he i]; rfl
      · simp [hi]
    · rw [if_neg he, b1, c1, h1, Bool.and_self]
      by_cases hb : e.bits.getLsbD 1 = true
      · rw [if_pos hb, if_pos hb]
        refine ⟨rfl, fun i => ?_⟩
        show (x.remove _).bits.getLsbD i = _
        rw [r1]
        rcases i with _ | _ | i
        · rw [h0]; simp
        · simp
        · rw [hx _ (by omega)]; simp
      · rw [if_neg hb, if_neg hb]
        refine ⟨rfl, fun i => ?_⟩
        show x.bits.getLsbD i = _
        rcases i with _ | _ | i
        · rw [h0]; simp
        · rw [h1, eq_false_of_ne_true hb]; rfl
        · rw [hx _ (by omega)]; simp
  rw [FLAGS_eq, iterLoop]
  by_cases he : e.isEmpty = true
  · rw [if_pos he]
    rw [isEmpty_iff] at he
    refine ⟨by rw [he 0, he 1]; rfl, fun i => by rw [he i]; rfl⟩
  · rw [if_neg he, b0, c0, Bool.and_self]
    by_cases hb : e.bits.getLsbD 0 = true
    · rw [if_pos hb, if_pos hb]
      obtain ⟨s1, s2⟩ := step (e.remove (flag .offsetNotZero)) (by rw [r0]; simp) (by rw [r0]; simp)
        (fun i hi => by rw [r0]; have : i ≠ 0 := by omega
                        simp [this])
      refine ⟨?_, s2⟩
      show _ :: _ = _
      rw [s1]; rfl
    · rw [if_neg hb, if_neg hb]
      exact step e rfl (by simpa using hb) fun _ _ => rfl

end ZkEvm.ExceptionLemmas
