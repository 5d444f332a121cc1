import Verif.Model.Tests
import Verif.Lemmas.LookupMap
import Verif.Lemmas.Meaning
/-! The unit test `calculator` over arbitrary lists, so that no table is ever unfolded. -/
namespace ZkEvm.Tests
open Spec

theorem assertPairs_ok : ∀ l : List (OpcodeVariant × OpcodeVariant),
    (∀ p ∈ l, semanticallyEqual p.1 p.2 = true) → assertPairs l = .ok ()
  | [], _ => rfl
  | (a, b) :: rest, h => by
    rw [assertPairs, h (a, b) (by simp)]
    exact assertPairs_ok rest fun p hp => h p (List.mem_cons_of_mem _ hp)

theorem assertPanics_ok (table : List OpcodeVariant) : ∀ (count start : Nat),
    (∀ n, start ≤ n → n < start + count → ∃ v, table[n]? = some v ∧ v.isExplicitPanic = true) →
    assertPanics table start count = .ok ()
  | 0, _, _ => rfl
  | count + 1, start, h => by
    obtain ⟨v, h1, h2⟩ := h start (Nat.le_refl _) (by omega)
    rw [assertPanics, index, h1]
    show (rassert v.isExplicitPanic).bind _ = _
    rw [h2]
    exact assertPanics_ok table count (start + 1) fun n a b => h n (by omega) (by omega)

theorem sliceTo_ok {α : Type} (l : List α) (n : Nat) (h : n ≤ l.length) : sliceTo l n = .ok (l.take n) := by
  rw [sliceTo, if_pos h]

theorem take_eq {α : Type} (l p : List α) (hl : p.length ≤ l.length)
    (h : ∀ n, n < p.length → l[n]? = p[n]?) : l.take p.length = p := by
  apply List.ext_getElem?
  intro n
  by_cases hn : n < p.length
  · rw [List.getElem?_take_of_lt hn, h n hn]
  · rw [List.getElem?_eq_none (by rw [List.length_take]; omega), List.getElem?_eq_none (by omega)]

theorem assertPairs_iff : ∀ l : List (OpcodeVariant × OpcodeVariant),
    assertPairs l = .ok () ↔ ∀ p ∈ l, semanticallyEqual p.1 p.2 = true
  | [] => by simp [assertPairs]
  | (a, b) :: rest => by
    rw [assertPairs]
    cases h : semanticallyEqual a b with
    | false =>
      refine ⟨fun hc => by simp [rassert, bind, Except.bind] at hc, fun hc => ?_⟩
      have := hc (a, b) (by simp)
      rw [h] at this
      cases this
    | true =>
      simp only [rassert, if_true, bind, Except.bind]
      rw [assertPairs_iff rest]
      simp [h]

theorem assertPanics_iff (table : List OpcodeVariant) : ∀ (count start : Nat),
    assertPanics table start count = .ok () ↔
      ∀ n, start ≤ n → n < start + count → ∃ v, table[n]? = some v ∧ v.isExplicitPanic = true
  | 0, start => by simp [assertPanics]; omega
  | count + 1, start => by
    refine ⟨fun h => ?_, assertPanics_ok table (count + 1) start⟩
    rw [assertPanics, index] at h
    cases hv : table[start]? with
    | none => rw [hv] at h; cases h
    | some v =>
      rw [hv] at h
      cases hp : v.isExplicitPanic with
      | false => simp [rassert, hp, bind, Except.bind] at h
      | true =>
        simp only [bind, Except.bind, hp, rassert, if_true] at h
        intro n h1 h2
        by_cases he : n = start
        · exact ⟨v, he ▸ hv, hp⟩
        · exact (assertPanics_iff table count (start + 1)).1 h n (by omega) (by omega)

theorem sliceTo_iff {α : Type} (l p : List α) (n : Nat) : sliceTo l n = .ok p ↔ n ≤ l.length ∧ p = l.take n := by
  unfold sliceTo
  split
  · constructor
    · intro h; exact ⟨‹_›, (Except.ok.inj h).symm⟩
    · rintro ⟨_, rfl⟩; rfl
  · constructor
    · intro h; cases h
    · rintro ⟨h, _⟩; exact absurd h ‹_›

theorem bind_ok_iff {α β : Type} (x : Res α) (g : α → Res β) (b : β) :
    (x >>= g) = .ok b ↔ ∃ a, x = .ok a ∧ g a = .ok b := by
  cases x with
  | error e => simp [bind, Except.bind]
  | ok a => simp [bind, Except.bind]

theorem rassert_iff (c : Bool) (u : Unit) : rassert c = .ok u ↔ c = true := by
  cases c <;> simp [rassert]

/-- The test passes on any tables with the properties it checks. -/
theorem calculator_ok (bits : Nat) (target : Target) (v0 v1 t0 t1 kept diff : List OpcodeVariant) (d0 d1 : Nat)
    (h0 : allVariantsInVersion ⟨0⟩ = .ok v0) (h1 : allVariantsInVersion ⟨1⟩ = .ok v1)
    (hl : synthesizeOpcodeDecodingTablesLegacy bits ⟨0⟩ target = .ok t0)
    (hn : synthesizeOpcodeDecodingTables bits ⟨0⟩ target = .ok t0)
    (hn1 : synthesizeOpcodeDecodingTables bits ⟨1⟩ target = .ok t1)
    (hd0 : computeEncodingDensity ⟨0⟩ = .ok d0) (hd1 : computeEncodingDensity ⟨1⟩ = .ok d1)
    (hf : findNewOpcodes v0 v1 = .ok (kept, diff)) (hv : v0.length = d0) (hle : d0 ≤ d1)
    (l0 : d1 ≤ t0.length) (l1 : d1 ≤ t1.length) (hstart : ∀ n, n < d0 → t0[n]? = v0[n]?)
    (hsame : ∀ n a b, n < d0 → t0[n]? = some a → t1[n]? = some b → semanticallyEqual a b = true)
    (hpanic : ∀ n, d0 ≤ n → n < d1 → ∃ v, t0[n]? = some v ∧ v.isExplicitPanic = true) :
    calculator bits target = .ok diff := by
  subst hv
  have e1 : t0.take v0.length = v0 := take_eq t0 v0 (by omega) hstart
  have e2 : assertPairs ((t0.take v0.length).zip (t1.take v0.length)) = .ok () := by
    apply assertPairs_ok
    intro p hp
    obtain ⟨i, hi⟩ := List.getElem?_of_mem hp
    obtain ⟨a, b⟩ := p
    rw [List.getElem?_zip_eq_some] at hi
    have hlt : i < v0.length := by
      have := (List.getElem?_eq_some_iff.1 hi.1).1
      rw [List.length_take] at this
      omega
    rw [List.getElem?_take_of_lt hlt, List.getElem?_take_of_lt hlt] at hi
    exact hsame i a b hlt hi.1 hi.2
  have e3 : assertPanics t0 v0.length (d1 - v0.length) = .ok () :=
    assertPanics_ok t0 _ _ fun n a b => hpanic n a (by omega)
  have e4 : (v0 == v0) = true := by rw [beq_iff_eq]
  have e5 : (t0 == t0) = true := by rw [beq_iff_eq]
  unfold calculator calculatorOf
  dsimp only
  rw [h0, h1, hl, hn, hn1, hd0, hd1]
  simp only [bind, Except.bind, hf]
  rw [sliceTo_ok t0 v0.length (by omega), sliceTo_ok t1 v0.length (by omega)]
  simp only [e1, e4, e5]
  rw [e1] at e2
  simp only [rassert, if_true, e2, decide_eq_true hle, e3]

theorem calculator_error (bits : Nat) (target : Target) (v0 v1 : List OpcodeVariant) (e : Panic)
    (h0 : allVariantsInVersion ⟨0⟩ = .ok v0) (h1 : allVariantsInVersion ⟨1⟩ = .ok v1)
    (hl : synthesizeOpcodeDecodingTablesLegacy bits ⟨0⟩ target = .error e) :
    calculator bits target = .error e := by
  unfold calculator calculatorOf
  dsimp only
  rw [h0, h1, hl]
  rfl

end ZkEvm.Tests
