import Verif.Lemmas.Tables
import Verif.Spec.FirstIndex
/-! The loops that build the lookup maps, for arbitrary tables. -/
namespace ZkEvm
open Spec Numbering Tables

namespace LookupMap

/-- The map holds exactly the first indices of the values seen so far. -/
def Inv (pre : List OpcodeVariant) (m : IndexMap) : Prop :=
  ∀ v i, m.get v = some i ↔ IsFirstIndex pre v i

theorem inv_nil : Inv [] [] := by
  intro v i
  simp [IndexMap.get, IsFirstIndex]

theorem firstIndex_exists {l : List OpcodeVariant} {v : OpcodeVariant} (h : v ∈ l) :
    ∃ i, IsFirstIndex l v i := by
  induction l with
  | nil => simp at h
  | cons a as ih =>
    by_cases hav : a = v
    · exact ⟨0, by simp [hav], fun j hj => absurd hj (by omega)⟩
    · obtain ⟨i, h1, h2⟩ := ih (by
        rcases List.mem_cons.1 h with rfl | h
        · exact absurd rfl hav
        · exact h)
      refine ⟨i + 1, by simpa using h1, ?_⟩
      intro j hj
      cases j with
      | zero => simpa using hav
      | succ j => simpa using h2 j (by omega)

theorem Inv.none_iff {pre : List OpcodeVariant} {m : IndexMap} (h : Inv pre m) (v : OpcodeVariant) :
    m.get v = none ↔ v ∉ pre := by
  constructor
  · intro hn hv
    obtain ⟨i, hi⟩ := firstIndex_exists hv
    rw [(h v i).2 hi] at hn
    cases hn
  · intro hv
    cases hg : m.get v with
    | none => rfl
    | some i =>
      exact absurd (List.mem_of_getElem? ((h v i).1 hg).1) hv

theorem firstIndex_append_mem {pre : List OpcodeVariant} {v x : OpcodeVariant} (hv : v ∈ pre) (i : Nat) :
    IsFirstIndex (pre ++ [x]) v i ↔ IsFirstIndex pre v i := by
  obtain ⟨k, hk1, hk2⟩ := firstIndex_exists hv
  have hkl : k < pre.length := by
    rcases Nat.lt_or_ge k pre.length with h | h
    · exact h
    · rw [List.getElem?_eq_none h] at hk1; cases hk1
  constructor
  · rintro ⟨h1, h2⟩
    have hik : i ≤ k := by
      rcases Nat.lt_or_ge k i with hlt | hge
      · exact absurd (by rw [List.getElem?_append_left hkl]; exact hk1) (h2 k hlt)
      · exact hge
    refine ⟨by rwa [List.getElem?_append_left (by omega)] at h1, fun j hj hc => ?_⟩
    exact h2 j hj (by rw [List.getElem?_append_left (by omega)]; exact hc)
  · rintro ⟨h1, h2⟩
    have hil : i < pre.length := by
      rcases Nat.lt_or_ge i pre.length with h | h
      · exact h
      · rw [List.getElem?_eq_none h] at h1; cases h1
    refine ⟨by rwa [List.getElem?_append_left hil], fun j hj hc => ?_⟩
    rw [List.getElem?_append_left (by omega)] at hc
    exact h2 j hj hc

theorem firstIndex_append_new {pre : List OpcodeVariant} {v : OpcodeVariant} (hv : v ∉ pre) (i : Nat) :
    IsFirstIndex (pre ++ [v]) v i ↔ i = pre.length := by
  have hn : ∀ j, j < pre.length → (pre ++ [v])[j]? ≠ some v := by
    intro j hj hc
    rw [List.getElem?_append_left hj] at hc
    exact hv (List.mem_of_getElem? hc)
  constructor
  · rintro ⟨h1, h2⟩
    rcases Nat.lt_trichotomy i pre.length with h | h | h
    · exact absurd h1 (hn i h)
    · exact h
    · exact absurd (by simp) (h2 pre.length h)
  · rintro rfl
    exact ⟨by simp, hn⟩

theorem firstIndex_append_ne {pre : List OpcodeVariant} {v x : OpcodeVariant} (hx : v ≠ x) (i : Nat) :
    IsFirstIndex (pre ++ [x]) v i ↔ IsFirstIndex pre v i := by
  by_cases hv : v ∈ pre
  · exact firstIndex_append_mem hv i
  · constructor
    · rintro ⟨h1, _⟩
      have : v ∈ pre ++ [x] := List.mem_of_getElem? h1
      simp [hv, hx] at this
    · rintro ⟨h1, _⟩
      exact absurd (List.mem_of_getElem? h1) hv

theorem get_cons (m : IndexMap) (el v : OpcodeVariant) (idx : Nat) :
    IndexMap.get ((el, idx) :: m) v = if v = el then some idx else m.get v := by
  unfold IndexMap.get
  rw [List.lookup_cons]
  by_cases h : v = el
  · simp [h]
  · rw [if_neg h, beq_eq_false_iff_ne.2 h]

/-- The loop, started after a processed prefix `pre`. If every repeated value is the invalid one the loop
succeeds and establishes the invariant for the whole table; otherwise the assertion fires. -/
theorem loop_spec (table : List OpcodeVariant) (rest : List OpcodeVariant) :
    ∀ (pre : List OpcodeVariant) (m : IndexMap), table = pre ++ rest → Inv pre m →
    (∀ i j v, pre.length ≤ j → i < j → table[i]? = some v → table[j]? = some v →
      v = INVALID_OPCODE_VARIANT) →
    ∃ m', lookupMapLoop table m pre.length rest = .ok m' ∧ Inv table m' := by
  induction rest with
  | nil =>
    intro pre m ht hinv _
    rw [List.append_nil] at ht
    exact ⟨m, rfl, ht ▸ hinv⟩
  | cons el rest ih =>
    intro pre m ht hinv hdup
    have hel : table[pre.length]? = some el := by rw [ht]; simp
    have ht' : table = (pre ++ [el]) ++ rest := by rw [ht]; simp
    have hlen : (pre ++ [el]).length = pre.length + 1 := by simp
    unfold lookupMapLoop
    cases hg : m.get el with
    | some i =>
      have hi := (hinv el i).1 hg
      have hil : i < pre.length := by
        rcases Nat.lt_or_ge i pre.length with h | h
        · exact h
        · have := hi.1
          rw [List.getElem?_eq_none h] at this; cases this
      have hti : table[i]? = some el := by rw [ht, List.getElem?_append_left hil]; exact hi.1
      have hinvd := hdup i pre.length el (Nat.le_refl _) hil hti hel
      simp only [index, hti, bind, Except.bind]
      rw [hinvd, beq_self_eq_true, show rassert true = .ok () from rfl]
      simp only []
      rw [← hlen]
      refine ih (pre ++ [el]) m ht' ?_ ?_
      · intro v j
        rw [hinv v j]
        by_cases hv : v = el
        · subst hv
          exact (firstIndex_append_mem (List.mem_of_getElem? hi.1) j).symm
        · exact (firstIndex_append_ne hv j).symm
      · intro a b v hb hab h1 h2
        exact hdup a b v (by rw [hlen] at hb; omega) hab h1 h2
    | none =>
      have hnp := (hinv.none_iff el).1 hg
      simp only []
      rw [← hlen]
      refine ih (pre ++ [el]) ((el, pre.length) :: m) ht' ?_ ?_
      · intro v j
        rw [get_cons]
        by_cases hv : v = el
        · subst hv
          rw [if_pos rfl, firstIndex_append_new hnp]
          constructor
          · intro h; cases h; rfl
          · rintro rfl; rfl
        · rw [if_neg hv, firstIndex_append_ne hv]
          exact hinv v j
      · intro a b v hb hab h1 h2
        exact hdup a b v (by rw [hlen] at hb; omega) hab h1 h2

/-- Conversely, if the loop succeeds then every repeated value is the invalid one. -/
theorem loop_ok_dup (table : List OpcodeVariant) (rest : List OpcodeVariant) :
    ∀ (pre : List OpcodeVariant) (m m' : IndexMap), table = pre ++ rest → Inv pre m →
    lookupMapLoop table m pre.length rest = .ok m' →
    ∀ i j v, pre.length ≤ j → i < j → table[i]? = some v → table[j]? = some v →
      v = INVALID_OPCODE_VARIANT := by
  induction rest with
  | nil =>
    intro pre m m' ht _ _ i j v hj _ _ h2
    rw [List.append_nil] at ht
    rw [ht, List.getElem?_eq_none hj] at h2
    cases h2
  | cons el rest ih =>
    intro pre m m' ht hinv hok i j v hj hij h1 h2
    have hel : table[pre.length]? = some el := by rw [ht]; simp
    have ht' : table = (pre ++ [el]) ++ rest := by rw [ht]; simp
    have hlen : (pre ++ [el]).length = pre.length + 1 := by simp
    unfold lookupMapLoop at hok
    cases hg : m.get el with
    | some k =>
      have hi := (hinv el k).1 hg
      have hil : k < pre.length := by
        rcases Nat.lt_or_ge k pre.length with h | h
        · exact h
        · have := hi.1
          rw [List.getElem?_eq_none h] at this; cases this
      have hti : table[k]? = some el := by rw [ht, List.getElem?_append_left hil]; exact hi.1
      rw [hg] at hok
      simp only [index, hti, bind, Except.bind] at hok
      have hel2 : el = INVALID_OPCODE_VARIANT := by
        by_cases hc : el = INVALID_OPCODE_VARIANT
        · exact hc
        · rw [beq_eq_false_iff_ne.2 hc] at hok
          simp [rassert] at hok
      rw [hel2, beq_self_eq_true, show rassert true = .ok () from rfl] at hok
      simp only [] at hok
      by_cases hjp : j = pre.length
      · subst hjp
        rw [hel] at h2
        cases h2
        exact hel2
      · rw [← hlen] at hok
        refine ih (pre ++ [el]) m m' ht' ?_ hok i j v (by rw [hlen]; omega) hij h1 h2
        intro v j
        rw [hinv v j]
        by_cases hv : v = el
        · subst hv
          exact (firstIndex_append_mem (List.mem_of_getElem? hi.1) j).symm
        · exact (firstIndex_append_ne hv j).symm
    | none =>
      have hnp := (hinv.none_iff el).1 hg
      rw [hg] at hok
      simp only [] at hok
      rw [← hlen] at hok
      by_cases hjp : j = pre.length
      · subst hjp
        rw [hel] at h2
        cases h2
        rw [ht, List.getElem?_append_left hij] at h1
        exact absurd (List.mem_of_getElem? h1) hnp
      · refine ih (pre ++ [el]) ((el, pre.length) :: m) m' ht' ?_ hok i j v (by rw [hlen]; omega) hij h1 h2
        intro v j
        rw [get_cons]
        by_cases hv : v = el
        · subst hv
          rw [if_pos rfl, firstIndex_append_new hnp]
          constructor
          · intro h; cases h; rfl
          · rintro rfl; rfl
        · rw [if_neg hv, firstIndex_append_ne hv]
          exact hinv v j

/-- The two map-building loops do the same. -/
theorem monotonic_eq (table rest : List OpcodeVariant) :
    ∀ (m : IndexMap) (idx : Nat),
    monotonicMapLoop table (m.map fun p => (p.1, VariantMonotonicNumber.mk p.2)) idx rest
      = (lookupMapLoop table m idx rest).map
          (fun m' => m'.map fun p => (p.1, VariantMonotonicNumber.mk p.2)) := by
  have hlook : ∀ (m : IndexMap) (v : OpcodeVariant),
      List.lookup v (m.map fun p => (p.1, VariantMonotonicNumber.mk p.2))
        = (m.get v).map VariantMonotonicNumber.mk := by
    intro m v
    unfold IndexMap.get
    induction m with
    | nil => rfl
    | cons p m ih =>
      rw [List.map_cons, List.lookup_cons, List.lookup_cons]
      cases v == p.1
      · exact ih
      · rfl
  induction rest with
  | nil => intro m idx; rfl
  | cons el rest ih =>
    intro m idx
    unfold monotonicMapLoop lookupMapLoop
    rw [hlook]
    cases m.get el with
    | none => exact ih ((el, idx) :: m) (idx + 1)
    | some i =>
      simp only [Option.map_some, VariantMonotonicNumber.intoUsize, bind, Except.bind]
      cases index table i with
      | error e => rfl
      | ok t =>
        simp only []
        cases rassert (t == INVALID_OPCODE_VARIANT) with
        | error e => rfl
        | ok u => exact ih m (idx + 1)

theorem fullTable_dup (i j : Nat) (v : OpcodeVariant) (hij : i < j) (h1 : fullTable[i]? = some v)
    (h2 : fullTable[j]? = some v) : v = INVALID_OPCODE_VARIANT := by
  have hj : j < 2048 := by
    rcases Nat.lt_or_ge j 2048 with h | h
    · exact h
    · rw [List.getElem?_eq_none (by rw [length_fullTable]; exact h)] at h2; cases h2
  rw [fullTable_get hj] at h2
  rw [fullTable_get (by omega)] at h1
  cases h1
  simp only [Option.some.injEq] at h2
  by_cases hja : j < assigned
  · exact absurd (entry_injective hja (by omega) h2) (by omega)
  · rw [entry_unassigned (Nat.le_of_not_lt hja)] at h2
    rw [← h2]
    rfl

theorem canonical_of {t : List OpcodeVariant} {r : Res IndexMap} (h : OPCODES_TABLE = .ok t)
    (hl : lookupMapLoop t [] 0 t = r) : OPCODE_TO_CANONICAL_INDEX_LOOKUP_MAP = r := by
  unfold OPCODE_TO_CANONICAL_INDEX_LOOKUP_MAP
  rw [h]
  exact hl

/-- The lookup map of the default table. -/
theorem canonical_ok : ∃ m, OPCODE_TO_CANONICAL_INDEX_LOOKUP_MAP = .ok m ∧ Inv fullTable m := by
  obtain ⟨m, h1, h2⟩ := loop_spec fullTable fullTable [] [] (List.nil_append _).symm inv_nil
    (fun i j v _ hij h1 h2 => fullTable_dup i j v hij h1 h2)
  exact ⟨m, canonical_of OPCODES_TABLE_eq h1, h2⟩

theorem fullTable_firstIndex (v : OpcodeVariant) (i : Nat) :
    IsFirstIndex fullTable v i ↔ WellFormed v = true ∧ i = number v := by
  constructor
  · rintro ⟨h1, h2⟩
    have hwf := (mem_fullTable v).1 (List.mem_of_getElem? h1)
    refine ⟨hwf, ?_⟩
    obtain ⟨hn, he⟩ := entry_number v hwf
    have hn' : number v < 2048 := Nat.lt_trans hn (by decide)
    have hi : i < 2048 := by
      rcases Nat.lt_or_ge i 2048 with h | h
      · exact h
      · rw [List.getElem?_eq_none (by rw [length_fullTable]; exact h)] at h1; cases h1
    rw [fullTable_get hi] at h1
    simp only [Option.some.injEq] at h1
    have hle : i ≤ number v := by
      rcases Nat.lt_or_ge (number v) i with h | h
      · exact absurd (by rw [fullTable_get hn', he]) (h2 _ h)
      · exact h
    rw [← h1]
    exact (number_entry (Nat.lt_of_le_of_lt hle hn)).symm
  · rintro ⟨hwf, rfl⟩
    obtain ⟨hn, he⟩ := entry_number v hwf
    have hn' : number v < 2048 := Nat.lt_trans hn (by decide)
    refine ⟨by rw [fullTable_get hn', he], ?_⟩
    intro j hj hc
    rw [fullTable_get (by omega)] at hc
    simp only [Option.some.injEq] at hc
    rw [← he] at hc
    exact absurd (entry_injective (Nat.lt_trans hj hn) hn hc) (by omega)

theorem canonical_get : ∃ m, OPCODE_TO_CANONICAL_INDEX_LOOKUP_MAP = .ok m ∧
    ∀ v, m.get v = if WellFormed v then some (number v) else none := by
  obtain ⟨m, h1, h2⟩ := canonical_ok
  refine ⟨m, h1, fun v => ?_⟩
  by_cases h : WellFormed v = true
  · rw [if_pos h, h2 v, fullTable_firstIndex]
    exact ⟨h, rfl⟩
  · rw [if_neg h, h2.none_iff, mem_fullTable]
    exact h

end LookupMap
end ZkEvm
