import Verif.Model.Table
/-! General lemmas about `findNewOpcodes` (merging an ISA version into the table), for arbitrary lists. -/
namespace ZkEvm

/-- Canonical representative of the semantic class of a variant. -/
def semKey (v : OpcodeVariant) : OpcodeVariant :=
  { v with src0OperandType :=
      if v.src0OperandType = .regOrImm .useRegOnly then .regOnly else v.src0OperandType }

theorem semanticallyEqual_iff (a b : OpcodeVariant) :
    semanticallyEqual a b = true ↔ semKey a = semKey b := by
  rcases a with ⟨ao, as, ad, af⟩
  rcases b with ⟨bo, bs, bd, bf⟩
  simp only [semanticallyEqual, semKey, OpcodeVariant.mk.injEq]
  by_cases h1 : ao = bo
  · by_cases h2 : af = bf
    · by_cases h3 : ad = bd
      · subst h1 h2 h3
        simp only [bne_self_eq_false, Bool.false_eq_true, if_false, true_and, and_true]
        rcases as with _ | as | as <;> rcases bs with _ | bs | bs <;>
          try cases as
        all_goals try cases bs
        all_goals decide
      · simp [h1, h2, h3]
    · simp [h1, h2]
  · simp [h1]

theorem semanticallyEqual_false_iff (a b : OpcodeVariant) :
    semanticallyEqual a b = false ↔ semKey a ≠ semKey b := by
  rw [← Bool.not_eq_true, semanticallyEqual_iff]

namespace Merge

theorem replaceFirst_none {n : OpcodeVariant} {old : List OpcodeVariant} :
    replaceFirst n old = none ↔ ∀ o ∈ old, semKey n ≠ semKey o := by
  induction old with
  | nil => simp [replaceFirst]
  | cons o os ih =>
    unfold replaceFirst
    by_cases h : semKey n = semKey o
    · rw [if_pos ((semanticallyEqual_iff _ _).2 h)]
      simp [h]
    · rw [if_neg (by rw [semanticallyEqual_iff]; exact h)]
      cases hr : replaceFirst n os with
      | none =>
        rw [hr] at ih
        simp only [List.mem_cons, forall_eq_or_imp, true_iff]
        exact ⟨h, ih.1 rfl⟩
      | some os' =>
        rw [hr] at ih
        simp only [reduceCtorEq, List.mem_cons, forall_eq_or_imp, false_iff, not_and]
        intro _ hall
        have := ih.2 hall
        simp at this

theorem replaceFirst_keys {n : OpcodeVariant} {old old' : List OpcodeVariant}
    (h : replaceFirst n old = some old') : old'.map semKey = old.map semKey := by
  induction old generalizing old' with
  | nil => simp [replaceFirst] at h
  | cons o os ih =>
    unfold replaceFirst at h
    by_cases hk : semKey n = semKey o
    · rw [if_pos ((semanticallyEqual_iff _ _).2 hk)] at h
      cases h
      simp [hk]
    · rw [if_neg (by rw [semanticallyEqual_iff]; exact hk)] at h
      cases hr : replaceFirst n os with
      | none => simp [hr] at h
      | some os' =>
        rw [hr] at h
        cases h
        simp [ih hr]

/-- Each entry after the replacement is an old entry at the same place or the new entry. -/
theorem replaceFirst_get {n : OpcodeVariant} {old old' : List OpcodeVariant}
    (h : replaceFirst n old = some old') (i : Nat) :
    old'[i]? = old[i]? ∨ (old'[i]? = some n ∧ ∃ o, old[i]? = some o ∧ semKey n = semKey o) := by
  induction old generalizing old' i with
  | nil => simp [replaceFirst] at h
  | cons o os ih =>
    unfold replaceFirst at h
    by_cases hk : semKey n = semKey o
    · rw [if_pos ((semanticallyEqual_iff _ _).2 hk)] at h
      cases h
      cases i with
      | zero => right; exact ⟨rfl, o, rfl, hk⟩
      | succ i => left; rfl
    · rw [if_neg (by rw [semanticallyEqual_iff]; exact hk)] at h
      cases hr : replaceFirst n os with
      | none => simp [hr] at h
      | some os' =>
        rw [hr] at h
        cases h
        cases i with
        | zero => left; rfl
        | succ i => simpa using ih hr i

/-- With pairwise distinct classes the entry of the class of `n` becomes `n`. -/
theorem replaceFirst_nodup {n : OpcodeVariant} {old old' : List OpcodeVariant}
    (hn : (old.map semKey).Nodup) (h : replaceFirst n old = some old') :
    old' = old.map fun o => if semKey n = semKey o then n else o := by
  induction old generalizing old' with
  | nil => simp [replaceFirst] at h
  | cons o os ih =>
    simp only [List.map_cons, List.nodup_cons, List.mem_map, not_exists, not_and] at hn
    unfold replaceFirst at h
    by_cases hk : semKey n = semKey o
    · rw [if_pos ((semanticallyEqual_iff _ _).2 hk)] at h
      cases h
      rw [List.map_cons, if_pos hk]
      congr 1
      have hid : ∀ x ∈ os, (if semKey n = semKey x then n else x) = x := by
        intro x hx
        rw [if_neg]
        intro hkx
        exact hn.1 x hx (hkx.symm.trans hk)
      conv => lhs; rw [← List.map_id os]
      exact List.map_congr_left fun x hx => (hid x hx).symm
    · rw [if_neg (by rw [semanticallyEqual_iff]; exact hk)] at h
      cases hr : replaceFirst n os with
      | none => simp [hr] at h
      | some os' =>
        rw [hr] at h
        cases h
        rw [List.map_cons, if_neg hk, ih hn.2 hr]

theorem findNewLoop_keys (old new : List OpcodeVariant) :
    (findNewLoop old new).1.map semKey = old.map semKey := by
  induction new generalizing old with
  | nil => rfl
  | cons n ns ih =>
    unfold findNewLoop
    cases hr : replaceFirst n old with
    | none => exact ih old
    | some old' => exact (ih old').trans (replaceFirst_keys hr)

theorem exists_key_congr {old old' : List OpcodeVariant} (h : old'.map semKey = old.map semKey)
    (k : OpcodeVariant) : (∃ o ∈ old', k = semKey o) ↔ (∃ o ∈ old, k = semKey o) := by
  have : k ∈ old'.map semKey ↔ k ∈ old.map semKey := by rw [h]
  simpa [List.mem_map, eq_comm] using this

theorem findNewLoop_diff (old new : List OpcodeVariant) :
    (findNewLoop old new).2 = new.filter (fun n => !old.any fun o => semanticallyEqual n o) := by
  induction new generalizing old with
  | nil => rfl
  | cons n ns ih =>
    unfold findNewLoop
    cases hr : replaceFirst n old with
    | none =>
      have hall := replaceFirst_none.1 hr
      have hf : (old.any fun o => semanticallyEqual n o) = false := by
        rw [List.any_eq_false]
        intro o ho
        rw [semanticallyEqual_iff]
        exact hall o ho
      simp only [List.filter_cons, hf, Bool.not_false, if_true]
      exact congrArg (n :: ·) (ih old)
    | some old' =>
      have hk := replaceFirst_keys hr
      have hex : ¬ ∀ o ∈ old, semKey n ≠ semKey o := by
        rw [← replaceFirst_none, hr]; simp
      have hf : (old.any fun o => semanticallyEqual n o) = true := by
        rw [List.any_eq_true]
        by_cases hc : ∃ x ∈ old, semanticallyEqual n x = true
        · exact hc
        · exfalso
          apply hex
          intro o ho hko
          exact hc ⟨o, ho, (semanticallyEqual_iff _ _).2 hko⟩
      simp only [List.filter_cons, hf, Bool.not_true]
      rw [ih old']
      apply List.filter_congr
      intro m _
      congr 1
      rw [Bool.eq_iff_iff, List.any_eq_true, List.any_eq_true]
      simp only [semanticallyEqual_iff]
      exact exists_key_congr hk _

/-- Every entry after the merge is the old entry at its place, or a semantically equal new entry. -/
theorem findNewLoop_get (old new : List OpcodeVariant) (i : Nat) (o : OpcodeVariant)
    (ho : old[i]? = some o) :
    ∃ o', (findNewLoop old new).1[i]? = some o' ∧ semKey o' = semKey o ∧ (o' = o ∨ o' ∈ new) := by
  induction new generalizing old o with
  | nil => exact ⟨o, ho, rfl, .inl rfl⟩
  | cons n ns ih =>
    unfold findNewLoop
    cases hr : replaceFirst n old with
    | none =>
      obtain ⟨o', h1, h2, h3⟩ := ih old o ho
      exact ⟨o', h1, h2, h3.imp id (List.mem_cons_of_mem _)⟩
    | some old' =>
      rcases replaceFirst_get hr i with h | ⟨h, o₁, h₁, hk⟩
      · rw [ho] at h
        obtain ⟨o', h1, h2, h3⟩ := ih old' o h
        exact ⟨o', h1, h2, h3.imp id (List.mem_cons_of_mem _)⟩
      · rw [ho] at h₁
        cases h₁
        obtain ⟨o', h1, h2, h3⟩ := ih old' n h
        refine ⟨o', h1, h2.trans hk, .inr ?_⟩
        rcases h3 with rfl | h3
        · exact List.mem_cons_self
        · exact List.mem_cons_of_mem _ h3

/-- With pairwise distinct old classes: each old entry becomes the *last* new entry of its class, if any. -/
theorem findNewLoop_fst_nodup (old new : List OpcodeVariant) (hn : (old.map semKey).Nodup) :
    (findNewLoop old new).1
      = old.map fun o => new.foldl (fun x n => if semKey n = semKey x then n else x) o := by
  induction new generalizing old with
  | nil => simp [findNewLoop]
  | cons n ns ih =>
    unfold findNewLoop
    cases hr : replaceFirst n old with
    | none =>
      have hall := replaceFirst_none.1 hr
      show (findNewLoop old ns).1 = _
      rw [ih old hn]
      apply List.map_congr_left
      intro o ho
      rw [List.foldl_cons, if_neg (hall o ho)]
    | some old' =>
      show (findNewLoop old' ns).1 = _
      rw [ih old' (by rw [replaceFirst_keys hr]; exact hn), replaceFirst_nodup hn hr, List.map_map]
      rfl

theorem foldl_replace_nodup (new : List OpcodeVariant) (hn : (new.map semKey).Nodup) (o n : OpcodeVariant)
    (hmem : n ∈ new) (hk : semKey n = semKey o) :
    new.foldl (fun x n => if semKey n = semKey x then n else x) o = n := by
  induction new generalizing o with
  | nil => simp at hmem
  | cons m ms ih =>
    simp only [List.map_cons, List.nodup_cons, List.mem_map, not_exists, not_and] at hn
    rw [List.foldl_cons]
    rcases List.mem_cons.1 hmem with rfl | hm
    · rw [if_pos hk]
      -- no further element has the same class
      have : ∀ (l : List OpcodeVariant), (∀ x ∈ l, semKey x ≠ semKey n) →
          l.foldl (fun x n => if semKey n = semKey x then n else x) n = n := by
        intro l
        induction l with
        | nil => intro _; rfl
        | cons a as iha =>
          intro h
          rw [List.foldl_cons, if_neg (h a List.mem_cons_self)]
          exact iha fun x hx => h x (List.mem_cons_of_mem _ hx)
      exact this ms fun x hx => hn.1 x hx
    · rw [if_neg]
      · exact ih hn.2 o hm hk
      · intro hmo
        exact hn.1 n hm (hk.trans hmo.symm)

theorem findNewSanity_ok {old new : List OpcodeVariant} :
    findNewSanity old new = .ok () ↔ ∀ o ∈ old, ∃ n ∈ new, semKey n = semKey o := by
  induction old with
  | nil => simp [findNewSanity]
  | cons el rest ih =>
    unfold findNewSanity
    by_cases h : ∃ n ∈ new, semKey n = semKey el
    · rw [if_pos]
      · rw [ih]; simp [h]
      · rw [Bool.or_eq_true]
        right
        rw [List.any_eq_true]
        obtain ⟨n, hn, hk⟩ := h
        exact ⟨n, hn, (semanticallyEqual_iff _ _).2 hk⟩
    · rw [if_neg]
      · simp [h]
      · rw [Bool.or_eq_true, not_or]
        constructor
        · intro hc
          exact h ⟨el, by simpa using hc, rfl⟩
        · rw [List.any_eq_true]
          rintro ⟨n, hn, hk⟩
          exact h ⟨n, hn, (semanticallyEqual_iff _ _).1 hk⟩

theorem findNewSanity_error {old new : List OpcodeVariant} {e : Panic}
    (h : findNewSanity old new = .error e) : e = .assertFailed := by
  induction old with
  | nil => simp [findNewSanity] at h
  | cons el rest ih =>
    unfold findNewSanity at h
    split at h
    · exact ih h
    · cases h; rfl

theorem findNewOpcodes_ok {old new : List OpcodeVariant}
    (h : ∀ o ∈ old, ∃ n ∈ new, semKey n = semKey o) :
    findNewOpcodes old new = .ok (findNewLoop old new) := by
  unfold findNewOpcodes
  rw [findNewSanity_ok.2 h]
  rfl

theorem findNewOpcodes_panic {old new : List OpcodeVariant}
    (h : ¬ ∀ o ∈ old, ∃ n ∈ new, semKey n = semKey o) :
    findNewOpcodes old new = .error .assertFailed := by
  unfold findNewOpcodes
  cases hs : findNewSanity old new with
  | error e => rw [findNewSanity_error hs]; rfl
  | ok u => exact absurd (findNewSanity_ok.1 hs) h

end Merge
end ZkEvm
