import Verif.Spec.MapContract
import Verif.Lemmas.HashTable
/-! An open-addressed table is a map, for every hash function, tags, probe sequences and growth policy. -/
namespace ZkEvm.HashTable
open Spec

variable {K V : Type} [DecidableEq K]

/-- Slot `i` is in one of the groups and all groups before are full -/
inductive Reaches (slots : Slots K V) (i : Nat) : List (List Nat) → Prop
  | here {g rest} : i ∈ g → Reaches slots i (g :: rest)
  | later {g rest} : (∀ j ∈ g, slots[j]? ≠ some none) → Reaches slots i rest → Reaches slots i (g :: rest)

/-- Every entry has the tag of its key, no key is stored twice, and every entry is reached from its key -/
structure OGood (p : Probing K) (slots : Slots K V) : Prop where
  tagged : ∀ (i : Nat) e, slots[i]? = some (some e) → e.1 = p.tag (p.hash e.2.1)
  unique : ∀ (i j : Nat) e e', slots[i]? = some (some e) → slots[j]? = some (some e') → e.2.1 = e'.2.1 → i = j
  reach : ∀ (i : Nat) e, slots[i]? = some (some e) → Reaches slots i (p.groups (p.hash e.2.1) slots.length)

theorem holds_iff (slots : Slots K V) (tag : Nat) (k : K) (i : Nat) :
    holds slots tag k i = true ↔ ∃ v, slots[i]? = some (some (tag, k, v)) := by
  unfold holds
  split
  · rename_i t k' v h
    rw [h]
    constructor
    · intro hh
      simp only [Bool.and_eq_true, beq_iff_eq] at hh
      exact ⟨v, by rw [hh.1, hh.2]⟩
    · rintro ⟨v', hv⟩
      cases hv
      simp
  · rename_i h
    refine ⟨fun hh => (by cases hh), fun ⟨v, hv⟩ => (h _ _ _ hv).elim⟩

omit [DecidableEq K] in
theorem free_iff (slots : Slots K V) (i : Nat) : free slots i = true ↔ slots[i]? = some none := by
  unfold free
  split
  · rename_i h; exact ⟨fun _ => h, fun _ => rfl⟩
  · rename_i h; exact ⟨fun hh => (by cases hh), fun hh => (h hh).elim⟩

theorem search_sound {slots : Slots K V} {tag : Nat} {k : K} {gs : List (List Nat)} {i : Nat}
    (h : search slots tag k gs = some i) : ∃ v, slots[i]? = some (some (tag, k, v)) := by
  induction gs with
  | nil => cases h
  | cons g rest ih =>
    unfold search at h
    split at h
    · rename_i j hj
      cases h
      exact (holds_iff _ _ _ _).1 (List.find?_some hj)
    · split at h
      · cases h
      · exact ih h

theorem search_stored {slots : Slots K V} {tag : Nat} {k : K} {i : Nat} {v : V}
    (hu : ∀ (j : Nat) e, slots[j]? = some (some e) → e.2.1 = k → j = i)
    (hi : slots[i]? = some (some (tag, k, v))) {gs : List (List Nat)} (hr : Reaches slots i gs) :
    search slots tag k gs = some i := by
  have hfound : ∀ {g : List Nat} {j : Nat}, g.find? (holds slots tag k) = some j → j = i := by
    intro g j hj
    obtain ⟨v', hv⟩ := (holds_iff _ _ _ _).1 (List.find?_some hj)
    exact hu j _ hv rfl
  induction hr with
  | @here g rest hm =>
    unfold search
    cases hf : g.find? (holds slots tag k) with
    | some j => dsimp only; rw [hfound hf]
    | none =>
      exact absurd ((holds_iff slots tag k i).2 ⟨v, hi⟩) (List.find?_eq_none.1 hf i hm)
  | @later g rest hfull _ ih =>
    unfold search
    cases hf : g.find? (holds slots tag k) with
    | some j => dsimp only; rw [hfound hf]
    | none =>
      dsimp only
      rw [if_neg]
      · exact ih
      · rw [Bool.not_eq_true, List.any_eq_false]
        intro j hj hfr
        exact hfull j hj ((free_iff _ _).1 hfr)

omit [DecidableEq K] in
theorem reaches_first_free {slots : Slots K V} {i : Nat} {gs : List (List Nat)}
    (h : gs.flatten.find? (free slots) = some i) : Reaches slots i gs := by
  induction gs with
  | nil => cases h
  | cons g rest ih =>
    rw [List.flatten_cons, List.find?_append] at h
    cases hf : g.find? (free slots) with
    | some j =>
      rw [hf] at h
      cases h
      exact .here (List.mem_of_find?_eq_some hf)
    | none =>
      rw [hf] at h
      refine .later (fun j hj hn => ?_) (ih h)
      exact List.find?_eq_none.1 hf j hj ((free_iff _ _).2 hn)

omit [DecidableEq K] in
theorem Reaches.mono {slots slots' : Slots K V} {i : Nat} {gs : List (List Nat)}
    (hm : ∀ j : Nat, slots'[j]? = some none → slots[j]? = some none) (h : Reaches slots i gs) : Reaches slots' i gs := by
  induction h with
  | here hi => exact .here hi
  | later hf _ ih => exact .later (fun j hj hn => hf j hj (hm j hn)) ih

theorem OGood.find {p : Probing K} {slots : Slots K V} (h : OGood p slots) {i : Nat} {e : Nat × K × V}
    (hi : slots[i]? = some (some e)) : p.find slots e.2.1 = some i := by
  have ht := h.tagged i e hi
  rcases e with ⟨t, k, v⟩
  dsimp only at ht ⊢
  unfold Probing.find
  rw [← ht]
  exact search_stored (fun j e' hj hk => h.unique j i _ _ hj hi hk) hi (h.reach i _ hi)

theorem openGet_iff {p : Probing K} {slots : Slots K V} (h : OGood p slots) (k : K) (v : V) :
    openGet p slots k = some v ↔ ∃ (i : Nat) (t : Nat), slots[i]? = some (some (t, k, v)) := by
  constructor
  · intro hg
    unfold openGet at hg
    split at hg
    · cases hg
    · rename_i i hf
      obtain ⟨v', hv⟩ := search_sound hf
      rw [hv] at hg
      cases hg
      exact ⟨i, _, hv⟩
  · rintro ⟨i, t, hi⟩
    unfold openGet
    rw [h.find hi]
    dsimp only
    rw [hi]

/-- Writing an entry of `k` into a slot that is free or already holds `k` -/
theorem set_slot {p : Probing K} {slots : Slots K V} (h : OGood p slots) {i : Nat} {k : K} (v : V)
    (hu : ∀ (j : Nat) e, slots[j]? = some (some e) → e.2.1 = k → j = i)
    (hi : slots[i]? = some none ∨ ∃ e, slots[i]? = some (some e) ∧ e.2.1 = k)
    (hr : Reaches slots i (p.groups (p.hash k) slots.length)) :
    OGood p (slots.set i (some (p.tag (p.hash k), k, v))) ∧
    ∀ k', openGet p (slots.set i (some (p.tag (p.hash k), k, v))) k' = if k' = k then some v else openGet p slots k' := by
  have hlt : i < slots.length := by
    rcases hi with hi | ⟨e, hi, _⟩ <;> exact (List.getElem?_eq_some_iff.1 hi).1
  have hat : ∀ j : Nat, (slots.set i (some (p.tag (p.hash k), k, v)))[j]? =
      if i = j then some (some (p.tag (p.hash k), k, v)) else slots[j]? := by
    intro j
    rw [List.getElem?_set, if_pos hlt]
  have hmono : ∀ j : Nat, (slots.set i (some (p.tag (p.hash k), k, v)))[j]? = some none → slots[j]? = some none := by
    intro j hj
    rw [hat] at hj
    split at hj
    · cases hj
    · exact hj
  have hgood : OGood p (slots.set i (some (p.tag (p.hash k), k, v))) := by
    refine ⟨fun j e hj => ?_, fun j j' e e' hj hj' hk => ?_, fun j e hj => ?_⟩
    · rw [hat] at hj
      split at hj
      · cases hj; rfl
      · exact h.tagged j e hj
    · rw [hat] at hj hj'
      split at hj <;> split at hj'
      · rename_i h1 h2; exact h1.symm.trans h2
      · rename_i h1 h2
        cases hj
        exact absurd (hu j' e' hj' hk.symm) (fun hh => h2 hh.symm)
      · rename_i h1 h2
        cases hj'
        exact absurd (hu j e hj hk) (fun hh => h1 hh.symm)
      · exact h.unique j j' e e' hj hj' hk
    · rw [List.length_set]
      rw [hat] at hj
      split at hj
      · rename_i h1
        cases hj
        subst h1
        exact hr.mono hmono
      · exact (h.reach j e hj).mono hmono
  refine ⟨hgood, fun k' => Option.ext fun v' => ?_⟩
  rw [openGet_iff hgood]
  by_cases hk : k' = k
  · subst hk
    rw [if_pos rfl]
    constructor
    · rintro ⟨j, t, hj⟩
      rw [hat] at hj
      split at hj
      · cases hj; rfl
      · rename_i h1
        exact absurd (hu j _ hj rfl) (fun hh => h1 hh.symm)
    · intro hv
      cases hv
      exact ⟨i, _, by rw [hat, if_pos rfl]⟩
  · rw [if_neg hk, openGet_iff h]
    constructor
    · rintro ⟨j, t, hj⟩
      rw [hat] at hj
      split at hj
      · cases hj; exact absurd rfl hk
      · exact ⟨j, t, hj⟩
    · rintro ⟨j, t, hj⟩
      refine ⟨j, t, ?_⟩
      rw [hat, if_neg]
      · exact hj
      · rintro rfl
        rcases hi with hi | ⟨e, hi, he⟩
        · rw [hi] at hj; cases hj
        · rw [hi] at hj; cases hj; exact hk he

theorem length_openPlace (p : Probing K) (slots : Slots K V) (k : K) (v : V) :
    (openPlace p slots k v).length = slots.length := by
  unfold openPlace
  split
  · simp
  · split <;> simp

theorem OGood.openPlace {p : Probing K} (hp : VisitsAll p) {slots : Slots K V} (h : OGood p slots)
    (hf : slots.any (·.isNone) = true) (k : K) (v : V) :
    OGood p (openPlace p slots k v) ∧
    ∀ k', openGet p (HashTable.openPlace p slots k v) k' = if k' = k then some v else openGet p slots k' := by
  unfold HashTable.openPlace
  cases hs : p.find slots k with
  | some i =>
    dsimp only
    obtain ⟨v', hv⟩ := search_sound hs
    exact set_slot h v (fun j e hj hk => h.unique j i _ _ hj hv hk) (.inr ⟨_, hv, rfl⟩) (h.reach i _ hv)
  | none =>
    dsimp only
    cases hff : (p.groups (p.hash k) slots.length).flatten.find? (free slots) with
    | some i =>
      dsimp only
      refine set_slot h v (fun j e hj hk => ?_) (.inl ((free_iff _ _).1 (List.find?_some hff))) (reaches_first_free hff)
      have := h.find hj
      rw [hk, hs] at this
      cases this
    | none =>
      exfalso
      obtain ⟨x, hx, hn⟩ := List.any_eq_true.1 hf
      obtain ⟨i, hi⟩ := List.mem_iff_getElem?.1 hx
      cases x with
      | some e => cases hn
      | none =>
        have hlt := (List.getElem?_eq_some_iff.1 hi).1
        exact List.find?_eq_none.1 hff i (hp _ _ i hlt) ((free_iff _ _).2 hi)

omit [DecidableEq K] in
theorem free_of_entries (slots : Slots K V) (h : (entries slots).length < slots.length) :
    slots.any (·.isNone) = true := by
  induction slots with
  | nil => cases h
  | cons a rest ih =>
    cases a with
    | none => rfl
    | some e =>
      rw [List.any_cons, ih (by simp [entries] at h ⊢; exact h)]
      rfl

omit [DecidableEq K] in
theorem entries_set (slots : Slots K V) (i : Nat) (e : Nat × K × V) :
    (entries (slots.set i (some e))).length ≤ (entries slots).length + 1 := by
  induction slots generalizing i with
  | nil => simp [entries]
  | cons a rest ih =>
    cases i with
    | zero => cases a <;> simp [entries]
    | succ i =>
      have := ih i
      cases a <;> simp only [entries, List.set_cons_succ, List.filterMap_cons, Option.map, List.length_cons] at this ⊢ <;> omega

theorem entries_openPlace (p : Probing K) (slots : Slots K V) (k : K) (v : V) :
    (entries (openPlace p slots k v)).length ≤ (entries slots).length + 1 := by
  unfold openPlace
  split
  · exact entries_set _ _ _
  · split
    · exact entries_set _ _ _
    · omega

omit [DecidableEq K] in
theorem ogood_empty (p : Probing K) (n : Nat) : OGood p (List.replicate n none : Slots K V) := by
  have hno : ∀ (i : Nat) (e : Nat × K × V), (List.replicate n none : Slots K V)[i]? ≠ some (some e) := by
    intro i e h
    have := (List.mem_replicate.1 (List.mem_of_getElem? h)).2
    cases this
  exact ⟨fun i e h => absurd h (hno i e), fun i j e e' h => absurd h (hno i e), fun i e h => absurd h (hno i e)⟩

theorem openGet_empty (p : Probing K) (n : Nat) (k : K) : openGet p (List.replicate n none : Slots K V) k = none := by
  cases h : openGet p (List.replicate n none : Slots K V) k with
  | none => rfl
  | some v =>
    obtain ⟨i, t, hi⟩ := (openGet_iff (ogood_empty p n) k v).1 h
    have := (List.mem_replicate.1 (List.mem_of_getElem? hi)).2
    cases this

omit [DecidableEq K] in
theorem entries_empty (n : Nat) : entries (List.replicate n none : Slots K V) = [] := by
  induction n with
  | zero => rfl
  | succ n ih => rw [List.replicate_succ]; exact ih

theorem open_fold {p : Probing K} (hp : VisitsAll p) (l : List (K × V)) (t : Slots K V) (h : OGood p t)
    (hn : (entries t).length + l.length < t.length) :
    OGood p (l.foldl (fun t e => openPlace p t e.1 e.2) t) ∧
    (entries (l.foldl (fun t e => openPlace p t e.1 e.2) t)).length < (l.foldl (fun t e => openPlace p t e.1 e.2) t).length ∧
    ∀ k, openGet p (l.foldl (fun t e => openPlace p t e.1 e.2) t) k =
      match l.reverse.lookup k with | some v => some v | none => openGet p t k := by
  induction l generalizing t with
  | nil => exact ⟨h, by simpa using hn, fun k => rfl⟩
  | cons e l ih =>
    rw [List.length_cons] at hn
    obtain ⟨h1, h2⟩ := h.openPlace hp (free_of_entries t (by omega)) e.1 e.2
    have hc := entries_openPlace p t e.1 e.2
    have hl := length_openPlace p t e.1 e.2
    obtain ⟨i1, i2, i3⟩ := ih _ h1 (by omega)
    refine ⟨i1, i2, fun k => ?_⟩
    rw [List.foldl_cons, i3 k, h2 k, List.reverse_cons]
    have happ : ∀ l' : List (K × V), (l' ++ [e]).lookup k =
        match l'.lookup k with | some v => some v | none => if k = e.1 then some e.2 else none := by
      intro l'
      induction l' with
      | nil =>
        rw [List.nil_append, List.lookup_cons]
        by_cases hk : k = e.1
        · simp [hk]
        · simp [hk, beq_false_of_ne hk]
      | cons a l' ih' =>
        rw [List.cons_append, List.lookup_cons, List.lookup_cons, ih']
        cases k == a.1 <;> rfl
    rw [happ]
    cases l.reverse.lookup k with
    | some v => rfl
    | none =>
      by_cases hk : k = e.1
      · simp [hk]
      · simp [hk]

omit [DecidableEq K] in
theorem mem_entries (slots : Slots K V) (k : K) (v : V) :
    (k, v) ∈ entries slots ↔ ∃ (i : Nat) (t : Nat), slots[i]? = some (some (t, k, v)) := by
  unfold entries
  rw [List.mem_filterMap]
  constructor
  · rintro ⟨a, ha, h⟩
    obtain ⟨i, hi⟩ := List.mem_iff_getElem?.1 ha
    rcases a with _ | ⟨t, e⟩
    · cases h
    · cases h
      exact ⟨i, t, hi⟩
  · rintro ⟨i, t, hi⟩
    exact ⟨_, List.mem_of_getElem? hi, rfl⟩

theorem open_rehash {p : Probing K} (hp : VisitsAll p) {slots : Slots K V} (h : OGood p slots) (n : Nat) :
    OGood p (openRehash p slots n) ∧ (openRehash p slots n).any (·.isNone) = true ∧
    ∀ k, openGet p (openRehash p slots n) k = openGet p slots k := by
  obtain ⟨h1, h2, h3⟩ := open_fold hp (entries slots) (List.replicate ((entries slots).length + 1 + n) none)
    (ogood_empty p _) (by rw [entries_empty, List.length_replicate, List.length_nil]; omega)
  refine ⟨h1, free_of_entries _ h2, fun k => ?_⟩
  unfold openRehash
  rw [h3 k, openGet_empty]
  have hmem : ∀ v, (k, v) ∈ entries slots ↔ openGet p slots k = some v := fun v =>
    (mem_entries slots k v).trans (openGet_iff h k v).symm
  cases hl : (entries slots).reverse.lookup k with
  | some v => exact ((hmem v).1 (List.mem_reverse.1 (mem_of_lookup hl))).symm
  | none =>
    cases hg : openGet p slots k with
    | none => rfl
    | some v =>
      have := List.lookup_eq_none_iff.1 hl (k, v) (List.mem_reverse.2 ((hmem v).2 hg))
      simp at this

theorem open_insert {p : Probing K} (hp : VisitsAll p) {slots : Slots K V} (h : OGood p slots) (policy : Policy)
    (k : K) (v : V) :
    OGood p (openInsert p policy slots k v) ∧
    ∀ k', openGet p (openInsert p policy slots k v) k' = if k' = k then some v else openGet p slots k' := by
  unfold openInsert
  have hre : ∀ n, OGood p (openPlace p (openRehash p slots n) k v) ∧
      ∀ k', openGet p (openPlace p (openRehash p slots n) k v) k' = if k' = k then some v else openGet p slots k' := by
    intro n
    obtain ⟨r1, r2, r3⟩ := open_rehash hp h n
    obtain ⟨q1, q2⟩ := r1.openPlace hp r2 k v
    exact ⟨q1, fun k' => by rw [q2, r3]⟩
  split
  · exact hre _
  · split
    · rename_i hf
      exact h.openPlace hp hf k v
    · exact hre 0

/-- A map with an invariant under which insertion changes one key only meets the contract -/
theorem contract_of {M : MapOps K V} (Inv : M.State → Prop) (h0 : Inv M.new) (hnew : ∀ k, M.get M.new k = none)
    (hi : ∀ t k v, Inv t → Inv (M.insert t k v))
    (hg : ∀ t k v k', Inv t → M.get (M.insert t k v) k' = if k' = k then some v else M.get t k') : MapContract M := by
  intro ops k
  suffices h : ∀ (ops done : List (K × V)) (t : M.State), Inv t → (∀ k, M.get t k = done.lookup k) →
      M.get (ops.foldl (fun t e => M.insert t e.1 e.2) t) k = (ops.reverse ++ done).lookup k by
    have := h ops [] M.new h0 hnew
    rwa [List.append_nil] at this
  intro ops
  induction ops with
  | nil => intro done t _ h; exact h k
  | cons e ops ih =>
    intro done t hinv h
    rw [List.foldl_cons, ih (e :: done) _ (hi t e.1 e.2 hinv), List.reverse_cons, List.append_assoc]
    · rfl
    · intro k'
      rw [hg t e.1 e.2 k' hinv, List.lookup_cons]
      by_cases hk : k' = e.1
      · simp [hk]
      · simp [hk, beq_false_of_ne hk, h]

/-! Triangular numbers modulo powers of two -/

theorem tri_succ (k : Nat) : (k + 1) * (k + 2) / 2 = k * (k + 1) / 2 + (k + 1) := by
  rw [show (k + 1) * (k + 2) = k * (k + 1) + (k + 1) * 2 from by rw [Nat.mul_comm k, ← Nat.mul_add]]
  exact Nat.add_mul_div_right _ _ (by decide)

theorem tri_mul (k : Nat) : 2 * (k * (k + 1) / 2) = k * (k + 1) := by
  induction k with
  | zero => rfl
  | succ k ih => rw [tri_succ, Nat.mul_add, ih]; grind

/-- turning a position round its half -/
theorem tri_turn (h k : Nat) (hk : k < h) :
    (2 * h - 1 - k) * (2 * h - 1 - k + 1) / 2 = k * (k + 1) / 2 + h + 2 * h * (h - 1 - k) := by
  obtain ⟨d, rfl⟩ : ∃ d, h = k + 1 + d := ⟨h - k - 1, by omega⟩
  have h1 := tri_mul (2 * (k + 1 + d) - 1 - k)
  have h2 := tri_mul k
  have e : 2 * (k + 1 + d) - 1 - k = k + 2 * d + 1 := by omega
  rw [e] at h1 ⊢
  rw [show k + 1 + d - 1 - k = d from by omega]
  have : (k + 2 * d + 1) * (k + 2 * d + 1 + 1) = k * (k + 1) + 2 * (k + 1 + d) + 2 * (2 * (k + 1 + d) * d) := by
    grind
  omega

theorem tri_visits (m q : Nat) : ∃ k, k < 2 ^ m ∧ (k * (k + 1) / 2) % 2 ^ m = q % 2 ^ m := by
  induction m with
  | zero => exact ⟨0, by decide, by simp [Nat.mod_one]⟩
  | succ m ih =>
    obtain ⟨k, hk, e⟩ := ih
    have hp : 2 ^ (m + 1) = 2 * 2 ^ m := by rw [Nat.pow_succ, Nat.mul_comm]
    by_cases hc : (k * (k + 1) / 2) % 2 ^ (m + 1) = q % 2 ^ (m + 1)
    · exact ⟨k, by omega, hc⟩
    · refine ⟨2 * 2 ^ m - 1 - k, by omega, ?_⟩
      rw [tri_turn _ _ hk, hp, Nat.add_mul_mod_self_left]
      rw [hp] at hc
      generalize k * (k + 1) / 2 = t at *
      have hpos : 0 < 2 ^ m := Nat.pow_pos (by decide)
      generalize 2 ^ m = n at *
      have a1 := Nat.mod_mul_right_mod t n 2
      have a2 := Nat.mod_mul_right_mod q n 2
      rw [Nat.mul_comm n 2] at a1 a2
      have b1 := Nat.mod_lt t (show 0 < 2 * n by omega)
      have b2 := Nat.mod_lt q (show 0 < 2 * n by omega)
      rw [Nat.add_mod]
      generalize t % (2 * n) = x at *
      generalize q % (2 * n) = y at *
      rw [Nat.mod_eq_of_lt (show n < 2 * n by omega)]
      rw [e, ← a2] at a1
      have : x + n = y ∨ y + n = x := by
        have dx := Nat.div_add_mod x n
        have dy := Nat.div_add_mod y n
        have hx : x / n < 2 := Nat.div_lt_of_lt_mul (by omega)
        have hy : y / n < 2 := Nat.div_lt_of_lt_mul (by omega)
        generalize x / n = a at *
        generalize y / n = b at *
        have ha : a = 0 ∨ a = 1 := by omega
        have hb : b = 0 ∨ b = 1 := by omega
        rcases ha with u | u <;> rcases hb with w | w <;> subst u <;> subst w <;> omega
      rcases this with h | h
      · rw [h, Nat.mod_eq_of_lt b2]
      · rw [← h, show y + n + n = y + 2 * n by omega, Nat.add_mod_right, Nat.mod_eq_of_lt b2]

omit [DecidableEq K] in
theorem triangular_visits (hash : K → Nat) (tag : Nat → Nat) (w : Nat) : VisitsAll (triangular hash tag w) := by
  intro h n i hi
  unfold triangular
  dsimp only
  split
  · rename_i hn
    generalize n.log2 = m at hn
    -- the slot's distance from the start
    obtain ⟨d, hd⟩ : ∃ d, (h + d) % n = i := by
      refine ⟨i + n * (h + 1) - h, ?_⟩
      have : h ≤ n * (h + 1) := Nat.le_trans (Nat.le_succ h) (Nat.le_mul_of_pos_left _ (by omega))
      rw [show h + (i + n * (h + 1) - h) = i + n * (h + 1) from by omega, Nat.add_mul_mod_self_left, Nat.mod_eq_of_lt hi]
    suffices hs : ∃ k j, k < n ∧ j < 2 ^ w ∧ (2 ^ w * (k * (k + 1) / 2) + j) % n = d % n by
      obtain ⟨k, j, hk, hj, e⟩ := hs
      refine List.mem_flatten.2 ⟨_, List.mem_map.2 ⟨k, List.mem_range.2 hk, rfl⟩, List.mem_map.2 ⟨j, List.mem_range.2 hj, ?_⟩⟩
      rw [Nat.add_assoc, Nat.add_mod, e, ← Nat.add_mod, hd]
    by_cases hw : m ≤ w
    · refine ⟨0, d % n, by omega, Nat.lt_of_lt_of_le (Nat.mod_lt _ (by omega)) ?_, ?_⟩
      · rw [hn]; exact Nat.pow_le_pow_right (by decide) hw
      · simp
    · obtain ⟨r, rfl⟩ : ∃ r, m = w + r := ⟨m - w, by omega⟩
      obtain ⟨k, hk, e⟩ := tri_visits r (d / 2 ^ w)
      refine ⟨k, d % 2 ^ w, ?_, Nat.mod_lt _ (Nat.pow_pos (by decide)), ?_⟩
      · rw [hn]
        exact Nat.lt_of_lt_of_le hk (Nat.pow_le_pow_right (by decide) (by omega))
      · rw [hn, Nat.pow_add]
        have h1 := Nat.div_add_mod d (2 ^ w)
        conv => rhs; rw [← h1]
        rw [Nat.add_mod, Nat.mul_mod_mul_left, e, ← Nat.mul_mod_mul_left, ← Nat.add_mod]
  · exact List.mem_flatten.2 ⟨_, List.mem_cons_self, List.mem_range.2 hi⟩

end ZkEvm.HashTable
