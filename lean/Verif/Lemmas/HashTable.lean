import Verif.Model.HashTable
/-! A hash table is a map, for every hash function and growth policy. -/
namespace ZkEvm.HashTable

variable {K V : Type} [DecidableEq K]

/-- every entry is in the bucket of its key's hash, and no bucket has a key twice -/
structure Good (hash : K → Nat) (t : Table K V) : Prop where
  pos : 0 < t.buckets.length
  home : ∀ (i : Nat) b, t.buckets[i]? = some b → ∀ e ∈ b, hash e.1 % t.buckets.length = i
  nodup : ∀ (i : Nat) b, t.buckets[i]? = some b → (b.map Prod.fst).Nodup

theorem lookup_put (k k' : K) (v : V) (b : List (K × V)) :
    (put k v b).lookup k' = if k' = k then some v else b.lookup k' := by
  induction b with
  | nil =>
    simp only [put, List.lookup_cons, List.lookup_nil]
    by_cases h : k' = k
    · simp [h]
    · simp [h, beq_false_of_ne h]
  | cons e rest ih =>
    rcases e with ⟨a, x⟩
    unfold put
    by_cases h : k = a
    · subst h
      simp only [BEq.rfl, if_true, List.lookup_cons]
      by_cases h' : k' = k
      · simp [h']
      · simp [h', beq_false_of_ne h']
    · rw [if_neg (by simpa using h)]
      simp only [List.lookup_cons, ih]
      by_cases h' : k' = k
      · subst h'; simp [beq_false_of_ne h]
      · simp [h']

theorem mem_put_key {k : K} {v : V} {b : List (K × V)} {e : K × V} (h : e ∈ put k v b) : e.1 = k ∨ e ∈ b := by
  induction b with
  | nil => simp only [put, List.mem_singleton] at h; exact .inl (by rw [h])
  | cons a rest ih =>
    rcases a with ⟨a, x⟩
    unfold put at h
    by_cases hk : k = a
    · rw [if_pos (by simpa using hk)] at h
      rcases List.mem_cons.1 h with h | h
      · exact .inl (by rw [h])
      · exact .inr (List.mem_cons_of_mem _ h)
    · rw [if_neg (by simpa using hk)] at h
      rcases List.mem_cons.1 h with h | h
      · exact .inr (h ▸ List.mem_cons_self)
      · rcases ih h with h | h
        · exact .inl h
        · exact .inr (List.mem_cons_of_mem _ h)

theorem nodup_put (k : K) (v : V) (b : List (K × V)) (h : (b.map Prod.fst).Nodup) :
    ((put k v b).map Prod.fst).Nodup := by
  induction b with
  | nil => simp [put]
  | cons a rest ih =>
    rcases a with ⟨a, x⟩
    unfold put
    by_cases hk : k = a
    · subst hk
      rw [if_pos (by simp)]
      exact h
    · rw [if_neg (by simpa using hk)]
      rw [List.map_cons, List.nodup_cons] at h ⊢
      refine ⟨fun hm => ?_, ih h.2⟩
      obtain ⟨e, he, hea⟩ := List.mem_map.1 hm
      rcases mem_put_key he with h' | h'
      · exact hk (h'.symm.trans hea)
      · exact h.1 (List.mem_map.2 ⟨e, h', hea⟩)

theorem length_place (hash : K → Nat) (t : Table K V) (k : K) (v : V) :
    (place hash t k v).buckets.length = t.buckets.length := by
  simp [place]

theorem place_bucket (hash : K → Nat) (t : Table K V) (k : K) (v : V) (i : Nat) :
    (place hash t k v).buckets[i]? =
      if hash k % t.buckets.length = i then (t.buckets[i]?).map (put k v) else t.buckets[i]? := by
  unfold place
  dsimp only
  rw [List.getElem?_modify]
  split <;> simp

theorem Good.place {hash : K → Nat} {t : Table K V} (h : Good hash t) (k : K) (v : V) :
    Good hash (place hash t k v) := by
  refine ⟨by rw [length_place]; exact h.pos, ?_, ?_⟩
  · intro i b hb e he
    rw [length_place]
    rw [place_bucket] at hb
    by_cases hi : hash k % t.buckets.length = i
    · rw [if_pos hi] at hb
      cases hg : t.buckets[i]? with
      | none => rw [hg] at hb; cases hb
      | some b0 =>
        rw [hg] at hb
        cases hb
        rcases mem_put_key he with h' | h'
        · rw [h']; exact hi
        · exact h.home i b0 hg e h'
    · rw [if_neg hi] at hb
      exact h.home i b hb e he
  · intro i b hb
    rw [place_bucket] at hb
    by_cases hi : hash k % t.buckets.length = i
    · rw [if_pos hi] at hb
      cases hg : t.buckets[i]? with
      | none => rw [hg] at hb; cases hb
      | some b0 =>
        rw [hg] at hb
        cases hb
        exact nodup_put k v b0 (h.nodup i b0 hg)
    · rw [if_neg hi] at hb
      exact h.nodup i b hb

theorem get_place {hash : K → Nat} {t : Table K V} (h : 0 < t.buckets.length) (k : K) (v : V) (k' : K) :
    get hash (place hash t k v) k' = if k' = k then some v else get hash t k' := by
  unfold get
  rw [length_place, place_bucket]
  have hlt : hash k' % t.buckets.length < t.buckets.length := Nat.mod_lt _ h
  rw [List.getElem?_eq_getElem hlt]
  by_cases hi : hash k % t.buckets.length = hash k' % t.buckets.length
  · rw [if_pos hi]
    exact lookup_put k k' v _
  · rw [if_neg hi]
    by_cases hk : k' = k
    · exact absurd (by rw [hk]) hi
    · rw [if_neg hk]

omit [DecidableEq K] in
theorem good_empty (hash : K → Nat) (n : Nat) : Good hash (⟨List.replicate (n + 1) []⟩ : Table K V) := by
  have hb : ∀ (i : Nat) (b : List (K × V)), (List.replicate (n + 1) ([] : List (K × V)))[i]? = some b → b = [] :=
    fun i b h => (List.mem_replicate.1 (List.mem_of_getElem? h)).2
  refine ⟨by simp, fun i b h e he => ?_, fun i b h => ?_⟩
  · rw [hb i b h] at he; cases he
  · rw [hb i b h]; exact List.nodup_nil

theorem get_empty (hash : K → Nat) (n : Nat) (k : K) :
    get hash (⟨List.replicate (n + 1) []⟩ : Table K V) k = none := by
  unfold get
  split
  · rename_i b hb
    rw [(List.mem_replicate.1 (List.mem_of_getElem? hb)).2]; rfl
  · rfl

theorem good_fold (hash : K → Nat) (l : List (K × V)) (t : Table K V) (h : Good hash t) :
    Good hash (l.foldl (fun t e => place hash t e.1 e.2) t) := by
  induction l generalizing t with
  | nil => exact h
  | cons e l ih => exact ih _ (h.place _ _)

theorem get_fold (hash : K → Nat) (l : List (K × V)) (t : Table K V) (h : 0 < t.buckets.length)
    (hn : (l.map Prod.fst).Nodup) (k : K) :
    get hash (l.foldl (fun t e => place hash t e.1 e.2) t) k =
      match l.lookup k with | some v => some v | none => get hash t k := by
  induction l generalizing t with
  | nil => rfl
  | cons e l ih =>
    rcases e with ⟨a, x⟩
    rw [List.map_cons, List.nodup_cons] at hn
    rw [List.foldl_cons, ih _ (by rw [length_place]; exact h) hn.2, List.lookup_cons]
    dsimp only
    rw [get_place h]
    by_cases hk : k = a
    · subst hk
      have : l.lookup k = none := by
        rw [List.lookup_eq_none_iff]
        intro e he
        simp only [bne_iff_ne, ne_eq]
        exact fun h' => hn.1 (List.mem_map.2 ⟨e, he, h'.symm⟩)
      rw [this]; simp
    · simp [hk, beq_false_of_ne hk]

theorem mem_of_lookup {l : List (K × V)} {k : K} {v : V} (h : l.lookup k = some v) : (k, v) ∈ l := by
  induction l with
  | nil => cases h
  | cons e l ih =>
    rcases e with ⟨a, x⟩
    rw [List.lookup_cons] at h
    by_cases hk : k = a
    · subst hk
      simp only [BEq.rfl] at h
      cases h
      exact List.mem_cons_self
    · simp only [beq_false_of_ne hk] at h
      exact List.mem_cons_of_mem _ (ih h)

theorem lookup_of_mem {l : List (K × V)} {k : K} {v : V} (hn : (l.map Prod.fst).Nodup) (h : (k, v) ∈ l) :
    l.lookup k = some v := by
  induction l with
  | nil => cases h
  | cons e l ih =>
    rcases e with ⟨a, x⟩
    rw [List.map_cons, List.nodup_cons] at hn
    rw [List.lookup_cons]
    rcases List.mem_cons.1 h with h | h
    · cases h; simp
    · have hk : k ≠ a := fun h' => hn.1 (List.mem_map.2 ⟨(k, v), h, h'⟩)
      simp only [beq_false_of_ne hk]
      exact ih hn.2 h

theorem get_iff {hash : K → Nat} {t : Table K V} (h : Good hash t) (k : K) (v : V) :
    get hash t k = some v ↔ (k, v) ∈ t.buckets.flatten := by
  have hlt : hash k % t.buckets.length < t.buckets.length := Nat.mod_lt _ h.pos
  unfold get
  rw [List.getElem?_eq_getElem hlt]
  dsimp only
  constructor
  · intro hl
    exact List.mem_flatten.2 ⟨_, List.getElem_mem hlt, mem_of_lookup hl⟩
  · intro hm
    obtain ⟨b, hb, he⟩ := List.mem_flatten.1 hm
    obtain ⟨i, hi⟩ := List.mem_iff_getElem?.1 hb
    have hh := h.home i b hi _ he
    dsimp only at hh
    have hbe : t.buckets[hash k % t.buckets.length] = b := by
      rw [← hh] at hi
      exact (List.getElem?_eq_some_iff.1 hi).2
    rw [hbe]
    exact lookup_of_mem (h.nodup i b hi) he

omit [DecidableEq K] in
theorem keys_nodup (n : Nat) (hash : K → Nat) (bs : List (List (K × V))) (s : Nat)
    (home : ∀ (i : Nat) b, bs[i]? = some b → ∀ e ∈ b, hash e.1 % n = i + s)
    (nodup : ∀ (i : Nat) b, bs[i]? = some b → (b.map Prod.fst).Nodup) : (bs.flatten.map Prod.fst).Nodup := by
  induction bs generalizing s with
  | nil => simp
  | cons b bs ih =>
    rw [List.flatten_cons, List.map_append, List.nodup_append]
    refine ⟨nodup 0 b rfl, ih (s + 1) ?_ ?_, ?_⟩
    · intro i b' hb e he
      have := home (i + 1) b' (by simpa using hb) e he
      omega
    · intro i b' hb
      exact nodup (i + 1) b' (by simpa using hb)
    · intro a ha a' ha' heq
      subst heq
      obtain ⟨e, he, rfl⟩ := List.mem_map.1 ha
      obtain ⟨e', he', hee⟩ := List.mem_map.1 ha'
      obtain ⟨b', hb', hm⟩ := List.mem_flatten.1 he'
      obtain ⟨i, hi⟩ := List.mem_iff_getElem?.1 hb'
      have h1 := home 0 b rfl e he
      have h2 := home (i + 1) b' (by simpa using hi) e' hm
      rw [hee] at h2
      omega

omit [DecidableEq K] in
theorem Good.keys {hash : K → Nat} {t : Table K V} (h : Good hash t) : (t.buckets.flatten.map Prod.fst).Nodup :=
  keys_nodup t.buckets.length hash t.buckets 0 h.home h.nodup

theorem Good.rehash {hash : K → Nat} (t : Table K V) (n : Nat) : Good hash (rehash hash t n) :=
  good_fold hash _ _ (good_empty hash n)

theorem get_rehash {hash : K → Nat} {t : Table K V} (h : Good hash t) (n : Nat) (k : K) :
    get hash (rehash hash t n) k = get hash t k := by
  unfold HashTable.rehash
  rw [get_fold hash _ _ (by simp) h.keys, get_empty]
  cases hl : t.buckets.flatten.lookup k with
  | some v => exact ((get_iff h k v).2 (mem_of_lookup hl)).symm
  | none =>
    cases hg : get hash t k with
    | none => rfl
    | some v =>
      have := lookup_of_mem h.keys ((get_iff h k v).1 hg)
      rw [hl] at this; cases this

omit [DecidableEq K] in
theorem Good.new (hash : K → Nat) : Good hash (new : Table K V) := good_empty hash 0

theorem get_new (hash : K → Nat) (k : K) : get hash (new : Table K V) k = none := get_empty hash 0 k

theorem Good.insert {hash : K → Nat} {t : Table K V} (h : Good hash t) (policy : Policy) (k : K) (v : V) :
    Good hash (insert hash policy t k v) := by
  unfold HashTable.insert
  split
  · exact (Good.rehash t _).place k v
  · exact h.place k v

theorem get_insert {hash : K → Nat} {t : Table K V} (h : Good hash t) (policy : Policy) (k : K) (v : V) (k' : K) :
    get hash (insert hash policy t k v) k' = if k' = k then some v else get hash t k' := by
  unfold HashTable.insert
  split
  · rw [get_place (Good.rehash t _).pos, get_rehash h]
  · rw [get_place h.pos]

end ZkEvm.HashTable
