import Verif.Lemmas.OpenTable
import Verif.Props.Table
/-! C79: nothing depends on the hash seeds. `Verif/Spec/MapContract.lean` has the contract of maps. -/
namespace ZkEvm.Props
open HashTable Spec

/-- C79: hash tables with chaining meet the contract of maps, for every hash function and growth policy -/
theorem C79_map {K V : Type} [DecidableEq K] (hash : K → Nat) (policy : Policy) :
    MapContract (chaining hash policy : MapOps K V) :=
  contract_of (Good hash) (Good.new hash) (get_new hash) (fun _ k v h => h.insert policy k v)
    (fun _ k v k' h => get_insert h policy k v k')

/-- two insertions of one key, colliding with another, in a table that grows at every step -/
example : ([(1, 10), (3, 30), (1, 11)].foldl (fun t e => insert (fun k => k % 2) (fun n _ => some n) t e.1 e.2)
    (new : Table Nat Nat)).buckets = [[], [(1, 11), (3, 30)], []] := by decide

/-- C79: open-addressed hash tables meet the contract of maps, for every hash function, tags and growth policy, and all
probe sequences that visit every slot -/
theorem C79_open {K V : Type} [DecidableEq K] (p : Probing K) (hp : VisitsAll p) (policy : Policy) :
    MapContract (openAddressing p policy : MapOps K V) :=
  contract_of (OGood p) (ogood_empty p 0) (openGet_empty p 0) (fun _ k v h => (open_insert hp h policy k v).1)
    (fun _ k v k' h => (open_insert hp h policy k v).2 k')

/-- C79: the standard library's probe sequence visits every slot, so that its tables meet the contract -/
theorem C79_std {K V : Type} [DecidableEq K] (hash : K → Nat) (tag : Nat → Nat) (w : Nat) (policy : Policy) :
    VisitsAll (triangular hash tag w) ∧ MapContract (openAddressing (triangular hash tag w) policy : MapOps K V) :=
  ⟨triangular_visits hash tag w, C79_open _ (triangular_visits hash tag w) policy⟩

/-- C79: `C79_open` for a probe sequence that is not the standard library's: all slots in one group. -/
example {V : Type} : MapContract (openAddressing ⟨fun _ => 0, id, fun _ n => [List.range n]⟩ (fun n _ => some n) :
    MapOps Nat V) :=
  C79_open _ (fun h n i hi => by simp [hi]) _

/-- of four slots the third key meets a taken one with its tag and another key, and another one after it -/
example : [(1, 10), (2, 20), (5, 50), (1, 11)].foldl
    (fun t e => openInsert (triangular id (· % 2) 1) (fun _ m => if m = 0 then some 3 else none) t e.1 e.2) ([] : Slots Nat Nat) =
    [none, some (1, 1, 11), some (0, 2, 20), some (1, 5, 50)] := by decide

/-- C79: a hash set collected from a list contains exactly the elements of the list -/
theorem C79_set {K : Type} [DecidableEq K] (M : MapOps K Unit) (hM : MapContract M) (l : List K) (k : K) :
    (M.get (setOf M l) k).isSome ↔ k ∈ l := by
  have h := hM (l.map fun k => (k, ())) k
  rw [List.foldl_map] at h
  unfold setOf
  rw [h, ← List.map_reverse, ← List.mem_reverse]
  generalize l.reverse = r
  induction r with
  | nil => simp
  | cons a r ih =>
    rw [List.map_cons, List.lookup_cons, List.mem_cons]
    by_cases hk : k = a
    · simp [hk]
    · simp [hk, beq_false_of_ne hk, ih]

/-- C79: a set on a table with chaining in which all elements collide. -/
example : ((chaining (fun _ => 0) fun _ _ => none : MapOps Nat Unit).get
    (setOf (chaining (fun _ => 0) fun _ _ => none) [3, 5, 3]) 5).isSome = true :=
  (C79_set (chaining (fun _ => 0) fun _ _ => none) (C79_map _ _) [3, 5, 3] 5).2 (by decide)

/-- Outcomes of the two versions of a map-building loop that a caller cannot tell apart -/
def SameMap {V : Type} (M : MapOps OpcodeVariant V) : Res M.State → Res (List (OpcodeVariant × V)) → Prop
  | .ok t, .ok m => ∀ v, M.get t v = m.lookup v
  | .error e, .error e' => e = e'
  | _, _ => False

private theorem insert_last {K V : Type} (M : MapOps K V) (ops : List (K × V)) (k : K) (v : V) :
    M.insert (ops.foldl (fun t e => M.insert t e.1 e.2) M.new) k v =
      (ops ++ [(k, v)]).foldl (fun t e => M.insert t e.1 e.2) M.new := by
  rw [List.foldl_append]; rfl

private theorem canonical_sim (M : MapOps OpcodeVariant Nat) (hM : MapContract M) (table rest : List OpcodeVariant)
    (idx : Nat) (ops : List (OpcodeVariant × Nat)) :
    SameMap M (mapLoop M id id table (ops.foldl (fun t e => M.insert t e.1 e.2) M.new) idx rest)
      (lookupMapLoop table ops.reverse idx rest) := by
  induction rest generalizing idx ops with
  | nil => exact fun v => hM ops v
  | cons el rest ih =>
    unfold mapLoop lookupMapLoop IndexMap.get
    rw [hM ops el]
    cases hl : ops.reverse.lookup el with
    | none =>
      have := ih (idx + 1) (ops ++ [(el, idx)])
      rw [List.reverse_append] at this
      dsimp only [id]
      rw [insert_last]
      exact this
    | some x =>
      dsimp only [id]
      cases index table x with
      | error e => rfl
      | ok y =>
        simp only [bind, Except.bind]
        cases rassert (y == INVALID_OPCODE_VARIANT) with
        | error e => rfl
        | ok u => exact ih _ _

private theorem monotonic_sim (M : MapOps OpcodeVariant VariantMonotonicNumber) (hM : MapContract M)
    (table rest : List OpcodeVariant) (idx : Nat) (ops : List (OpcodeVariant × VariantMonotonicNumber)) :
    SameMap M (mapLoop M .fromUsize VariantMonotonicNumber.intoUsize table
        (ops.foldl (fun t e => M.insert t e.1 e.2) M.new) idx rest)
      (monotonicMapLoop table ops.reverse idx rest) := by
  induction rest generalizing idx ops with
  | nil => exact fun v => hM ops v
  | cons el rest ih =>
    unfold mapLoop monotonicMapLoop
    rw [hM ops el]
    cases hl : ops.reverse.lookup el with
    | none =>
      have := ih (idx + 1) (ops ++ [(el, .fromUsize idx)])
      rw [List.reverse_append] at this
      dsimp only
      rw [insert_last]
      exact this
    | some x =>
      dsimp only
      cases index table x.intoUsize with
      | error e => rfl
      | ok y =>
        simp only [bind, Except.bind]
        cases rassert (y == INVALID_OPCODE_VARIANT) with
        | error e => rfl
        | ok u => exact ih _ _

/-- C79: for every table and every implementation of maps that meets the contract, building the variant-to-number map
panics exactly when building it with a list does, and otherwise the two answer every lookup alike -/
theorem C79_canonical (M : MapOps OpcodeVariant Nat) (hM : MapContract M) (table : List OpcodeVariant) :
    SameMap M (mapLoop M id id table M.new 0 table) (lookupMapLoop table [] 0 table) :=
  canonical_sim M hM table table 0 []

/-- C79: the same for the map of monotonic numbers -/
theorem C79_monotonic (M : MapOps OpcodeVariant VariantMonotonicNumber) (hM : MapContract M) (table : List OpcodeVariant) :
    SameMap M (mapLoop M .fromUsize VariantMonotonicNumber.intoUsize table M.new 0 table)
      (monotonicMapLoop table [] 0 table) :=
  monotonic_sim M hM table table 0 []

private theorem same_error {V : Type} {M : MapOps OpcodeVariant V} {r : Res M.State} {e : Panic}
    (h : SameMap M r (.error e)) : r = .error e := by
  cases r with
  | ok t => exact h.elim
  | error e' => exact congrArg Except.error h

/-- C79: both loops, with colliding entries, on a table in which a variant that is not the invalid one is repeated. -/
example : let table := List.replicate 2 (⟨.nop .mk, .regOnly, .regOnly, ⟨false, false⟩⟩ : OpcodeVariant)
    (∃ e, mapLoop (chaining (fun _ => 0) fun _ _ => none : MapOps OpcodeVariant Nat) id id table new 0 table = .error e) ∧
    (∃ e, mapLoop (chaining (fun _ => 0) fun _ _ => none : MapOps OpcodeVariant VariantMonotonicNumber) .fromUsize
      VariantMonotonicNumber.intoUsize table new 0 table = .error e) := by
  intro table
  have h := C79_canonical (chaining (fun _ => 0) fun _ _ => none) (C79_map _ _) table
  have h' := C79_monotonic (chaining (fun _ => 0) fun _ _ => none) (C79_map _ _) table
  rw [show lookupMapLoop table [] 0 table = .error .assertFailed by decide] at h
  rw [show monotonicMapLoop table [] 0 table = .error .assertFailed by decide] at h'
  exact ⟨⟨_, same_error h⟩, ⟨_, same_error h'⟩⟩

private theorem statics_of (C : MapOps OpcodeVariant Nat) (hC : MapContract C)
    (M : MapOps OpcodeVariant VariantMonotonicNumber) (hM : MapContract M) (t : List OpcodeVariant) (lc : IndexMap)
    (lm : List (OpcodeVariant × VariantMonotonicNumber)) (ht : OPCODES_TABLE = .ok t)
    (hc : lookupMapLoop t [] 0 t = .ok lc) (hm : monotonicMapLoop t [] 0 t = .ok lm)
    (h1 : ∀ v i, lc.get v = some i ↔ IsFirstIndex t v i)
    (h2 : ∀ v, List.lookup v lm = (lc.get v).map VariantMonotonicNumber.fromUsize) :
    ∃ t c m, OPCODES_TABLE = .ok t ∧ mapLoop C id id t C.new 0 t = .ok c ∧
      mapLoop M .fromUsize VariantMonotonicNumber.intoUsize t M.new 0 t = .ok m ∧
      (∀ v i, C.get c v = some i ↔ IsFirstIndex t v i) ∧
      (∀ v, M.get m v = (C.get c v).map .fromUsize) := by
  have hC := C79_canonical C hC t
  have hM := C79_monotonic M hM t
  rw [hc] at hC
  rw [hm] at hM
  cases hc' : mapLoop C id id t C.new 0 t with
  | error e => rw [hc'] at hC; exact hC.elim
  | ok c =>
    cases hm' : mapLoop M .fromUsize VariantMonotonicNumber.intoUsize t M.new 0 t with
    | error e => rw [hm'] at hM; exact hM.elim
    | ok m =>
      rw [hc'] at hC
      rw [hm'] at hM
      refine ⟨t, c, m, ht, hc', hm', fun v i => ?_, fun v => ?_⟩
      · rw [hC v]; exact h1 v i
      · rw [hM v, hC v]; exact h2 v

/-- C79: with every implementation of maps that meets the contract the two maps of the default table initialise, and they
give for a variant the first number at which the table has it, and nothing for a variant the table does not have -/
theorem C79_statics (C : MapOps OpcodeVariant Nat) (hC : MapContract C)
    (M : MapOps OpcodeVariant VariantMonotonicNumber) (hM : MapContract M) :
    ∃ t c m, OPCODES_TABLE = .ok t ∧ mapLoop C id id t C.new 0 t = .ok c ∧
      mapLoop M .fromUsize VariantMonotonicNumber.intoUsize t M.new 0 t = .ok m ∧
      (∀ v i, C.get c v = some i ↔ IsFirstIndex t v i) ∧
      (∀ v, M.get m v = (C.get c v).map .fromUsize) := by
  obtain ⟨t, c, m, ht, hc, hm, h1, _, h2⟩ := C19_lookup_maps
  exact statics_of C hC M hM t c m ht
    (by unfold OPCODE_TO_CANONICAL_INDEX_LOOKUP_MAP at hc; rw [ht] at hc; exact hc)
    (by unfold OPCODE_TO_MONOTONIC_INDEX_NUMBER_MAP at hm; rw [ht] at hm; exact hm) h1 h2

private theorem seeds_of (C C' : MapOps OpcodeVariant Nat) (hC : MapContract C) (hC' : MapContract C')
    (M : MapOps OpcodeVariant VariantMonotonicNumber) (hM : MapContract M) :
    ∃ t c c', OPCODES_TABLE = .ok t ∧ mapLoop C id id t C.new 0 t = .ok c ∧
      mapLoop C' id id t C'.new 0 t = .ok c' ∧ ∀ v, C.get c v = C'.get c' v := by
  obtain ⟨t, c, _, ht, hc, _, h1, _⟩ := C79_statics C hC M hM
  obtain ⟨t', c', _, ht', hc', _, h1', _⟩ := C79_statics C' hC' M hM
  have : t = t' := Except.ok.inj (ht.symm.trans ht')
  subst this
  refine ⟨t, c, c', ht, hc, hc', fun v => Option.ext fun i => ?_⟩
  exact (h1 v i).trans (h1' v i).symm

/-- C79: two processes with different hash seeds, even with differently implemented maps, answer every lookup alike -/
theorem C79_seeds (C C' : MapOps OpcodeVariant Nat) (hC : MapContract C) (hC' : MapContract C') :
    ∃ t c c', OPCODES_TABLE = .ok t ∧ mapLoop C id id t C.new 0 t = .ok c ∧
      mapLoop C' id id t C'.new 0 t = .ok c' ∧ ∀ v, C.get c v = C'.get c' v :=
  seeds_of C C' hC hC' (chaining (fun _ => 0) fun _ _ => none) (C79_map _ _)

/-- with a constant hash function every entry collides; the lookups still answer -/
example : ∃ t c, OPCODES_TABLE = .ok t ∧
    mapLoop (chaining (fun _ => 0) fun _ _ => none) id id t new 0 t = .ok c ∧
    get (fun _ => 0) c INVALID_OPCODE_VARIANT = some 0 := by
  obtain ⟨t, c, _, ht, hc, _, h1, _⟩ := C79_statics (chaining (fun _ => 0) fun _ _ => none) (C79_map _ _)
    (chaining (fun _ => 0) fun _ _ => none) (C79_map _ _)
  obtain ⟨t', ht', _, hn⟩ := C16_table_numbering
  have : t = t' := Except.ok.inj (ht.symm.trans ht')
  subst this
  exact ⟨t, c, ht, hc, (h1 _ _).2 ⟨hn 0 (by decide), fun j hj => absurd hj (Nat.not_lt_zero j)⟩⟩

/-- C79: the check for repeated opcode names has the same outcome with every implementation of sets -/
theorem C79_names (M : MapOps String Unit) (hM : MapContract M) (ops : List DynOpcode) :
    namesLoop M M.new ops = checkNames [] ops := by
  suffices h : ∀ (seen : List (String × Unit)),
      namesLoop M (seen.foldl (fun t e => M.insert t e.1 e.2) M.new) ops = checkNames (seen.reverse.map Prod.fst) ops from
    h []
  have hin : ∀ (l : List (String × Unit)) s, (l.lookup s).isSome = (l.map Prod.fst).contains s := by
    intro l s
    induction l with
    | nil => rfl
    | cons e l ih =>
      rw [List.lookup_cons, List.map_cons, List.contains_cons, ← ih]
      cases s == e.1 <;> rfl
  induction ops with
  | nil => intros; rfl
  | cons o os ih =>
    intro seen
    unfold namesLoop checkNames
    have ho := hin seen.reverse o.name
    rw [hM seen o.name]
    cases hl : seen.reverse.lookup o.name with
    | some u =>
      rw [hl] at ho
      rw [← ho]
      rfl
    | none =>
      rw [hl] at ho
      rw [← ho]
      have := ih (seen ++ [(o.name, ())])
      rw [List.reverse_append] at this
      dsimp only
      rw [insert_last]
      exact this

/-- C79: the opcode names of the crate, in a set whose elements all collide. -/
example : namesLoop (chaining (fun _ => 0) fun _ _ => none) new allOpcodesList = .ok () :=
  (C79_names _ (C79_map _ _) allOpcodesList).trans Tables.checkNames_ok

/-- C79: the check that a version keeps the older opcodes has the same outcome with every implementation of sets -/
theorem C79_sanity (M : MapOps OpcodeVariant Unit) (hM : MapContract M) (old new : List OpcodeVariant) :
    sanityLoop M (setOf M new) new old = findNewSanity old new := by
  induction old with
  | nil => rfl
  | cons el rest ih =>
    unfold sanityLoop findNewSanity
    have h := C79_set M hM new el
    rw [ih]
    by_cases hm : el ∈ new
    · have h1 := h.2 hm
      cases hg : M.get (setOf M new) el with
      | none => rw [hg] at h1; cases h1
      | some u => simp [hm]
    · have h1 : M.get (setOf M new) el = none := by
        cases hg : M.get (setOf M new) el with
        | none => rfl
        | some u => exact absurd (h.1 (by rw [hg]; rfl)) hm
      rw [h1]
      cases new.any (fun n => semanticallyEqual n el) <;> simp [hm]

/-- C79: dropping an opcode is noticed with a set whose elements all collide. -/
example : sanityLoop (chaining (fun _ => 0) fun _ _ => none) (setOf (chaining (fun _ => 0) fun _ _ => none) []) []
    [INVALID_OPCODE_VARIANT] ≠ .ok () := by
  rw [C79_sanity _ (C79_map _ _) [INVALID_OPCODE_VARIANT] []]
  decide

end ZkEvm.Props
