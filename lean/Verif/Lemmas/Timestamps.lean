import Verif.Spec.Timestamps
namespace ZkEvm.Timestamps
open Spec

theorem toNat_timestamp (a : Access) (h : STARTING_TIMESTAMP + TIME_DELTA_PER_CYCLE * a.cycle + a.phase < 2 ^ 32) :
    a.timestamp.toNat = STARTING_TIMESTAMP + TIME_DELTA_PER_CYCLE * a.cycle + a.phase := by
  have e3 : STARTING_TIMESTAMP = 1024 := rfl
  have e4 : TIME_DELTA_PER_CYCLE = 4 := rfl
  unfold Access.timestamp
  rw [e3, e4] at h ⊢
  simp only [BitVec.toNat_add, BitVec.toNat_mul, BitVec.toNat_ofNat]
  omega

theorem after_same (mem : Memory) {a b : Access} (h : SameCell a b) :
    mem.after a b.page b.index = if a.write then a.value else mem b.page b.index := by
  unfold Memory.after
  cases a.write
  · rfl
  · simp only [if_true]
    rw [if_pos ⟨h.1.symm, h.2.symm⟩]

theorem after_other (mem : Memory) {a b : Access} (h : ¬ SameCell a b) :
    mem.after a b.page b.index = mem b.page b.index := by
  unfold Memory.after
  cases a.write
  · rfl
  · simp only [if_true]
    rw [if_neg (fun hh => h ⟨hh.1.symm, hh.2.symm⟩)]

theorem sameCell_comm {a b : Access} (h : SameCell a b) : SameCell b a := ⟨h.1.symm, h.2.symm⟩
theorem sameCell_trans {a b c : Access} (h : SameCell a b) (h' : SameCell b c) : SameCell a c :=
  ⟨h.1.trans h'.1, h.2.trans h'.2⟩

/-- In terms of a number for each access: `r` reads what the last write with a lower number wrote. -/
def ReadsLast (t : Access → Nat) (start : Memory) (all : List Access) (r : Access) : Prop :=
  (∃ w ∈ all, w.write = true ∧ SameCell w r ∧ t w < t r ∧ r.value = w.value ∧
    ∀ w' ∈ all, w'.write = true → SameCell w' r → t w' < t r → t w' ≤ t w) ∨
  ((∀ w ∈ all, w.write = true → SameCell w r → ¬ t w < t r) ∧ r.value = start r.page r.index)

/-- Numbers that respect the order of accesses to one word -/
def Respects (t : Access → Nat) (a b : Access) : Prop :=
  SameCell a b → t a < t b ∨ (t a = t b ∧ a.write = false ∧ b.write = false)

/-- What a word holds after `past`, in terms of numbers -/
theorem held (t : Access → Nat) (start : Memory) : ∀ (past : List Access), past.Pairwise (Respects t) → ∀ r : Access,
    (∃ w ∈ past, w.write = true ∧ SameCell w r ∧ past.foldl Memory.after start r.page r.index = w.value ∧
      ∀ w' ∈ past, w'.write = true → SameCell w' r → t w' ≤ t w) ∨
    ((∀ w ∈ past, w.write = true → ¬ SameCell w r) ∧
      past.foldl Memory.after start r.page r.index = start r.page r.index) := by
  intro past
  induction past generalizing start with
  | nil => exact fun _ r => .inr ⟨nofun, rfl⟩
  | cons a past ih =>
    intro hp r
    obtain ⟨ha, hp⟩ := List.pairwise_cons.1 hp
    rw [List.foldl_cons]
    rcases ih (start.after a) hp r with ⟨w, hw, hww, hs, hv, hm⟩ | ⟨hn, hv⟩
    · refine .inl ⟨w, List.mem_cons_of_mem _ hw, hww, hs, hv, fun w' hw' hww' hs' => ?_⟩
      rcases List.mem_cons.1 hw' with rfl | hw'
      · rcases ha w hw (sameCell_trans hs' (sameCell_comm hs)) with h | ⟨_, h, _⟩
        · omega
        · rw [h] at hww'; cases hww'
      · exact hm w' hw' hww' hs'
    · by_cases hs : SameCell a r
      · rw [after_same _ hs] at hv
        cases hw : a.write with
        | true =>
          rw [hw, if_pos rfl] at hv
          refine .inl ⟨a, List.mem_cons_self, hw, hs, hv, fun w' hw' hww' hs' => ?_⟩
          rcases List.mem_cons.1 hw' with rfl | hw'
          · exact Nat.le_refl _
          · exact absurd hs' (hn w' hw' hww')
        | false =>
          rw [hw, if_neg (nofun)] at hv
          refine .inr ⟨fun w' hw' hww' => ?_, hv⟩
          rcases List.mem_cons.1 hw' with rfl | hw'
          · rw [hw] at hww'; cases hww'
          · exact hn w' hw' hww'
      · rw [after_other _ hs] at hv
        refine .inr ⟨fun w' hw' hww' => ?_, hv⟩
        rcases List.mem_cons.1 hw' with rfl | hw'
        · exact hs
        · exact hn w' hw' hww'

theorem consistent_append (start : Memory) (past log : List Access) (h : Consistent start (past ++ log)) :
    Consistent (past.foldl Memory.after start) log := by
  induction past generalizing start with
  | nil => exact h
  | cons a past ih => exact ih _ h.2

/-- One read: what it finds is what the last write before it wrote, by numbers -/
theorem reads_iff {t : Access → Nat} {start : Memory} {past log : List Access} {r : Access}
    (hp : (past ++ r :: log).Pairwise (Respects t)) (hr : r.write = false) :
    r.value = past.foldl Memory.after start r.page r.index ↔ ReadsLast t start (past ++ r :: log) r := by
  obtain ⟨h1, h2, h3⟩ := List.pairwise_append.1 hp
  have hmem : ∀ w ∈ past ++ r :: log, w.write = true → SameCell w r → t w < t r → w ∈ past := by
    intro w hw hww hs ht
    rcases List.mem_append.1 hw with hw | hw
    · exact hw
    · rcases List.mem_cons.1 hw with rfl | hw
      · rw [hr] at hww; cases hww
      · rcases (List.pairwise_cons.1 h2).1 w hw (sameCell_comm hs) with h | ⟨h, _⟩ <;> omega
  have hlt : ∀ w ∈ past, w.write = true → SameCell w r → t w < t r := by
    intro w hw hww hs
    rcases h3 w hw r List.mem_cons_self hs with h | ⟨_, h, _⟩
    · exact h
    · rw [h] at hww; cases hww
  rcases held t start past h1 r with ⟨w, hw, hww, hs, hv, hm⟩ | ⟨hn, hv⟩
  · rw [hv]
    constructor
    · intro he
      exact .inl ⟨w, List.mem_append_left _ hw, hww, hs, hlt w hw hww hs, he,
        fun w' hw' hww' hs' ht => hm w' (hmem w' hw' hww' hs' ht) hww' hs'⟩
    · rintro (⟨w', hw', hww', hs', ht', he, hm'⟩ | ⟨hn, _⟩)
      · have hp' := hmem w' hw' hww' hs' ht'
        have e : t w' = t w := Nat.le_antisymm (hm w' hp' hww' hs') (hm' w (List.mem_append_left _ hw) hww hs (hlt w hw hww hs))
        have : w' = w := by
          apply Classical.byContradiction
          intro hne
          obtain ⟨i, hi, hwi⟩ := List.getElem_of_mem hp'
          obtain ⟨j, hj, hwj⟩ := List.getElem_of_mem hw
          rcases Nat.lt_trichotomy i j with hij | hij | hij
          · have := List.pairwise_iff_getElem.1 h1 i j hi hj hij
            rw [hwi, hwj] at this
            rcases this (sameCell_trans hs' (sameCell_comm hs)) with h | ⟨_, h, _⟩
            · omega
            · rw [h] at hww'; cases hww'
          · subst hij; exact hne (hwi.symm.trans hwj)
          · have := List.pairwise_iff_getElem.1 h1 j i hj hi hij
            rw [hwi, hwj] at this
            rcases this (sameCell_trans hs (sameCell_comm hs')) with h | ⟨_, h, _⟩
            · omega
            · rw [h] at hww; cases hww
        rw [he, this]
      · exact absurd (hlt w hw hww hs) (hn w (List.mem_append_left _ hw) hww hs)
  · rw [hv]
    constructor
    · exact fun he => .inr ⟨fun w hw hww hs ht => hn w (hmem w hw hww hs ht) hww hs, he⟩
    · rintro (⟨w', hw', hww', hs', ht', _⟩ | ⟨_, he⟩)
      · exact absurd hs' (hn w' (hmem w' hw' hww' hs' ht') hww')
      · exact he

/-- Consistency in terms of numbers, whatever comes first -/
theorem consistent_iff_aux {t : Access → Nat} {start : Memory} (log : List Access) : ∀ past : List Access,
    (past ++ log).Pairwise (Respects t) →
    (Consistent (past.foldl Memory.after start) log ↔
      ∀ r ∈ log, r.write = false → ReadsLast t start (past ++ log) r) := by
  induction log with
  | nil => exact fun _ _ => ⟨fun _ => nofun, fun _ => trivial⟩
  | cons a log ih =>
    intro past hp
    have e : past ++ a :: log = (past ++ [a]) ++ log := by rw [List.append_assoc]; rfl
    have h := ih (past ++ [a]) (e ▸ hp)
    rw [List.foldl_append, List.foldl_cons, List.foldl_nil, ← e] at h
    unfold Consistent
    rw [h]
    constructor
    · rintro ⟨h1, h2⟩ r hr hw
      rcases List.mem_cons.1 hr with rfl | hr
      · exact (reads_iff hp hw).1 (h1 hw)
      · exact h2 r hr hw
    · exact fun h => ⟨fun hw => (reads_iff hp hw).2 (h a List.mem_cons_self hw), fun r hr hw => h r (List.mem_cons_of_mem _ hr) hw⟩

theorem consistent_iff {t : Access → Nat} {start : Memory} {log : List Access} (hp : log.Pairwise (Respects t)) :
    Consistent start log ↔ ∀ r ∈ log, r.write = false → ReadsLast t start log r :=
  consistent_iff_aux log [] hp

/-- Two logs with the same accesses, both in an order the numbers respect, are consistent together. -/
theorem consistent_perm {t : Access → Nat} {start : Memory} {log log' : List Access} (h : log.Perm log')
    (hp : log.Pairwise (Respects t)) (hp' : log'.Pairwise (Respects t)) :
    Consistent start log ↔ Consistent start log' := by
  rw [consistent_iff hp, consistent_iff hp']
  have e : ∀ r, ReadsLast t start log r ↔ ReadsLast t start log' r := by
    intro r
    unfold ReadsLast
    simp only [h.mem_iff]
  simp only [e, h.mem_iff]

/-- The accesses to one word are next to each other. -/
def Grouped : List Access → Prop
  | [] => True
  | a :: log => (∀ l₁ b l₂, log = l₁ ++ b :: l₂ → SameCell a b → ∀ c ∈ l₁, SameCell a c) ∧ Grouped log

/-- The pass over neighbours agrees with running the grouped log. -/
theorem neighbours_iff (start : Memory) (log : List Access) : ∀ (mem : Memory) (previous : Option Access),
    (∀ p, previous = some p → Grouped (p :: log) ∧ mem p.page p.index = p.value) →
    (∀ a ∈ log, (∀ p, previous = some p → ¬ SameCell p a) → mem a.page a.index = start a.page a.index) →
    (previous = none → Grouped log) →
    (NeighboursAgree start previous log ↔ Consistent mem log) := by
  induction log with
  | nil => exact fun _ _ _ _ _ => ⟨fun _ => trivial, fun _ => trivial⟩
  | cons a log ih =>
    intro mem previous hprev hother hg
    have hgr : Grouped (a :: log) := by
      cases previous with
      | none => exact hg rfl
      | some p => exact (hprev p rfl).1.2
    have hval : expected start previous a = mem a.page a.index := by
      unfold expected
      cases previous with
      | none => exact (hother a List.mem_cons_self nofun).symm
      | some p =>
        dsimp only
        by_cases hs : SameCell p a
        · rw [if_pos hs, ← (hprev p rfl).2, hs.1, hs.2]
        · rw [if_neg hs]
          exact (hother a List.mem_cons_self (fun q hq => by cases hq; exact hs)).symm
    unfold NeighboursAgree Consistent
    rw [hval]
    refine and_congr_right fun hv => ?_
    refine ih (mem.after a) (some a) (fun p hp => ?_) (fun b hb hnb => ?_) nofun
    · cases hp
      refine ⟨hgr, ?_⟩
      rw [after_same mem (a := a) (b := a) ⟨rfl, rfl⟩]
      cases hw : a.write with
      | true => rfl
      | false => exact (hv hw).symm
    · have hab := hnb a rfl
      rw [after_other mem hab]
      refine hother b (List.mem_cons_of_mem _ hb) (fun p hp hpb => ?_)
      obtain ⟨l₁, l₂, rfl⟩ := List.append_of_mem hb
      have := (hprev p hp).1.1 (a :: l₁) b l₂ rfl hpb a List.mem_cons_self
      exact hab (sameCell_trans (sameCell_comm this) hpb)

theorem sameCell_iff_key {a b : Access} :
    SameCell a b ↔ a.page.toNat * 2 ^ 32 + a.index.toNat = b.page.toNat * 2 ^ 32 + b.index.toNat := by
  have h1 := a.index.isLt
  have h2 := b.index.isLt
  constructor
  · rintro ⟨h, h'⟩; rw [h, h']
  · intro h
    exact ⟨BitVec.eq_of_toNat_eq (by omega), BitVec.eq_of_toNat_eq (by omega)⟩

theorem between {x y z s t u : Nat} (hs : s < 2 ^ 32) (ht : t < 2 ^ 32) (hu : u < 2 ^ 32) (h : x = y)
    (h1 : x * 2 ^ 32 + s ≤ z * 2 ^ 32 + u) (h2 : z * 2 ^ 32 + u ≤ y * 2 ^ 32 + t) : x = z := by
  omega

theorem grouped_of_sorted : ∀ (log : List Access), log.Pairwise (fun a b => a.sortKey ≤ b.sortKey) → Grouped log := by
  intro log
  induction log with
  | nil => exact fun _ => trivial
  | cons a log ih =>
    intro h
    obtain ⟨h1, h2⟩ := List.pairwise_cons.1 h
    refine ⟨fun l₁ b l₂ e hab c hc => ?_, ih h2⟩
    subst e
    have hac := h1 c (List.mem_append_left _ hc)
    have hcb := (List.pairwise_append.1 h2).2.2 c hc b List.mem_cons_self
    rw [sameCell_iff_key] at hab ⊢
    exact between a.timestamp.isLt b.timestamp.isLt c.timestamp.isLt hab hac hcb

/-- The whole argument, given that the timestamps are numbers that respect the order. -/
theorem offline {start : Memory} {log sorted : List Access} (hperm : sorted.Perm log)
    (hlog : log.Pairwise (Respects fun a => a.timestamp.toNat))
    (hsorted : sorted.Pairwise (fun a b => a.sortKey ≤ b.sortKey)) :
    Consistent start log ↔ NeighboursAgree start none sorted := by
  have hsym : sorted.Pairwise (fun a b => SameCell a b → a.timestamp.toNat = b.timestamp.toNat →
      a.write = false ∧ b.write = false) := by
    have hl : log.Pairwise (fun a b => SameCell a b → a.timestamp.toNat = b.timestamp.toNat →
        a.write = false ∧ b.write = false) := hlog.imp fun {a b} h hs ht => by
      rcases h hs with h | h
      · exact absurd ht (Nat.ne_of_lt h)
      · exact h.2
    exact (hperm.pairwise_iff fun {a b} h hs ht =>
      ⟨(h (sameCell_comm hs) ht.symm).2, (h (sameCell_comm hs) ht.symm).1⟩).2 hl
  have hresp : sorted.Pairwise (Respects fun a => a.timestamp.toNat) := by
    refine List.Pairwise.imp₂ (fun {a b} h1 h2 => ?_) hsorted hsym
    intro hs
    have hk := sameCell_iff_key.1 hs
    unfold Access.sortKey at h1
    dsimp only
    rcases Nat.lt_or_ge a.timestamp.toNat b.timestamp.toNat with h | h
    · exact .inl h
    · have e : a.timestamp.toNat = b.timestamp.toNat := by omega
      exact .inr ⟨e, h2 hs e⟩
  rw [consistent_perm hperm.symm hlog hresp]
  exact (neighbours_iff start sorted start none nofun (fun _ _ _ => rfl) (fun _ => grouped_of_sorted sorted hsorted)).symm

end ZkEvm.Timestamps
