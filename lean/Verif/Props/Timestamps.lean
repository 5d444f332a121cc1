import Verif.Lemmas.Timestamps
import Verif.Props.Frames
/-! C119: timestamps order the accesses to every word of memory, so that the memory of an execution can be checked
afterwards from a sorted log. -/
namespace ZkEvm.Props
open Spec Timestamps Spec.Frames

/-- C119: in every execution paid with the initial ergs, timestamps are the numbers they should be, never wrap, and put
any two accesses to one word of which one is a write in the order in which they happen. -/
theorem C119_timestamps (m : Mode) (s₀ s : List CallFrame) (cs : List (Cycle m)) (hl : s₀.length ≤ 80)
    (he : totalErgs s₀ ≤ VM_INITIAL_FRAME_ERGS) (h : During m 0 s₀ cs s) (a b : Access)
    (ha : a.cycle < cs.length ∧ a.phase < TIME_DELTA_PER_CYCLE) (hb : b.cycle < cs.length ∧ b.phase < TIME_DELTA_PER_CYCLE) :
    a.timestamp.toNat = STARTING_TIMESTAMP + TIME_DELTA_PER_CYCLE * a.cycle + a.phase ∧
    (Before a b → a.timestamp ≤ b.timestamp) ∧
    (Before a b → SameCell a b → a.write = true ∨ b.write = true → a.timestamp < b.timestamp) := by
  have hc := (C104_counters m s₀ s cs hl he h).2.1
  have e3 : STARTING_TIMESTAMP = 1024 := rfl
  have e4 : TIME_DELTA_PER_CYCLE = 4 := rfl
  rw [e3, e4] at hc
  rw [e4] at ha hb
  have ea := toNat_timestamp a (by rw [e3, e4]; omega)
  have eb := toNat_timestamp b (by rw [e3, e4]; omega)
  refine ⟨ea, fun hab => ?_, fun hab hs hw => ?_⟩
  · rw [BitVec.le_def, ea, eb, e3, e4]
    rcases hab with h | ⟨h, h'⟩ | ⟨h, h', _⟩ <;> omega
  · rw [BitVec.lt_def, ea, eb, e3, e4]
    rcases hab with h | ⟨h, h'⟩ | ⟨h, h', hr⟩
    · omega
    · omega
    · obtain ⟨h1, h2⟩ := hr hs
      rcases hw with hw | hw
      · rw [h1] at hw; cases hw
      · rw [h2] at hw; cases hw

/-- C119: so however the log of all accesses of an execution is sorted by page, index and timestamp, looking at
neighbours says exactly whether every read gave what the word held. -/
theorem C119_offline (m : Mode) (s₀ s : List CallFrame) (cs : List (Cycle m)) (hl : s₀.length ≤ 80)
    (he : totalErgs s₀ ≤ VM_INITIAL_FRAME_ERGS) (h : During m 0 s₀ cs s) (start : Memory) (log sorted : List Access)
    (hcycles : ∀ a ∈ log, a.cycle < cs.length ∧ a.phase < TIME_DELTA_PER_CYCLE) (hlog : log.Pairwise Before)
    (hperm : sorted.Perm log) (hsorted : sorted.Pairwise fun a b => a.sortKey ≤ b.sortKey) :
    NeighboursAgree start none sorted ↔ Consistent start log := by
  refine (offline hperm ?_ hsorted).symm
  refine hlog.imp_of_mem fun {a b} ha hb hab hs => ?_
  obtain ⟨_, h1, h2⟩ := C119_timestamps m s₀ s cs hl he h a b (hcycles a ha) (hcycles b hb)
  dsimp only
  cases hw : a.write with
  | true => exact .inl (BitVec.lt_def.1 (h2 hab hs (.inl hw)))
  | false =>
    cases hw' : b.write with
    | true => exact .inl (BitVec.lt_def.1 (h2 hab hs (.inr hw')))
    | false =>
      rcases Nat.lt_or_ge a.timestamp.toNat b.timestamp.toNat with h | h'
      · exact .inl h
      · exact .inr ⟨Nat.le_antisymm (BitVec.le_def.1 (h1 hab)) h', rfl, rfl⟩

/-- C119: every log can be sorted. -/
theorem C119_sortable (log : List Access) :
    ∃ sorted : List Access, sorted.Perm log ∧ sorted.Pairwise fun a b => a.sortKey ≤ b.sortKey := by
  refine ⟨log.mergeSort fun a b => decide (a.sortKey ≤ b.sortKey), List.mergeSort_perm _ _, ?_⟩
  refine (List.pairwise_mergeSort (fun a b c h1 h2 => ?_) (fun a b => ?_) log).imp fun h => of_decide_eq_true h
  · exact decide_eq_true (Nat.le_trans (of_decide_eq_true h1) (of_decide_eq_true h2))
  · rcases Nat.le_total a.sortKey b.sortKey with h | h
    · simp [h]
    · simp [h]

/-- C119: without the bound that ergs give, a wrong read passes: after 2^30 cycles timestamps repeat. -/
theorem C119_wraps : ∃ (start : Memory) (log sorted : List Access), (∀ a ∈ log, a.phase < TIME_DELTA_PER_CYCLE) ∧
    (∀ a ∈ log, a.cycle ≤ 2 ^ 30) ∧ log.Pairwise Before ∧ sorted.Perm log ∧
    (sorted.Pairwise fun a b => a.sortKey ≤ b.sortKey) ∧ NeighboursAgree start none sorted ∧ ¬ Consistent start log := by
  refine ⟨fun _ _ => U256.zero, [⟨0, 2, 10, 0, true, ⟨1, 0, 0, 0⟩⟩, ⟨2 ^ 30, 0, 10, 0, false, U256.zero⟩],
    [⟨2 ^ 30, 0, 10, 0, false, U256.zero⟩, ⟨0, 2, 10, 0, true, ⟨1, 0, 0, 0⟩⟩], ?_, ?_, ?_, List.Perm.swap _ _ _, ?_, ?_, ?_⟩
  · decide
  · decide
  · exact List.pairwise_pair.2 (.inl (by decide))
  · exact List.pairwise_pair.2 (by decide)
  · exact ⟨fun _ => rfl, nofun, trivial⟩
  · exact fun h => absurd (h.2.1 rfl) (by decide)

/-- C119: and so it does if a cycle has more phases than `TIME_DELTA_PER_CYCLE`. -/
theorem C119_phases : ∃ (start : Memory) (log sorted : List Access), (∀ a ∈ log, a.phase ≤ TIME_DELTA_PER_CYCLE + 1) ∧
    (∀ a ∈ log, a.cycle ≤ 1) ∧ log.Pairwise Before ∧ sorted.Perm log ∧
    (sorted.Pairwise fun a b => a.sortKey ≤ b.sortKey) ∧ NeighboursAgree start none sorted ∧ ¬ Consistent start log := by
  refine ⟨fun _ _ => U256.zero, [⟨0, 5, 10, 0, true, ⟨1, 0, 0, 0⟩⟩, ⟨1, 0, 10, 0, false, U256.zero⟩],
    [⟨1, 0, 10, 0, false, U256.zero⟩, ⟨0, 5, 10, 0, true, ⟨1, 0, 0, 0⟩⟩], ?_, ?_, ?_, List.Perm.swap _ _ _, ?_, ?_, ?_⟩
  · decide
  · decide
  · exact List.pairwise_pair.2 (.inl (by decide))
  · exact List.pairwise_pair.2 (by decide)
  · exact ⟨fun _ => rfl, nofun, trivial⟩
  · exact fun h => absurd (h.2.1 rfl) (by decide)

/-- C119: an execution of five cycles with accesses in four of them; two reads share a phase. -/
example : ∃ (s₀ : List CallFrame) (cs : List (Cycle .production)) (s : List CallFrame) (log : List Access),
    During .production 0 s₀ cs s ∧ s₀.length ≤ 80 ∧ totalErgs s₀ ≤ VM_INITIAL_FRAME_ERGS ∧ log.length = 5 ∧
    (∀ a ∈ log, a.cycle < cs.length ∧ a.phase < TIME_DELTA_PER_CYCLE) ∧ log.Pairwise Before ∧
    (∃ a ∈ log, a.write = true) ∧ Consistent (fun _ _ => U256.zero) log := by
  obtain ⟨f, cs, s, h, he, hl⟩ := frames_example
  refine ⟨[f], cs, s, [⟨0, 0, 8, 0, false, U256.zero⟩, ⟨0, 2, 10, 3, true, ⟨7, 0, 0, 0⟩⟩, ⟨2, 0, 10, 3, false, ⟨7, 0, 0, 0⟩⟩,
    ⟨2, 0, 10, 3, false, ⟨7, 0, 0, 0⟩⟩, ⟨4, 3, 10, 3, true, U256.zero⟩], h, by simp, he, rfl, ?_, ?_, ?_, ?_⟩
  · rw [hl]; decide
  · unfold Before; decide
  · exact ⟨⟨0, 2, 10, 3, true, ⟨7, 0, 0, 0⟩⟩, by decide, rfl⟩
  · exact ⟨fun _ => rfl, nofun, fun _ => rfl, fun _ => rfl, nofun, trivial⟩

end ZkEvm.Props
