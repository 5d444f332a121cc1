import Verif.Lemmas.Caching
import Verif.Props.Disassembly
/-!
# Machines that keep the last code word: C114

Several instructions share a code word, so a machine need not read the code page in every cycle.
-/
namespace ZkEvm.Props
open Spec Bitmask Program Deploy MachineLemmas DisassemblyLemmas CachingLemmas

variable {State Contract : Type} [DecidableEq Contract]

omit [DecidableEq Contract] in
/-- C114, production: whatever is in the code pages, every machine can go on forever from every state. -/
theorem C114_goes_on_production (M : Machine 16 State Contract) (page : Contract → Nat → U256) (s : State) :
    ∃ trace : Nat → State, trace 0 = s ∧ ∀ i, cycleProduction M page (trace i) = .ok (trace (i + 1)) := by
  have h : ∀ s, ∃ s', cycleProduction M page s = .ok s' := fun s => by
    obtain ⟨_, hsub, _⟩ := C10_split_pc_production.1 (M.pc s)
    obtain ⟨raw, h1, _⟩ := (C10_fetch (page (M.contract s) (Production.splitPc (M.pc s)).1.toNat)).1 (Production.splitPc (M.pc s)).2 hsub
    obtain ⟨o, h3, hv, _⟩ := Coding.prod_parse raw
    exact ⟨_, cycle_eq h1 h3 (executeDecoded_eq M s (mask := maskOf) (fun v _ hi => mask_bit v hi) (Nat.mod_lt _ (by decide)) hv)⟩
  refine ⟨fun n => Nat.rec s (fun _ s => (h s).choose) n, rfl, fun i => ?_⟩
  exact (h (Nat.rec s (fun _ s => (h s).choose) i)).choose_spec

/-- C114, production: a machine that keeps the last code word goes through the same states as one that reads a word in every cycle;
it reads one in the first cycle, and then whenever the contract or the index of the word changes. -/
theorem C114_kept_production (M : Machine 16 State Contract) (page : Contract → Nat → U256) (trace : Nat → State)
    (h : ∀ i, cycleProduction M page (trace i) = .ok (trace (i + 1))) (n : Nat) :
    ∃ last, cycles (cachedCycle Production.splitPc Production.integerRepresentationFromU256 Production.parse M page) n ⟨trace 0, none, 0⟩ =
      .ok ⟨trace n, last, (List.range n).countP fun i =>
        i = 0 ∨ place Production.splitPc M (trace i) ≠ place Production.splitPc M (trace (i - 1))⟩ :=
  ⟨_, cached_run trace h n⟩

/-- C114, production: `n` instructions of a contract one after the other, from position `p`, take one read for each word they are
in: 4 instructions share a word. -/
theorem C114_straight_production (M : Machine 16 State Contract) (page : Contract → Nat → U256) (trace : Nat → State)
    (h : ∀ i, cycleProduction M page (trace i) = .ok (trace (i + 1))) (c : Contract) (p n : Nat) (hn : 0 < n)
    (hc : ∀ i, i < n → M.contract (trace i) = c) (hp : ∀ i, i < n → (M.pc (trace i)).toNat = p + i) :
    ∃ last, cycles (cachedCycle Production.splitPc Production.integerRepresentationFromU256 Production.parse M page) n ⟨trace 0, none, 0⟩ =
      .ok ⟨trace n, last, (p + n - 1) / 4 - p / 4 + 1⟩ := by
  obtain ⟨last, hr⟩ := C114_kept_production M page trace h n
  refine ⟨last, ?_⟩
  rw [hr]
  congr 2
  have hq := count_quotients 4 p (by decide) n hn
  have hle : p / 4 ≤ (p + n - 1) / 4 := Nat.div_le_div_right (by omega)
  rw [← Nat.add_sub_assoc hn] at hq
  have he : (List.range n).countP (fun i => i = 0 ∨ place Production.splitPc M (trace i) ≠ place Production.splitPc M (trace (i - 1))) =
      (List.range n).countP fun i => i = 0 ∨ (p + i) / 4 ≠ (p + (i - 1)) / 4 := by
    refine List.countP_congr fun i hi => ?_
    have hi := List.mem_range.1 hi
    have hq : ∀ j, j < n → (Production.splitPc (M.pc (trace j))).1.toNat = (p + j) / 4 := fun j hj => by
      obtain ⟨h1, h2, _⟩ := C10_split_pc_production.1 (M.pc (trace j))
      rw [hp j hj] at h1
      omega
    simp only [decide_eq_true_eq]
    unfold place
    rw [hc i hi, hc (i - 1) (by omega), ← hq i hi, ← hq (i - 1) (by omega)]
    constructor
    · rintro (h | h)
      · exact .inl h
      · exact .inr fun e => h (by rw [BitVec.eq_of_toNat_eq e])
    · rintro (h | h)
      · exact .inl h
      · exact .inr fun e => h (by rw [(Prod.mk.inj e).2])
  rw [he]
  omega

omit [DecidableEq Contract] in
/-- C114, testing: whatever is in the code pages, every machine can go on forever from every state. -/
theorem C114_goes_on_testing (M : Machine 32 State Contract) (page : Contract → Nat → U256) (s : State) :
    ∃ trace : Nat → State, trace 0 = s ∧ ∀ i, cycleTesting M page (trace i) = .ok (trace (i + 1)) := by
  have h : ∀ s, ∃ s', cycleTesting M page s = .ok s' := fun s => by
    obtain ⟨_, hsub, _⟩ := C10_split_pc_testing.1 (M.pc s)
    obtain ⟨raw, h1, _⟩ := (C10_fetch (page (M.contract s) (Testing.splitPc (M.pc s)).1.toNat)).2.2.1 (Testing.splitPc (M.pc s)).2 hsub
    obtain ⟨o, h3, hv, _⟩ := Coding.test_parse raw
    exact ⟨_, cycle_eq h1 h3 (executeDecoded_eq M s (mask := maskOf) (fun v _ hi => mask_bit v hi) (Nat.mod_lt _ (by decide)) hv)⟩
  refine ⟨fun n => Nat.rec s (fun _ s => (h s).choose) n, rfl, fun i => ?_⟩
  exact (h (Nat.rec s (fun _ s => (h s).choose) i)).choose_spec

/-- C114, testing: a machine that keeps the last code word goes through the same states as one that reads a word in every cycle;
it reads one in the first cycle, and then whenever the contract or the index of the word changes. -/
theorem C114_kept_testing (M : Machine 32 State Contract) (page : Contract → Nat → U256) (trace : Nat → State)
    (h : ∀ i, cycleTesting M page (trace i) = .ok (trace (i + 1))) (n : Nat) :
    ∃ last, cycles (cachedCycle Testing.splitPc Testing.integerRepresentationFromU256 Testing.parse M page) n ⟨trace 0, none, 0⟩ =
      .ok ⟨trace n, last, (List.range n).countP fun i =>
        i = 0 ∨ place Testing.splitPc M (trace i) ≠ place Testing.splitPc M (trace (i - 1))⟩ :=
  ⟨_, cached_run trace h n⟩

/-- C114, testing: `n` instructions of a contract one after the other, from position `p`, take one read for each word they are
in: 2 instructions share a word. -/
theorem C114_straight_testing (M : Machine 32 State Contract) (page : Contract → Nat → U256) (trace : Nat → State)
    (h : ∀ i, cycleTesting M page (trace i) = .ok (trace (i + 1))) (c : Contract) (p n : Nat) (hn : 0 < n)
    (hc : ∀ i, i < n → M.contract (trace i) = c) (hp : ∀ i, i < n → (M.pc (trace i)).toNat = p + i) :
    ∃ last, cycles (cachedCycle Testing.splitPc Testing.integerRepresentationFromU256 Testing.parse M page) n ⟨trace 0, none, 0⟩ =
      .ok ⟨trace n, last, (p + n - 1) / 2 - p / 2 + 1⟩ := by
  obtain ⟨last, hr⟩ := C114_kept_testing M page trace h n
  refine ⟨last, ?_⟩
  rw [hr]
  congr 2
  have hq := count_quotients 2 p (by decide) n hn
  have hle : p / 2 ≤ (p + n - 1) / 2 := Nat.div_le_div_right (by omega)
  rw [← Nat.add_sub_assoc hn] at hq
  have he : (List.range n).countP (fun i => i = 0 ∨ place Testing.splitPc M (trace i) ≠ place Testing.splitPc M (trace (i - 1))) =
      (List.range n).countP fun i => i = 0 ∨ (p + i) / 2 ≠ (p + (i - 1)) / 2 := by
    refine List.countP_congr fun i hi => ?_
    have hi := List.mem_range.1 hi
    have hq : ∀ j, j < n → (Testing.splitPc (M.pc (trace j))).1.toNat = (p + j) / 2 := fun j hj => by
      obtain ⟨h1, h2, _⟩ := C10_split_pc_testing.1 (M.pc (trace j))
      rw [hp j hj] at h1
      omega
    simp only [decide_eq_true_eq]
    unfold place
    rw [hc i hi, hc (i - 1) (by omega), ← hq i hi, ← hq (i - 1) (by omega)]
    constructor
    · rintro (h | h)
      · exact .inl h
      · exact .inr fun e => h (by rw [BitVec.eq_of_toNat_eq e])
    · rintro (h | h)
      · exact .inl h
      · exact .inr fun e => h (by rw [(Prod.mk.inj e).2])
  rw [he]
  omega

/-- C114, production: a machine that only counts up, on any pages: 10 instructions from position 3 are in 4 words. -/
example (page : Unit → Nat → U256) : ∃ last s,
    cycles (cachedCycle Production.splitPc Production.integerRepresentationFromU256 Production.parse
      (⟨fun _ => (), fun s => s, fun s _ _ _ => s + 1⟩ : Machine 16 (BitVec 16) Unit) page) 10 ⟨3, none, 0⟩ =
      .ok ⟨s, last, 4⟩ := by
  obtain ⟨trace, h0, h⟩ := C114_goes_on_production (⟨fun _ => (), fun s => s, fun s _ _ _ => s + 1⟩ : Machine 16 (BitVec 16) Unit) page 3
  have hs : ∀ i, trace (i + 1) = trace i + 1 := fun i => by
    have hi := h i
    obtain ⟨_, hsub, _⟩ := C10_split_pc_production.1 (trace i)
    obtain ⟨raw, h1, _⟩ := (C10_fetch (page () (Production.splitPc (trace i)).1.toNat)).1 (Production.splitPc (trace i)).2 hsub
    obtain ⟨o, h3, hv, _⟩ := Coding.prod_parse raw
    have := cycle_eq h1 h3 (executeDecoded_eq (⟨fun _ => (), fun s => s, fun s _ _ _ => s + 1⟩ : Machine 16 (BitVec 16) Unit)
      (trace i) (mask := maskOf) (fun v _ hi => mask_bit v hi) (Nat.mod_lt _ (by decide)) hv)
    exact Except.ok.inj (hi.symm.trans this)
  have ht : ∀ i, i < 10 → (trace i).toNat = 3 + i := by
    intro i
    induction i with
    | zero => intro _; rw [h0]; rfl
    | succ i ih => intro hi; rw [hs i, BitVec.toNat_add, ih (by omega)]; show (3 + i + 1) % _ = _; omega
  obtain ⟨last, hr⟩ := C114_straight_production _ page trace h () 3 10 (by decide) (fun _ _ => rfl) ht
  rw [h0] at hr
  exact ⟨last, _, hr⟩

/-- C114, testing: a machine that only counts up, on any pages: 10 instructions from position 3 are in 6 words. -/
example (page : Unit → Nat → U256) : ∃ last s,
    cycles (cachedCycle Testing.splitPc Testing.integerRepresentationFromU256 Testing.parse
      (⟨fun _ => (), fun s => s, fun s _ _ _ => s + 1⟩ : Machine 32 (BitVec 32) Unit) page) 10 ⟨3, none, 0⟩ =
      .ok ⟨s, last, 6⟩ := by
  obtain ⟨trace, h0, h⟩ := C114_goes_on_testing (⟨fun _ => (), fun s => s, fun s _ _ _ => s + 1⟩ : Machine 32 (BitVec 32) Unit) page 3
  have hs : ∀ i, trace (i + 1) = trace i + 1 := fun i => by
    have hi := h i
    obtain ⟨_, hsub, _⟩ := C10_split_pc_testing.1 (trace i)
    obtain ⟨raw, h1, _⟩ := (C10_fetch (page () (Testing.splitPc (trace i)).1.toNat)).2.2.1 (Testing.splitPc (trace i)).2 hsub
    obtain ⟨o, h3, hv, _⟩ := Coding.test_parse raw
    have := cycle_eq h1 h3 (executeDecoded_eq (⟨fun _ => (), fun s => s, fun s _ _ _ => s + 1⟩ : Machine 32 (BitVec 32) Unit)
      (trace i) (mask := maskOf) (fun v _ hi => mask_bit v hi) (Nat.mod_lt _ (by decide)) hv)
    exact Except.ok.inj (hi.symm.trans this)
  have ht : ∀ i, i < 10 → (trace i).toNat = 3 + i := by
    intro i
    induction i with
    | zero => intro _; rw [h0]; rfl
    | succ i ih => intro hi; rw [hs i, BitVec.toNat_add, ih (by omega)]; show (3 + i + 1) % _ = _; omega
  obtain ⟨last, hr⟩ := C114_straight_testing _ page trace h () 3 10 (by decide) (fun _ _ => rfl) ht
  rw [h0] at hr
  exact ⟨last, _, hr⟩

end ZkEvm.Props
