import Verif.Spec.Weak
import Verif.Lemmas.Atomics
/-! Every execution with relaxed memory is an execution of `Verif.Model.Atomics`. -/
namespace ZkEvm.Weak
open Atomics (OnceState Pc Next next returns_mem unwinds_mem outdated)
open Spec (forget OrdersSuffice)
open Lazy (Prog cellsOf)

variable {Cell : Type} {Val : Cell → Type} {α : Type}

def flatM (m : Memory Cell Val) : Atomics.Memory Cell Val := ⟨fun c => (m.latest c).word, m.slot, m.owner⟩
def flatA (a : Agent Cell Val α) : Atomics.Agent Cell Val α := ⟨a.code, a.pc⟩

theorem flat_state (m : Memory Cell Val) (c : Cell) : (flatM m).state c = (m.latest c).word := rfl

theorem forget_eq (s : Process Cell Val α) : forget s = ⟨flatM s.mem, s.agents.map flatA, s.log⟩ := rfl

variable [DecidableEq Cell]

theorem push_last_same (m : Memory Cell Val) (c : Cell) (w : Write Cell) : (m.push c w).last c = m.last c + 1 :=
  if_pos rfl

theorem push_last_other (m : Memory Cell Val) (c : Cell) (w : Write Cell) (d : Cell) (h : c ≠ d) :
    (m.push c w).last d = m.last d := if_neg h

theorem push_last_le (m : Memory Cell Val) (c : Cell) (w : Write Cell) (d : Cell) :
    m.last d ≤ (m.push c w).last d := by
  show _ ≤ if c = d then _ else _
  split <;> omega

theorem push_write_new (m : Memory Cell Val) (c : Cell) (w : Write Cell) : (m.push c w).write c (m.last c + 1) = w :=
  if_pos ⟨rfl, rfl⟩

theorem push_write_old (m : Memory Cell Val) (c : Cell) (w : Write Cell) (d : Cell) (i : Nat) (h : i ≤ m.last d) :
    (m.push c w).write d i = m.write d i := if_neg fun ⟨_, h'⟩ => by omega

theorem push_latest (m : Memory Cell Val) (c : Cell) (w : Write Cell) : (m.push c w).latest c = w := by
  unfold Memory.latest; rw [push_last_same, push_write_new]

theorem push_latest_other (m : Memory Cell Val) (c : Cell) (w : Write Cell) (d : Cell) (h : c ≠ d) :
    (m.push c w).latest d = m.latest d := by
  unfold Memory.latest; rw [push_last_other _ _ _ _ h, push_write_old _ _ _ _ _ (Nat.le_refl _)]

theorem flat_push (m : Memory Cell Val) (c : Cell) (w : Write Cell) :
    flatM (m.push c w) = (flatM m).setState c w.word := by
  unfold flatM Atomics.Memory.setState
  congr 1
  funext d
  dsimp only
  split
  · rename_i h; subst h; rw [push_latest]
  · rename_i h; rw [push_latest_other _ _ _ _ h]

theorem flat_swap (o : Orders) (m : Memory Cell Val) (d : Cell) (x : OnceState) (v : View Cell) :
    flatM (swap o m d x v) = (flatM m).setState d x := flat_push _ _ _

/-- What holds of the words written. -/
structure MemOk (m : Memory Cell Val) : Prop where
  old : ∀ c i, i < m.last c → (m.write c i).word ≠ .complete ∧ (m.write c i).word ≠ .poisoned
  knows : ∀ c i, i ≤ m.last c → (m.write c i).word = .complete → (m.write c i).view.knows c = true
  floor : ∀ c i, i ≤ m.last c → ∀ d, (m.write c i).view.floor d ≤ m.last d

/-- What holds of a thread's view. -/
structure ViewOk (m : Memory Cell Val) (a : Agent Cell Val α) : Prop where
  floor : ∀ d, a.view.floor d ≤ m.last d
  reads : ∀ c r f, next a.code = .reads c r f → a.pc = .loaded .complete ∨ a.pc = .reading → a.view.knows c = true
  stored : ∀ d v after, next a.code = .returns d v after → a.pc = .stored → a.view.knows d = true

omit [DecidableEq Cell] in
theorem ViewOk.mono {m m' : Memory Cell Val} {a : Agent Cell Val α} (h : ViewOk m a)
    (hl : ∀ d, m.last d ≤ m'.last d) : ViewOk m' a :=
  ⟨fun d => Nat.le_trans (h.floor d) (hl d), h.reads, h.stored⟩

theorem MemOk.push {m : Memory Cell Val} (h : MemOk m) (c : Cell) (w : Write Cell)
    (hold : (m.latest c).word ≠ .complete ∧ (m.latest c).word ≠ .poisoned)
    (hk : w.word = .complete → w.view.knows c = true)
    (hf : ∀ d, w.view.floor d ≤ (m.push c w).last d) : MemOk (m.push c w) where
  old d i hi := by
    by_cases hcd : c = d
    · subst hcd
      rw [push_last_same] at hi
      rw [push_write_old _ _ _ _ _ (by omega)]
      by_cases he : i = m.last c
      · subst he; exact hold
      · exact h.old c i (by omega)
    · rw [push_last_other _ _ _ _ hcd] at hi
      rw [push_write_old _ _ _ _ _ (by omega)]
      exact h.old d i hi
  knows d i hi := by
    by_cases hcd : c = d
    · subst hcd
      rw [push_last_same] at hi
      by_cases he : i = m.last c + 1
      · subst he; rw [push_write_new]; exact hk
      · rw [push_write_old _ _ _ _ _ (by omega)]; exact h.knows c i (by omega)
    · rw [push_last_other _ _ _ _ hcd] at hi
      rw [push_write_old _ _ _ _ _ (by omega)]
      exact h.knows d i hi
  floor d i hi e := by
    by_cases hcd : c = d
    · subst hcd
      rw [push_last_same] at hi
      by_cases he : i = m.last c + 1
      · subst he; rw [push_write_new]; exact hf e
      · rw [push_write_old _ _ _ _ _ (by omega)]
        exact Nat.le_trans (h.floor c i (by omega) e) (push_last_le ..)
    · rw [push_last_other _ _ _ _ hcd] at hi
      rw [push_write_old _ _ _ _ _ (by omega)]
      exact Nat.le_trans (h.floor d i hi e) (push_last_le ..)

theorem see_floor {v : View Cell} {n : Cell → Nat} (h : ∀ d, v.floor d ≤ n d) {c : Cell} {i : Nat} (hi : i ≤ n c)
    (d : Cell) : (v.see c i).floor d ≤ n d := by
  show (if c = d then max _ _ else _) ≤ _
  have := h d
  split
  · rename_i hcd; subst hcd; omega
  · exact this

omit [DecidableEq Cell] in
theorem join_floor {v w : View Cell} {n : Cell → Nat} (h : ∀ d, v.floor d ≤ n d) (h' : ∀ d, w.floor d ≤ n d)
    (d : Cell) : (v.join w).floor d ≤ n d := by
  show max _ _ ≤ _
  have := h d
  have := h' d
  omega

theorem seeing_floor {m : Memory Cell Val} (hm : MemOk m) {v : View Cell} (h : ∀ d, v.floor d ≤ m.last d) (b : Bool)
    {c : Cell} {i : Nat} (hi : i ≤ m.last c) (d : Cell) : (seeing b m c i v).floor d ≤ m.last d := by
  unfold seeing
  split
  · exact see_floor (join_floor h (hm.floor c i hi)) hi d
  · exact see_floor h hi d

theorem seeing_knows {m : Memory Cell Val} (hm : MemOk m) {v : View Cell} {c : Cell} {i : Nat} (hi : i ≤ m.last c)
    (hc : (m.write c i).word = .complete) : (seeing true m c i v).knows c = true := by
  show (v.knows c || (m.write c i).view.knows c) = true
  rw [hm.knows c i hi hc, Bool.or_true]

omit [DecidableEq Cell] in
/-- A load of any word is a load of the latest, or of an outdated one. -/
theorem word_outdated {m : Memory Cell Val} (hm : MemOk m) {c : Cell} {i : Nat} (hi : i ≤ m.last c) :
    (m.write c i).word = outdated (m.write c i).word (m.latest c).word ∧
    ((m.write c i).word = .complete → (m.latest c).word = .complete) := by
  by_cases he : i = m.last c
  · subst he
    refine ⟨?_, id⟩
    unfold Memory.latest
    cases (m.write c (m.last c)).word <;> rfl
  · have := hm.old c i (by omega)
    revert this
    generalize (m.write c i).word = x
    cases x <;> simp [outdated]

/-- One operation with any choice, as `Verif.Model.Atomics` has it, and what it means for the views. -/
structure Sim (init : (c : Cell) → Prog Cell Val (Val c)) (t : Nat) (pick : Option Nat) (m m' : Memory Cell Val)
    (a a' : Agent Cell Val α) (w : Option Cell) (l : List Cell) : Prop where
  same : Atomics.act init t (flatM m) (flatA a) = some (flatM m', flatA a', w, l) ∨
    (a.pc ≠ .parked → pick ≠ prompt m a) ∧ m' = m ∧ w = none ∧ l = [] ∧
      ∃ old, Atomics.spurious old (flatM m) (flatA a) = some (flatA a')
  mem : MemOk m'
  view : ViewOk m' a'
  last : ∀ d, m.last d ≤ m'.last d
  slot : ∀ c, m'.slot c ≠ none → m.slot c ≠ none ∨ (a'.pc = .stored ∧ ∃ v after, next a'.code = .returns c v after)
  complete : ∀ c, (m.latest c).word = .complete → (m'.latest c).word = .complete
  stored : ∀ c v after, a.pc = .stored → next a.code = .returns c v after → (m'.latest c).word = .complete

theorem sim {o : Orders} (ho : OrdersSuffice o) {init : (c : Cell) → Prog Cell Val (Val c)} {t : Nat}
    {pick : Option Nat} {m m' : Memory Cell Val} {a a' : Agent Cell Val α} {w : Option Cell} {l : List Cell}
    (h : act o init t pick m a = some (m', a', w, l)) (hm : MemOk m) (hv : ViewOk m a)
    (hok : Atomics.AgentOk (flatM m) (flatA a))
    (hrun : ∀ c ∈ cellsOf a.code, Atomics.status (flatM m) c = .running t)
    (hslots : ∀ c, (m.latest c).word = .complete → m.slot c ≠ none)
    (hempty : ∀ d v after, a.pc = .start → next a.code = .returns d v after → m.slot d = none) :
    Sim init t pick m m' a a' w l := by
  obtain ⟨ho1, ho2⟩ := ho
  obtain ⟨code, pc, view⟩ := a
  unfold act at h
  dsimp only at h
  rw [ho1] at h
  have noview : ∀ {pc' : Pc Cell} {code' : Lazy.Thread Cell Val α} {view' : View Cell},
      (∀ d, view'.floor d ≤ m.last d) → pc' ≠ .loaded .complete → pc' ≠ .reading → pc' ≠ .stored →
      ViewOk m (⟨code', pc', view'⟩ : Agent Cell Val α) := fun hf h1 h2 h3 =>
    ⟨hf, fun _ _ _ _ hp => hp.elim (fun hp => absurd hp h1) fun hp => absurd hp h2,
      fun _ _ _ _ hp => absurd hp h3⟩
  split at h
  · -- waking
    cases h
    exact ⟨.inl rfl, hm, noview hv.floor nofun nofun nofun, fun _ => Nat.le_refl _, fun _ h => .inl h, fun _ h => h,
      nofun⟩
  · -- first load
    rename_i c r f i hn
    split at h
    · rename_i hi
      cases h
      obtain ⟨w1, w2⟩ := word_outdated hm hi.2
      refine ⟨?_, hm, ⟨seeing_floor hm hv.floor true hi.2, fun c' r' f' hn' hp => ?_, fun d v after hn' hp => ?_⟩,
        fun _ => Nat.le_refl _, fun _ h => .inl h, fun _ h => h, nofun⟩
      · by_cases hc : (m.write c i).word = .complete
        · left
          rw [if_pos hc]
          simp only [Atomics.act, flatA, hn]
          rw [if_pos (show (flatM m).state c = .complete from w2 hc)]
        · rw [if_neg hc]
          by_cases hl : (m.latest c).word = .complete
          · right
            refine ⟨fun _ hp => hc ?_, rfl, rfl, rfl, .incomplete, by simp only [Atomics.spurious, flatA, hn]⟩
            simp only [prompt, hn, Option.some.injEq] at hp
            rw [hp]; exact hl
          · left
            simp only [Atomics.act, flatA, hn]
            rw [if_neg (show ¬ (flatM m).state c = .complete from hl)]
      · have hn' : next code = _ := hn'
        rw [hn] at hn'; cases hn'
        by_cases hc : (m.write c i).word = .complete
        · exact seeing_knows hm hi.2 hc
        · rw [if_neg hc] at hp; rcases hp with hp | hp <;> cases hp
      · have hn' : next code = _ := hn'
        rw [hn] at hn'; cases hn'
    · cases h
  · -- second load
    rename_i c r f i hn
    split at h
    · rename_i hi
      cases h
      obtain ⟨w1, w2⟩ := word_outdated hm hi.2
      refine ⟨?_, hm, ⟨seeing_floor hm hv.floor true hi.2, fun c' r' f' hn' hp => ?_, fun d v after hn' hp => nomatch hp⟩,
        fun _ => Nat.le_refl _, fun _ h => .inl h, fun _ h => h, nofun⟩
      · by_cases hl : i = m.last c
        · left; subst hl
          simp only [Atomics.act, flatA, hn]; rfl
        · right
          refine ⟨fun _ hp => hl ?_, rfl, rfl, rfl, (m.write c i).word, ?_⟩
          · simp only [prompt, hn, Option.some.injEq] at hp; exact hp
          · simp only [Atomics.spurious, flatA, hn, flat_state]
            rw [← w1]
      · have hn' : next code = _ := hn'
        rw [hn] at hn'; cases hn'
        refine seeing_knows hm hi.2 ?_
        rcases hp with hp | hp
        · simpa using hp
        · cases hp
    · cases h
  · -- enter
    rename_i c r f hn
    split at h
    · rename_i hc
      cases h
      refine ⟨.inl ?_, ?_, ⟨?_, fun c' r' f' hn' hp => ?_, fun d v after hn' hp => nomatch hp⟩,
        push_last_le m c ⟨.running, (m.latest c).view⟩, fun _ h => .inl h, fun d hd => ?_, nofun⟩
      · simp only [Atomics.act, flatA, hn]
        rw [if_pos (show (flatM m).state c = .incomplete from hc)]
        have := flat_push m c ⟨.running, (m.latest c).view⟩
        simp only [Option.some.injEq, Prod.mk.injEq, and_true]
        rw [← this]; rfl
      · have := hm.push c ⟨.running, (m.latest c).view⟩ (by rw [hc]; exact ⟨nofun, nofun⟩) nofun
          fun d => Nat.le_trans (hm.floor c _ (Nat.le_refl _) d) (push_last_le ..)
        exact ⟨this.old, this.knows, this.floor⟩
      · refine see_floor (n := (m.push c ⟨.running, (m.latest c).view⟩).last) (fun d => ?_) ?_
        · exact Nat.le_trans (seeing_floor hm hv.floor _ (Nat.le_refl _) d) (push_last_le ..)
        · exact Nat.le_of_eq (push_last_same ..).symm
      · rcases hp with hp | hp <;> cases hp
      · have hcd : c ≠ d := fun h => by subst h; rw [hc] at hd; cases hd
        show ((m.push c ⟨.running, (m.latest c).view⟩).latest d).word = .complete
        rw [push_latest_other _ _ _ _ hcd]; exact hd
    · cases h
  · -- enter fails
    rename_i c r f i hn
    split at h
    · rename_i hi
      cases h
      obtain ⟨w1, w2⟩ := word_outdated hm hi.2
      refine ⟨?_, hm, ⟨seeing_floor hm hv.floor true hi.2, fun c' r' f' hn' hp => ?_, fun d v after hn' hp => nomatch hp⟩,
        fun _ => Nat.le_refl _, fun _ h => .inl h, fun _ h => h, nofun⟩
      · by_cases hl : i = m.last c ∧ (m.latest c).word ≠ .incomplete
        · left
          obtain ⟨rfl, hl⟩ := hl
          simp only [Atomics.act, flatA, hn]
          rw [if_neg (show ¬ (flatM m).state c = .incomplete from hl)]; rfl
        · right
          refine ⟨fun _ hp => hl ?_, rfl, rfl, rfl, (m.write c i).word, ?_⟩
          · simp only [prompt, hn] at hp
            split at hp
            · cases hp
            · rename_i hne; cases hp; exact ⟨rfl, hne⟩
          · simp only [Atomics.spurious, flatA, hn, flat_state]
            rw [← w1]
      · have hn' : next code = _ := hn'
        rw [hn] at hn'; cases hn'
        refine seeing_knows hm hi.2 ?_
        rcases hp with hp | hp
        · simpa using hp
        · cases hp
    · cases h
  · -- queue
    rename_i c r f hn
    split at h
    · rename_i hc
      cases h
      refine ⟨.inl ?_, ?_, ⟨?_, fun c' r' f' hn' hp => ?_, fun d v after hn' hp => nomatch hp⟩,
        push_last_le m c _, fun _ h => .inl h, fun d hd => ?_, nofun⟩
      · simp only [Atomics.act, flatA, hn]
        rw [if_pos (show (flatM m).state c = .running from hc), flat_push]
      · exact hm.push c ⟨.queued, (m.latest c).view⟩ (by rw [hc]; exact ⟨nofun, nofun⟩) nofun
          fun d => Nat.le_trans (hm.floor c _ (Nat.le_refl _) d) (push_last_le ..)
      · refine see_floor (fun d => ?_) ?_
        · exact Nat.le_trans (hv.floor d) (push_last_le ..)
        · exact Nat.le_of_eq (push_last_same ..).symm
      · rcases hp with hp | hp <;> cases hp
      · have hcd : c ≠ d := fun h => by subst h; rw [hc] at hd; cases hd
        rw [push_latest_other _ _ _ _ hcd]; exact hd
    · cases h
  · -- queue fails
    rename_i c r f i hn
    split at h
    · rename_i hi
      cases h
      obtain ⟨w1, w2⟩ := word_outdated hm hi.2
      refine ⟨?_, hm, ⟨seeing_floor hm hv.floor true hi.2, fun c' r' f' hn' hp => ?_, fun d v after hn' hp => nomatch hp⟩,
        fun _ => Nat.le_refl _, fun _ h => .inl h, fun _ h => h, nofun⟩
      · by_cases hl : i = m.last c ∧ (m.latest c).word ≠ .running
        · left
          obtain ⟨rfl, hl⟩ := hl
          simp only [Atomics.act, flatA, hn]
          rw [if_neg (show ¬ (flatM m).state c = .running from hl)]; rfl
        · right
          refine ⟨fun _ hp => hl ?_, rfl, rfl, rfl, (m.write c i).word, ?_⟩
          · simp only [prompt, hn] at hp
            split at hp
            · cases hp
            · rename_i hne; cases hp; exact ⟨rfl, hne⟩
          · simp only [Atomics.spurious, flatA, hn, flat_state]
            rw [← w1]
      · have hn' : next code = _ := hn'
        rw [hn] at hn'; cases hn'
        refine seeing_knows hm hi.2 ?_
        rcases hp with hp | hp
        · simpa using hp
        · cases hp
    · cases h
  · -- queued
    rename_i hn
    cases h
    exact ⟨.inl (by simp only [Atomics.act, flatA, hn]), hm, noview hv.floor nofun nofun nofun,
      fun _ => Nat.le_refl _, fun _ h => .inl h, fun _ h => h, nofun⟩
  · -- completed
    rename_i hn
    cases h
    exact ⟨.inl (by simp only [Atomics.act, flatA, hn]), hm,
      ⟨hv.floor, fun c' r' f' hn' _ => hv.reads c' r' f' hn' (.inl rfl), nofun⟩,
      fun _ => Nat.le_refl _, fun _ h => .inl h, fun _ h => h, nofun⟩
  · -- poisoned
    rename_i hn
    cases h
    exact ⟨.inl (by simp only [Atomics.act, flatA, hn]), hm, noview hv.floor nofun nofun nofun,
      fun _ => Nat.le_refl _, fun _ h => .inl h, fun _ h => h, nofun⟩
  · -- wait
    rename_i c r f hn
    cases h
    refine ⟨.inl (by simp only [Atomics.act, flatA, hn]; rfl), hm, ?_,
      fun _ => Nat.le_refl _, fun _ h => .inl h, fun _ h => h, nofun⟩
    split <;> exact noview hv.floor nofun nofun nofun
  · -- no sleep
    rename_i hn
    cases h
    exact ⟨.inr ⟨fun _ h => (by simp only [prompt] at h; cases h), rfl, rfl, rfl, .incomplete,
      by simp only [Atomics.spurious, flatA, hn]⟩, hm, noview hv.floor nofun nofun nofun,
      fun _ => Nat.le_refl _, fun _ h => .inl h, fun _ h => h, nofun⟩
  · -- sleep ends
    rename_i hn
    cases h
    exact ⟨.inr ⟨fun h => absurd rfl h, rfl, rfl, rfl, .incomplete,
      by simp only [Atomics.spurious, flatA, hn]⟩, hm, noview hv.floor nofun nofun nofun,
      fun _ => Nat.le_refl _, fun _ h => .inl h, fun _ h => h, nofun⟩
  · -- read
    rename_i c r f hn
    have hk := hv.reads c r f hn (.inr rfl)
    have hk : view.knows c = true := hk
    obtain ⟨c', r', f', hn', hc⟩ := hok
    have hn' : next code = _ := hn'
    rw [hn] at hn'; cases hn'
    have hsl := hslots c hc
    cases hs : m.slot c with
    | none => exact absurd hs hsl
    | some v =>
      rw [hs, hk] at h
      cases h
      refine ⟨.inl ?_, hm, noview hv.floor nofun nofun nofun,
        fun _ => Nat.le_refl _, fun _ h => .inl h, fun _ h => h, nofun⟩
      have hs' : (flatM m).slot c = some v := hs
      simp only [Atomics.act, flatA, hn, hs']
  · -- store
    rename_i d v after hn
    rw [hempty d v after rfl hn] at h
    cases h
    have hk : (view.note d).knows d = true := if_pos rfl
    refine ⟨.inl (by simp only [Atomics.act, flatA, hn]; rfl), ⟨hm.old, hm.knows, hm.floor⟩,
      ⟨hv.floor, fun c r f hn' hp => ?_, fun e v' after' hn' hp => ?_⟩,
      fun _ => Nat.le_refl _, fun c hc => ?_, fun _ h => h, nofun⟩
    · rcases hp with hp | hp <;> cases hp
    · have hn' : next code = _ := hn'
      rw [hn] at hn'; cases hn'; exact hk
    · by_cases hdc : d = c
      · subst hdc; exact .inr ⟨rfl, v, after, hn⟩
      · left
        have : (m.setSlot d v).slot c = m.slot c := dif_neg hdc
        rw [this] at hc; exact hc
  · -- complete
    rename_i d v after hn
    have hd := Atomics.not_final (Atomics.running_of_status (hrun d (returns_mem hn))).1
    have hd : (m.latest d).word ≠ .complete ∧ (m.latest d).word ≠ .poisoned := hd
    cases h
    refine ⟨.inl ?_, ?_, ⟨?_, fun c' r' f' hn' hp => ?_, fun d v after hn' hp => ?_⟩,
      push_last_le m d _, fun _ h => .inl h, fun c hc => ?_, fun c v' after' _ hn' => ?_⟩
    · simp only [Atomics.act, flatA, hn]
      rw [flat_swap]; rfl
    · unfold swap
      rw [ho2]
      have hk : view.knows d = true := hv.stored d v after hn rfl
      refine hm.push d _ hd (fun _ => ?_) (see_floor (fun e => ?_) ?_)
      · show ((m.latest d).view.knows d || view.knows d) = true
        rw [hk, Bool.or_true]
      · refine Nat.le_trans (join_floor (hm.floor d _ (Nat.le_refl _)) hv.floor e) (push_last_le ..)
      · exact Nat.le_of_eq (push_last_same ..).symm
    · refine see_floor (n := (swap o m d .complete view).last) (fun e => ?_) ?_
      · exact Nat.le_trans (hv.floor e) (push_last_le ..)
      · exact Nat.le_of_eq (push_last_same ..).symm
    · dsimp only at hp
      split at hp <;> rcases hp with hp | hp <;> cases hp
    · dsimp only at hp
      split at hp <;> cases hp
    · unfold swap
      by_cases hdc : d = c
      · subst hdc; rw [push_latest]
      · rw [push_latest_other _ _ _ _ hdc]; exact hc
    · have hn' : next code = _ := hn'
      rw [hn] at hn'; cases hn'
      unfold swap
      rw [push_latest]
  · -- poison
    rename_i d after hn
    have hd := Atomics.not_final (Atomics.running_of_status (hrun d (unwinds_mem hn))).1
    have hd : (m.latest d).word ≠ .complete ∧ (m.latest d).word ≠ .poisoned := hd
    cases h
    refine ⟨.inl ?_, ?_, ⟨?_, fun c' r' f' hn' hp => ?_, fun d v after hn' hp => ?_⟩,
      push_last_le m d _, fun _ h => .inl h, fun c hc => ?_, nofun⟩
    · simp only [Atomics.act, flatA, hn]
      rw [flat_swap]; rfl
    · unfold swap
      rw [ho2]
      refine hm.push d _ hd nofun (see_floor (fun e => ?_) ?_)
      · refine Nat.le_trans (join_floor (hm.floor d _ (Nat.le_refl _)) hv.floor e) (push_last_le ..)
      · exact Nat.le_of_eq (push_last_same ..).symm
    · refine see_floor (n := (swap o m d .poisoned view).last) (fun e => ?_) ?_
      · exact Nat.le_trans (hv.floor e) (push_last_le ..)
      · exact Nat.le_of_eq (push_last_same ..).symm
    · dsimp only at hp
      split at hp <;> rcases hp with hp | hp <;> cases hp
    · dsimp only at hp
      split at hp <;> cases hp
    · have hdc : d ≠ c := fun h => hd.1 (h ▸ hc)
      unfold swap
      rw [push_latest_other _ _ _ _ hdc]; exact hc
  · cases h

/-! ### The process -/

theorem flat_wake (c : Cell) (a : Agent Cell Val α) : flatA (wake c a) = Atomics.wake c (flatA a) := by
  obtain ⟨code, pc, view⟩ := a
  cases pc with
  | parked =>
    cases hn : next code with
    | reads d r f =>
      simp only [wake, Atomics.wake, flatA, hn]
      split <;> rfl
    | _ => simp only [wake, Atomics.wake, flatA, hn]
  | _ => rfl

theorem flat_wakeAll (w : Option Cell) (l : List (Agent Cell Val α)) :
    (wakeAll w l).map flatA = Atomics.wakeAll w (l.map flatA) := by
  cases w with
  | none => rfl
  | some c =>
    show (l.map (wake c)).map flatA = (l.map flatA).map (Atomics.wake c)
    rw [List.map_map, List.map_map]
    exact List.map_congr_left fun a _ => flat_wake c a

theorem wake_same (c : Cell) (a : Agent Cell Val α) : wake c a = a ∨ (wake c a = ⟨a.code, .slow, a.view⟩ ∧
    a.pc = .parked) := by
  unfold wake
  split
  · rename_i h _
    split
    · exact .inr ⟨rfl, h⟩
    · exact .inl rfl
  · exact .inl rfl

theorem ViewOk.wake {m : Memory Cell Val} {a : Agent Cell Val α} (h : ViewOk m a) (c : Cell) :
    ViewOk m (wake c a) := by
  rcases wake_same c a with e | ⟨e, _⟩ <;> rw [e]
  · exact h
  · exact ⟨h.floor, fun _ _ _ _ hp => (by rcases hp with hp | hp <;> cases hp), fun _ _ _ _ hp => nomatch hp⟩

/-- What holds of a process. -/
structure Ok (s : Process Cell Val α) : Prop where
  mem : MemOk s.mem
  views : ∀ (t : Nat) a, s.agents[t]? = some a → ViewOk s.mem a
  slots : ∀ c, s.mem.slot c ≠ none → (s.mem.latest c).word = .complete ∨
    ∃ (t : Nat) (a : Agent Cell Val α), s.agents[t]? = some a ∧ a.pc = .stored ∧
      ∃ v after, next a.code = .returns c v after

omit [DecidableEq Cell] in
theorem Ok.begin (progs : List (Prog Cell Val α)) : Ok (begin progs) where
  mem := ⟨nofun, nofun, fun _ _ _ _ => Nat.le_refl _⟩
  views t a h := by
    unfold Weak.begin at h
    simp only [List.getElem?_map, Option.map_eq_some_iff] at h
    obtain ⟨p, _, rfl⟩ := h
    exact ⟨fun _ => Nat.le_refl _, fun _ _ _ _ hp => (by rcases hp with hp | hp <;> cases hp), fun _ _ _ _ hp => nomatch hp⟩
  slots c h := absurd rfl h

omit [DecidableEq Cell] in
theorem set_get {l : List (Agent Cell Val α)} {t : Nat} {a a' b : Agent Cell Val α} {u : Nat} (ha : l[t]? = some a)
    (h : (l.set t a')[u]? = some b) : (t = u ∧ b = a') ∨ (t ≠ u ∧ l[u]? = some b) := by
  rw [List.getElem?_set] at h
  by_cases htu : t = u
  · subst htu
    rw [if_pos rfl, if_pos (List.getElem?_eq_some_iff.1 ha).1] at h
    cases h; exact .inl ⟨rfl, rfl⟩
  · rw [if_neg htu] at h; exact .inr ⟨htu, h⟩

omit [DecidableEq Cell] in
theorem get_set {l : List (Agent Cell Val α)} {t : Nat} {a : Agent Cell Val α} (a' : Agent Cell Val α)
    (ha : l[t]? = some a) : (l.set t a')[t]? = some a' := by
  rw [List.getElem?_set, if_pos rfl, if_pos (List.getElem?_eq_some_iff.1 ha).1]

/-- What a process needs to be simulated. -/
structure Facts (s : Process Cell Val α) : Prop where
  good : Atomics.Good (forget s)
  run : ∀ (t : Nat) a, s.agents[t]? = some a → ∀ c ∈ cellsOf a.code, Atomics.status (flatM s.mem) c = .running t

omit [DecidableEq Cell] in
theorem get_forget {s : Process Cell Val α} {t : Nat} {a : Agent Cell Val α} (h : s.agents[t]? = some a) :
    (forget s).agents[t]? = some (flatA a) := by
  show (s.agents.map flatA)[t]? = _
  rw [List.getElem?_map, h]; rfl

theorem Facts.of_runs {init : (c : Cell) → Prog Cell Val (Val c)} {progs : List (Prog Cell Val α)} {n k : Nat}
    {s : Process Cell Val α} (h : Atomics.Runs init (Atomics.begin progs) n k (forget s)) : Facts s := by
  obtain ⟨j, _, hr, hg, _⟩ := Atomics.refines h
  exact ⟨hg, fun t a ha => Atomics.running_of_once (Lazy.Once.runs hr) (get_forget ha)⟩

omit [DecidableEq Cell] in
/-- Storage is empty before it is written. -/
theorem Ok.empty {s : Process Cell Val α} (hs : Ok s) (hf : Facts s) {t : Nat} {a : Agent Cell Val α}
    (ha : s.agents[t]? = some a) (d : Cell) (v : Val d) (after : Lazy.Thread Cell Val α) (hp : a.pc = .start)
    (hn : next a.code = .returns d v after) : s.mem.slot d = none := by
  have hd := hf.run t a ha d (returns_mem hn)
  cases he : s.mem.slot d with
  | none => rfl
  | some x =>
    rcases hs.slots d (by rw [he]; nofun) with hc | ⟨u, b, hb, hbp, v', after', hbn⟩
    · exact absurd hc (Atomics.not_final (Atomics.running_of_status hd).1).1
    · have hd' := hf.run u b hb d (returns_mem hbn)
      rw [hd] at hd'; cases hd'
      rw [ha] at hb; cases hb
      rw [hp] at hbp; cases hbp

theorem Ok.sim {o : Orders} (ho : OrdersSuffice o) {init : (c : Cell) → Prog Cell Val (Val c)} {s : Process Cell Val α}
    (hs : Ok s) (hf : Facts s) {t : Nat} {pick : Option Nat} {a : Agent Cell Val α} {m' : Memory Cell Val}
    {a' : Agent Cell Val α} {w : Option Cell} {l : List Cell} (ha : s.agents[t]? = some a)
    (h : act o init t pick s.mem a = some (m', a', w, l)) : Sim init t pick s.mem m' a a' w l :=
  Weak.sim ho h hs.mem (hs.views t a ha) (hf.good.agents t _ (get_forget ha)) (hf.run t a ha) hf.good.slots
    (hs.empty hf ha)

theorem Ok.step {o : Orders} (ho : OrdersSuffice o) {init : (c : Cell) → Prog Cell Val (Val c)}
    {s s' : Process Cell Val α} (hs : Ok s) (hf : Facts s) {t : Nat} {pick : Option Nat}
    (h : StepWith o init t pick s s') :
    Ok s' ∧ (Atomics.Step init (forget s) (forget s') ∨ Atomics.Glitch (forget s) (forget s') ∧
      ∀ a, s.agents[t]? = some a → a.pc ≠ .parked → pick ≠ prompt s.mem a) := by
  obtain ⟨a, m', a', w, l, ha, hact, rfl⟩ := h
  have sm := hs.sim ho hf ha hact
  have hagents : ∀ {u : Nat} {b : Agent Cell Val α}, (wakeAll w (s.agents.set t a'))[u]? = some b →
      ∃ b0, (s.agents.set t a')[u]? = some b0 ∧ (b = b0 ∨ ∃ c, b = wake c b0) := by
    intro u b hb
    cases w with
    | none => exact ⟨b, hb, .inl rfl⟩
    | some c =>
      simp only [wakeAll, List.getElem?_map, Option.map_eq_some_iff] at hb
      obtain ⟨b0, h0, rfl⟩ := hb
      exact ⟨b0, h0, .inr ⟨c, rfl⟩⟩
  have hkeep : ∀ {u : Nat} {b : Agent Cell Val α}, (s.agents.set t a')[u]? = some b → b.pc = .stored →
      (wakeAll w (s.agents.set t a'))[u]? = some b := by
    intro u b hb hp
    cases w with
    | none => exact hb
    | some c =>
      simp only [wakeAll, List.getElem?_map, hb, Option.map_some]
      rcases wake_same c b with e | ⟨_, e⟩
      · rw [e]
      · rw [hp] at e; cases e
  refine ⟨⟨sm.mem, fun u b hb => ?_, fun c hc => ?_⟩, ?_⟩
  · obtain ⟨b0, h0, e⟩ := hagents hb
    have hb0 : ViewOk m' b0 := by
      rcases set_get ha h0 with ⟨_, rfl⟩ | ⟨_, hu⟩
      · exact sm.view
      · exact (hs.views u b0 hu).mono sm.last
    rcases e with rfl | ⟨c, rfl⟩
    · exact hb0
    · exact hb0.wake c
  · rcases sm.slot c hc with h0 | ⟨hp, v, after, hn⟩
    · rcases hs.slots c h0 with h1 | ⟨u, b, hb, hbp, v, after, hbn⟩
      · exact .inl (sm.complete c h1)
      · by_cases htu : t = u
        · subst htu
          rw [ha] at hb; cases hb
          exact .inl (sm.stored c v after hbp hbn)
        · refine .inr ⟨u, b, hkeep ?_ hbp, hbp, v, after, hbn⟩
          rw [List.getElem?_set, if_neg htu]; exact hb
    · exact .inr ⟨t, a', hkeep (get_set a' ha) hp, hp, v, after, hn⟩
  · have hflat : forget (⟨m', wakeAll w (s.agents.set t a'), l ++ s.log⟩ : Process Cell Val α) =
        ⟨flatM m', Atomics.wakeAll w ((forget s).agents.set t (flatA a')), l ++ s.log⟩ := by
      rw [forget_eq, flat_wakeAll, List.map_set]; rfl
    rw [hflat]
    rcases sm.same with h1 | ⟨h1, rfl, rfl, rfl, old, h2⟩
    · exact .inl ⟨t, flatA a, flatM m', flatA a', w, l, get_forget ha, h1, rfl⟩
    · exact .inr ⟨⟨t, flatA a, old, flatA a', get_forget ha, h2, rfl⟩, fun b hb => by rw [ha] at hb; cases hb; exact h1⟩

omit [DecidableEq Cell] in
theorem forget_begin (progs : List (Prog Cell Val α)) : forget (begin progs) = Atomics.begin progs := by
  rw [forget_eq]
  unfold begin Atomics.begin
  congr 1
  dsimp only
  rw [List.map_map]; rfl

/-- A sleeping thread does nothing without delay. -/
theorem prompt_parked {o : Orders} {init : (c : Cell) → Prog Cell Val (Val c)} {t : Nat} {m : Memory Cell Val}
    {a : Agent Cell Val α} (h : a.pc = .parked) : act o init t (prompt m a) m a = none := by
  obtain ⟨code, pc, view⟩ := a
  cases h
  have : prompt m (⟨code, .parked, view⟩ : Agent Cell Val α) = none := rfl
  rw [this]
  cases hn : next code <;> simp only [act, hn]

/-- Every execution is an execution of `Verif.Model.Atomics`. -/
theorem refines {o : Orders} (ho : OrdersSuffice o) {init : (c : Cell) → Prog Cell Val (Val c)}
    {progs : List (Prog Cell Val α)} {n k : Nat} {s : Process Cell Val α} (h : Runs o init (begin progs) n k s) :
    Ok s ∧ ∃ n' k', n ≤ n' ∧ k' ≤ k ∧ n' + k' = n + k ∧
      Atomics.Runs init (Atomics.begin progs) n' k' (forget s) := by
  generalize hs : begin progs = s0 at h
  induction h with
  | start =>
    subst hs
    exact ⟨.begin progs, 0, 0, Nat.le_refl _, Nat.le_refl _, rfl, forget_begin progs ▸ .start _⟩
  | step _ hstep ih =>
    obtain ⟨hok, n', k', h1, h2, h3, hr⟩ := ih
    obtain ⟨t, a, ha, hstep⟩ := hstep
    obtain ⟨hok', h4⟩ := hok.step ho (.of_runs hr) hstep
    rcases h4 with h4 | ⟨_, h4⟩
    · exact ⟨hok', n' + 1, k', by omega, h2, by omega, .step hr h4⟩
    · exfalso
      by_cases hp : a.pc = .parked
      · obtain ⟨b, m', a', w, l, hb, hact, _⟩ := hstep
        rw [ha] at hb; cases hb
        rw [prompt_parked hp] at hact; cases hact
      · exact h4 a ha hp rfl
  | any _ hstep ih =>
    obtain ⟨hok, n', k', h1, h2, h3, hr⟩ := ih
    obtain ⟨hok', h4⟩ := hok.step ho (.of_runs hr) hstep
    rcases h4 with h4 | ⟨h4, _⟩
    · exact ⟨hok', n' + 1, k', by omega, by omega, by omega, .step hr h4⟩
    · exact ⟨hok', n', k' + 1, h1, by omega, by omega, .glitch hr h4⟩

theorem Runs.trans {o : Orders} {init : (c : Cell) → Prog Cell Val (Val c)} {s s' s'' : Process Cell Val α}
    {n k n' k' : Nat} (h : Runs o init s n k s') (h' : Runs o init s' n' k' s'') :
    Runs o init s (n + n') (k + k') s'' := by
  induction h' with
  | start => exact h
  | step _ hs ih => exact .step ih hs
  | any _ hs ih => exact .any ih hs

theorem refines_from {o : Orders} (ho : OrdersSuffice o) {init : (c : Cell) → Prog Cell Val (Val c)}
    {progs : List (Prog Cell Val α)} {n k n' k' : Nat} {s s' : Process Cell Val α}
    (h : Runs o init (begin progs) n k s) (h' : Runs o init s n' k' s') :
    ∃ i j, Atomics.Runs init (forget s) i j (forget s') := by
  induction h' with
  | start => exact ⟨0, 0, .start _⟩
  | step hr hstep ih =>
    obtain ⟨i, j, hij⟩ := ih
    obtain ⟨hok, _, _, _, _, _, hf⟩ := refines ho (h.trans hr)
    obtain ⟨t, a, ha, hstep⟩ := hstep
    rcases (hok.step ho (.of_runs hf) hstep).2 with h4 | ⟨h4, _⟩
    · exact ⟨i + 1, j, .step hij h4⟩
    · exact ⟨i, j + 1, .glitch hij h4⟩
  | any hr hstep ih =>
    obtain ⟨i, j, hij⟩ := ih
    obtain ⟨hok, _, _, _, _, _, hf⟩ := refines ho (h.trans hr)
    rcases (hok.step ho (.of_runs hf) hstep).2 with h4 | ⟨h4, _⟩
    · exact ⟨i + 1, j, .step hij h4⟩
    · exact ⟨i, j + 1, .glitch hij h4⟩

/-- What can go on in `Verif.Model.Atomics` can go on, without delay. -/
theorem progress {o : Orders} {init : (c : Cell) → Prog Cell Val (Val c)} {s : Process Cell Val α} (hs : Ok s)
    (h : ∃ x, Atomics.Step init (forget s) x) : ∃ s', Step o init s s' := by
  obtain ⟨x, t, b, m', b', w, l, hb, hact, _⟩ := h
  have hb : (s.agents.map flatA)[t]? = some b := hb
  rw [List.getElem?_map, Option.map_eq_some_iff] at hb
  obtain ⟨a, ha, rfl⟩ := hb
  suffices hr : ∃ r, act o init t (prompt s.mem a) s.mem a = some r by
    obtain ⟨⟨m, a', w, l⟩, hr⟩ := hr
    exact ⟨_, t, a, ha, a, m, a', w, l, ha, hr, rfl⟩
  have hfl := (hs.views t a ha).floor
  have hact : Atomics.act init t (flatM s.mem) (flatA a) = some (m', b', w, l) := hact
  generalize s.mem = m at hact hfl ⊢
  obtain ⟨code, pc, view⟩ := a
  have hfl : ∀ d, view.floor d ≤ m.last d := hfl
  have pair : ∀ c i, view.floor c ≤ i ∧ i ≤ m.last c → ∀ x : Memory Cell Val × Agent Cell Val α × Option Cell × List Cell,
      ∃ r, (if view.floor c ≤ i ∧ i ≤ m.last c then some x else none) = some r :=
    fun c i h x => ⟨x, if_pos h⟩
  cases pc with
  | waking c => exact ⟨_, by simp only [act]; rfl⟩
  | start =>
    cases hn : next code with
    | finished => simp only [Atomics.act, flatA, hn] at hact; cases hact
    | reads c r f => simp only [prompt, act, hn]; exact pair _ _ ⟨hfl c, Nat.le_refl _⟩ _
    | returns d v after =>
      simp only [prompt, act, hn]
      split <;> exact ⟨_, rfl⟩
    | unwinds d after => simp only [prompt, act, hn]; exact ⟨_, rfl⟩
  | slow =>
    cases hn : next code with
    | reads c r f => simp only [prompt, act, hn]; exact pair _ _ ⟨hfl c, Nat.le_refl _⟩ _
    | _ => simp only [Atomics.act, flatA, hn] at hact; cases hact
  | loaded x =>
    cases hn : next code with
    | reads c r f =>
      cases x with
      | incomplete =>
        by_cases hc : (m.latest c).word = .incomplete
        · simp only [prompt, act, hn, if_pos hc]; exact ⟨_, rfl⟩
        · simp only [prompt, act, hn, if_neg hc]; exact pair _ _ ⟨hfl c, Nat.le_refl _⟩ _
      | running =>
        by_cases hc : (m.latest c).word = .running
        · simp only [prompt, act, hn, if_pos hc]; exact ⟨_, rfl⟩
        · simp only [prompt, act, hn, if_neg hc]; exact pair _ _ ⟨hfl c, Nat.le_refl _⟩ _
      | queued => simp only [act, hn]; exact ⟨_, rfl⟩
      | complete => simp only [act, hn]; exact ⟨_, rfl⟩
      | poisoned => simp only [act, hn]; exact ⟨_, rfl⟩
    | _ => cases x <;> simp only [Atomics.act, flatA, hn] at hact <;> cases hact
  | wait =>
    cases hn : next code with
    | reads c r f => simp only [prompt, act, hn]; exact ⟨_, rfl⟩
    | _ => simp only [Atomics.act, flatA, hn] at hact; cases hact
  | parked => cases hn : next code <;> simp only [Atomics.act, flatA, hn] at hact <;> cases hact
  | reading =>
    cases hn : next code with
    | reads c r f =>
      simp only [act, hn]
      split <;> exact ⟨_, rfl⟩
    | _ => simp only [Atomics.act, flatA, hn] at hact; cases hact
  | stored =>
    cases hn : next code with
    | returns d v after => simp only [act, hn]; exact ⟨_, rfl⟩
    | _ => simp only [Atomics.act, flatA, hn] at hact; cases hact
  | undefined => cases hn : next code <;> simp only [Atomics.act, flatA, hn] at hact <;> cases hact

end ZkEvm.Weak
