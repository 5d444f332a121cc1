import Verif.Model.Atomics
import Verif.Lemmas.Once
/-! Every execution at the grain of atomic operations is an execution of `Verif.Model.Lazy`. -/
namespace ZkEvm.Atomics
open Lazy (Prog Frame Status cellsOf)

variable {Cell : Type} {Val : Cell → Type} {α : Type}

/-- The status of a static as `Verif.Model.Lazy` has it. -/
def status (m : Memory Cell Val) (c : Cell) : Status (Val c) :=
  match m.state c, m.slot c with
  | .incomplete, _ => .uninit
  | .running, _ => .running (m.owner c)
  | .queued, _ => .running (m.owner c)
  | .poisoned, _ => .poisoned
  | .complete, some v => .ready v
  | .complete, none => .uninit

def abs (s : Process Cell Val α) : Lazy.State Cell Val α :=
  ⟨status s.mem, s.agents.map Agent.code, s.log⟩

variable [DecidableEq Cell]

/-- What `act` can do, case by case. -/
inductive Acts (init : (c : Cell) → Prog Cell Val (Val c)) (t : Nat) (m : Memory Cell Val) :
    Agent Cell Val α → Memory Cell Val → Agent Cell Val α → Option Cell → List Cell → Prop
  | waking (code c) : Acts init t m ⟨code, .waking c⟩ m ⟨code, .start⟩ (some c) []
  | fast (code c r f) (hn : next code = .reads c r f) (h : m.state c = .complete) :
      Acts init t m ⟨code, .start⟩ m ⟨code, .reading⟩ none []
  | slow (code c r f) (hn : next code = .reads c r f) (h : m.state c ≠ .complete) :
      Acts init t m ⟨code, .start⟩ m ⟨code, .slow⟩ none []
  | load (code c r f) (hn : next code = .reads c r f) :
      Acts init t m ⟨code, .slow⟩ m ⟨code, .loaded (m.state c)⟩ none []
  | enter (code c r f) (hn : next code = .reads c r f) (h : m.state c = .incomplete) :
      Acts init t m ⟨code, .loaded .incomplete⟩ ((m.setState c .running).setOwner c t)
        ⟨⟨code.main, ⟨c, init c⟩ :: code.stack⟩, .start⟩ none [c]
  | late (code c r f) (hn : next code = .reads c r f) (h : m.state c ≠ .incomplete) :
      Acts init t m ⟨code, .loaded .incomplete⟩ m ⟨code, .loaded (m.state c)⟩ none []
  | queue (code c r f) (hn : next code = .reads c r f) (h : m.state c = .running) :
      Acts init t m ⟨code, .loaded .running⟩ (m.setState c .queued) ⟨code, .wait⟩ none []
  | moved (code c r f) (hn : next code = .reads c r f) (h : m.state c ≠ .running) :
      Acts init t m ⟨code, .loaded .running⟩ m ⟨code, .loaded (m.state c)⟩ none []
  | queued (code c r f) (hn : next code = .reads c r f) :
      Acts init t m ⟨code, .loaded .queued⟩ m ⟨code, .wait⟩ none []
  | completed (code c r f) (hn : next code = .reads c r f) :
      Acts init t m ⟨code, .loaded .complete⟩ m ⟨code, .reading⟩ none []
  | fail (code c r f) (hn : next code = .reads c r f) :
      Acts init t m ⟨code, .loaded .poisoned⟩ m ⟨f, .start⟩ none []
  | park (code c r f) (hn : next code = .reads c r f) (h : m.state c = .queued) :
      Acts init t m ⟨code, .wait⟩ m ⟨code, .parked⟩ none []
  | awake (code c r f) (hn : next code = .reads c r f) (h : m.state c ≠ .queued) :
      Acts init t m ⟨code, .wait⟩ m ⟨code, .slow⟩ none []
  | read (code c r f) (hn : next code = .reads c r f) (v) (h : m.slot c = some v) :
      Acts init t m ⟨code, .reading⟩ m ⟨r v, .start⟩ none []
  | broken (code c r f) (hn : next code = .reads c r f) (h : m.slot c = none) :
      Acts init t m ⟨code, .reading⟩ m ⟨code, .undefined⟩ none []
  | store (code d v after) (hn : next code = .returns d v after) :
      Acts init t m ⟨code, .start⟩ (m.setSlot d v) ⟨code, .stored⟩ none []
  | complete (code d v after) (hn : next code = .returns d v after) :
      Acts init t m ⟨code, .stored⟩ (m.setState d .complete)
        ⟨after, if m.state d = .queued then .waking d else .start⟩ none []
  | poison (code d after) (hn : next code = .unwinds d after) :
      Acts init t m ⟨code, .start⟩ (m.setState d .poisoned)
        ⟨after, if m.state d = .queued then .waking d else .start⟩ none []

theorem acts_of_act {init : (c : Cell) → Prog Cell Val (Val c)} {t : Nat} {m m' : Memory Cell Val}
    {a a' : Agent Cell Val α} {w : Option Cell} {l : List Cell} (h : act init t m a = some (m', a', w, l)) :
    Acts init t m a m' a' w l := by
  obtain ⟨code, pc⟩ := a
  unfold act at h
  dsimp only at h
  split at h
  · cases h; exact .waking ..
  · rename_i hn
    cases h
    split
    · rename_i hc; exact .fast _ _ _ _ hn hc
    · rename_i hc; exact .slow _ _ _ _ hn hc
  · rename_i hn; cases h; exact .load _ _ _ _ hn
  · rename_i hn
    split at h
    · rename_i hc; cases h; exact .enter _ _ _ _ hn hc
    · rename_i hc; cases h; exact .late _ _ _ _ hn hc
  · rename_i hn
    split at h
    · rename_i hc; cases h; exact .queue _ _ _ _ hn hc
    · rename_i hc; cases h; exact .moved _ _ _ _ hn hc
  · rename_i hn; cases h; exact .queued _ _ _ _ hn
  · rename_i hn; cases h; exact .completed _ _ _ _ hn
  · rename_i hn; cases h; exact .fail _ _ _ _ hn
  · rename_i hn
    cases h
    split
    · rename_i hc; exact .park _ _ _ _ hn hc
    · rename_i hc; exact .awake _ _ _ _ hn hc
  · rename_i hn
    split at h
    · rename_i hc; cases h; exact .read _ _ _ _ hn _ hc
    · rename_i hc; cases h; exact .broken _ _ _ _ hn hc
  · rename_i hn; cases h; exact .store _ _ _ _ hn
  · rename_i hn; cases h; exact .complete _ _ _ _ hn
  · rename_i hn; cases h; exact .poison _ _ _ hn
  · cases h

/-- `Lazy.stepThread` by what the thread is to do next. -/
theorem stepThread_next (init : (c : Cell) → Prog Cell Val (Val c)) (t : Nat) (cells : (c : Cell) → Status (Val c))
    (th : Lazy.Thread Cell Val α) : Lazy.stepThread init t cells th =
      match next th with
      | .finished => none
      | .reads c r f =>
        match cells c with
        | .ready v => some (cells, r v, [])
        | .uninit => some (Lazy.update cells c (.running t), ⟨th.main, ⟨c, init c⟩ :: th.stack⟩, [c])
        | .running _ => none
        | .poisoned => some (cells, f, [])
      | .returns d v after => some (Lazy.update cells d (.ready v), after, [])
      | .unwinds d after => some (Lazy.update cells d .poisoned, after, []) := by
  obtain ⟨main, stack⟩ := th
  cases stack with
  | nil =>
    cases main with
    | done r => rfl
    | read c k => simp only [Lazy.stepThread, next]; cases cells c <;> rfl
  | cons f rest =>
    obtain ⟨d, p⟩ := f
    cases p with
    | done x => cases x <;> simp only [Lazy.stepThread, next]
    | read c k => simp only [Lazy.stepThread, next]; cases cells c <;> rfl

omit [DecidableEq Cell] in
theorem returns_mem {code : Lazy.Thread Cell Val α} {d v after} (h : next code = .returns d v after) :
    d ∈ cellsOf code := by
  obtain ⟨main, stack⟩ := code
  cases stack with
  | nil => cases main <;> cases h
  | cons f rest =>
    obtain ⟨e, p⟩ := f
    cases p with
    | done x => cases x <;> cases h; exact List.mem_cons_self
    | read c k => cases h

omit [DecidableEq Cell] in
theorem unwinds_mem {code : Lazy.Thread Cell Val α} {d after} (h : next code = .unwinds d after) :
    d ∈ cellsOf code := by
  obtain ⟨main, stack⟩ := code
  cases stack with
  | nil => cases main <;> cases h
  | cons f rest =>
    obtain ⟨e, p⟩ := f
    cases p with
    | done x => cases x <;> cases h; exact List.mem_cons_self
    | read c k => cases h

/-- What holds of a thread's place in its operation. -/
def AgentOk (m : Memory Cell Val) (a : Agent Cell Val α) : Prop :=
  match a.pc with
  | .start => True
  | .waking _ => True
  | .slow => ∃ c r f, next a.code = .reads c r f
  | .wait => ∃ c r f, next a.code = .reads c r f
  | .parked => ∃ c r f, next a.code = .reads c r f
  | .loaded s => ∃ c r f, next a.code = .reads c r f ∧ (s = .complete → m.state c = .complete) ∧
      (s = .poisoned → m.state c = .poisoned)
  | .reading => ∃ c r f, next a.code = .reads c r f ∧ m.state c = .complete
  | .stored => ∃ d v after, next a.code = .returns d v after ∧ m.slot d = some v
  | .undefined => False

/-- Somebody is about to wake the sleepers of `c`. -/
def Called (l : List (Agent Cell Val α)) (c : Cell) : Prop := ∃ (u : Nat) (b : Agent Cell Val α),
  l[u]? = some b ∧ b.pc = .waking c

structure Good (s : Process Cell Val α) : Prop where
  slots : ∀ c, s.mem.state c = .complete → s.mem.slot c ≠ none
  agents : ∀ (t : Nat) a, s.agents[t]? = some a → AgentOk s.mem a
  parked : ∀ (t : Nat) a c r f, s.agents[t]? = some a → a.pc = .parked → next a.code = .reads c r f →
    s.mem.state c = .queued ∨ Called s.agents c

omit [DecidableEq Cell] in
theorem Good.begin (progs : List (Prog Cell Val α)) : Good (begin progs) where
  slots c h := nomatch h
  agents t a h := by
    unfold Atomics.begin at h
    simp only [List.getElem?_map, Option.map_eq_some_iff] at h
    obtain ⟨p, hp, rfl⟩ := h
    trivial
  parked t a c r f h hp := by
    unfold Atomics.begin at h
    simp only [List.getElem?_map, Option.map_eq_some_iff] at h
    obtain ⟨p, _, rfl⟩ := h
    cases hp

/-- How the memory may change as thread `b` sees it. -/
structure Kept (m m' : Memory Cell Val) (b : Agent Cell Val α) : Prop where
  complete : ∀ c, m.state c = .complete → m'.state c = .complete
  poisoned : ∀ c, m.state c = .poisoned → m'.state c = .poisoned
  slot : ∀ d v, d ∈ cellsOf b.code → m.slot d = some v → m'.slot d = some v

omit [DecidableEq Cell] in
theorem Kept.refl (m : Memory Cell Val) (b : Agent Cell Val α) : Kept m m b :=
  ⟨fun _ h => h, fun _ h => h, fun _ _ _ h => h⟩

omit [DecidableEq Cell] in
theorem AgentOk.kept {m m' : Memory Cell Val} {b : Agent Cell Val α} (h : AgentOk m b) (hk : Kept m m' b) :
    AgentOk m' b := by
  obtain ⟨code, pc⟩ := b
  cases pc with
  | start => trivial
  | waking c => trivial
  | slow => exact h
  | wait => exact h
  | parked => exact h
  | loaded s =>
    obtain ⟨c, r, f, hn, h1, h2⟩ := h
    exact ⟨c, r, f, hn, fun hs => hk.complete c (h1 hs), fun hs => hk.poisoned c (h2 hs)⟩
  | reading =>
    obtain ⟨c, r, f, hn, h1⟩ := h
    exact ⟨c, r, f, hn, hk.complete c h1⟩
  | stored =>
    obtain ⟨d, v, after, hn, h1⟩ := h
    exact ⟨d, v, after, hn, hk.slot d v (returns_mem hn) h1⟩
  | undefined => exact h

theorem setState_same (m : Memory Cell Val) (c : Cell) (x : OnceState) : (m.setState c x).state c = x := if_pos rfl

theorem setState_other (m : Memory Cell Val) (c : Cell) (x : OnceState) (d : Cell) (h : c ≠ d) :
    (m.setState c x).state d = m.state d := if_neg h

theorem setSlot_same (m : Memory Cell Val) (c : Cell) (v : Val c) : (m.setSlot c v).slot c = some v := dif_pos rfl

theorem setSlot_other (m : Memory Cell Val) (c : Cell) (v : Val c) (d : Cell) (h : c ≠ d) :
    (m.setSlot c v).slot d = m.slot d := dif_neg h

theorem Kept.setState {m : Memory Cell Val} {c : Cell} (x : OnceState) (b : Agent Cell Val α)
    (h1 : m.state c ≠ .complete) (h2 : m.state c ≠ .poisoned) : Kept m (m.setState c x) b where
  complete d hd := by rw [setState_other _ _ _ _ (fun h : c = d => h1 (h ▸ hd))]; exact hd
  poisoned d hd := by rw [setState_other _ _ _ _ (fun h : c = d => h2 (h ▸ hd))]; exact hd
  slot _ _ _ h := h

omit [DecidableEq Cell] in
theorem running_of_status {m : Memory Cell Val} {c : Cell} {t : Nat} (h : status m c = .running t) :
    (m.state c = .running ∨ m.state c = .queued) ∧ m.owner c = t := by
  unfold status at h
  split at h <;> cases h <;> exact ⟨by simp [*], rfl⟩

omit [DecidableEq Cell] in
theorem status_incomplete {m : Memory Cell Val} {c : Cell} (h : m.state c = .incomplete) : status m c = .uninit := by
  unfold status; rw [h]

omit [DecidableEq Cell] in
theorem status_poisoned {m : Memory Cell Val} {c : Cell} (h : m.state c = .poisoned) : status m c = .poisoned := by
  unfold status; rw [h]

omit [DecidableEq Cell] in
theorem status_running {m : Memory Cell Val} {c : Cell} (h : m.state c = .running ∨ m.state c = .queued) :
    status m c = .running (m.owner c) := by
  unfold status; rcases h with h | h <;> rw [h]

omit [DecidableEq Cell] in
theorem status_complete {m : Memory Cell Val} {c : Cell} {v : Val c} (h : m.state c = .complete)
    (hv : m.slot c = some v) : status m c = .ready v := by
  unfold status; rw [h, hv]

omit [DecidableEq Cell] in
theorem status_congr {m m' : Memory Cell Val} {c : Cell} (h1 : m.state c = m'.state c) (h2 : m.slot c = m'.slot c)
    (h3 : m.owner c = m'.owner c) : status m c = status m' c := by
  unfold status; rw [h1, h2, h3]

theorem status_enter {m : Memory Cell Val} (c : Cell) (t : Nat) :
    status ((m.setState c .running).setOwner c t) = Lazy.update (status m) c (.running t) := by
  funext d
  by_cases h : c = d
  · subst h
    rw [Lazy.update_same, status_running (m := (m.setState c .running).setOwner c t) (.inl (setState_same m c _))]
    exact congrArg _ (if_pos rfl)
  · rw [Lazy.update_other _ _ _ _ h]
    exact status_congr (setState_other _ _ _ _ h) rfl (if_neg h)

theorem status_queue {m : Memory Cell Val} (c : Cell) (hc : m.state c = .running) :
    status (m.setState c .queued) = status m := by
  funext d
  by_cases h : c = d
  · subst h
    rw [status_running (.inl hc), status_running (.inr (setState_same m c _))]; rfl
  · exact status_congr (setState_other _ _ _ _ h) rfl rfl

theorem status_complete_set {m : Memory Cell Val} (c : Cell) (v : Val c) (hv : m.slot c = some v) :
    status (m.setState c .complete) = Lazy.update (status m) c (.ready v) := by
  funext d
  by_cases h : c = d
  · subst h
    rw [Lazy.update_same]
    exact status_complete (setState_same m c _) hv
  · rw [Lazy.update_other _ _ _ _ h]
    exact status_congr (setState_other _ _ _ _ h) rfl rfl

theorem status_poison_set {m : Memory Cell Val} (c : Cell) :
    status (m.setState c .poisoned) = Lazy.update (status m) c .poisoned := by
  funext d
  by_cases h : c = d
  · subst h
    rw [Lazy.update_same]
    exact status_poisoned (setState_same m c _)
  · rw [Lazy.update_other _ _ _ _ h]
    exact status_congr (setState_other _ _ _ _ h) rfl rfl

theorem status_store {m : Memory Cell Val} (c : Cell) (v : Val c) (hc : m.state c = .running ∨ m.state c = .queued) :
    status (m.setSlot c v) = status m := by
  funext d
  by_cases h : c = d
  · subst h
    rw [status_running hc, status_running (m := m.setSlot c v) hc]; rfl
  · exact status_congr rfl (setSlot_other _ _ _ _ h) rfl

omit [DecidableEq Cell] in
theorem not_final {m : Memory Cell Val} {c : Cell} (h : m.state c = .running ∨ m.state c = .queued) :
    m.state c ≠ .complete ∧ m.state c ≠ .poisoned := by
  rcases h with h | h <;> rw [h] <;> exact ⟨nofun, nofun⟩

omit [DecidableEq Cell] in
theorem agentOk_woken (m : Memory Cell Val) (code : Lazy.Thread Cell Val α) (c : Cell) (p : Prop) [Decidable p] :
    AgentOk m ⟨code, if p then .waking c else .start⟩ := by
  split <;> trivial

/-- One operation of one thread: the thread stays good, and so do the others. -/
theorem Acts.good {init : (c : Cell) → Prog Cell Val (Val c)} {t : Nat} {m m' : Memory Cell Val}
    {a a' : Agent Cell Val α} {w : Option Cell} {l : List Cell} (h : Acts init t m a m' a' w l)
    (hok : AgentOk m a) (hrun : ∀ c ∈ cellsOf a.code, status m c = .running t)
    (hslots : ∀ c, m.state c = .complete → m.slot c ≠ none) :
    (∀ c, m'.state c = .complete → m'.slot c ≠ none) ∧ AgentOk m' a' ∧
    (∀ u (b : Agent Cell Val α), t ≠ u → (∀ c ∈ cellsOf b.code, status m c = .running u) → Kept m m' b) := by
  have keep : ∀ a'' : Agent Cell Val α, AgentOk m a'' → (∀ c, m.state c = .complete → m.slot c ≠ none) ∧ AgentOk m a'' ∧
      (∀ u (b : Agent Cell Val α), t ≠ u → (∀ c ∈ cellsOf b.code, status m c = .running u) → Kept m m b) :=
    fun _ h => ⟨hslots, h, fun _ _ _ _ => .refl _ _⟩
  cases h with
  | waking => exact keep _ trivial
  | fast code c r f hn h => exact keep _ ⟨c, r, f, hn, h⟩
  | slow code c r f hn h => exact keep _ ⟨c, r, f, hn⟩
  | load code c r f hn => exact keep _ ⟨c, r, f, hn, id, id⟩
  | enter code c r f hn h =>
    refine ⟨fun d hd => ?_, trivial, fun u b htu hb => ?_⟩
    · by_cases hcd : c = d
      · subst hcd
        have hd : (m.setState c .running).state c = .complete := hd
        rw [setState_same] at hd; cases hd
      · have hd : (m.setState c .running).state d = .complete := hd
        rw [setState_other _ _ _ _ hcd] at hd; exact hslots d hd
    · exact Kept.setState (b := b) .running (by rw [h]; nofun) (by rw [h]; nofun) |> fun k =>
        ⟨k.complete, k.poisoned, k.slot⟩
  | late code c r f hn h => exact keep _ ⟨c, r, f, hn, id, id⟩
  | queue code c r f hn h =>
    refine ⟨fun d hd => ?_, ⟨c, r, f, hn⟩, fun u b htu hb => ?_⟩
    · by_cases hcd : c = d
      · subst hcd
        rw [setState_same] at hd; cases hd
      · rw [setState_other _ _ _ _ hcd] at hd; exact hslots d hd
    · exact Kept.setState _ _ (by rw [h]; nofun) (by rw [h]; nofun)
  | moved code c r f hn h => exact keep _ ⟨c, r, f, hn, id, id⟩
  | queued code c r f hn => exact keep _ ⟨c, r, f, hn⟩
  | completed code c r f hn =>
    obtain ⟨c', r', f', hn', hc, _⟩ := hok
    exact keep _ ⟨c', r', f', hn', hc rfl⟩
  | fail => exact keep _ trivial
  | park code c r f hn h => exact keep _ ⟨c, r, f, hn⟩
  | awake code c r f hn h => exact keep _ ⟨c, r, f, hn⟩
  | read => exact keep _ trivial
  | broken code c r f hn h =>
    obtain ⟨c', r', f', hn', hc⟩ := hok
    rw [hn] at hn'; cases hn'
    exact absurd h (hslots c hc)
  | store code d v after hn =>
    have hd := hrun d (returns_mem hn)
    refine ⟨fun c hc => ?_, ⟨d, v, after, hn, setSlot_same m d v⟩, fun u b htu hb => ⟨fun _ h => h, fun _ h => h, ?_⟩⟩
    · by_cases hdc : d = c
      · subst hdc
        exact absurd hc (not_final (running_of_status hd).1).1
      · rw [setSlot_other _ _ _ _ hdc]; exact hslots c hc
    · intro e v' he hv
      have hde : d ≠ e := fun h => by
        subst h
        have := hb d he
        rw [hd] at this; cases this; exact htu rfl
      rw [setSlot_other _ _ _ _ hde]; exact hv
  | complete code d v after hn =>
    have hd := (running_of_status (hrun d (returns_mem hn))).1
    obtain ⟨d', v', after', hn', hv⟩ := hok
    rw [hn] at hn'; cases hn'
    refine ⟨fun c hc => ?_, agentOk_woken _ _ _ _, fun u b htu hb => Kept.setState _ _ (not_final hd).1 (not_final hd).2⟩
    by_cases hdc : d = c
    · subst hdc
      show m.slot d ≠ none
      rw [hv]; nofun
    · rw [setState_other _ _ _ _ hdc] at hc; exact hslots c hc
  | poison code d after hn =>
    have hd := (running_of_status (hrun d (unwinds_mem hn))).1
    refine ⟨fun c hc => ?_, agentOk_woken _ _ _ _, fun u b htu hb => Kept.setState _ _ (not_final hd).1 (not_final hd).2⟩
    by_cases hdc : d = c
    · subst hdc
      rw [setState_same] at hc; cases hc
    · rw [setState_other _ _ _ _ hdc] at hc; exact hslots c hc

/-- What one operation means for sleepers. -/
theorem Acts.sleepers {init : (c : Cell) → Prog Cell Val (Val c)} {t : Nat} {m m' : Memory Cell Val}
    {a a' : Agent Cell Val α} {w : Option Cell} {l : List Cell} (h : Acts init t m a m' a' w l)
    (hrun : ∀ c ∈ cellsOf a.code, status m c = .running t) :
    (a'.pc = .parked → ∀ c r f, next a'.code = .reads c r f → m'.state c = .queued) ∧
    (∀ c, m.state c = .queued → m'.state c = .queued ∨ a'.pc = .waking c) ∧
    (∀ c, a.pc = .waking c → w = some c) := by
  have woken : ∀ (d : Cell) (x : OnceState) (code' : Lazy.Thread Cell Val α), x ≠ .queued →
      ∀ c, m.state c = .queued → (m.setState d x).state c = .queued ∨
        (⟨code', if m.state d = .queued then .waking d else .start⟩ : Agent Cell Val α).pc = .waking c := by
    intro d x code' _ c hc
    by_cases hdc : d = c
    · subst hdc; right; exact if_pos hc
    · left; rw [setState_other _ _ _ _ hdc]; exact hc
  have notParked : ∀ (p : Prop) [Decidable p] (d : Cell) (code' : Lazy.Thread Cell Val α) (q : Prop),
      (⟨code', if p then .waking d else .start⟩ : Agent Cell Val α).pc = .parked → q := by
    intro p _ d code' q hq
    dsimp only at hq
    split at hq <;> cases hq
  cases h with
  | waking code c => exact ⟨nofun, fun _ h => .inl h, fun d h => by cases h; rfl⟩
  | fast | slow | load | late | moved | queued | completed | fail | awake | read | broken =>
    exact ⟨nofun, fun _ h => .inl h, nofun⟩
  | park code c r f hn h =>
    refine ⟨fun _ c' r' f' hn' => ?_, fun _ h => .inl h, nofun⟩
    have hn' : next code = .reads c' r' f' := hn'
    rw [hn] at hn'; cases hn'; exact h
  | enter code c r f hn h =>
    refine ⟨nofun, fun d hd => .inl ?_, nofun⟩
    show (m.setState c .running).state d = .queued
    rw [setState_other _ _ _ _ (fun hcd : c = d => by subst hcd; rw [h] at hd; cases hd)]; exact hd
  | queue code c r f hn h =>
    refine ⟨nofun, fun d hd => .inl ?_, nofun⟩
    by_cases hcd : c = d
    · subst hcd; exact setState_same _ _ _
    · rw [setState_other _ _ _ _ hcd]; exact hd
  | store code d v after hn => exact ⟨nofun, fun _ h => .inl h, nofun⟩
  | complete code d v after hn =>
    exact ⟨fun hp => notParked _ _ _ _ hp, woken d .complete after nofun, nofun⟩
  | poison code d after hn =>
    exact ⟨fun hp => notParked _ _ _ _ hp, woken d .poisoned after nofun, nofun⟩

/-! ### Counting -/

/-- operations from seeing this word to the next event -/
def fromSeen : OnceState → Nat
  | .queued => 2
  | .complete => 1
  | _ => 0

/-- operations of a thread before it enters, ends or gets past an initialiser, queues or sleeps, if no word changes -/
def togo (m : Memory Cell Val) (a : Agent Cell Val α) : Nat :=
  match a.pc, next a.code with
  | .start, .reads c _ _ => 2 + fromSeen (m.state c)
  | .start, .returns _ _ _ => 1
  | .slow, .reads c _ _ => 1 + fromSeen (m.state c)
  | .loaded s, .reads c _ _ =>
    if s = m.state c then fromSeen s else if s = .queued then 3 + fromSeen (m.state c) else 1 + fromSeen (m.state c)
  | .wait, .reads c _ _ => if m.state c = .queued then 1 else 2 + fromSeen (m.state c)
  | _, _ => 0

def isWaking (a : Agent Cell Val α) : Nat :=
  match a.pc with
  | .waking _ => 1
  | _ => 0

def isRunning (m : Memory Cell Val) (c : Cell) : Nat := if m.state c = .running then 1 else 0

def runners (m : Memory Cell Val) (log : List Cell) : Nat := (log.map (isRunning m)).sum

omit [DecidableEq Cell] in
theorem fromSeen_le (s : OnceState) : fromSeen s ≤ 2 := by cases s <;> decide

omit [DecidableEq Cell] in
theorem togo_le (m : Memory Cell Val) (a : Agent Cell Val α) : togo m a ≤ 4 := by
  unfold togo
  split
  · have := fromSeen_le (m.state ‹_›); omega
  · omega
  · have := fromSeen_le (m.state ‹_›); omega
  · rename_i s c _ _ _ _
    have h1 := fromSeen_le s
    have h2 := fromSeen_le (m.state c)
    split
    · omega
    · split
      · rename_i h3 h4
        subst h4
        have : fromSeen (m.state c) ≤ 1 := by
          revert h3; cases m.state c <;> simp [fromSeen]
        omega
      · omega
  · have := fromSeen_le (m.state ‹_›)
    split <;> omega
  · omega

omit [DecidableEq Cell] in
theorem runners_le {m m' : Memory Cell Val} (h : ∀ c, m'.state c = .running → m.state c = .running)
    (log : List Cell) : runners m' log ≤ runners m log := by
  unfold runners
  induction log with
  | nil => exact Nat.le_refl _
  | cons c l ih =>
    rw [List.map_cons, List.sum_cons, List.map_cons, List.sum_cons]
    have : isRunning m' c ≤ isRunning m c := by
      unfold isRunning
      split
      · rename_i hc; rw [if_pos (h c hc)]; exact Nat.le_refl _
      · exact Nat.zero_le _
    omega

omit [DecidableEq Cell] in
theorem runners_lt {m m' : Memory Cell Val} (h : ∀ c, m'.state c = .running → m.state c = .running) {c : Cell}
    (h1 : m.state c = .running) (h2 : m'.state c ≠ .running)
    (log : List Cell) (hc : c ∈ log) : runners m' log + 1 ≤ runners m log := by
  induction log with
  | nil => cases hc
  | cons d l ih =>
    have hl := runners_le h l
    unfold runners at *
    rw [List.map_cons, List.sum_cons, List.map_cons, List.sum_cons]
    have : isRunning m' d ≤ isRunning m d := by
      unfold isRunning
      split
      · rename_i hc; rw [if_pos (h d hc)]; exact Nat.le_refl _
      · exact Nat.zero_le _
    rcases List.mem_cons.1 hc with rfl | hc
    · have e1 : isRunning m c = 1 := if_pos h1
      have e2 : isRunning m' c = 0 := if_neg h2
      omega
    · have := ih hc
      omega

omit [DecidableEq Cell] in
theorem runners_eq {m m' : Memory Cell Val} (log : List Cell) (h : ∀ c ∈ log, m'.state c = m.state c) :
    runners m' log = runners m log := by
  unfold runners
  congr 1
  refine List.map_congr_left fun c hc => ?_
  unfold isRunning; rw [h c hc]

/-- One operation of one thread, with its cost. -/
theorem Acts.pays {init : (c : Cell) → Prog Cell Val (Val c)} {t : Nat} {m m' : Memory Cell Val}
    {a a' : Agent Cell Val α} {w : Option Cell} {l : List Cell} (h : Acts init t m a m' a' w l)
    (hok : AgentOk m a) (hrun : ∀ c ∈ cellsOf a.code, status m c = .running t)
    (hslots : ∀ c, m.state c = .complete → m.slot c ≠ none)
    {log : List Cell} (hlog : ∀ c, c ∈ log ↔ status m c ≠ .uninit) :
    (status m' = status m ∧ a'.code = a.code ∧ l = [] ∧
      ((m'.state = m.state ∧ w = none ∧ isWaking a' = isWaking a ∧ togo m' a' + 1 ≤ togo m a) ∨
       isWaking a' + runners m' log + 1 ≤ isWaking a + runners m log)) ∨
    (Lazy.stepThread init t (status m) a.code = some (status m', a'.code, l) ∧
      isWaking a' + runners m' (l ++ log) ≤ isWaking a + runners m log + 1) := by
  have hwk : ∀ (p : Prop) [Decidable p] (d : Cell) (code' : Lazy.Thread Cell Val α),
      isWaking (⟨code', if p then .waking d else .start⟩ : Agent Cell Val α) ≤ 1 := by
    intro p _ d code'
    split <;> simp [isWaking]
  have hset : ∀ (d : Cell) (x : OnceState), x ≠ .running →
      ∀ c, (m.setState d x).state c = .running → m.state c = .running := by
    intro d x hx c hc
    by_cases hdc : d = c
    · subst hdc; rw [setState_same] at hc; exact absurd hc hx
    · rw [setState_other _ _ _ _ hdc] at hc; exact hc
  have stut : ∀ {code : Lazy.Thread Cell Val α} {pc pc' : Pc Cell},
      isWaking (⟨code, pc'⟩ : Agent Cell Val α) = isWaking (⟨code, pc⟩ : Agent Cell Val α) →
      togo m (⟨code, pc'⟩ : Agent Cell Val α) + 1 ≤ togo m (⟨code, pc⟩ : Agent Cell Val α) →
      (status m = status m ∧ (⟨code, pc'⟩ : Agent Cell Val α).code = (⟨code, pc⟩ : Agent Cell Val α).code ∧
       ([] : List Cell) = [] ∧
      ((m.state = m.state ∧ (none : Option Cell) = none ∧
        isWaking (⟨code, pc'⟩ : Agent Cell Val α) = isWaking (⟨code, pc⟩ : Agent Cell Val α) ∧
        togo m (⟨code, pc'⟩ : Agent Cell Val α) + 1 ≤ togo m (⟨code, pc⟩ : Agent Cell Val α)) ∨
       isWaking (⟨code, pc'⟩ : Agent Cell Val α) + runners m log + 1 ≤
         isWaking (⟨code, pc⟩ : Agent Cell Val α) + runners m log)) :=
    fun h1 h2 => ⟨rfl, rfl, rfl, .inl ⟨rfl, rfl, h1, h2⟩⟩
  cases h with
  | waking code c =>
    refine .inl ⟨rfl, rfl, rfl, .inr ?_⟩
    have h1 : isWaking (⟨code, .start⟩ : Agent Cell Val α) = 0 := rfl
    have h2 : isWaking (⟨code, .waking c⟩ : Agent Cell Val α) = 1 := rfl
    omega
  | fast code c r f hn h =>
    refine .inl (stut rfl ?_)
    simp [togo, hn]; omega
  | slow code c r f hn h =>
    refine .inl (stut rfl ?_)
    simp [togo, hn]; omega
  | load code c r f hn =>
    refine .inl (stut rfl ?_)
    simp [togo, hn]; omega
  | late code c r f hn h =>
    refine .inl (stut rfl ?_)
    simp [togo, hn, Ne.symm h]; omega
  | moved code c r f hn h =>
    refine .inl (stut rfl ?_)
    simp [togo, hn, Ne.symm h]; omega
  | queued code c r f hn =>
    refine .inl (stut rfl ?_)
    simp only [togo, hn]
    by_cases hq : m.state c = .queued
    · simp [hq, fromSeen]
    · simp [hq, Ne.symm hq]; omega
  | completed code c r f hn =>
    obtain ⟨c', r', f', hn', hc, _⟩ := hok
    rw [hn] at hn'; cases hn'
    refine .inl (stut rfl ?_)
    simp [togo, hn, hc rfl, fromSeen]
  | park code c r f hn h =>
    refine .inl (stut rfl ?_)
    simp [togo, hn, h]
  | awake code c r f hn h =>
    refine .inl (stut rfl ?_)
    simp [togo, hn, h]; omega
  | broken code c r f hn h =>
    obtain ⟨c', r', f', hn', hc⟩ := hok
    rw [hn] at hn'; cases hn'
    exact absurd h (hslots c hc)
  | enter code c r f hn h =>
    refine .inr ⟨?_, ?_⟩
    · rw [stepThread_next, hn]
      dsimp only
      rw [status_incomplete h, status_enter]
    · have hc : c ∉ log := fun hm => (hlog c).1 hm (status_incomplete h)
      have h1 : runners ((m.setState c .running).setOwner c t) log = runners m log :=
        runners_eq log fun d hd => setState_other _ _ _ _ fun hcd => hc (hcd ▸ hd)
      have h2 : isRunning ((m.setState c .running).setOwner c t) c = 1 := if_pos (setState_same m c _)
      show 0 + (isRunning ((m.setState c .running).setOwner c t) c + runners ((m.setState c .running).setOwner c t) log) ≤
        0 + runners m log + 1
      omega
  | queue code c r f hn h =>
    refine .inl ⟨status_queue c h, rfl, rfl, .inr ?_⟩
    have hc : c ∈ log := (hlog c).2 (by rw [status_running (.inl h)]; nofun)
    have := runners_lt (hset c .queued nofun) h (by rw [setState_same]; nofun) log hc
    show 0 + _ + 1 ≤ 0 + _
    omega
  | fail code c r f hn =>
    obtain ⟨c', r', f', hn', _, hp⟩ := hok
    rw [hn] at hn'; cases hn'
    refine .inr ⟨?_, ?_⟩
    · rw [stepThread_next, hn]
      dsimp only
      rw [status_poisoned (hp rfl)]
    · show 0 + runners m log ≤ 0 + runners m log + 1
      omega
  | read code c r f hn v h =>
    obtain ⟨c', r', f', hn', hc⟩ := hok
    rw [hn] at hn'; cases hn'
    refine .inr ⟨?_, ?_⟩
    · rw [stepThread_next, hn]
      dsimp only
      rw [status_complete hc h]
    · show 0 + runners m log ≤ 0 + runners m log + 1
      omega
  | store code d v after hn =>
    refine .inl ⟨status_store d v (running_of_status (hrun d (returns_mem hn))).1, rfl, rfl, .inl ⟨rfl, rfl, rfl, ?_⟩⟩
    simp [togo, hn]
  | complete code d v after hn =>
    obtain ⟨d', v', after', hn', hv⟩ := hok
    rw [hn] at hn'; cases hn'
    refine .inr ⟨?_, ?_⟩
    · rw [stepThread_next, hn]
      dsimp only
      rw [status_complete_set d v hv]
    · have h1 := hwk (m.state d = .queued) d after
      have h2 := runners_le (hset d .complete nofun) log
      show _ + runners _ log ≤ 0 + _ + 1
      omega
  | poison code d after hn =>
    refine .inr ⟨?_, ?_⟩
    · rw [stepThread_next, hn]
      dsimp only
      rw [status_poison_set]
    · have h1 := hwk (m.state d = .queued) d after
      have h2 := runners_le (hset d .poisoned nofun) log
      show _ + runners _ log ≤ 0 + _ + 1
      omega

/-! ### The process -/

/-- wake, if told to -/
def wakeOne (w : Option Cell) (b : Agent Cell Val α) : Agent Cell Val α :=
  match w with
  | some c => wake c b
  | none => b

theorem wakeAll_get (w : Option Cell) (l : List (Agent Cell Val α)) (u : Nat) :
    (wakeAll w l)[u]? = l[u]?.map (wakeOne w) := by
  cases w with
  | none => cases h : l[u]? <;> simp [wakeAll, wakeOne, h]
  | some c => exact List.getElem?_map

theorem wake_cases (c : Cell) (b : Agent Cell Val α) : wake c b = b ∨
    (b.pc = .parked ∧ wake c b = ⟨b.code, .slow⟩ ∧ ∃ r f, next b.code = .reads c r f) := by
  unfold wake
  split
  · rename_i h1 h2
    split
    · rename_i h3; subst h3
      exact .inr ⟨h1, rfl, _, _, h2⟩
    · exact .inl rfl
  · exact .inl rfl

theorem wakeOne_code (w : Option Cell) (b : Agent Cell Val α) : (wakeOne w b).code = b.code := by
  cases w with
  | none => rfl
  | some c => rcases wake_cases c b with h | ⟨_, h, _⟩ <;> simp only [wakeOne, h]

theorem wakeOne_waking (w : Option Cell) (b : Agent Cell Val α) (c : Cell) (h : b.pc = .waking c) :
    (wakeOne w b).pc = .waking c := by
  cases w with
  | none => exact h
  | some d =>
    rcases wake_cases d b with h1 | ⟨h1, _, _⟩
    · simp only [wakeOne, h1]; exact h
    · rw [h] at h1; cases h1

theorem wakeOne_isWaking (w : Option Cell) (b : Agent Cell Val α) : isWaking (wakeOne w b) = isWaking b := by
  cases w with
  | none => rfl
  | some d =>
    rcases wake_cases d b with h1 | ⟨h1, h2, _⟩
    · simp only [wakeOne, h1]
    · simp only [wakeOne, h2, isWaking, h1]

theorem wakeOne_ok (w : Option Cell) (m : Memory Cell Val) (b : Agent Cell Val α) (h : AgentOk m b) :
    AgentOk m (wakeOne w b) := by
  cases w with
  | none => exact h
  | some d =>
    rcases wake_cases d b with h1 | ⟨h1, h2, r, f, hn⟩
    · simp only [wakeOne, h1]; exact h
    · simp only [wakeOne, h2]
      exact ⟨d, r, f, hn⟩

/-- A thread that sleeps after a wake-up slept before, on another static. -/
theorem wakeOne_parked (w : Option Cell) (b : Agent Cell Val α) (h : (wakeOne w b).pc = .parked) :
    wakeOne w b = b ∧ ∀ c r f, next b.code = .reads c r f → w ≠ some c := by
  cases w with
  | none => exact ⟨rfl, nofun⟩
  | some d =>
    have hb : wake d b = b := by
      rcases wake_cases d b with h1 | ⟨_, h2, _⟩
      · exact h1
      · simp only [wakeOne, h2] at h; cases h
    refine ⟨hb, fun c r f hn hw => ?_⟩
    cases hw
    have h : (wake d b).pc = .parked := h
    have hp : b.pc = .parked := by rw [hb] at h; exact h
    have : wake d b = ⟨b.code, .slow⟩ := by
      unfold wake; rw [hp, hn]; simp
    rw [this] at h; cases h

omit [DecidableEq Cell] in
theorem set_get {l : List (Agent Cell Val α)} {t : Nat} {a a' b : Agent Cell Val α} {u : Nat} (ha : l[t]? = some a)
    (h : (l.set t a')[u]? = some b) : (t = u ∧ b = a') ∨ (t ≠ u ∧ l[u]? = some b) := by
  rw [List.getElem?_set] at h
  by_cases htu : t = u
  · subst htu
    rw [if_pos rfl, if_pos (List.getElem?_eq_some_iff.1 ha).1] at h
    cases h; exact .inl ⟨rfl, rfl⟩
  · rw [if_neg htu] at h; exact .inr ⟨htu, h⟩

omit [DecidableEq Cell] in
theorem get_set {l : List (Agent Cell Val α)} {t : Nat} {a : Agent Cell Val α} (a' : Agent Cell Val α)
    (ha : l[t]? = some a) : (l.set t a')[t]? = some a' := by
  rw [List.getElem?_set, if_pos rfl, if_pos (List.getElem?_eq_some_iff.1 ha).1]

theorem abs_agents (w : Option Cell) (l : List (Agent Cell Val α)) (t : Nat) (a' : Agent Cell Val α) :
    (wakeAll w (l.set t a')).map Agent.code = (l.map Agent.code).set t a'.code := by
  apply List.ext_getElem?
  intro u
  rw [List.getElem?_map, wakeAll_get, Option.map_map, ← List.map_set, List.getElem?_map]
  congr 1
  funext b
  exact wakeOne_code w b

omit [DecidableEq Cell] in
/-- The threads of the process and those of its abstraction. -/
theorem running_of_once {init : (c : Cell) → Prog Cell Val (Val c)} {progs : List (Prog Cell Val α)}
    {s : Process Cell Val α} (ho : Lazy.Once init progs (abs s)) {t : Nat} {a : Agent Cell Val α}
    (ha : s.agents[t]? = some a) : ∀ c ∈ cellsOf a.code, status s.mem c = .running t := by
  have : (abs s).threads[t]? = some a.code := by
    show (s.agents.map Agent.code)[t]? = _
    rw [List.getElem?_map, ha]; rfl
  obtain ⟨_, _, _, _, h⟩ := ho.threads t a.code this
  exact h

theorem Good.step {init : (c : Cell) → Prog Cell Val (Val c)} {progs : List (Prog Cell Val α)}
    {s s' : Process Cell Val α} (hg : Good s) (ho : Lazy.Once init progs (abs s)) (h : Step init s s') : Good s' := by
  obtain ⟨t, a, m, a', w, l, ha, hact, rfl⟩ := h
  have hacts := acts_of_act hact
  have hrun := running_of_once ho ha
  obtain ⟨h1, h2, h3⟩ := hacts.good (hg.agents t a ha) hrun hg.slots
  obtain ⟨p1, p2, p3⟩ := hacts.sleepers hrun
  have hcalled : ∀ c, Called (s.agents.set t a') c → Called (wakeAll w (s.agents.set t a')) c := by
    rintro c ⟨u, b, hu, hb⟩
    refine ⟨u, wakeOne w b, ?_, wakeOne_waking w b c hb⟩
    rw [wakeAll_get, hu]; rfl
  refine ⟨h1, fun u b hb => ?_, fun u b c r f hb hp hn => ?_⟩
  · rw [wakeAll_get, Option.map_eq_some_iff] at hb
    obtain ⟨b0, hb0, rfl⟩ := hb
    refine wakeOne_ok w _ b0 ?_
    rcases set_get ha hb0 with ⟨rfl, rfl⟩ | ⟨htu, hu⟩
    · exact h2
    · exact (hg.agents u b0 hu).kept (h3 u b0 htu (running_of_once ho hu))
  · rw [wakeAll_get, Option.map_eq_some_iff] at hb
    obtain ⟨b0, hb0, rfl⟩ := hb
    obtain ⟨hsame, hw⟩ := wakeOne_parked w b0 hp
    rw [hsame] at hp hn
    have hw := hw c r f hn
    rcases set_get ha hb0 with ⟨rfl, rfl⟩ | ⟨htu, hu⟩
    · exact .inl (p1 hp c r f hn)
    · rcases hg.parked u b0 c r f hu hp hn with hq | ⟨v, x, hv, hx⟩
      · rcases p2 c hq with hq | hq
        · exact .inl hq
        · exact .inr (hcalled c ⟨t, a', get_set a' ha, hq⟩)
      · by_cases htv : t = v
        · subst htv
          rw [ha] at hv; cases hv
          exact absurd (p3 c hx) hw
        · refine .inr (hcalled c ⟨v, x, ?_, hx⟩)
          rw [List.getElem?_set, if_neg htv]; exact hv

theorem outdated_final {old now x : OnceState} (h : outdated old now = x) (hx : x = .complete ∨ x = .poisoned) :
    now = x := by
  subst h
  cases old <;> simp_all [outdated]

omit [DecidableEq Cell] in
theorem spurious_cases {old : OnceState} {m : Memory Cell Val} {a a' : Agent Cell Val α}
    (h : spurious old m a = some a') :
    a'.code = a.code ∧ AgentOk m a' ∧ a'.pc ≠ .parked ∧ isWaking a = 0 ∧ isWaking a' = 0 := by
  obtain ⟨code, pc⟩ := a
  unfold spurious at h
  dsimp only at h
  have final : ∀ c, (outdated old (m.state c) = .complete → m.state c = .complete) ∧
      (outdated old (m.state c) = .poisoned → m.state c = .poisoned) :=
    fun c => ⟨fun h => outdated_final h (.inl rfl), fun h => outdated_final h (.inr rfl)⟩
  split at h
  · rename_i hn; cases h; exact ⟨rfl, ⟨_, _, _, hn⟩, nofun, rfl, rfl⟩
  · rename_i hn; cases h; exact ⟨rfl, ⟨_, _, _, hn, final _⟩, nofun, rfl, rfl⟩
  · rename_i hn; cases h; exact ⟨rfl, ⟨_, _, _, hn, final _⟩, nofun, rfl, rfl⟩
  · rename_i hn; cases h; exact ⟨rfl, ⟨_, _, _, hn, final _⟩, nofun, rfl, rfl⟩
  · rename_i hn; cases h; exact ⟨rfl, ⟨_, _, _, hn⟩, nofun, rfl, rfl⟩
  · rename_i hn; cases h; exact ⟨rfl, ⟨_, _, _, hn⟩, nofun, rfl, rfl⟩
  · cases h

omit [DecidableEq Cell] in
theorem Good.glitch {s s' : Process Cell Val α} (hg : Good s) (h : Glitch s s') : Good s' ∧ abs s' = abs s := by
  obtain ⟨t, a, old, a', ha, hsp, rfl⟩ := h
  obtain ⟨h1, h2, h3, h4, _⟩ := spurious_cases hsp
  refine ⟨⟨hg.slots, fun u b hb => ?_, fun u b c r f hb hp hn => ?_⟩, ?_⟩
  · rcases set_get ha hb with ⟨rfl, rfl⟩ | ⟨_, hu⟩
    · exact h2
    · exact hg.agents u b hu
  · rcases set_get ha hb with ⟨rfl, rfl⟩ | ⟨_, hu⟩
    · exact absurd hp h3
    · rcases hg.parked u b c r f hu hp hn with hq | ⟨v, x, hv, hx⟩
      · exact .inl hq
      · by_cases htv : t = v
        · subst htv
          rw [ha] at hv; cases hv
          simp [isWaking, hx] at h4
        · refine .inr ⟨v, x, ?_, hx⟩
          show (s.agents.set t a')[v]? = _
          rw [List.getElem?_set, if_neg htv]; exact hv
  · unfold abs
    dsimp only
    congr 1
    rw [List.map_set, h1]
    apply List.ext_getElem?
    intro u
    rw [List.getElem?_set]
    split
    · rename_i htu
      subst htu
      split
      · rw [List.getElem?_map, ha]; rfl
      · rename_i hlt
        rw [List.getElem?_eq_none (Nat.le_of_not_lt hlt)]
    · rfl

omit [DecidableEq Cell] in
theorem sum_set (f : Agent Cell Val α → Nat) {l : List (Agent Cell Val α)} {t : Nat} {a a' : Agent Cell Val α}
    (h : l[t]? = some a) : ((l.set t a').map f).sum + f a = (l.map f).sum + f a' := by
  induction l generalizing t with
  | nil => cases h
  | cons b l ih =>
    cases t with
    | zero =>
      cases h
      simp only [List.set_cons_zero, List.map_cons, List.sum_cons]; omega
    | succ t =>
      have := ih h
      simp only [List.set_cons_succ, List.map_cons, List.sum_cons]; omega

omit [DecidableEq Cell] in
theorem togo_sum_le (m : Memory Cell Val) (l : List (Agent Cell Val α)) : (l.map (togo m)).sum ≤ 4 * l.length := by
  induction l with
  | nil => exact Nat.le_refl _
  | cons a l ih =>
    have := togo_le m a
    simp only [List.map_cons, List.sum_cons, List.length_cons]; omega

theorem wakeAll_length (w : Option Cell) (l : List (Agent Cell Val α)) : (wakeAll w l).length = l.length := by
  cases w with
  | none => rfl
  | some c => exact List.length_map ..

theorem wakeAll_waking (w : Option Cell) (l : List (Agent Cell Val α)) :
    ((wakeAll w l).map isWaking).sum = (l.map isWaking).sum := by
  cases w with
  | none => rfl
  | some c =>
    show ((l.map (wake c)).map isWaking).sum = _
    rw [List.map_map]
    congr 1
    refine List.map_congr_left fun b _ => wakeOne_isWaking (some c) b

omit [DecidableEq Cell] in
theorem togo_state {m m' : Memory Cell Val} (h : m'.state = m.state) : (togo m' : Agent Cell Val α → Nat) = togo m := by
  funext a
  unfold togo
  rw [h]

/-- Operations made, operations to go and operations caused. -/
def Paid (T n k j : Nat) (s : Process Cell Val α) : Prop :=
  n + (s.agents.map (togo s.mem)).sum +
      (4 * T + 1) * ((s.agents.map isWaking).sum + runners s.mem s.log) ≤
    4 * T + (4 * T + 1) * (2 * j + k)

/-- Every execution is an execution of `Verif.Model.Lazy`. -/
theorem refines {init : (c : Cell) → Prog Cell Val (Val c)} {progs : List (Prog Cell Val α)} {n k : Nat}
    {s : Process Cell Val α} (h : Runs init (begin progs) n k s) :
    ∃ j, j ≤ n ∧ Lazy.Runs init (Lazy.begin progs) j (abs s) ∧ Good s ∧ s.agents.length = progs.length ∧
      Paid progs.length n k j s := by
  generalize hs : begin progs = s0 at h
  induction h with
  | start =>
    subst hs
    refine ⟨0, Nat.le_refl _, ?_, .begin progs, List.length_map .., ?_⟩
    · have : abs (begin progs) = Lazy.begin progs := by
        unfold abs begin Lazy.begin
        dsimp only
        congr 1
        rw [List.map_map]; rfl
      rw [this]; exact .start _
    · unfold Paid
      have h1 := togo_sum_le (begin progs).mem (begin progs).agents
      have h2 : (begin progs).agents.length = progs.length := List.length_map ..
      have h3 : ((begin progs).agents.map isWaking).sum = 0 := by
        show ((progs.map _).map isWaking).sum = 0
        rw [List.map_map]
        generalize progs = l
        induction l with
        | nil => rfl
        | cons a l ih => rw [List.map_cons, List.sum_cons, ih]; rfl
      have h4 : runners (begin progs).mem (begin progs).log = 0 := rfl
      rw [h3, h4]; omega
  | @step n k s' s'' _ hstep ih =>
    obtain ⟨j, hj, hr, hg, hlen, hp⟩ := ih
    have ho := Lazy.Once.runs hr
    have hg' := hg.step ho hstep
    obtain ⟨t, a, m, a', w, l, ha, hact, rfl⟩ := hstep
    have hacts := acts_of_act hact
    have hrun := running_of_once ho ha
    have hlen' : (wakeAll w (s'.agents.set t a')).length = progs.length := by
      rw [wakeAll_length, List.length_set, hlen]
    have hpay := hacts.pays (hg.agents t a ha) hrun hg.slots (log := s'.log) ho.logMem
    have hw := sum_set isWaking (a' := a') ha
    have hw' := wakeAll_waking w (s'.agents.set t a')
    have ht := togo_sum_le m (wakeAll w (s'.agents.set t a'))
    rw [hlen'] at ht
    have habs : (abs (⟨m, wakeAll w (s'.agents.set t a'), l ++ s'.log⟩ : Process Cell Val α)) =
        ⟨status m, (s'.agents.map Agent.code).set t a'.code, l ++ s'.log⟩ := by
      unfold abs; rw [abs_agents]
    have hat : (abs s').threads[t]? = some a.code := by
      show (s'.agents.map Agent.code)[t]? = _
      rw [List.getElem?_map, ha]; rfl
    unfold Paid at hp ⊢
    dsimp only
    rcases hpay with ⟨h1, h2, rfl, h3⟩ | ⟨h1, h2⟩
    · refine ⟨j, Nat.le_succ_of_le hj, ?_, hg', hlen', ?_⟩
      · have : abs (⟨m, wakeAll w (s'.agents.set t a'), [] ++ s'.log⟩ : Process Cell Val α) = abs s' := by
          rw [habs, h1, h2]
          unfold abs
          congr 1
          apply List.ext_getElem?
          intro u
          rw [List.getElem?_set]
          split
          · rename_i htu
            subst htu
            split
            · exact hat.symm
            · rename_i hlt
              rw [List.getElem?_eq_none (Nat.le_of_not_lt hlt)]
          · rfl
        rw [this]; exact hr
      · rcases h3 with ⟨e1, rfl, e3, e4⟩ | e
        · have hs := sum_set (togo s'.mem) (a' := a') ha
          have er : runners m ([] ++ s'.log) = runners s'.mem s'.log :=
            runners_eq _ fun c _ => by rw [e1]
          rw [togo_state e1] at e4 ⊢
          rw [er]
          rw [hw']
          have : ((s'.agents.set t a').map isWaking).sum = (s'.agents.map isWaking).sum := by omega
          rw [this]
          show n + 1 + ((s'.agents.set t a').map (togo s'.mem)).sum + _ ≤ _
          omega
        · show n + 1 + _ + (4 * progs.length + 1) * (_ + runners m s'.log) ≤ _
          have e' : ((wakeAll w (s'.agents.set t a')).map isWaking).sum + runners m s'.log + 1 ≤
              (s'.agents.map isWaking).sum + runners s'.mem s'.log := by omega
          have := Nat.mul_le_mul_left (4 * progs.length + 1) e'
          rw [Nat.mul_add_one] at this
          omega
    · refine ⟨j + 1, Nat.succ_le_succ hj, ?_, hg', hlen', ?_⟩
      · rw [habs]
        exact .step hr ⟨t, a.code, _, _, _, hat, h1, rfl⟩
      · have e' : ((wakeAll w (s'.agents.set t a')).map isWaking).sum + runners m (l ++ s'.log) ≤
            (s'.agents.map isWaking).sum + runners s'.mem s'.log + 1 := by omega
        have := Nat.mul_le_mul_left (4 * progs.length + 1) e'
        rw [Nat.mul_add_one] at this
        have e2 : (4 * progs.length + 1) * (2 * (j + 1) + k) =
            (4 * progs.length + 1) * (2 * j + k) + 2 * (4 * progs.length + 1) := by
          rw [show 2 * (j + 1) + k = 2 * j + k + 2 by omega, Nat.mul_add, Nat.mul_comm _ 2]
        omega
  | @glitch n k s' s'' _ hgl ih =>
    obtain ⟨j, hj, hr, hg, hlen, hp⟩ := ih
    obtain ⟨hg', habs⟩ := hg.glitch hgl
    obtain ⟨t, a, old, a', ha, hsp, rfl⟩ := hgl
    have hlen' : (s'.agents.set t a').length = progs.length := by rw [List.length_set, hlen]
    refine ⟨j, hj, habs ▸ hr, hg', hlen', ?_⟩
    obtain ⟨_, _, _, h4, h5⟩ := spurious_cases hsp
    have hw := sum_set isWaking (a' := a') ha
    have ht := togo_sum_le s'.mem (s'.agents.set t a')
    rw [hlen'] at ht
    unfold Paid at hp ⊢
    dsimp only
    have : ((s'.agents.set t a').map isWaking).sum = (s'.agents.map isWaking).sum := by omega
    rw [this]
    have e2 : (4 * progs.length + 1) * (2 * j + (k + 1)) =
        (4 * progs.length + 1) * (2 * j + k) + (4 * progs.length + 1) := by
      rw [show 2 * j + (k + 1) = 2 * j + k + 1 by omega, Nat.mul_add, Nat.mul_one]
    omega

/-- A completed static and its storage stay as they are. -/
theorem Acts.final {init : (c : Cell) → Prog Cell Val (Val c)} {t : Nat} {m m' : Memory Cell Val}
    {a a' : Agent Cell Val α} {w : Option Cell} {l : List Cell} (h : Acts init t m a m' a' w l)
    (hrun : ∀ c ∈ cellsOf a.code, status m c = .running t) (c : Cell) (v : Val c)
    (hc : m.state c = .complete ∧ m.slot c = some v) : m'.state c = .complete ∧ m'.slot c = some v := by
  have other : ∀ (d : Cell) (x : OnceState), m.state d ≠ .complete →
      (m.setState d x).state c = .complete ∧ (m.setState d x).slot c = some v := by
    intro d x hd
    refine ⟨?_, hc.2⟩
    rw [setState_other _ _ _ _ (fun h : d = c => hd (h ▸ hc.1))]; exact hc.1
  cases h with
  | waking | fast | slow | load | late | moved | queued | completed | fail | park | awake | read | broken => exact hc
  | enter code d r f hn h => exact other d _ (by rw [h]; nofun)
  | queue code d r f hn h => exact other d _ (by rw [h]; nofun)
  | store code d u after hn =>
    have hd := (not_final (running_of_status (hrun d (returns_mem hn))).1).1
    refine ⟨hc.1, ?_⟩
    rw [setSlot_other _ _ _ _ (fun h : d = c => hd (h ▸ hc.1))]; exact hc.2
  | complete code d u after hn =>
    exact other d _ (not_final (running_of_status (hrun d (returns_mem hn))).1).1
  | poison code d after hn =>
    exact other d _ (not_final (running_of_status (hrun d (unwinds_mem hn))).1).1

theorem Runs.trans {init : (c : Cell) → Prog Cell Val (Val c)} {s s' s'' : Process Cell Val α} {n k n' k' : Nat}
    (h : Runs init s n k s') (h' : Runs init s' n' k' s'') : Runs init s (n + n') (k + k') s'' := by
  induction h' with
  | start => exact h
  | step _ hs ih => exact .step ih hs
  | glitch _ hs ih => exact .glitch ih hs

theorem final_runs {init : (c : Cell) → Prog Cell Val (Val c)} {progs : List (Prog Cell Val α)}
    {s s' : Process Cell Val α} {n k n' k' : Nat} (h : Runs init (begin progs) n k s) (h' : Runs init s n' k' s')
    (c : Cell) (v : Val c) (hc : s.mem.state c = .complete ∧ s.mem.slot c = some v) :
    s'.mem.state c = .complete ∧ s'.mem.slot c = some v := by
  induction h' with
  | start => exact hc
  | step hr hs ih =>
    obtain ⟨j, _, hj, _⟩ := refines (h.trans hr)
    obtain ⟨t, a, m, a', w, l, ha, hact, rfl⟩ := hs
    exact (acts_of_act hact).final (running_of_once (Lazy.Once.runs hj) ha) c v ih
  | glitch hr hs ih =>
    obtain ⟨t, a, old, a', ha, hsp, rfl⟩ := hs
    exact ih

/-- A thread that has not finished and does not sleep can execute an operation. -/
theorem act_enabled (init : (c : Cell) → Prog Cell Val (Val c)) (t : Nat) (m : Memory Cell Val) (a : Agent Cell Val α)
    (hok : AgentOk m a) (h1 : a.pc ≠ .parked) (h2 : a.pc = .start → next a.code ≠ .finished) :
    ∃ r, act init t m a = some r := by
  obtain ⟨code, pc⟩ := a
  cases pc with
  | start =>
    cases hn : next code with
    | finished => exact absurd hn (h2 rfl)
    | reads c r f => exact ⟨_, by simp only [act, hn]; rfl⟩
    | returns d v after => exact ⟨_, by simp only [act, hn]; rfl⟩
    | unwinds d after => exact ⟨_, by simp only [act, hn]; rfl⟩
  | slow =>
    obtain ⟨c, r, f, hn⟩ := hok
    have hn : next code = _ := hn
    exact ⟨_, by simp only [act, hn]; rfl⟩
  | loaded s =>
    obtain ⟨c, r, f, hn, _⟩ := hok
    have hn : next code = _ := hn
    cases s with
    | incomplete =>
      simp only [act, hn]
      split <;> exact ⟨_, rfl⟩
    | running =>
      simp only [act, hn]
      split <;> exact ⟨_, rfl⟩
    | queued => exact ⟨_, by simp only [act, hn]; rfl⟩
    | complete => exact ⟨_, by simp only [act, hn]; rfl⟩
    | poisoned => exact ⟨_, by simp only [act, hn]; rfl⟩
  | wait =>
    obtain ⟨c, r, f, hn⟩ := hok
    have hn : next code = _ := hn
    exact ⟨_, by simp only [act, hn]; rfl⟩
  | parked => exact absurd rfl h1
  | reading =>
    obtain ⟨c, r, f, hn, _⟩ := hok
    have hn : next code = _ := hn
    simp only [act, hn]
    split <;> exact ⟨_, rfl⟩
  | stored =>
    obtain ⟨d, v, after, hn, _⟩ := hok
    have hn : next code = _ := hn
    exact ⟨_, by simp only [act, hn]; rfl⟩
  | waking c => exact ⟨_, by simp only [act]; rfl⟩
  | undefined => exact absurd hok id

theorem step_of_act {init : (c : Cell) → Prog Cell Val (Val c)} {s : Process Cell Val α} {t : Nat}
    {a : Agent Cell Val α} (ha : s.agents[t]? = some a) (h : ∃ r, act init t s.mem a = some r) :
    ∃ s', Step init s s' := by
  obtain ⟨⟨m, a', w, l⟩, h⟩ := h
  exact ⟨_, t, a, m, a', w, l, ha, h, rfl⟩

/-- No wake-up is lost: what can go on in `Verif.Model.Lazy` can go on. -/
theorem progress {init : (c : Cell) → Prog Cell Val (Val c)} {s : Process Cell Val α} (hg : Good s)
    (h : ∃ x, Lazy.Step init (abs s) x) : ∃ s', Step init s s' := by
  obtain ⟨x, t, th, cells', th', l, hth, hst, _⟩ := h
  have hth : (s.agents.map Agent.code)[t]? = some th := hth
  rw [List.getElem?_map, Option.map_eq_some_iff] at hth
  obtain ⟨a, ha, rfl⟩ := hth
  have hst : Lazy.stepThread init t (status s.mem) a.code = _ := hst
  rw [stepThread_next] at hst
  by_cases hp : a.pc = .parked
  · have hok := hg.agents t a ha
    unfold AgentOk at hok
    rw [hp] at hok
    obtain ⟨c, r, f, hn⟩ := hok
    rcases hg.parked t a c r f ha hp hn with hq | ⟨u, b, hu, hb⟩
    · rw [hn] at hst
      dsimp only at hst
      rw [status_running (.inr hq)] at hst
      cases hst
    · exact step_of_act hu (act_enabled init u s.mem b (hg.agents u b hu) (by rw [hb]; nofun) (by rw [hb]; nofun))
  · refine step_of_act ha (act_enabled init t s.mem a (hg.agents t a ha) hp fun _ hn => ?_)
    rw [hn] at hst
    cases hst

end ZkEvm.Atomics
