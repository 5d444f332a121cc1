import Verif.Lemmas.Atomics
import Verif.Spec.Atomics
import Verif.Props.Statics
/-! C96: the lazily initialised statics under concurrent use, at the grain of single atomic operations. -/
namespace ZkEvm.Props
open Spec Atomics
open Lazy (Static Code initialiser)

/-! ## C96 -/

-- Let the threads with the given numbers execute one operation each.
private def play {Cell : Type} {Val : Cell → Type} [DecidableEq Cell] {α : Type}
    (init : (c : Cell) → Lazy.Prog Cell Val (Val c)) : List Nat → Process Cell Val α → Option (Process Cell Val α)
  | [], s => some s
  | t :: ts, s =>
    match s.agents[t]? with
    | none => none
    | some a =>
      match act init t s.mem a with
      | none => none
      | some (m, a', w, l) => play init ts ⟨m, wakeAll w (s.agents.set t a'), l ++ s.log⟩

private theorem play_runs {Cell : Type} {Val : Cell → Type} [DecidableEq Cell] {α : Type}
    (init : (c : Cell) → Lazy.Prog Cell Val (Val c)) {s0 : Process Cell Val α} {n k : Nat} :
    ∀ (ts : List Nat) (s1 s2 : Process Cell Val α), Runs init s0 n k s1 → play init ts s1 = some s2 →
      ∃ m, Runs init s0 m k s2 := by
  intro ts
  induction ts generalizing n with
  | nil => intro s1 s2 h h'; cases h'; exact ⟨n, h⟩
  | cons t ts ih =>
    intro s1 s2 h h'
    unfold play at h'
    cases ha : s1.agents[t]? with
    | none => rw [ha] at h'; cases h'
    | some a =>
      rw [ha] at h'
      dsimp only at h'
      cases hact : act init t s1.mem a with
      | none => rw [hact] at h'; cases h'
      | some r =>
        obtain ⟨m, a', w, l⟩ := r
        rw [hact] at h'
        exact ih _ s2 (.step h ⟨t, a, m, a', w, l, ha, hact, rfl⟩) h'

private def two : Process Unit (fun _ => Nat) Nat := begin [Lazy.get (), Lazy.get ()]
private def seven : (c : Unit) → Lazy.Prog Unit (fun _ => Nat) Nat := fun _ => .done (.ok 7)

private theorem played {ts : List Nat} {β : Type} (q : Process Unit (fun _ => Nat) Nat → β)
    {b : β} (h : (play seven ts two).map q = some b) : ∃ n s, Runs seven two n 0 s ∧ q s = b := by
  cases hp : play seven ts two with
  | none => rw [hp] at h; cases h
  | some s =>
    rw [hp] at h
    obtain ⟨n, hn⟩ := play_runs seven ts two s (.start _) hp
    exact ⟨n, s, hn, Option.some.inj h⟩

private def nopCode : Code (BitVec 64) := Lazy.get Static.nopBitspread

private def counters (s : Process Unit (fun _ => Nat) Nat) : List (Pc Unit) := s.agents.map (·.pc)

-- Two threads dereference one static. Thread 0 enters the initialiser; thread 1 sees it running, queues and falls asleep.
private theorem asleep : ∃ n s, Runs seven two n 0 s ∧ s.mem.state () = .queued ∧ counters s = [.start, .parked] := by
  obtain ⟨n, s, hr, hq⟩ := played (ts := [0, 0, 0, 1, 1, 1, 1]) (fun s => (s.mem.state (), counters s))
    (b := (.queued, [.start, .parked])) rfl
  exact ⟨n, s, hr, (Prod.mk.inj hq).1, (Prod.mk.inj hq).2⟩

-- Then thread 0 completes the static, wakes thread 1, and both get the value.
private theorem finished : ∃ n s, Runs seven two n 0 s ∧ s.mem.state () = .complete ∧ s.mem.slot () = some 7 ∧ s.log = [()] ∧
    s.agents.map Agent.result = [some (.ok 7), some (.ok 7)] := by
  obtain ⟨n, s, hr, hq⟩ := played (ts := [0, 0, 0, 1, 1, 1, 1, 0, 0, 0, 1, 1, 0, 1, 0])
    (fun s => (s.mem.state (), s.mem.slot (), s.log, s.agents.map Agent.result))
    (b := (.complete, some 7, [()], [some (.ok 7), some (.ok 7)])) rfl
  simp only [Prod.mk.injEq] at hq
  exact ⟨n, s, hr, hq⟩

section
variable {Cell : Type} {Val : Cell → Type} [DecidableEq Cell] {α : Type}

omit [DecidableEq Cell] in
private theorem abs_looksLike {s : Process Cell Val α} (hg : Good s) : LooksLike s (abs s) := by
  have key : ∀ c, status s.mem c = (abs s).cells c := fun _ => rfl
  refine ⟨rfl, rfl, fun c => ?_, fun c => ?_, fun c v => ?_, fun c => ?_⟩ <;> rw [← key] <;>
    have hc := hg.slots c <;> unfold status <;> revert hc <;>
    cases s.mem.state c <;> cases s.mem.slot c <;> simp

/-- C96: for any statics, any threads, any schedule and any spurious failures of weak compare-and-exchanges, loads of
outdated words and spurious ends of sleeps: the process looks like one that executed every dereference, every start and every end of an initialiser
in one step. All of C76 therefore holds at this grain. -/
theorem C96_as_if_atomic (init : (c : Cell) → Lazy.Prog Cell Val (Val c)) (progs : List (Lazy.Prog Cell Val α))
    (n k : Nat) (s : Process Cell Val α) (h : Runs init (begin progs) n k s) :
    ∃ j x, j ≤ n ∧ Lazy.Runs init (Lazy.begin progs) j x ∧ LooksLike s x := by
  obtain ⟨j, hj, hr, hg, _⟩ := refines h
  exact ⟨j, abs s, hj, hr, abs_looksLike hg⟩

/-- C96: the process with atomic dereferences that two threads look like once both have the value. -/
example : ∃ j x, Lazy.Runs seven (Lazy.begin [Lazy.get (), Lazy.get ()]) j x ∧ x.log = [()] ∧
    x.cells () = .ready 7 ∧ (x.threads : List (Lazy.Thread Unit (fun _ => Nat) Nat)).length = 2 := by
  obtain ⟨n, s, hr, h1, h2, h3, h4⟩ := finished
  obtain ⟨j, x, _, hx, hl⟩ := C96_as_if_atomic seven [Lazy.get (), Lazy.get ()] n 0 s hr
  refine ⟨j, x, hx, hl.log.trans h3, (hl.ready () 7).2 ⟨h1, h2⟩, ?_⟩
  have := congrArg List.length h4
  rw [hl.threads, List.length_map]
  rwa [List.length_map] at this

/-- C96: no thread ever reads an empty storage, which would be undefined behaviour; and no two threads access one
storage at the same time if one of them writes it. -/
theorem C96_no_race (init : (c : Cell) → Lazy.Prog Cell Val (Val c)) (progs : List (Lazy.Prog Cell Val α))
    (n k : Nat) (s : Process Cell Val α) (h : Runs init (begin progs) n k s) :
    (∀ (t : Nat) a, s.agents[t]? = some a → a.pc ≠ .undefined) ∧
    (∀ (t : Nat) a c, s.agents[t]? = some a → ReadsStorage a c → s.mem.slot c ≠ none) ∧
    (∀ (t u : Nat) a b c, t ≠ u → s.agents[t]? = some a → s.agents[u]? = some b → WritesStorage a c →
      ¬ WritesStorage b c ∧ ¬ ReadsStorage b c) := by
  obtain ⟨j, hj, hr, hg, _⟩ := refines h
  have ho := Lazy.Once.runs hr
  have hread : ∀ (t : Nat) a c, s.agents[t]? = some a → ReadsStorage a c → s.mem.state c = .complete := by
    rintro t ⟨code, pc⟩ c ha ⟨hp, r, f, hn⟩
    have hp : pc = .reading := hp
    subst hp
    obtain ⟨c', r', f', hn', hc⟩ := hg.agents t _ ha
    rw [hn] at hn'; cases hn'; exact hc
  refine ⟨fun t a ha hp => ?_, fun t a c ha hc => hg.slots c (hread t a c ha hc), ?_⟩
  · have := hg.agents t a ha
    unfold AgentOk at this
    rw [hp] at this; exact this
  · rintro t u a b c htu ha hb ⟨_, v, after, hn⟩
    have hc := running_of_once ho ha c (returns_mem hn)
    refine ⟨?_, fun hb' => ?_⟩
    · rintro ⟨_, v', after', hn'⟩
      have := running_of_once ho hb c (returns_mem hn')
      rw [hc] at this; cases this; exact htu rfl
    · exact (not_final (running_of_status hc).1).1 (hread u b c hb hb')

/-- C96: thread 0 is about to write the storage while thread 1 sleeps. -/
example : ∃ n s, Runs seven two n 0 s ∧ (∃ a, s.agents[0]? = some a ∧ WritesStorage a ()) ∧
    ∀ (u : Nat) b, 0 ≠ u → s.agents[u]? = some b → ¬ WritesStorage b () ∧ ¬ ReadsStorage b () := by
  cases hp : play seven [0, 0, 0, 1, 1, 1, 1] two with
  | none => cases hp
  | some s =>
    obtain ⟨n, hr⟩ := play_runs seven _ two s (.start _) hp
    cases hp
    exact ⟨n, _, hr, ⟨_, rfl, rfl, _, _, rfl⟩, fun u b hu hb =>
      (C96_no_race seven [Lazy.get (), Lazy.get ()] n 0 _ hr).2.2 0 u _ b () hu rfl hb ⟨rfl, _, _, rfl⟩⟩

/-- C96: once a static is completed, its storage never changes, so the references handed out stay valid. -/
theorem C96_references_valid (init : (c : Cell) → Lazy.Prog Cell Val (Val c)) (progs : List (Lazy.Prog Cell Val α))
    (n k n' k' : Nat) (s s' : Process Cell Val α) (h : Runs init (begin progs) n k s) (h' : Runs init s n' k' s')
    (c : Cell) (v : Val c) (hc : s.mem.state c = .complete ∧ s.mem.slot c = some v) :
    s'.mem.state c = .complete ∧ s'.mem.slot c = some v :=
  final_runs h h' c v hc

/-- C96: after both threads have the value, nothing that happens takes it away. -/
example : ∃ n s, Runs seven two n 0 s ∧ ∀ n' k' s', Runs seven s n' k' s' → s'.mem.slot () = some 7 := by
  obtain ⟨n, s, hr, h1, h2, _⟩ := finished
  exact ⟨n, s, hr, fun n' k' s' h' => (C96_references_valid seven _ n 0 n' k' s s' hr h' () 7 ⟨h1, h2⟩).2⟩

/-- C96: no wake-up is lost. A thread sleeps only while the word says so or somebody is about to wake it; and whenever
the process with atomic dereferences could go on, some thread can execute an operation, without any spurious event. -/
theorem C96_no_lost_wakeup (init : (c : Cell) → Lazy.Prog Cell Val (Val c)) (progs : List (Lazy.Prog Cell Val α))
    (n k : Nat) (s : Process Cell Val α) (h : Runs init (begin progs) n k s) :
    (∀ (t : Nat) a c, s.agents[t]? = some a → SleepsOn a c →
      s.mem.state c = .queued ∨ ∃ (u : Nat) (b : Agent Cell Val α), s.agents[u]? = some b ∧ b.pc = .waking c) ∧
    ∃ j x, Lazy.Runs init (Lazy.begin progs) j x ∧ LooksLike s x ∧
      ((∃ x', Lazy.Step init x x') → ∃ s', Step init s s') := by
  obtain ⟨j, hj, hr, hg, _⟩ := refines h
  refine ⟨?_, j, abs s, hr, abs_looksLike hg, progress hg⟩
  rintro t a c ha ⟨hp, r, f, hn⟩
  exact hg.parked t a c r f ha hp hn

/-- C96: thread 1 sleeps, and thread 0 can go on. -/
example : ∃ n s, Runs seven two n 0 s ∧ (∃ a, s.agents[1]? = some a ∧ SleepsOn a ()) ∧ s.mem.state () = .queued ∧
    ∃ j x, Lazy.Runs seven (Lazy.begin [Lazy.get (), Lazy.get ()]) j x ∧ LooksLike s x := by
  cases hp : play seven [0, 0, 0, 1, 1, 1, 1] two with
  | none => cases hp
  | some s =>
    obtain ⟨n, hr⟩ := play_runs seven _ two s (.start _) hp
    cases hp
    obtain ⟨_, j, x, hx, hl, _⟩ := C96_no_lost_wakeup seven [Lazy.get (), Lazy.get ()] n 0 _ hr
    exact ⟨n, _, hr, ⟨_, rfl, rfl, _, _, rfl⟩, rfl, j, x, hx, hl⟩

omit [DecidableEq Cell] in
private theorem result_cases {s : Process Cell Val α} (hg : Good s) {t : Nat} {a : Agent Cell Val α}
    (ha : s.agents[t]? = some a) (h : a.result = none) : a.code.result = none ∨ ∃ c, a.pc = .waking c := by
  obtain ⟨code, pc⟩ := a
  have hok := hg.agents t _ ha
  have reads : ∀ {c r f}, next code = .reads c r f → code.result = none := by
    intro c r f hn
    obtain ⟨main, stack⟩ := code
    cases stack with
    | cons g rest => rfl
    | nil =>
      cases main with
      | done r => cases hn
      | read c k => rfl
  cases pc with
  | start => exact .inl h
  | waking c => exact .inr ⟨c, rfl⟩
  | slow => obtain ⟨c, r, f, hn⟩ := hok; exact .inl (reads hn)
  | wait => obtain ⟨c, r, f, hn⟩ := hok; exact .inl (reads hn)
  | parked => obtain ⟨c, r, f, hn⟩ := hok; exact .inl (reads hn)
  | loaded s => obtain ⟨c, r, f, hn, _⟩ := hok; exact .inl (reads hn)
  | reading => obtain ⟨c, r, f, hn, _⟩ := hok; exact .inl (reads hn)
  | stored =>
    obtain ⟨d, v, after, hn, _⟩ := hok
    obtain ⟨main, stack⟩ := code
    cases stack with
    | cons g rest => exact .inl rfl
    | nil => cases main <;> cases hn
  | undefined => exact absurd hok id

end

/-- C96: the statics of this crate, used by any number of threads, under any schedule and with any spurious events: no
initialiser is started twice or panics; every completed static holds the value of its sequential initialiser; a thread
that has finished has the result it would have if all statics simply had their values; as long as some thread has not
finished, some thread can execute an operation that is not a spurious event; and the number of operations is bounded
in terms of the number of spurious events. -/
theorem C96_any_schedule : ∃ env : (c : Static) → c.Val, StaticValues env ∧
    ∀ (α : Type) (progs : List (Code α)) (n k : Nat) (s : Process Static Static.Val α),
      Runs initialiser (begin progs) n k s →
      s.log.Nodup ∧
      (∀ c, s.mem.state c ≠ .poisoned) ∧
      (∀ c, s.mem.state c = .complete → s.mem.slot c = some (env c)) ∧
      s.agents.length = progs.length ∧
      (∀ (t : Nat) a r, s.agents[t]? = some a → a.result = some r → ∃ p, progs[t]? = some p ∧ r = eval env p) ∧
      ((∃ (t : Nat) (a : Agent Static Static.Val α), s.agents[t]? = some a ∧ a.result = none) →
        ∃ s', Step initialiser s s') ∧
      n ≤ (4 * progs.length + 1) * (2 * ((progs.map fun p => (reads env p).length).sum +
        (allStatics.map fun c => (reads env (initialiser c)).length + 2).sum) + k + 1) := by
  obtain ⟨env, henv, hall⟩ := C76_any_schedule
  refine ⟨env, henv, fun α progs n k s h => ?_⟩
  obtain ⟨j, hj, hr, hg, hlen, hp⟩ := refines h
  obtain ⟨h1, h2, h3, h4, h5, h6, h7⟩ := hall α progs j (abs s) hr
  have hlook := abs_looksLike hg
  have hat : ∀ {t : Nat} {a : Agent Static Static.Val α}, s.agents[t]? = some a →
      (abs s).threads[t]? = some a.code := by
    intro t a ha
    show (s.agents.map Agent.code)[t]? = _
    rw [List.getElem?_map, ha]; rfl
  refine ⟨h1, fun c hc => h2 c ((hlook.poisoned c).2 hc), fun c hc => ?_, hlen, fun t a r ha hr => ?_, ?_, ?_⟩
  · cases hv : s.mem.slot c with
    | none => exact absurd hv (hg.slots c hc)
    | some v => rw [h3 c v ((hlook.ready c v).2 ⟨hc, hv⟩)]
  · refine h5 t a.code r (hat ha) ?_
    obtain ⟨code, pc⟩ := a
    cases pc <;> first | exact hr | cases hr
  · rintro ⟨t, a, ha, hn⟩
    rcases result_cases hg ha hn with hn | ⟨c, hc⟩
    · exact progress hg (h6 ⟨t, a.code, hat ha, hn⟩)
    · exact step_of_act ha (act_enabled initialiser t s.mem a (hg.agents t a ha) (by rw [hc]; nofun) (by rw [hc]; nofun))
  · unfold Paid at hp
    have h8 := Nat.mul_le_mul_left (4 * progs.length + 1) (show 2 * j + k ≤
      2 * ((progs.map fun p => (reads env p).length).sum +
        (allStatics.map fun c => (reads env (initialiser c)).length + 2).sum) + k by omega)
    rw [Nat.mul_add_one]
    omega

/-- C96: a run in which thread 0 has entered the initialiser of the nop constant and thread 1 sleeps on it: one initialiser
has been started, and the process can go on. -/
example : ∃ n s, Runs initialiser (begin [nopCode, nopCode]) n 0
      (s : Process Static Static.Val (BitVec 64)) ∧ s.log = [.nopBitspread] ∧ s.mem.state .nopBitspread = .queued ∧
    ∃ s', Step initialiser s s' := by
  obtain ⟨env, _, hall⟩ := C96_any_schedule
  cases hp : play initialiser [0, 0, 0, 1, 1, 1, 1] (begin [nopCode, nopCode] :
      Process Static Static.Val (BitVec 64)) with
  | none => cases hp
  | some s =>
    obtain ⟨n, hr⟩ := play_runs initialiser _ _ s (.start _) hp
    cases hp
    exact ⟨n, _, hr, rfl, rfl, (hall _ _ n 0 _ hr).2.2.2.2.2.1 ⟨1, _, rfl, rfl⟩⟩

/-- C96: whatever has been done so far, there is a continuation without spurious events in which all threads finish;
and none is longer than the bound of `C96_any_schedule`. -/
theorem C96_finishes (α : Type) (progs : List (Code α)) (n k : Nat) (s : Process Static Static.Val α)
    (h : Runs initialiser (begin progs) n k s) :
    ∃ m s', Runs initialiser s m 0 s' ∧ ∀ (t : Nat) a, s'.agents[t]? = some a → a.result ≠ none := by
  obtain ⟨env, _, hall⟩ := C96_any_schedule
  generalize hB : (4 * progs.length + 1) * (2 * ((progs.map fun p => (reads env p).length).sum +
        (allStatics.map fun c => (reads env (initialiser c)).length + 2).sum) + k + 1) = B at *
  have key : ∀ d m s', B + 1 ≤ n + m + d → Runs initialiser s m 0 s' → ∃ m' s'',
      Runs initialiser s m' 0 s'' ∧ ∀ (t : Nat) a, s''.agents[t]? = some a → a.result ≠ none := by
    intro d
    induction d with
    | zero =>
      intro m s' hd hm
      have := (hall α progs (n + m) k s' (h.trans hm)).2.2.2.2.2.2
      rw [hB] at this
      omega
    | succ d ih =>
      intro m s' hd hm
      by_cases hu : ∃ (t : Nat) (a : Agent Static Static.Val α), s'.agents[t]? = some a ∧ a.result = none
      · obtain ⟨s'', hs⟩ := (hall α progs (n + m) k s' (h.trans hm)).2.2.2.2.2.1 hu
        exact ih (m + 1) s'' (by omega) (.step hm hs)
      · exact ⟨m, s', hm, fun t a h1 h2 => hu ⟨t, a, h1, h2⟩⟩
  exact key (B + 1) 0 s (by omega) (.start s)

/-- C96: after such a beginning both threads can still finish, with the value of the constant. -/
example : ∃ n s m s', Runs initialiser (begin [nopCode, nopCode]) n 0
      (s : Process Static Static.Val (BitVec 64)) ∧ s.mem.state .nopBitspread = .queued ∧ Runs initialiser s m 0 s' ∧
    ∀ (t : Nat) a, s'.agents[t]? = some a → a.result ≠ none := by
  cases hp : play initialiser [0, 0, 0, 1, 1, 1, 1] (begin [nopCode, nopCode] :
      Process Static Static.Val (BitVec 64)) with
  | none => cases hp
  | some s =>
    obtain ⟨n, hr⟩ := play_runs initialiser _ _ s (.start _) hp
    obtain ⟨m, s', hm, hf⟩ := C96_finishes _ _ n 0 s hr
    cases hp
    exact ⟨n, _, m, s', hr, rfl, hm, hf⟩

end ZkEvm.Props
