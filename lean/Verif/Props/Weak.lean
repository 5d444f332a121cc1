import Verif.Lemmas.Weak
import Verif.Props.Atomics
/-! C99: the lazily initialised statics under concurrent use, with the memory orders of the atomic operations. -/
namespace ZkEvm.Props
open Spec Weak
open Lazy (Static Code initialiser)

/-! ## C99 -/

-- Let the threads with the given numbers execute one operation each, with the given choices.
private def play {Cell : Type} {Val : Cell → Type} [DecidableEq Cell] {α : Type} (o : Orders)
    (init : (c : Cell) → Lazy.Prog Cell Val (Val c)) :
    List (Nat × Option Nat) → Process Cell Val α → Option (Process Cell Val α)
  | [], s => some s
  | (t, pick) :: ts, s =>
    match s.agents[t]? with
    | none => none
    | some a =>
      match act o init t pick s.mem a with
      | none => none
      | some (m, a', w, l) => play o init ts ⟨m, wakeAll w (s.agents.set t a'), l ++ s.log⟩

private theorem play_runs {Cell : Type} {Val : Cell → Type} [DecidableEq Cell] {α : Type} (o : Orders)
    (init : (c : Cell) → Lazy.Prog Cell Val (Val c)) {s0 : Process Cell Val α} {n k : Nat} :
    ∀ (ts : List (Nat × Option Nat)) (s1 s2 : Process Cell Val α), Runs o init s0 n k s1 →
      play o init ts s1 = some s2 → ∃ k', Runs o init s0 n k' s2 := by
  intro ts
  induction ts generalizing k with
  | nil => intro s1 s2 h h'; cases h'; exact ⟨k, h⟩
  | cons x ts ih =>
    obtain ⟨t, pick⟩ := x
    intro s1 s2 h h'
    unfold play at h'
    cases ha : s1.agents[t]? with
    | none => rw [ha] at h'; cases h'
    | some a =>
      rw [ha] at h'
      dsimp only at h'
      cases hact : act o init t pick s1.mem a with
      | none => rw [hact] at h'; cases h'
      | some r =>
        obtain ⟨m, a', w, l⟩ := r
        rw [hact] at h'
        exact ih _ s2 (.any h ⟨a, m, a', w, l, ha, hact, rfl⟩) h'

private def two : Process Unit (fun _ => Nat) Nat := begin [Lazy.get (), Lazy.get ()]
private def seven : (c : Unit) → Lazy.Prog Unit (fun _ => Nat) Nat := fun _ => .done (.ok 7)

private theorem played {o : Orders} {ts : List (Nat × Option Nat)} {β : Type} (q : Process Unit (fun _ => Nat) Nat → β)
    {b : β} (h : (play o seven ts two).map q = some b) : ∃ k s, Runs o seven two 0 k s ∧ q s = b := by
  cases hp : play o seven ts two with
  | none => rw [hp] at h; cases h
  | some s =>
    rw [hp] at h
    obtain ⟨k, hk⟩ := play_runs o seven ts two s (.start _) hp
    exact ⟨k, s, hk, Option.some.inj h⟩

-- Thread 1 loads the word before thread 0 does anything, sees the outdated word twice more after thread 0 has completed
-- the static, fails to exchange it, then sees the latest word and gets the value.
private theorem outdated : ∃ k s, Runs std seven two 0 k s ∧ s.log = [()] ∧
    s.agents.map Agent.result = [some (.ok 7), some (.ok 7)] := by
  obtain ⟨k, s, hr, hq⟩ := played (o := std) (fun s => (s.log, s.agents.map Agent.result)) (b := ([()], [some (.ok 7), some (.ok 7)]))
    (ts := [(1, some 0), (0, some 0), (0, some 0), (0, none), (0, none), (0, none), (1, some 0), (1, some 1), (1, some 2),
      (1, none), (1, none), (0, some 2), (0, none)]) rfl
  exact ⟨k, s, hr, (Prod.mk.inj hq).1, (Prod.mk.inj hq).2⟩

-- A thread that queues and falls asleep is woken and gets the value, although it never took over a view from its
-- relaxed exchange.
private theorem woken : ∃ k s, Runs std seven two 0 k s ∧ (s.mem.latest ()).word = .complete ∧ s.mem.slot () = some 7 ∧
    s.mem.last () = 3 ∧ s.agents.map Agent.result = [some (.ok 7), some (.ok 7)] := by
  obtain ⟨k, s, hr, hq⟩ := played (o := std)
    (fun s => ((s.mem.latest ()).word, s.mem.slot (), s.mem.last (), s.agents.map Agent.result))
    (b := (.complete, some 7, 3, [some (.ok 7), some (.ok 7)]))
    (ts := [(0, some 0), (0, some 0), (0, none), (1, some 1), (1, some 1), (1, none), (1, none), (0, none), (0, none),
      (0, none), (1, some 3), (1, none), (1, none), (0, some 3), (0, none)]) rfl
  simp only [Prod.mk.injEq] at hq
  exact ⟨k, s, hr, hq⟩

private def nopCode : Code (BitVec 64) := Lazy.get Static.nopBitspread

section
variable {Cell : Type} {Val : Cell → Type} [DecidableEq Cell] {α : Type}

/-- C99: for any statics, any threads, any schedule, any choice of the words that loads and failing exchanges see among
those that the thread is not bound to have overtaken, and any spurious events: the process looks like one that executed
every dereference, every start and every end of an initialiser in one step, on one memory. -/
theorem C99_as_if_atomic (o : Orders) (ho : OrdersSuffice o) (init : (c : Cell) → Lazy.Prog Cell Val (Val c))
    (progs : List (Lazy.Prog Cell Val α)) (n k : Nat) (s : Process Cell Val α)
    (h : Runs o init (begin progs) n k s) :
    ∃ j x, j ≤ n + k ∧ Lazy.Runs init (Lazy.begin progs) j x ∧ LooksLike (forget s) x := by
  obtain ⟨_, n', k', _, _, h3, hr⟩ := refines ho h
  obtain ⟨j, x, hj, hx, hl⟩ := C96_as_if_atomic init progs n' k' (forget s) hr
  exact ⟨j, x, by omega, hx, hl⟩

/-- C99: two threads of which one keeps seeing outdated words look like two that dereference in one step each. -/
example : ∃ k s j x, Runs std seven two 0 k s ∧ Lazy.Runs seven (Lazy.begin [Lazy.get (), Lazy.get ()]) j x ∧
    LooksLike (forget s) x ∧ x.log = [()] := by
  obtain ⟨k, s, hr, h1, _⟩ := outdated
  obtain ⟨j, x, _, hx, hl⟩ := C99_as_if_atomic std ⟨rfl, rfl⟩ seven [Lazy.get (), Lazy.get ()] 0 k s hr
  exact ⟨k, s, j, x, hr, hx, hl, hl.log.trans h1⟩

/-- C99: there is no data race and no other undefined behaviour. A thread that reads a storage finds it written, and the
write happened before the read; a thread that writes a storage finds that nobody wrote it, so nobody has read it; and
no other thread is about to access it. -/
theorem C99_no_race (o : Orders) (ho : OrdersSuffice o) (init : (c : Cell) → Lazy.Prog Cell Val (Val c))
    (progs : List (Lazy.Prog Cell Val α)) (n k : Nat) (s : Process Cell Val α)
    (h : Runs o init (begin progs) n k s) :
    (∀ (t : Nat) a, s.agents[t]? = some a → a.pc ≠ .undefined) ∧
    (∀ (t : Nat) a c, s.agents[t]? = some a → ReadsStorage (⟨a.code, a.pc⟩ : Atomics.Agent Cell Val α) c →
      s.mem.slot c ≠ none ∧ a.view.knows c = true) ∧
    (∀ (t : Nat) a c, s.agents[t]? = some a → WritesStorage (⟨a.code, a.pc⟩ : Atomics.Agent Cell Val α) c →
      s.mem.slot c = none ∧ ∀ (u : Nat) b, t ≠ u → s.agents[u]? = some b →
        ¬ WritesStorage (⟨b.code, b.pc⟩ : Atomics.Agent Cell Val α) c ∧
        ¬ ReadsStorage (⟨b.code, b.pc⟩ : Atomics.Agent Cell Val α) c) := by
  obtain ⟨hok, n', k', _, _, _, hr⟩ := refines ho h
  obtain ⟨h1, h2, h3⟩ := C96_no_race init progs n' k' (forget s) hr
  refine ⟨fun t a ha => h1 t _ (get_forget ha), fun t a c ha hc => ⟨h2 t _ c (get_forget ha) hc, ?_⟩,
    fun t a c ha hc => ⟨?_, fun u b htu hb => h3 t u _ _ c htu (get_forget ha) (get_forget hb) hc⟩⟩
  · obtain ⟨hp, r, f, hn⟩ := hc
    exact (hok.views t a ha).reads c r f hn (.inr hp)
  · obtain ⟨hp, v, after, hn⟩ := hc
    exact hok.empty (.of_runs hr) ha c v after hp hn

/-- C99: thread 1 is about to read the storage that thread 0 has written: it knows of the write. -/
example : ∃ k s a, Runs std seven two 0 k s ∧ s.agents[1]? = some a ∧ ReadsStorage ⟨a.code, a.pc⟩ () ∧
    a.view.knows () = true := by
  cases hp : play std seven [(0, some 0), (0, some 0), (0, none), (0, none), (0, none), (1, some 2)] two with
  | none => cases hp
  | some s =>
    obtain ⟨k, hr⟩ := play_runs std seven _ two s (.start _) hp
    cases hp
    exact ⟨k, _, _, hr, rfl, ⟨rfl, _, _, rfl⟩,
      ((C99_no_race std ⟨rfl, rfl⟩ seven [Lazy.get (), Lazy.get ()] 0 k _ hr).2.1 1 _ () rfl ⟨rfl, _, _, rfl⟩).2⟩

/-- C99: once a static is completed, its latest word and its storage never change, so the references handed out stay
valid. -/
theorem C99_references_valid (o : Orders) (ho : OrdersSuffice o) (init : (c : Cell) → Lazy.Prog Cell Val (Val c))
    (progs : List (Lazy.Prog Cell Val α)) (n k n' k' : Nat) (s s' : Process Cell Val α)
    (h : Runs o init (begin progs) n k s) (h' : Runs o init s n' k' s') (c : Cell) (v : Val c)
    (hc : (s.mem.latest c).word = .complete ∧ s.mem.slot c = some v) :
    (s'.mem.latest c).word = .complete ∧ s'.mem.slot c = some v := by
  obtain ⟨_, _, _, _, _, _, hr⟩ := refines ho h
  obtain ⟨_, _, hr'⟩ := refines_from ho h h'
  exact C96_references_valid init progs _ _ _ _ _ _ hr hr' c v hc

/-- C99: after both threads have the value, nothing that happens takes it away. -/
example : ∃ k s, Runs std seven two 0 k s ∧ ∀ n' k' s', Runs std seven s n' k' s' → s'.mem.slot () = some 7 := by
  obtain ⟨k, s, hr, h1, h2, _⟩ := woken
  exact ⟨k, s, hr, fun n' k' s' h' => (C99_references_valid std ⟨rfl, rfl⟩ seven _ 0 k n' k' s s' hr h' () 7 ⟨h1, h2⟩).2⟩

/-- C99: no wake-up is lost: whenever the process with atomic dereferences could go on, some thread can execute an
operation, without any spurious event and without seeing an outdated word. -/
theorem C99_no_lost_wakeup (o : Orders) (ho : OrdersSuffice o) (init : (c : Cell) → Lazy.Prog Cell Val (Val c))
    (progs : List (Lazy.Prog Cell Val α)) (n k : Nat) (s : Process Cell Val α)
    (h : Runs o init (begin progs) n k s) :
    ∃ j x, Lazy.Runs init (Lazy.begin progs) j x ∧ LooksLike (forget s) x ∧
      ((∃ x', Lazy.Step init x x') → ∃ s', Step o init s s') := by
  obtain ⟨hok, n', k', _, _, _, hr⟩ := refines ho h
  obtain ⟨_, j, x, hx, hl, hp⟩ := C96_no_lost_wakeup init progs n' k' (forget s) hr
  exact ⟨j, x, hx, hl, fun hx' => progress hok (hp hx')⟩

/-- C99: thread 1 sleeps. -/
example : ∃ k s a j x, Runs std seven two 0 k s ∧ s.agents[1]? = some a ∧ a.pc = .parked ∧
    Lazy.Runs seven (Lazy.begin [Lazy.get (), Lazy.get ()]) j x ∧ LooksLike (forget s) x ∧
    ((∃ x', Lazy.Step seven x x') → ∃ s', Step std seven s s') := by
  cases hp : play std seven [(0, some 0), (0, some 0), (0, none), (1, some 1), (1, some 1), (1, none), (1, none)] two with
  | none => cases hp
  | some s =>
    obtain ⟨k, hr⟩ := play_runs std seven _ two s (.start _) hp
    cases hp
    obtain ⟨j, x, hx, hl, hs⟩ := C99_no_lost_wakeup std ⟨rfl, rfl⟩ seven [Lazy.get (), Lazy.get ()] 0 k _ hr
    exact ⟨k, _, _, j, x, hr, rfl, rfl, hx, hl, hs⟩

end

/-- C99: the statics of this crate, used by any number of threads, under any schedule, with any delayed or spurious
events: no initialiser is started twice or panics; every completed static holds the value of its sequential
initialiser; a thread that has finished has the result it would have if all statics simply had their values; as long as
some thread has not finished, some thread can execute an operation without delay; and the number of such operations is
bounded in terms of the number of the others. -/
theorem C99_any_schedule (o : Orders) (ho : OrdersSuffice o) : ∃ env : (c : Static) → c.Val, StaticValues env ∧
    ∀ (α : Type) (progs : List (Code α)) (n k : Nat) (s : Process Static Static.Val α),
      Runs o initialiser (begin progs) n k s →
      s.log.Nodup ∧
      (∀ c, (s.mem.latest c).word ≠ .poisoned) ∧
      (∀ c, (s.mem.latest c).word = .complete → s.mem.slot c = some (env c)) ∧
      s.agents.length = progs.length ∧
      (∀ (t : Nat) a r, s.agents[t]? = some a → a.result = some r → ∃ p, progs[t]? = some p ∧ r = eval env p) ∧
      ((∃ (t : Nat) (a : Agent Static Static.Val α), s.agents[t]? = some a ∧ a.result = none) →
        ∃ s', Step o initialiser s s') ∧
      n ≤ (4 * progs.length + 1) * (2 * ((progs.map fun p => (reads env p).length).sum +
        (allStatics.map fun c => (reads env (initialiser c)).length + 2).sum) + k + 1) := by
  obtain ⟨env, henv, hall⟩ := C96_any_schedule
  refine ⟨env, henv, fun α progs n k s h => ?_⟩
  obtain ⟨hok, n', k', hn, hk, _, hr⟩ := refines ho h
  obtain ⟨h1, h2, h3, h4, h5, h6, h7⟩ := hall α progs n' k' (forget s) hr
  refine ⟨h1, h2, h3, ?_, fun t a r ha hres => h5 t _ r (get_forget ha) hres, ?_, ?_⟩
  · rw [← h4]; exact (List.length_map ..).symm
  · rintro ⟨t, a, ha, hres⟩
    exact progress hok (h6 ⟨t, _, get_forget ha, hres⟩)
  · refine Nat.le_trans hn (Nat.le_trans h7 (Nat.mul_le_mul_left _ ?_))
    omega

/-- C99: thread 0 has entered the initialiser of the nop constant, thread 1 has seen an outdated word: one initialiser has
been started, and the process can go on. -/
example : ∃ k s, Runs std initialiser (begin [nopCode, nopCode]) 0 k s ∧ s.log = [.nopBitspread] ∧
    ∃ s', Step std initialiser s s' := by
  obtain ⟨env, _, hall⟩ := C99_any_schedule std ⟨rfl, rfl⟩
  cases hp : play std initialiser [(0, some 0), (0, some 0), (0, none), (1, some 0), (1, some 0)] (begin [nopCode, nopCode]) with
  | none => cases hp
  | some s =>
    obtain ⟨k, hr⟩ := play_runs std initialiser _ _ s (.start _) hp
    cases hp
    exact ⟨k, _, hr, rfl, (hall _ _ 0 k _ hr).2.2.2.2.2.1 ⟨1, _, rfl, rfl⟩⟩

/-- C99: whatever has been done so far, there is a continuation without delays and spurious events in which all threads
finish. -/
theorem C99_finishes (o : Orders) (ho : OrdersSuffice o) (α : Type) (progs : List (Code α)) (n k : Nat)
    (s : Process Static Static.Val α) (h : Runs o initialiser (begin progs) n k s) :
    ∃ m s', Runs o initialiser s m 0 s' ∧ ∀ (t : Nat) a, s'.agents[t]? = some a → a.result ≠ none := by
  obtain ⟨env, _, hall⟩ := C99_any_schedule o ho
  generalize hB : (4 * progs.length + 1) * (2 * ((progs.map fun p => (reads env p).length).sum +
        (allStatics.map fun c => (reads env (initialiser c)).length + 2).sum) + k + 1) = B at *
  have key : ∀ d m s', B + 1 ≤ n + m + d → Runs o initialiser s m 0 s' → ∃ m' s'',
      Runs o initialiser s m' 0 s'' ∧ ∀ (t : Nat) a, s''.agents[t]? = some a → a.result ≠ none := by
    intro d
    induction d with
    | zero =>
      intro m s' hd hm
      have := (hall α progs (n + m) k s' (h.trans hm)).2.2.2.2.2.2
      rw [hB] at this
      omega
    | succ d ih =>
      intro m s' hd hm
      by_cases hu : ∃ (t : Nat) (a : Agent Static Static.Val α), s'.agents[t]? = some a ∧ a.result = none
      · obtain ⟨s'', hs⟩ := (hall α progs (n + m) k s' (h.trans hm)).2.2.2.2.2.1 hu
        exact ih (m + 1) s'' (by omega) (.step hm hs)
      · exact ⟨m, s', hm, fun t a h1 h2 => hu ⟨t, a, h1, h2⟩⟩
  exact key (B + 1) 0 s (by omega) (.start s)

/-- C99: after such a beginning both threads can still finish. -/
example : ∃ k s m s', Runs std initialiser (begin [nopCode, nopCode]) 0 k s ∧ s.log = [.nopBitspread] ∧
    Runs std initialiser s m 0 s' ∧ ∀ (t : Nat) a, s'.agents[t]? = some a → a.result ≠ none := by
  cases hp : play std initialiser [(0, some 0), (0, some 0), (0, none), (1, some 0), (1, some 0)] (begin [nopCode, nopCode]) with
  | none => cases hp
  | some s =>
    obtain ⟨k, hr⟩ := play_runs std initialiser _ _ s (.start _) hp
    obtain ⟨m, s', hm, hf⟩ := C99_finishes std ⟨rfl, rfl⟩ _ _ 0 k s hr
    cases hp
    exact ⟨k, _, m, s', hr, rfl, hm, hf⟩

private def lost (s : Process Unit (fun _ => Nat) Nat) : Option Bool :=
  s.agents[1]?.map fun a => match a.pc with | .undefined => true | _ => false

/-- C99: exactly two of the memory orders are needed. With loads that acquire and a final swap that releases no thread
ever runs into undefined behaviour, whatever the statics and threads are; if one of the two is relaxed, two threads
that dereference one static can. -/
theorem C99_orders_needed (o : Orders) : OrdersSuffice o ↔
    ∀ (Cell : Type) (Val : Cell → Type) (_ : DecidableEq Cell) (α : Type) (init : (c : Cell) → Lazy.Prog Cell Val (Val c))
      (progs : List (Lazy.Prog Cell Val α)) (n k : Nat) (s : Process Cell Val α), Runs o init (begin progs) n k s →
      ∀ (t : Nat) a, s.agents[t]? = some a → a.pc ≠ .undefined := by
  refine ⟨fun ho Cell Val _ α init progs n k s h => (C99_no_race o ho init progs n k s h).1, fun h => ?_⟩
  apply Classical.byContradiction
  intro hno
  have bad : (play o seven [(0, some 0), (0, some 0), (0, none), (0, none), (0, none), (1, some 2), (1, none)] two).map
      lost = some (some true) := by
    obtain ⟨l, e, w⟩ := o
    unfold OrdersSuffice at hno
    cases l <;> cases w <;> first | exact absurd ⟨rfl, rfl⟩ hno | (cases e <;> rfl)
  obtain ⟨k, s, hr, hq⟩ := played lost bad
  unfold lost at hq
  rw [Option.map_eq_some_iff] at hq
  obtain ⟨a, ha, hq⟩ := hq
  refine h Unit (fun _ => Nat) inferInstance Nat seven _ 0 k s hr 1 a ha ?_
  split at hq
  · assumption
  · cases hq

-- The orders of the library suffice.
example : OrdersSuffice std := ⟨rfl, rfl⟩

end ZkEvm.Props
