import Verif.Lemmas.Statics
import Verif.Lemmas.Once
/-! C76: the lazily initialised statics under concurrent use. -/
namespace ZkEvm.Props
open Lazy Spec

/-! ## C76 -/

private theorem all_statics (c : Static) : c ∈ allStatics := by cases c <;> decide

/-- C76: there is one value for every static (the one its sequential initialiser computes) such that, for any number
of threads running any computations over the statics, in every state reachable under any schedule:
no initialiser has been started twice and none has panicked; every initialised static has its value; a thread that has
finished has the result it would have if all statics simply had their values; as long as some thread has not finished,
some thread can make a step; and the number of steps made is bounded. -/
theorem C76_any_schedule : ∃ env : (c : Static) → c.Val, StaticValues env ∧
    ∀ (α : Type) (progs : List (Code α)) (n : Nat) (s : State Static Static.Val α),
      Runs initialiser (begin progs) n s →
      s.log.Nodup ∧
      (∀ c, s.cells c ≠ .poisoned) ∧
      (∀ c v, s.cells c = .ready v → v = env c) ∧
      s.threads.length = progs.length ∧
      (∀ (t : Nat) th r, s.threads[t]? = some th → th.result = some r →
        ∃ p, progs[t]? = some p ∧ r = eval env p) ∧
      ((∃ (t : Nat) (th : Thread Static Static.Val α), s.threads[t]? = some th ∧ th.result = none) →
        ∃ s', Step initialiser s s') ∧
      n ≤ (progs.map fun p => (reads env p).length).sum +
        (allStatics.map fun c => (reads env (initialiser c)).length + 2).sum := by
  obtain ⟨env, henv⟩ := values_exist
  refine ⟨env, henv, fun α progs n s h => ?_⟩
  have hi : Inv env Static.rank initialiser progs n s :=
    Inv.runs (eval_initialiser henv) (fun c => reads_initialiser c) h
  refine ⟨hi.logNodup, hi.clean, hi.ready, hi.len, fun t th r h1 h2 => result_eq hi t th r h1 h2,
    fun ⟨t, th, h1, h2⟩ => progress hi t th h1 h2, ?_⟩
  have h1 := hi.count
  have h2 := sum_le_of_nodup (weight env initialiser) s.log allStatics hi.logNodup (fun c _ => all_statics c)
  have h3 : (allStatics.map (weight env initialiser)).sum =
    (allStatics.map fun c => (reads env (initialiser c)).length + 2).sum := rfl
  omega

/-- C76: a thread has started three initialisers to get the nop constant; the process can go on. -/
example : ∃ s : State Static Static.Val (BitVec 64), Runs initialiser (begin [deref .nopBitspread]) 3 s ∧
    s.log = [.opcodesTable, .canonicalMap, .nopBitspread] ∧ ∃ s', Step initialiser s s' := by
  obtain ⟨env, _, hall⟩ := C76_any_schedule
  have hr : Runs initialiser (begin [deref .nopBitspread]) 3 _ :=
    .step (.step (.step (.start _) ⟨0, _, _, _, _, rfl, rfl, rfl⟩) ⟨0, _, _, _, _, rfl, rfl, rfl⟩)
      ⟨0, _, _, _, _, rfl, rfl, rfl⟩
  exact ⟨_, hr, rfl, (hall _ _ 3 _ hr).2.2.2.2.2.1 ⟨0, _, rfl, rfl⟩⟩

/-- C76: whatever has been done so far, every way of continuing ends, with all threads finished: there is a
continuation that finishes, and none is longer than the bound of `C76_any_schedule`. -/
theorem C76_finishes (α : Type) (progs : List (Code α)) (n : Nat) (s : State Static Static.Val α)
    (h : Runs initialiser (begin progs) n s) :
    ∃ m s', Runs initialiser (begin progs) (n + m) s' ∧
      ∀ (t : Nat) th, s'.threads[t]? = some th → th.result ≠ none := by
  obtain ⟨env, _, hall⟩ := C76_any_schedule
  generalize hB : (progs.map fun p => (reads env p).length).sum +
        (allStatics.map fun c => (reads env (initialiser c)).length + 2).sum = B at hall
  have key : ∀ k n s, B + 1 ≤ n + k → Runs initialiser (begin progs) n s → ∃ m s',
      Runs initialiser (begin progs) (n + m) s' ∧
      ∀ (t : Nat) th, s'.threads[t]? = some th → th.result ≠ none := by
    intro k
    induction k with
    | zero =>
      intro n s hk h
      have := (hall α progs n s h).2.2.2.2.2.2
      omega
    | succ k ih =>
      intro n s hk h
      by_cases hd : ∃ (t : Nat) (th : Thread Static Static.Val α), s.threads[t]? = some th ∧ th.result = none
      · obtain ⟨s', hs'⟩ := (hall α progs n s h).2.2.2.2.2.1 hd
        obtain ⟨m, s'', h1, h2⟩ := ih (n + 1) s' (by omega) (.step h hs')
        exact ⟨m + 1, s'', by rwa [show n + (m + 1) = n + 1 + m by omega], h2⟩
      · exact ⟨0, s, h, fun t th h1 h2 => hd ⟨t, th, h1, h2⟩⟩
  exact key (B + 1) n s (by omega) h

/-- C76: it also gets to the end. -/
example : ∃ m s', Runs initialiser (begin [(deref .nopBitspread : Code (BitVec 64))]) (3 + m) s' ∧
    ∀ (t : Nat) th, s'.threads[t]? = some th → th.result ≠ none :=
  C76_finishes _ _ 3 _ (.step (.step (.step (.start _) ⟨0, _, _, _, _, rfl, rfl, rfl⟩) ⟨0, _, _, _, _, rfl, rfl, rfl⟩)
    ⟨0, _, _, _, _, rfl, rfl, rfl⟩)

private theorem match_bind {β : Type} (x : Option Nat) (e : Panic) (f : Nat → Res β) :
    Except.bind (match x with | some v => .ok v | none => .error e) f =
      match x with
      | some v => Except.bind (.ok v) f
      | none => Except.bind (.error e) f := by cases x <;> rfl

/-- C76: the coders are such computations. A thread that decodes, encodes or asks for the nop or panic encoding gets,
under every schedule, the result of the sequential function. -/
theorem C76_coders (env : (c : Static) → c.Val) (h : StaticValues env) (b : Build) :
    (∀ w, eval env (parseProductionCode w) = Production.parse w) ∧
    (∀ w, eval env (parseTestingCode w) = Testing.parse w) ∧
    (∀ o, eval env (encodeProductionCode b o) = Production.encodeAsInteger b o) ∧
    (∀ o, eval env (encodeTestingCode b o) = Testing.encodeAsInteger b o) ∧
    eval env (constantProductionCode b (deref .nopVariant)) = Production.nopEncoding b ∧
    eval env (constantProductionCode b (deref .panicVariant)) = Production.exceptionRevertEncoding b ∧
    eval env (constantTestingCode b (deref .nopVariant)) = Testing.nopEncoding b ∧
    eval env (constantTestingCode b (deref .panicVariant)) = Testing.exceptionRevertEncoding b := by
  have hp : ∀ o, eval env (encodeProductionCode b o) = Production.encodeAsInteger b o := by
    intro o
    unfold encodeProductionCode Production.encodeAsInteger
    rw [h.canonical]
    simp only [eval_bind, eval_plain, eval_pure]
    exact match_bind (IndexMap.get (env .canonicalMap) o.variant) .explicitPanic _
  have ht : ∀ o, eval env (encodeTestingCode b o) = Testing.encodeAsInteger b o := by
    intro o
    unfold encodeTestingCode Testing.encodeAsInteger
    rw [h.canonical]
    simp only [eval_bind, eval_plain, eval_pure]
    exact match_bind (IndexMap.get (env .canonicalMap) o.variant) .explicitPanic _
  refine ⟨fun w => ?_, fun w => ?_, hp, ht, ?_, ?_, ?_, ?_⟩
  · unfold parseProductionCode Production.parse Production.variantAndConditionFromU64Word
    rw [h.table]
    simp only [eval_bind, eval_plain, bind_assoc]
    rfl
  · unfold parseTestingCode Testing.parse Testing.variantAndConditionFromU128Word
    rw [h.table]
    simp only [eval_bind, eval_plain, bind_assoc]
    rfl
  · unfold constantProductionCode Production.nopEncoding
    rw [h.nop, eval_bind]
    simp only [hp]
    rfl
  · unfold constantProductionCode Production.exceptionRevertEncoding
    rw [h.pan, eval_bind]
    simp only [hp]
    rfl
  · unfold constantTestingCode Testing.nopEncoding
    rw [h.nop, eval_bind]
    simp only [ht]
    rfl
  · unfold constantTestingCode Testing.exceptionRevertEncoding
    rw [h.pan, eval_bind]
    simp only [ht]
    rfl

/-- C76: the values of the statics exist, so that a program that encodes can be evaluated. -/
example : ∃ env : (c : Static) → c.Val, StaticValues env ∧
    ∀ b o, eval env (encodeProductionCode b o) = Production.encodeAsInteger b o := by
  obtain ⟨env, h⟩ := values_exist
  exact ⟨env, h, fun b => (C76_coders env h b).2.2.1⟩

/-- C76, for any set of statics whatever their initialisers do (panic, or wait for each other for ever), any number of
threads and any schedule: no initialiser is started twice, not even after a panic; an initialised static holds what its
initialiser gives and a poisoned one has a panicking initialiser; and a thread that has finished has the result of
reading the statics as they are. -/
theorem C76_any_statics {Cell : Type} {Val : Cell → Type} [DecidableEq Cell] {α : Type}
    (init : (c : Cell) → Prog Cell Val (Val c)) (progs : List (Prog Cell Val α)) (n : Nat) (s : State Cell Val α)
    (h : Runs init (begin progs) n s) :
    s.log.Nodup ∧
    (∀ c, c ∈ s.log ↔ s.cells c ≠ .uninit) ∧
    (∀ c v, s.cells c = .ready v → Sees s.cells (init c) (.ok v)) ∧
    (∀ c, s.cells c = .poisoned → ∃ e, Sees s.cells (init c) (.error e)) ∧
    (∀ (t : Nat) th r, s.threads[t]? = some th → th.result = some r →
      ∃ p, progs[t]? = some p ∧ Sees s.cells p r) := by
  have hi := Once.runs h
  exact ⟨hi.logNodup, hi.logMem, fun c => (hi.justified c).1, fun c => (hi.justified c).2, hi.result⟩

/-- C76: the first thread has run a failing initialiser: the static is poisoned, and the initialiser did fail. -/
example : ∃ s : State Unit (fun _ => Nat) Nat,
    Runs (fun _ => lift (.error .assertFailed)) (begin [get (), get ()]) 2 s ∧ s.log.Nodup ∧
    ∃ e, Sees s.cells (lift (.error .assertFailed) : Prog Unit (fun _ => Nat) Nat) (.error e) := by
  have hr : Runs (fun _ => lift (.error .assertFailed)) (begin [get (), get ()]) 2
      (_ : State Unit (fun _ => Nat) Nat) :=
    .step (.step (.start _) ⟨0, _, _, _, _, rfl, rfl, rfl⟩) ⟨0, _, _, _, _, rfl, rfl, rfl⟩
  have h := C76_any_statics _ _ 2 _ hr
  exact ⟨_, hr, h.1, h.2.2.2.1 () rfl⟩

/-- C76: whatever happens later, an initialised static keeps its value and a poisoned one stays poisoned. -/
theorem C76_permanent {Cell : Type} {Val : Cell → Type} [DecidableEq Cell] {α : Type}
    (init : (c : Cell) → Prog Cell Val (Val c)) (progs : List (Prog Cell Val α)) (n m : Nat) (s s' : State Cell Val α)
    (h : Runs init (begin progs) n s) (h' : Runs init s m s') (c : Cell) :
    (∀ v, s.cells c = .ready v → s'.cells c = .ready v) ∧ (s.cells c = .poisoned → s'.cells c = .poisoned) :=
  ((Once.runs h).later h').2 c

/-- C76: it stays poisoned, whatever the second thread does. -/
example : ∃ s : State Unit (fun _ => Nat) Nat,
    Runs (fun _ => lift (.error .assertFailed)) (begin [get (), get ()]) 2 s ∧
    ∀ m s', Runs (fun _ => lift (.error .assertFailed)) s m s' → s'.cells () = .poisoned := by
  have hr : Runs (fun _ => lift (.error .assertFailed)) (begin [get (), get ()]) 2
      (_ : State Unit (fun _ => Nat) Nat) :=
    .step (.step (.start _) ⟨0, _, _, _, _, rfl, rfl, rfl⟩) ⟨0, _, _, _, _, rfl, rfl, rfl⟩
  exact ⟨_, hr, fun m s' h' => (C76_permanent _ _ 2 m _ s' hr h' ()).2 rfl⟩

/-- C76: two threads running the same computation, finished at any two times of one execution, both have the same value
or both panicked. -/
theorem C76_agree {Cell : Type} {Val : Cell → Type} [DecidableEq Cell] {α : Type}
    (init : (c : Cell) → Prog Cell Val (Val c)) (progs : List (Prog Cell Val α)) (n m : Nat) (s s' : State Cell Val α)
    (h : Runs init (begin progs) n s) (h' : Runs init s m s') (t t' : Nat) (p : Prog Cell Val α)
    (ht : progs[t]? = some p) (ht' : progs[t']? = some p) (th th' : Thread Cell Val α) (r r' : Res α)
    (h1 : s.threads[t]? = some th) (h2 : s'.threads[t']? = some th')
    (h3 : th.result = some r) (h4 : th'.result = some r') : r = r' ∨ (Panics r ∧ Panics r') := by
  have hi := Once.runs h
  obtain ⟨hi', hl⟩ := hi.later h'
  obtain ⟨q, hq, hs⟩ := hi.result t th r h1 h3
  obtain ⟨q', hq', hs'⟩ := hi'.result t' th' r' h2 h4
  rw [ht] at hq; cases hq
  rw [ht'] at hq'; cases hq'
  exact Sees.agree (Sees.later hl hs) hs'

-- Two threads dereference a static whose initialiser fails: the first runs it and panics, then the second panics too.
example : ∃ s : State Unit (fun _ => Nat) Nat,
    Runs (fun _ => lift (.error .assertFailed)) (begin [get (), get ()]) 3 s ∧ s.log = [()] ∧
    s.cells () = .poisoned ∧
    (∃ th, s.threads[0]? = some th ∧ th.result = some (.error .assertFailed)) ∧
    (∃ th, s.threads[1]? = some th ∧ th.result = some (.error .explicitPanic)) :=
  ⟨_, .step (.step (.step (.start _) ⟨0, _, _, _, _, rfl, rfl, rfl⟩) ⟨0, _, _, _, _, rfl, rfl, rfl⟩)
    ⟨1, _, _, _, _, rfl, rfl, rfl⟩, rfl, rfl, ⟨_, rfl, rfl⟩, ⟨_, rfl, rfl⟩⟩

-- Two threads, one about to use the nop constant and one about to decode a word: the first enters the initialiser of the
-- nop variant, then that of the lookup map, then that of the table; meanwhile the second cannot proceed.
example : ∃ s : State Static Static.Val (BitVec 64), Runs initialiser
    (begin [deref .nopBitspread, (do let _ ← parseProductionCode 0; pure 0)]) 3 s ∧
    s.log = [.opcodesTable, .canonicalMap, .nopBitspread] ∧
    (∀ th, s.threads[1]? = some th → stepThread initialiser 1 s.cells th = none) := by
  refine ⟨_, .step (.step (.step (.start _) ⟨0, _, _, _, _, rfl, rfl, rfl⟩) ⟨0, _, _, _, _, rfl, rfl, rfl⟩)
    ⟨0, _, _, _, _, rfl, rfl, rfl⟩, rfl, ?_⟩
  intro th h
  cases h
  rfl

-- The model does have deadlocks: a static whose initialiser dereferences itself never gets initialised.
example : ∃ s : State Unit (fun _ => Nat) Nat, Runs (fun c => get c) (begin [get ()]) 1 s ∧
    (∃ th, s.threads[0]? = some th ∧ th.result = none) ∧ ¬ ∃ s', Step (fun c => get c) s s' := by
  refine ⟨_, .step (.start _) ⟨0, _, _, _, _, rfl, rfl, rfl⟩, ⟨_, rfl, rfl⟩, ?_⟩
  rintro ⟨s', t, th, cells', th', started, h1, h2, _⟩
  cases t with
  | zero => cases h1; cases h2
  | succ t => cases h1

-- and panicking initialisers poison the static and the thread
example : ∃ s : State Unit (fun _ => Nat) Nat, Runs (fun _ => lift (.error .assertFailed)) (begin [get ()]) 2 s ∧
    (∃ th, s.threads[0]? = some th ∧ th.result = some (.error .assertFailed)) ∧ s.cells () = .poisoned :=
  ⟨_, .step (.step (.start _) ⟨0, _, _, _, _, rfl, rfl, rfl⟩) ⟨0, _, _, _, _, rfl, rfl, rfl⟩, ⟨_, rfl, rfl⟩, rfl⟩

end ZkEvm.Props
