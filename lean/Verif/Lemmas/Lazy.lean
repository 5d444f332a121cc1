import Verif.Spec.Lazy
/-! The invariant of concurrent initialisation, for any set of statics without circular initialisation. -/
namespace ZkEvm.Lazy
open Spec

variable {Cell : Type} {Val : Cell → Type} {α β : Type}

theorem eval_bind (env : (c : Cell) → Val c) (p : Prog Cell Val α) (f : α → Prog Cell Val β) :
    eval env (p >>= f) = (eval env p).bind fun a => eval env (f a) := by
  show eval env (p.bind f) = _
  induction p with
  | done r => cases r <;> rfl
  | read c k ih => exact ih _

theorem reads_bind (env : (c : Cell) → Val c) (p : Prog Cell Val α) (f : α → Prog Cell Val β) (d : Cell)
    (h : d ∈ reads env (p >>= f)) : d ∈ reads env p ∨ ∃ a, eval env p = .ok a ∧ d ∈ reads env (f a) := by
  replace h : d ∈ reads env (p.bind f) := h
  induction p with
  | done r =>
    cases r with
    | ok a => exact .inr ⟨a, rfl, h⟩
    | error e => exact absurd h (by simp [Prog.bind, reads])
  | read c k ih =>
    rcases List.mem_cons.1 h with h | h
    · exact .inl (List.mem_cons.2 (.inl h))
    · rcases ih _ h with h | h
      · exact .inl (List.mem_cons.2 (.inr h))
      · exact .inr h

variable [DecidableEq Cell]

theorem update_same (cells : (c : Cell) → Status (Val c)) (c : Cell) (s : Status (Val c)) :
    update cells c s c = s := by
  unfold update
  rw [dif_pos rfl]

theorem update_other (cells : (c : Cell) → Status (Val c)) (c : Cell) (s : Status (Val c)) (d : Cell)
    (h : c ≠ d) : update cells c s d = cells d := by
  unfold update
  rw [dif_neg h]

/-- the statics a thread is initialising -/
def cellsOf (th : Thread Cell Val α) : List Cell := th.stack.map Frame.cell

/-- steps a thread still has to make, not counting initialisers yet to be entered -/
def cost (env : (c : Cell) → Val c) (th : Thread Cell Val α) : Nat :=
  (reads env th.main).length + (th.stack.map fun f => (reads env f.prog).length + 1).sum

/-- steps caused by initialising a static -/
def weight (env : (c : Cell) → Val c) (init : (c : Cell) → Prog Cell Val (Val c)) (c : Cell) : Nat :=
  (reads env (init c)).length + 2

structure ThreadOk (env : (c : Cell) → Val c) (rank : Cell → Nat) (r : Res α) (th : Thread Cell Val α) : Prop where
  frames : ∀ f ∈ th.stack, eval env f.prog = .ok (env f.cell) ∧ ∀ d ∈ reads env f.prog, rank d < rank f.cell
  sorted : (cellsOf th).Pairwise fun c d => rank c < rank d
  main : eval env th.main = r

theorem stepThread_cases (env : (c : Cell) → Val c) (rank : Cell → Nat)
    (init : (c : Cell) → Prog Cell Val (Val c))
    (hinit : ∀ c, eval env (init c) = .ok (env c)) (hrank : ∀ c, ∀ d ∈ reads env (init c), rank d < rank c)
    (t : Nat) (cells cells' : (c : Cell) → Status (Val c)) (th th' : Thread Cell Val α) (started : List Cell)
    (r : Res α) (hok : ThreadOk env rank r th) (hready : ∀ c v, cells c = .ready v → v = env c)
    (hclean : ∀ c, cells c ≠ .poisoned)
    (h : stepThread init t cells th = some (cells', th', started)) :
    ThreadOk env rank r th' ∧
    ((cells' = cells ∧ cellsOf th' = cellsOf th ∧ started = [] ∧ cost env th = cost env th' + 1) ∨
     (∃ c, cells c = .uninit ∧ cells' = update cells c (.running t) ∧ cellsOf th' = c :: cellsOf th ∧
        started = [c] ∧ cost env th' = cost env th + (reads env (init c)).length + 1) ∨
     (∃ d, cells' = update cells d (.ready (env d)) ∧ cellsOf th = d :: cellsOf th' ∧ started = [] ∧
        cost env th = cost env th' + 1)) := by
  obtain ⟨main, stack⟩ := th
  obtain ⟨hf, hs, hm⟩ := hok
  cases stack with
  | nil =>
    cases main with
    | done r => cases h
    | read c k =>
      simp only [stepThread] at h
      cases hc : cells c with
      | ready v =>
        rw [hc] at h; cases h
        have := hready c v hc; subst this
        refine ⟨⟨by simp, by simp [cellsOf], hm⟩, .inl ⟨rfl, rfl, rfl, ?_⟩⟩
        simp [cost, reads]
      | uninit =>
        rw [hc] at h; cases h
        refine ⟨⟨?_, by simp [cellsOf], hm⟩, .inr (.inl ⟨c, hc, rfl, rfl, rfl, ?_⟩)⟩
        · intro f hfm
          cases List.mem_singleton.1 hfm
          exact ⟨hinit c, hrank c⟩
        · simp [cost, reads]; omega
      | running u => rw [hc] at h; cases h
      | poisoned => exact absurd hc (hclean c)
  | cons f rest =>
    obtain ⟨d, p⟩ := f
    have hfd := hf ⟨d, p⟩ List.mem_cons_self
    have hfr : ∀ f ∈ rest, eval env f.prog = .ok (env f.cell) ∧ ∀ d ∈ reads env f.prog, rank d < rank f.cell :=
      fun f hfm => hf f (List.mem_cons_of_mem _ hfm)
    have hs' : (∀ c ∈ rest.map Frame.cell, rank d < rank c) ∧
        (rest.map Frame.cell).Pairwise fun c d => rank c < rank d := List.pairwise_cons.1 hs
    cases p with
    | done q =>
      cases q with
      | error e => exact absurd hfd.1 (by simp [eval])
      | ok v =>
        have hv : v = env d := Except.ok.inj hfd.1
        subst hv
        simp only [stepThread] at h
        cases h
        refine ⟨⟨hfr, hs'.2, hm⟩, .inr (.inr ⟨d, rfl, rfl, rfl, ?_⟩)⟩
        simp [cost, reads]; omega
    | read c k =>
      simp only [stepThread] at h
      cases hc : cells c with
      | ready v =>
        rw [hc] at h; cases h
        have := hready c v hc; subst this
        refine ⟨⟨?_, hs, hm⟩, .inl ⟨rfl, rfl, rfl, ?_⟩⟩
        · intro f hfm
          rcases List.mem_cons.1 hfm with rfl | hfm
          · exact ⟨hfd.1, fun x hx => hfd.2 x (List.mem_cons_of_mem _ hx)⟩
          · exact hfr f hfm
        · simp [cost, reads]; omega
      | uninit =>
        rw [hc] at h; cases h
        have hcd : rank c < rank d := hfd.2 c List.mem_cons_self
        refine ⟨⟨?_, ?_, hm⟩, .inr (.inl ⟨c, hc, rfl, rfl, rfl, ?_⟩)⟩
        · intro f hfm
          rcases List.mem_cons.1 hfm with rfl | hfm
          · exact ⟨hinit c, hrank c⟩
          · exact hf f hfm
        · refine List.pairwise_cons.2 ⟨fun x hx => ?_, hs⟩
          rcases List.mem_cons.1 hx with rfl | hx
          · exact hcd
          · exact Nat.lt_trans hcd (hs'.1 x hx)
        · simp [cost, reads]; omega
      | running u => rw [hc] at h; cases h
      | poisoned => exact absurd hc (hclean c)

/-- the statics thread number `t` is initialising -/
def cellsAt (threads : List (Thread Cell Val α)) (t : Nat) : List Cell := (threads[t]?.map cellsOf).getD []

omit [DecidableEq Cell] in
theorem cellsAt_set {threads : List (Thread Cell Val α)} {t : Nat} {th th' : Thread Cell Val α}
    (h : threads[t]? = some th) (u : Nat) :
    cellsAt (threads.set t th') u = if t = u then cellsOf th' else cellsAt threads u := by
  unfold cellsAt
  rw [List.getElem?_set]
  have hlt : t < threads.length := (List.getElem?_eq_some_iff.1 h).1
  by_cases htu : t = u
  · rw [if_pos htu, if_pos htu, ]
    subst htu
    rw [if_pos hlt]; rfl
  · rw [if_neg htu, if_neg htu]

omit [DecidableEq Cell] in
theorem cellsAt_get {threads : List (Thread Cell Val α)} {t : Nat} {th : Thread Cell Val α}
    (h : threads[t]? = some th) : cellsAt threads t = cellsOf th := by
  unfold cellsAt; rw [h]; rfl

/-- total cost of all threads -/
def remaining (env : (c : Cell) → Val c) (threads : List (Thread Cell Val α)) : Nat :=
  (threads.map (cost env)).sum

omit [DecidableEq Cell] in
theorem remaining_set (env : (c : Cell) → Val c) {threads : List (Thread Cell Val α)} {t : Nat}
    {th th' : Thread Cell Val α} (h : threads[t]? = some th) :
    remaining env (threads.set t th') + cost env th = remaining env threads + cost env th' := by
  unfold remaining
  induction threads generalizing t with
  | nil => cases h
  | cons a l ih =>
    cases t with
    | zero =>
      cases h
      simp only [List.set_cons_zero, List.map_cons, List.sum_cons]; omega
    | succ t =>
      have := ih h
      simp only [List.set_cons_succ, List.map_cons, List.sum_cons]; omega

structure Inv (env : (c : Cell) → Val c) (rank : Cell → Nat) (init : (c : Cell) → Prog Cell Val (Val c))
    (progs : List (Prog Cell Val α)) (n : Nat) (s : State Cell Val α) : Prop where
  len : s.threads.length = progs.length
  ready : ∀ c v, s.cells c = .ready v → v = env c
  clean : ∀ c, s.cells c ≠ .poisoned
  owner : ∀ c t, s.cells c = .running t ↔ c ∈ cellsAt s.threads t
  threads : ∀ (t : Nat) th, s.threads[t]? = some th →
    ∃ p, progs[t]? = some p ∧ ThreadOk env rank (eval env p) th
  logNodup : s.log.Nodup
  logMem : ∀ c, c ∈ s.log ↔ s.cells c ≠ .uninit
  count : n + remaining env s.threads =
    (progs.map fun p => (reads env p).length).sum + (s.log.map (weight env init)).sum

omit [DecidableEq Cell] in
theorem Inv.begin (env : (c : Cell) → Val c) (rank : Cell → Nat) (init : (c : Cell) → Prog Cell Val (Val c))
    (progs : List (Prog Cell Val α)) : Inv env rank init progs 0 (begin progs) where
  len := List.length_map ..
  ready c v h := nomatch h
  clean c h := nomatch h
  owner c t := by
    refine ⟨fun h => (nomatch h), fun h => ?_⟩
    unfold cellsAt Lazy.begin at h
    rw [List.getElem?_map] at h
    cases hp : progs[t]? with
    | none => rw [hp] at h; cases h
    | some p => rw [hp] at h; cases h
  threads t th h := by
    unfold Lazy.begin at h
    rw [List.getElem?_map] at h
    cases hp : progs[t]? with
    | none => rw [hp] at h; cases h
    | some p => rw [hp] at h; cases h; exact ⟨p, rfl, by simp, by simp [cellsOf], rfl⟩
  logNodup := List.nodup_nil
  logMem c := ⟨fun h => (nomatch h), fun h => absurd rfl h⟩
  count := by
    have : ∀ l : List (Prog Cell Val α), remaining env (l.map fun p => (⟨p, []⟩ : Thread Cell Val α)) =
        (l.map fun p => (reads env p).length).sum := by
      intro l
      unfold remaining
      rw [List.map_map]
      congr 1
    show 0 + remaining env (progs.map fun p => (⟨p, []⟩ : Thread Cell Val α)) = _ + ([] : List Nat).sum
    rw [this]; simp

section
variable {env : (c : Cell) → Val c} {rank : Cell → Nat} {init : (c : Cell) → Prog Cell Val (Val c)}
  {progs : List (Prog Cell Val α)}

theorem Inv.step (hinit : ∀ c, eval env (init c) = .ok (env c))
    (hrank : ∀ c, ∀ d ∈ reads env (init c), rank d < rank c)
    {n : Nat} {s s' : State Cell Val α} (hi : Inv env rank init progs n s) (hs : Step init s s') :
    Inv env rank init progs (n + 1) s' := by
  obtain ⟨t, th, cells', th', started, hth, hst, rfl⟩ := hs
  obtain ⟨p, hp, hok⟩ := hi.threads t th hth
  obtain ⟨hok', hc⟩ := stepThread_cases env rank init hinit hrank t s.cells cells' th th' started _ hok
    hi.ready hi.clean hst
  have hthreads : ∀ (u : Nat) x, (s.threads.set t th')[u]? = some x →
      ∃ p, progs[u]? = some p ∧ ThreadOk env rank (eval env p) x := by
    intro u x hx
    rw [List.getElem?_set] at hx
    by_cases htu : t = u
    · subst htu
      rw [if_pos rfl, if_pos (List.getElem?_eq_some_iff.1 hth).1] at hx
      cases hx
      exact ⟨p, hp, hok'⟩
    · rw [if_neg htu] at hx
      exact hi.threads u x hx
  have hcount := hi.count
  have hrem := remaining_set env (th' := th') hth
  have hat := cellsAt_get hth
  rcases hc with ⟨rfl, h2, rfl, h4⟩ | ⟨c, h1, rfl, h3, rfl, h5⟩ | ⟨d, rfl, h2, rfl, h4⟩
  · refine ⟨?_, hi.ready, hi.clean, fun c u => ?_, hthreads, hi.logNodup, hi.logMem, ?_⟩
    · rw [← hi.len]; exact List.length_set
    · show _ ↔ c ∈ cellsAt (s.threads.set t th') u
      rw [cellsAt_set hth]
      by_cases htu : t = u
      · subst htu; rw [if_pos rfl, h2, ← hat]; exact hi.owner c t
      · rw [if_neg htu]; exact hi.owner c u
    · show n + 1 + remaining env (s.threads.set t th') = _ + (s.log.map (weight env init)).sum
      omega
  · have hnl : c ∉ s.log := fun hm => (hi.logMem c).1 hm h1
    refine ⟨?_, fun e v he => ?_, fun e he => ?_, fun e u => ?_, hthreads, ?_, fun e => ?_, ?_⟩
    · rw [← hi.len]; exact List.length_set
    · by_cases hce : c = e
      · subst hce
        have he : update s.cells c (.running t) c = .ready v := he
        rw [update_same] at he; cases he
      · have he : update s.cells c (.running t) e = .ready v := he
        rw [update_other _ _ _ _ hce] at he; exact hi.ready e v he
    · by_cases hce : c = e
      · subst hce
        have he : update s.cells c (.running t) c = .poisoned := he
        rw [update_same] at he; cases he
      · have he : update s.cells c (.running t) e = .poisoned := he
        rw [update_other _ _ _ _ hce] at he; exact hi.clean e he
    · show update s.cells c (.running t) e = .running u ↔ e ∈ cellsAt (s.threads.set t th') u
      rw [cellsAt_set hth]
      by_cases hce : c = e
      · subst hce
        rw [update_same]
        by_cases htu : t = u
        · subst htu
          rw [if_pos rfl, h3]
          exact ⟨fun _ => List.mem_cons_self, fun _ => rfl⟩
        · rw [if_neg htu]
          refine ⟨fun h => ?_, fun h => ?_⟩
          · cases h; exact absurd rfl htu
          · have := (hi.owner c u).2 h
            rw [h1] at this; cases this
      · rw [update_other _ _ _ _ hce, hi.owner e u]
        by_cases htu : t = u
        · subst htu
          rw [if_pos rfl, h3, hat, List.mem_cons]
          exact ⟨.inr, fun h => h.resolve_left fun h => hce h.symm⟩
        · rw [if_neg htu]
    · exact List.nodup_cons.2 ⟨hnl, hi.logNodup⟩
    · show e ∈ c :: s.log ↔ update s.cells c (.running t) e ≠ .uninit
      rw [List.mem_cons]
      by_cases hce : c = e
      · subst hce
        rw [update_same]
        exact ⟨fun _ h => (nomatch h), fun _ => .inl rfl⟩
      · rw [update_other _ _ _ _ hce, ← hi.logMem e]
        exact ⟨fun h => h.resolve_left fun h => hce h.symm, .inr⟩
    · show n + 1 + remaining env (s.threads.set t th') = _ + ((c :: s.log).map (weight env init)).sum
      rw [List.map_cons, List.sum_cons]
      unfold weight at *
      omega
  · have hd : s.cells d = .running t := by
      rw [hi.owner, hat, h2]; exact List.mem_cons_self
    have hdn : d ∉ cellsOf th' := by
      intro hm
      have := (List.pairwise_cons.1 (h2 ▸ hok.sorted)).1 d hm
      omega
    refine ⟨?_, fun e v he => ?_, fun e he => ?_, fun e u => ?_, hthreads, hi.logNodup, fun e => ?_, ?_⟩
    · rw [← hi.len]; exact List.length_set
    · by_cases hce : d = e
      · subst hce
        have he : update s.cells d (.ready (env d)) d = .ready v := he
        rw [update_same] at he; cases he; rfl
      · have he : update s.cells d (.ready (env d)) e = .ready v := he
        rw [update_other _ _ _ _ hce] at he; exact hi.ready e v he
    · by_cases hce : d = e
      · subst hce
        have he : update s.cells d (.ready (env d)) d = .poisoned := he
        rw [update_same] at he; cases he
      · have he : update s.cells d (.ready (env d)) e = .poisoned := he
        rw [update_other _ _ _ _ hce] at he; exact hi.clean e he
    · show update s.cells d (.ready (env d)) e = .running u ↔ e ∈ cellsAt (s.threads.set t th') u
      rw [cellsAt_set hth]
      by_cases hce : d = e
      · subst hce
        rw [update_same]
        refine ⟨fun h => (nomatch h), fun h => ?_⟩
        by_cases htu : t = u
        · rw [if_pos htu] at h; exact absurd h hdn
        · rw [if_neg htu] at h
          have := (hi.owner d u).2 h
          rw [hd] at this; cases this; exact absurd rfl htu
      · rw [update_other _ _ _ _ hce, hi.owner e u]
        by_cases htu : t = u
        · subst htu
          rw [if_pos rfl, hat, h2, List.mem_cons]
          exact ⟨fun h => h.resolve_left fun h => hce h.symm, .inr⟩
        · rw [if_neg htu]
    · show e ∈ s.log ↔ update s.cells d (.ready (env d)) e ≠ .uninit
      by_cases hce : d = e
      · subst hce
        rw [update_same, hi.logMem, hd]
        exact ⟨fun _ h => (nomatch h), fun _ h => (nomatch h)⟩
      · rw [update_other _ _ _ _ hce]; exact hi.logMem e
    · show n + 1 + remaining env (s.threads.set t th') = _ + (s.log.map (weight env init)).sum
      omega

theorem Inv.runs (hinit : ∀ c, eval env (init c) = .ok (env c))
    (hrank : ∀ c, ∀ d ∈ reads env (init c), rank d < rank c)
    {n : Nat} {s : State Cell Val α} (h : Runs init (Lazy.begin progs) n s) : Inv env rank init progs n s := by
  generalize hs : Lazy.begin progs = s0 at h
  induction h with
  | start => subst hs; exact Inv.begin env rank init progs
  | step _ hstep ih => exact ih.step hinit hrank hstep

/-- A thread initialising a static of rank at most `r` is, or waits for a thread that is, able to make a step. -/
theorem progress_aux {n : Nat} {s : State Cell Val α} (hi : Inv env rank init progs n s) :
    ∀ (r : Nat) (t : Nat) (th : Thread Cell Val α) (d : Cell) (p : Prog Cell Val (Val d)) rest,
      s.threads[t]? = some th → th.stack = ⟨d, p⟩ :: rest → rank d ≤ r → ∃ s', Step init s s' := by
  intro r
  induction r with
  | zero =>
    intro t th d p rest hth hst hr
    obtain ⟨q, _, hok⟩ := hi.threads t th hth
    have hf := hok.frames ⟨d, p⟩ (hst ▸ List.mem_cons_self)
    obtain ⟨main, stack⟩ := th
    cases hst
    cases p with
    | done x =>
      cases x with
      | ok v => exact ⟨_, t, _, _, _, _, hth, rfl, rfl⟩
      | error e => exact ⟨_, t, _, _, _, _, hth, rfl, rfl⟩
    | read c k =>
      have := hf.2 c List.mem_cons_self
      have h2 : rank d ≤ 0 := hr
      have h3 : rank c < rank d := this
      omega
  | succ r ih =>
    intro t th d p rest hth hst hr
    obtain ⟨q, _, hok⟩ := hi.threads t th hth
    have hf := hok.frames ⟨d, p⟩ (hst ▸ List.mem_cons_self)
    obtain ⟨main, stack⟩ := th
    cases hst
    cases p with
    | done x =>
      cases x with
      | ok v => exact ⟨_, t, _, _, _, _, hth, rfl, rfl⟩
      | error e => exact ⟨_, t, _, _, _, _, hth, rfl, rfl⟩
    | read c k =>
      have hlt : rank c < rank d := hf.2 c List.mem_cons_self
      cases hc : s.cells c with
      | ready v =>
        exact ⟨_, t, _, s.cells, ⟨main, ⟨d, k v⟩ :: rest⟩, [], hth, by simp only [stepThread, hc], rfl⟩
      | uninit =>
        exact ⟨_, t, _, update s.cells c (.running t), ⟨main, ⟨c, init c⟩ :: ⟨d, .read c k⟩ :: rest⟩, [c],
          hth, by simp only [stepThread, hc], rfl⟩
      | poisoned => exact absurd hc (hi.clean c)
      | running u =>
        have hm := (hi.owner c u).1 hc
        unfold cellsAt at hm
        cases hu : s.threads[u]? with
        | none => rw [hu] at hm; cases hm
        | some thu =>
          rw [hu] at hm
          replace hm : c ∈ cellsOf thu := hm
          obtain ⟨q', _, hok'⟩ := hi.threads u thu hu
          cases hstu : thu.stack with
          | nil => unfold cellsOf at hm; rw [hstu] at hm; cases hm
          | cons f rest' =>
            obtain ⟨e, pe⟩ := f
            refine ih u thu e pe rest' hu hstu ?_
            have hsorted := hok'.sorted
            unfold cellsOf at hm hsorted
            rw [hstu] at hm hsorted
            have hle : rank e ≤ rank c := by
              rcases List.mem_cons.1 hm with h | h
              · rw [h]; exact Nat.le_refl _
              · exact Nat.le_of_lt ((List.pairwise_cons.1 hsorted).1 c h)
            omega

theorem progress {n : Nat} {s : State Cell Val α} (hi : Inv env rank init progs n s) (t : Nat)
    (th : Thread Cell Val α) (hth : s.threads[t]? = some th) (hr : th.result = none) : ∃ s', Step init s s' := by
  obtain ⟨main, stack⟩ := th
  cases stack with
  | cons f rest => exact progress_aux hi (rank f.cell) t _ f.cell f.prog rest hth rfl (Nat.le_refl _)
  | nil =>
    cases main with
    | done r => cases hr
    | read c k =>
      cases hc : s.cells c with
      | ready v =>
        exact ⟨_, t, _, s.cells, ⟨k v, []⟩, [], hth, by simp only [stepThread, hc], rfl⟩
      | uninit =>
        exact ⟨_, t, _, update s.cells c (.running t), ⟨.read c k, [⟨c, init c⟩]⟩, [c], hth,
          by simp only [stepThread, hc], rfl⟩
      | poisoned => exact absurd hc (hi.clean c)
      | running u =>
        have hm := (hi.owner c u).1 hc
        unfold cellsAt at hm
        cases hu : s.threads[u]? with
        | none => rw [hu] at hm; cases hm
        | some thu =>
          rw [hu] at hm
          replace hm : c ∈ cellsOf thu := hm
          cases hstu : thu.stack with
          | nil => unfold cellsOf at hm; rw [hstu] at hm; cases hm
          | cons f rest' => exact progress_aux hi (rank f.cell) u thu f.cell f.prog rest' hu hstu (Nat.le_refl _)

omit [DecidableEq Cell] in
theorem result_eq {n : Nat} {s : State Cell Val α} (hi : Inv env rank init progs n s) (t : Nat)
    (th : Thread Cell Val α) (r : Res α) (hth : s.threads[t]? = some th) (hr : th.result = some r) :
    ∃ p, progs[t]? = some p ∧ r = eval env p := by
  obtain ⟨p, hp, hok⟩ := hi.threads t th hth
  refine ⟨p, hp, ?_⟩
  obtain ⟨main, stack⟩ := th
  cases stack with
  | cons f rest => cases hr
  | nil =>
    cases main with
    | read c k => cases hr
    | done x => cases hr; exact hok.main

theorem sum_le_of_nodup (w : Cell → Nat) : ∀ (l all : List Cell), l.Nodup → (∀ c ∈ l, c ∈ all) →
    (l.map w).sum ≤ (all.map w).sum
  | [], _, _, _ => Nat.zero_le _
  | c :: l, all, hn, hsub => by
    have hc : c ∈ all := hsub c List.mem_cons_self
    have hn' := List.nodup_cons.1 hn
    have hperm := List.perm_cons_erase hc
    have := sum_le_of_nodup w l (all.erase c) hn'.2 (fun d hd => by
      have hne : d ≠ c := fun h => hn'.1 (h ▸ hd)
      exact (List.mem_erase_of_ne hne).2 (hsub d (List.mem_cons_of_mem _ hd)))
    have hs := (hperm.map w).sum_nat
    rw [List.map_cons, List.sum_cons] at hs ⊢
    omega

end

end ZkEvm.Lazy
