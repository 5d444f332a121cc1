import Verif.Lemmas.Lazy
import Verif.Spec.Meaning
/-! Any set of lazily initialised statics, with initialisers that may panic or wait for each other forever. -/
namespace ZkEvm.Lazy
open Spec

variable {Cell : Type} {Val : Cell → Type} {α β : Type}

/-- Initialised and poisoned statics stay so. -/
def Later (cells cells' : (c : Cell) → Status (Val c)) : Prop :=
  ∀ c, (∀ v, cells c = .ready v → cells' c = .ready v) ∧ (cells c = .poisoned → cells' c = .poisoned)

theorem Later.refl (cells : (c : Cell) → Status (Val c)) : Later cells cells :=
  fun _ => ⟨fun _ h => h, fun h => h⟩

theorem Later.trans {a b c : (c : Cell) → Status (Val c)} (h : Later a b) (h' : Later b c) : Later a c :=
  fun d => ⟨fun v hv => (h' d).1 v ((h d).1 v hv), fun hp => (h' d).2 ((h d).2 hp)⟩

theorem Sees.later {cells cells' : (c : Cell) → Status (Val c)} (h : Later cells cells') {p : Prog Cell Val α} {r : Res α}
    (hs : Sees cells p r) : Sees cells' p r := by
  induction hs with
  | done r => exact .done r
  | ready c k v r h1 _ ih => exact .ready c k v r ((h c).1 v h1) ih
  | poisoned c k e h1 => exact .poisoned c k e ((h c).2 h1)

theorem Sees.agree {cells : (c : Cell) → Status (Val c)} {p : Prog Cell Val α} {r r' : Res α}
    (h : Sees cells p r) (h' : Sees cells p r') : r = r' ∨ (Panics r ∧ Panics r') := by
  induction h with
  | done r => cases h'; exact .inl rfl
  | ready c k v r h1 _ ih =>
    cases h' with
    | ready _ _ v' _ h2 h3 =>
      rw [h1] at h2; cases h2; exact ih h3
    | poisoned _ _ e h2 => rw [h1] at h2; cases h2
  | poisoned c k e h1 =>
    cases h' with
    | ready _ _ v' _ h2 h3 => rw [h1] at h2; cases h2
    | poisoned _ _ e' h2 => exact .inr ⟨⟨_, rfl⟩, ⟨_, rfl⟩⟩

/-- From `cells` on, `q` is what is left to do of `p`. -/
def Rest (cells : (c : Cell) → Status (Val c)) (p q : Prog Cell Val β) : Prop :=
  ∀ cells', Later cells cells' → ∀ r, Sees cells' q r → Sees cells' p r

theorem Rest.refl (cells : (c : Cell) → Status (Val c)) (p : Prog Cell Val β) : Rest cells p p :=
  fun _ _ _ h => h

theorem Rest.later {cells cells' : (c : Cell) → Status (Val c)} {p q : Prog Cell Val β} (h : Rest cells p q)
    (hl : Later cells cells') : Rest cells' p q :=
  fun c hc r hs => h c (hl.trans hc) r hs

theorem Rest.ready {cells : (c : Cell) → Status (Val c)} {p : Prog Cell Val β} {c : Cell} {k} {v : Val c}
    (h : Rest cells p (.read c k)) (hc : cells c = .ready v) : Rest cells p (k v) :=
  fun cells' hl r hs => h cells' hl r (.ready c k v r ((hl c).1 v hc) hs)

theorem Rest.poisoned {cells : (c : Cell) → Status (Val c)} {p : Prog Cell Val β} {c : Cell} {k} (e : Panic)
    (h : Rest cells p (.read c k)) (hc : cells c = .poisoned) : Rest cells p (.done (.error e)) :=
  fun cells' hl r hs => h cells' hl r (by cases hs; exact .poisoned c k e ((hl c).2 hc))

/-- Every computation below the innermost initialiser waits for the static initialised above it. -/
def Waiting (main : Prog Cell Val α) : List (Frame Cell Val) → Prop
  | [] => True
  | [f] => ∃ k, main = .read f.cell k
  | f :: g :: rest => (∃ k, g.prog = .read f.cell k) ∧ Waiting main (g :: rest)

theorem Waiting.change {main : Prog Cell Val α} {c : Cell} {p q : Prog Cell Val (Val c)} {rest}
    (h : Waiting main (⟨c, p⟩ :: rest)) : Waiting main (⟨c, q⟩ :: rest) := by
  cases rest with
  | nil => exact h
  | cons g rest => exact h

theorem Waiting.pop {main : Prog Cell Val α} {f : Frame Cell Val} {rest}
    (h : Waiting main (f :: rest)) : Waiting main rest := by
  cases rest with
  | nil => trivial
  | cons g rest => exact h.2

structure Sound (init : (c : Cell) → Prog Cell Val (Val c)) (cells : (c : Cell) → Status (Val c))
    (p : Prog Cell Val α) (th : Thread Cell Val α) : Prop where
  main : Rest cells p th.main
  frames : ∀ f ∈ th.stack, Rest cells (init f.cell) f.prog
  waiting : Waiting th.main th.stack

theorem Sound.later {init : (c : Cell) → Prog Cell Val (Val c)} {cells cells' : (c : Cell) → Status (Val c)}
    {p : Prog Cell Val α} {th : Thread Cell Val α} (h : Sound init cells p th) (hl : Later cells cells') :
    Sound init cells' p th :=
  ⟨h.main.later hl, fun f hf => (h.frames f hf).later hl, h.waiting⟩

/-- A static's status is what its initialiser gives. -/
def Justified (init : (c : Cell) → Prog Cell Val (Val c)) (cells : (c : Cell) → Status (Val c)) : Prop :=
  ∀ c, (∀ v, cells c = .ready v → Sees cells (init c) (.ok v)) ∧
    (cells c = .poisoned → ∃ e, Sees cells (init c) (.error e))

variable [DecidableEq Cell]

theorem Later.update {cells : (c : Cell) → Status (Val c)} {c : Cell} (s : Status (Val c))
    (h1 : ∀ v, cells c ≠ .ready v) (h2 : cells c ≠ .poisoned) : Later cells (update cells c s) := by
  intro d
  by_cases hd : c = d
  · subst hd; exact ⟨fun v h => absurd h (h1 v), fun h => absurd h h2⟩
  · rw [update_other _ _ _ _ hd]; exact ⟨fun _ h => h, fun h => h⟩

theorem Justified.update {init : (c : Cell) → Prog Cell Val (Val c)} {cells : (c : Cell) → Status (Val c)}
    (h : Justified init cells) {c : Cell} {s : Status (Val c)} (hl : Later cells (update cells c s))
    (h1 : ∀ v, s = .ready v → Sees (Lazy.update cells c s) (init c) (.ok v))
    (h2 : s = .poisoned → ∃ e, Sees (Lazy.update cells c s) (init c) (.error e)) :
    Justified init (Lazy.update cells c s) := by
  intro d
  by_cases hd : c = d
  · subst hd; rw [update_same]; exact ⟨h1, h2⟩
  · rw [update_other _ _ _ _ hd]
    exact ⟨fun v hv => Sees.later hl ((h d).1 v hv), fun hp => ((h d).2 hp).imp fun _ hs => Sees.later hl hs⟩

/-- What one step of one thread does, for any initialisers. -/
theorem stepThread_sound (init : (c : Cell) → Prog Cell Val (Val c)) (t : Nat)
    (cells cells' : (c : Cell) → Status (Val c)) (p : Prog Cell Val α) (th th' : Thread Cell Val α)
    (started : List Cell) (hok : Sound init cells p th) (hj : Justified init cells)
    (hrun : ∀ c ∈ cellsOf th, cells c = .running t)
    (h : stepThread init t cells th = some (cells', th', started)) :
    Sound init cells' p th' ∧ Justified init cells' ∧ Later cells cells' ∧
    ((cells' = cells ∧ cellsOf th' = cellsOf th ∧ started = []) ∨
     (∃ c, cells c = .uninit ∧ cells' = update cells c (.running t) ∧ cellsOf th' = c :: cellsOf th ∧ started = [c]) ∨
     (∃ d st, cells' = update cells d st ∧ cellsOf th = d :: cellsOf th' ∧ started = [] ∧ st ≠ .uninit ∧
        ∀ u, st ≠ .running u)) := by
  obtain ⟨main, stack⟩ := th
  obtain ⟨hm, hf, hw⟩ := hok
  have hstart : ∀ c, cells c = .uninit → Later cells (update cells c (.running t)) := fun c hc =>
    Later.update _ (fun v h => by rw [hc] at h; cases h) (fun h => by rw [hc] at h; cases h)
  have hjstart : ∀ c, cells c = .uninit → Justified init (update cells c (.running t)) := fun c hc =>
    hj.update (hstart c hc) (fun v h => nomatch h) (fun h => nomatch h)
  cases stack with
  | nil =>
    cases main with
    | done r => cases h
    | read c k =>
      simp only [stepThread] at h
      cases hc : cells c with
      | ready v =>
        rw [hc] at h; cases h
        exact ⟨⟨hm.ready hc, by simp, trivial⟩, hj, .refl _, .inl ⟨rfl, rfl, rfl⟩⟩
      | uninit =>
        rw [hc] at h; cases h
        refine ⟨⟨hm.later (hstart c hc), ?_, ⟨k, rfl⟩⟩, hjstart c hc, hstart c hc, .inr (.inl ⟨c, hc, rfl, rfl, rfl⟩)⟩
        intro f hfm
        cases List.mem_singleton.1 hfm
        exact .refl _ _
      | running u => rw [hc] at h; cases h
      | poisoned =>
        rw [hc] at h; cases h
        exact ⟨⟨hm.poisoned _ hc, by simp, trivial⟩, hj, .refl _, .inl ⟨rfl, rfl, rfl⟩⟩
  | cons f rest =>
    obtain ⟨d, q⟩ := f
    have hfd : Rest cells (init d) q := hf ⟨d, q⟩ List.mem_cons_self
    have hfr : ∀ f ∈ rest, Rest cells (init f.cell) f.prog := fun f hfm => hf f (List.mem_cons_of_mem _ hfm)
    have hd : cells d = .running t := hrun d List.mem_cons_self
    have hend : ∀ st, Later cells (update cells d st) := fun st =>
      Later.update _ (fun v h => by rw [hd] at h; cases h) (fun h => by rw [hd] at h; cases h)
    cases q with
    | done x =>
      cases x with
      | ok v =>
        simp only [stepThread] at h
        cases h
        refine ⟨⟨hm.later (hend _), fun f hfm => (hfr f hfm).later (hend _), hw.pop⟩, ?_, hend _,
          .inr (.inr ⟨d, .ready v, rfl, rfl, rfl, nofun, nofun⟩)⟩
        refine hj.update (hend _) (fun w hw => ?_) nofun
        cases hw
        exact hfd _ (hend _) _ (.done _)
      | error e =>
        simp only [stepThread] at h
        cases h
        have hjd : Justified init (update cells d .poisoned) :=
          hj.update (hend _) nofun (fun _ => ⟨e, hfd _ (hend _) _ (.done _)⟩)
        have hdp : update cells d .poisoned d = .poisoned := update_same _ _ _
        cases rest with
        | nil =>
          obtain ⟨k, hk⟩ := hw
          have hk : main = .read d k := hk
          subst hk
          exact ⟨⟨(hm.later (hend _)).poisoned e hdp, by simp [raise], trivial⟩, hjd, hend _,
            .inr (.inr ⟨d, .poisoned, rfl, rfl, rfl, nofun, nofun⟩)⟩
        | cons g rest =>
          obtain ⟨⟨k, hk⟩, hw'⟩ := hw
          have hk : g.prog = .read d k := hk
          refine ⟨⟨hm.later (hend _), ?_, hw'.change⟩, hjd, hend _,
            .inr (.inr ⟨d, .poisoned, rfl, rfl, rfl, nofun, nofun⟩)⟩
          intro f hfm
          rcases List.mem_cons.1 hfm with rfl | hfm
          · have hg := (hfr g List.mem_cons_self).later (hend .poisoned)
            rw [hk] at hg
            exact hg.poisoned e hdp
          · exact (hfr f (List.mem_cons_of_mem _ hfm)).later (hend _)
    | read c k =>
      simp only [stepThread] at h
      cases hc : cells c with
      | ready v =>
        rw [hc] at h; cases h
        refine ⟨⟨hm, ?_, hw.change⟩, hj, .refl _, .inl ⟨rfl, rfl, rfl⟩⟩
        intro f hfm
        rcases List.mem_cons.1 hfm with rfl | hfm
        · exact hfd.ready hc
        · exact hfr f hfm
      | uninit =>
        rw [hc] at h; cases h
        refine ⟨⟨hm.later (hstart c hc), ?_, ⟨⟨k, rfl⟩, hw⟩⟩, hjstart c hc, hstart c hc,
          .inr (.inl ⟨c, hc, rfl, rfl, rfl⟩)⟩
        intro f hfm
        rcases List.mem_cons.1 hfm with rfl | hfm
        · exact .refl _ _
        · exact (hf f hfm).later (hstart c hc)
      | running u => rw [hc] at h; cases h
      | poisoned =>
        rw [hc] at h; cases h
        refine ⟨⟨hm, ?_, hw.change⟩, hj, .refl _, .inl ⟨rfl, rfl, rfl⟩⟩
        intro f hfm
        rcases List.mem_cons.1 hfm with rfl | hfm
        · exact hfd.poisoned _ hc
        · exact hfr f hfm

structure Once (init : (c : Cell) → Prog Cell Val (Val c)) (progs : List (Prog Cell Val α))
    (s : State Cell Val α) : Prop where
  threads : ∀ (t : Nat) th, s.threads[t]? = some th → ∃ p, progs[t]? = some p ∧ Sound init s.cells p th ∧
    (cellsOf th).Nodup ∧ ∀ c ∈ cellsOf th, s.cells c = .running t
  justified : Justified init s.cells
  logNodup : s.log.Nodup
  logMem : ∀ c, c ∈ s.log ↔ s.cells c ≠ .uninit

omit [DecidableEq Cell] in
theorem Once.begin (init : (c : Cell) → Prog Cell Val (Val c)) (progs : List (Prog Cell Val α)) :
    Once init progs (begin progs) where
  threads t th h := by
    unfold Lazy.begin at h
    simp only [List.getElem?_map, Option.map_eq_some_iff] at h
    obtain ⟨p, hp, rfl⟩ := h
    exact ⟨p, hp, ⟨.refl _ _, by simp, trivial⟩, by simp [cellsOf], by simp [cellsOf]⟩
  justified c := ⟨nofun, nofun⟩
  logNodup := List.nodup_nil
  logMem c := ⟨nofun, fun h => absurd rfl h⟩

theorem Once.step {init : (c : Cell) → Prog Cell Val (Val c)} {progs : List (Prog Cell Val α)}
    {s s' : State Cell Val α} (hi : Once init progs s) (h : Step init s s') :
    Once init progs s' ∧ Later s.cells s'.cells := by
  obtain ⟨t, th, cells', th', started, hth, hst, rfl⟩ := h
  obtain ⟨p, hp, hs, hn, hr⟩ := hi.threads t th hth
  obtain ⟨hs', hj', hl, hcase⟩ := stepThread_sound init t s.cells cells' p th th' started hs hi.justified hr hst
  -- the statics being initialised by the stepping thread, and by the others
  have key : ((cellsOf th').Nodup ∧ ∀ c ∈ cellsOf th', cells' c = .running t) ∧
      (∀ c u, t ≠ u → s.cells c = .running u → cells' c = .running u) ∧
      (started ++ s.log).Nodup ∧ ∀ c, c ∈ started ++ s.log ↔ cells' c ≠ .uninit := by
    rcases hcase with ⟨h1, h2, h3⟩ | ⟨c, h1, h2, h3, h4⟩ | ⟨d, st, h1, h2, h3, h4, h5⟩
    · subst h1 h3
      rw [h2]
      exact ⟨⟨hn, hr⟩, fun _ _ _ h => h, hi.logNodup, hi.logMem⟩
    · subst h2 h4
      rw [h3]
      have hc : c ∉ cellsOf th := fun hm => by rw [hr c hm] at h1; cases h1
      have hcl : c ∉ s.log := fun hm => (hi.logMem c).1 hm h1
      refine ⟨⟨List.nodup_cons.2 ⟨hc, hn⟩, fun e he => ?_⟩, fun e u _ he => ?_, List.nodup_cons.2 ⟨hcl, hi.logNodup⟩,
        fun e => ?_⟩
      · by_cases hce : c = e
        · subst hce; exact update_same _ _ _
        · rw [update_other _ _ _ _ hce]
          exact hr e ((List.mem_cons.1 he).resolve_left fun h => hce h.symm)
      · have hce : c ≠ e := fun h => by subst h; rw [h1] at he; cases he
        rw [update_other _ _ _ _ hce]; exact he
      · show e ∈ c :: s.log ↔ _
        rw [List.mem_cons]
        by_cases hce : c = e
        · subst hce
          rw [update_same]
          exact ⟨fun _ h => (nomatch h), fun _ => .inl rfl⟩
        · rw [update_other _ _ _ _ hce, ← hi.logMem e]
          exact ⟨fun h => h.resolve_left fun h => hce h.symm, .inr⟩
    · subst h1 h3
      rw [h2] at hn hr
      have hn' := List.nodup_cons.1 hn
      have hd : s.cells d = .running t := hr d List.mem_cons_self
      refine ⟨⟨hn'.2, fun e he => ?_⟩, fun e u htu he => ?_, hi.logNodup, fun e => ?_⟩
      · have hde : d ≠ e := fun h => hn'.1 (h ▸ he)
        rw [update_other _ _ _ _ hde]
        exact hr e (List.mem_cons_of_mem _ he)
      · have hde : d ≠ e := fun h => by subst h; rw [hd] at he; cases he; exact htu rfl
        rw [update_other _ _ _ _ hde]; exact he
      · show e ∈ s.log ↔ _
        by_cases hde : d = e
        · subst hde
          rw [update_same, hi.logMem, hd]
          exact ⟨fun _ => h4, fun _ h => (nomatch h)⟩
        · rw [update_other _ _ _ _ hde]; exact hi.logMem e
  obtain ⟨hk1, hk2, hk3, hk4⟩ := key
  refine ⟨⟨fun u uh huh => ?_, hj', hk3, hk4⟩, hl⟩
  have huh : (s.threads.set t th')[u]? = some uh := huh
  rw [List.getElem?_set] at huh
  by_cases htu : t = u
  · subst htu
    rw [if_pos rfl] at huh
    split at huh
    · cases huh
      exact ⟨p, hp, hs', hk1.1, hk1.2⟩
    · cases huh
  · rw [if_neg htu] at huh
    obtain ⟨q, hq, hqs, hqn, hqr⟩ := hi.threads u uh huh
    exact ⟨q, hq, hqs.later hl, hqn, fun c hc => hk2 c u htu (hqr c hc)⟩

theorem Once.runs {init : (c : Cell) → Prog Cell Val (Val c)} {progs : List (Prog Cell Val α)}
    {n : Nat} {s : State Cell Val α} (h : Runs init (Lazy.begin progs) n s) : Once init progs s := by
  generalize hs : Lazy.begin progs = s0 at h
  induction h with
  | start => subst hs; exact .begin init progs
  | step _ hstep ih => exact (ih.step hstep).1

theorem Once.later {init : (c : Cell) → Prog Cell Val (Val c)} {progs : List (Prog Cell Val α)}
    {m : Nat} {s s' : State Cell Val α} (hi : Once init progs s) (h : Runs init s m s') :
    Once init progs s' ∧ Later s.cells s'.cells := by
  induction h with
  | start => exact ⟨hi, .refl _⟩
  | step _ hstep ih =>
    obtain ⟨h1, h2⟩ := (ih.1).step hstep
    exact ⟨h1, ih.2.trans h2⟩

omit [DecidableEq Cell] in
theorem Once.result {init : (c : Cell) → Prog Cell Val (Val c)} {progs : List (Prog Cell Val α)}
    {s : State Cell Val α} (hi : Once init progs s) (t : Nat) (th : Thread Cell Val α) (r : Res α)
    (h1 : s.threads[t]? = some th) (h2 : th.result = some r) :
    ∃ p, progs[t]? = some p ∧ Sees s.cells p r := by
  obtain ⟨p, hp, hs, _⟩ := hi.threads t th h1
  refine ⟨p, hp, hs.main _ (.refl _) r ?_⟩
  obtain ⟨main, stack⟩ := th
  cases stack with
  | cons f rest => cases h2
  | nil =>
    cases main with
    | read c k => cases h2
    | done q => cases h2; exact .done _

end ZkEvm.Lazy
