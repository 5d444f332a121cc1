import Verif.Spec.Caching
/-! Lemmas on machines that keep the last code word. -/
namespace ZkEvm.CachingLemmas
open Spec

variable {State Contract : Type} {w k : Nat} [DecidableEq Contract]
  {split : BitVec w → BitVec w × BitVec w} {fetch : U256 → BitVec w → Res (BitVec k)}
  {parse : BitVec k → Res (DecodedOpcode w × VariantMonotonicNumber)} {M : Machine w State Contract}
  {page : Contract → Nat → U256}

/-- One cycle without a kept word -/
def plainCycle (split : BitVec w → BitVec w × BitVec w) (fetch : U256 → BitVec w → Res (BitVec k))
    (parse : BitVec k → Res (DecodedOpcode w × VariantMonotonicNumber)) (M : Machine w State Contract)
    (page : Contract → Nat → U256) (s : State) : Res State := do
  let raw ← fetch (page (M.contract s) (split (M.pc s)).1.toNat) (split (M.pc s)).2
  executeDecoded M s (← parse raw)

/-- The kept word is the one in the page. -/
def Valid (page : Contract → Nat → U256) (last : Option ((Contract × BitVec w) × U256)) : Prop :=
  ∀ p v, last = some (p, v) → v = page p.1 p.2.toNat

/-- Reads in one cycle -/
def miss (last : Option ((Contract × BitVec w) × U256)) (p : Contract × BitVec w) : Nat :=
  if last.map Prod.fst = some p then 0 else 1

theorem readThrough_eq {last : Option ((Contract × BitVec w) × U256)} (hv : Valid page last) (p : Contract × BitVec w) :
    readThrough page last p = (page p.1 p.2.toNat, miss last p) := by
  unfold readThrough miss
  cases last with
  | none => rfl
  | some x =>
    obtain ⟨q, v⟩ := x
    dsimp only [Option.map_some]
    by_cases h : q = p
    · rw [if_pos h, if_pos (by rw [h]), hv q v rfl, h]
    · rw [if_neg h, if_neg (fun e => h (Option.some.inj e))]

theorem bind_map {A B S T : Type} {f : Res A} {p : A → Res B} {g : B → Res S} {s' : S} (m : S → T)
    (h : (f >>= fun a => p a >>= fun b => g b) = .ok s') :
    (f >>= fun a => p a >>= fun b => g b >>= fun t => pure (m t)) = .ok (m s') := by
  cases f with
  | error e => cases h
  | ok a =>
    change (p a >>= fun b => g b) = .ok s' at h
    change (p a >>= fun b => g b >>= fun t => pure (m t)) = .ok (m s')
    cases hp : p a with
    | error e => rw [hp] at h; cases h
    | ok b =>
      rw [hp] at h
      change g b = .ok s' at h
      change (g b >>= fun t => pure (m t)) = .ok (m s')
      rw [h]
      rfl

theorem cached_step {s s' : State} {last : Option ((Contract × BitVec w) × U256)} {r : Nat} (hv : Valid page last)
    (h : plainCycle split fetch parse M page s = .ok s') :
    cachedCycle split fetch parse M page ⟨s, last, r⟩ =
      .ok ⟨s', some (place split M s, page (M.contract s) (split (M.pc s)).1.toNat), r + miss last (place split M s)⟩ := by
  unfold cachedCycle
  dsimp only
  rw [readThrough_eq hv]
  exact bind_map (fun t => _) h

/-- Cycles from the end -/
theorem cycles_succ {S : Type} {f : S → Res S} : ∀ (n : Nat) (s : S), cycles f (n + 1) s = (cycles f n s >>= f)
  | 0, s => by
    show (f s >>= fun t => pure t) = f s
    cases f s <;> rfl
  | n + 1, s => by
    show (f s >>= fun t => cycles f (n + 1) t) = ((f s >>= fun t => cycles f n t) >>= f)
    cases h : f s with
    | error e => rfl
    | ok t => exact cycles_succ n t

/-- The kept word after `n` cycles along a trace -/
def lastAt (split : BitVec w → BitVec w × BitVec w) (M : Machine w State Contract) (page : Contract → Nat → U256)
    (trace : Nat → State) : Nat → Option ((Contract × BitVec w) × U256)
  | 0 => none
  | n + 1 => some (place split M (trace n), page (M.contract (trace n)) (split (M.pc (trace n))).1.toNat)

omit [DecidableEq Contract] in
theorem lastAt_valid (trace : Nat → State) : ∀ n, Valid page (lastAt split M page trace n)
  | 0 => fun _ _ h => by cases h
  | n + 1 => fun p v h => by
    obtain ⟨rfl, rfl⟩ := Prod.mk.inj (Option.some.inj h)
    rfl

theorem cached_run (trace : Nat → State) (h : ∀ i, plainCycle split fetch parse M page (trace i) = .ok (trace (i + 1))) :
    ∀ n, cycles (cachedCycle split fetch parse M page) n ⟨trace 0, none, 0⟩ = .ok ⟨trace n, lastAt split M page trace n,
      (List.range n).countP fun i => i = 0 ∨ place split M (trace i) ≠ place split M (trace (i - 1))⟩
  | 0 => rfl
  | n + 1 => by
    rw [cycles_succ, cached_run trace h n]
    show cachedCycle split fetch parse M page _ = _
    rw [cached_step (lastAt_valid trace n) (h n), List.range_succ, List.countP_append]
    congr 2
    rw [List.countP_singleton]
    unfold miss
    cases n with
    | zero => rfl
    | succ n =>
      dsimp only [lastAt, Option.map_some]
      by_cases he : place split M (trace n) = place split M (trace (n + 1))
      · simp [he]
      · have he' : place split M (trace (n + 1)) ≠ place split M (trace n) := fun e => he e.symm
        simp [he, he']

/-- Steps of one from `p` change the quotient by `d` this often. -/
theorem count_quotients (d p : Nat) (hd : 0 < d) : ∀ n, 0 < n →
    ((List.range n).countP fun i => i = 0 ∨ (p + i) / d ≠ (p + (i - 1)) / d) + p / d = (p + (n - 1)) / d + 1
  | 0, h => absurd h (Nat.lt_irrefl 0)
  | 1, _ => by
    show 1 + p / d = (p + 0) / d + 1
    rw [Nat.add_comm]
    rfl
  | n + 2, _ => by
    have ih := count_quotients d p hd (n + 1) (Nat.succ_pos n)
    rw [List.range_succ, List.countP_append, List.countP_singleton]
    simp only [Nat.add_sub_cancel] at ih ⊢
    have e : n + 2 - 1 = n + 1 := rfl
    rw [e]
    have hs : (p + (n + 1)) / d = (p + n) / d + if d ∣ p + n + 1 then 1 else 0 := by
      rw [← Nat.add_assoc]; exact Nat.succ_div
    by_cases hx : d ∣ p + n + 1
    · rw [if_pos hx] at hs
      rw [if_pos (by simp only [decide_eq_true_eq]; right; omega)]
      omega
    · rw [if_neg hx] at hs
      rw [if_neg (by simp only [decide_eq_true_eq]; omega)]
      omega

end ZkEvm.CachingLemmas
