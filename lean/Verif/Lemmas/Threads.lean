import Verif.Spec.Threads
import Verif.Lemmas.Statics
/-! Jobs of threads: what their code evaluates to, and how much it reads. -/
namespace ZkEvm.Lazy
open Spec

variable {State Contract : Type} {env : (c : Static) → c.Val}

theorem reads_length_bind {α β : Type} (p : Code α) (f : α → Code β) (a b : Nat)
    (hp : (reads env p).length ≤ a) (hf : ∀ x, (reads env (f x)).length ≤ b) : (reads env (p >>= f)).length ≤ a + b := by
  show (reads env (p.bind f)).length ≤ a + b
  induction p generalizing a with
  | done r =>
    cases r with
    | ok x => exact Nat.le_trans (hf x) (Nat.le_add_left ..)
    | error e => exact Nat.zero_le _
  | read c k ih =>
    have h1 : (reads env (k (env c))).length + 1 ≤ a := hp
    have := ih (env c) (a - 1) (by omega)
    show (reads env ((k (env c)).bind f)).length + 1 ≤ a + b
    omega

theorem reads_length_plain {α : Type} (r : Res α) : (reads env (Lazy.plain r)).length ≤ 0 := Nat.le_refl 0
theorem reads_length_pure {α : Type} (a : α) : (reads env (pure a : Code α)).length ≤ 0 := Nat.le_refl 0
theorem reads_length_deref (c : Static) : (reads env (deref c)).length ≤ 1 := Nat.le_refl 1

theorem eval_assembleAll {α : Type} {enc : α → Code (List Byte)} {enc' : α → Res (List Byte)}
    (h : ∀ o, eval env (enc o) = enc' o) (prog : List α) : eval env (assembleAllCode enc prog) = assembleAll enc' prog := by
  induction prog with
  | nil => rfl
  | cons o prog ih =>
    unfold assembleAllCode assembleAll
    rw [eval_bind, h]
    simp only [eval_bind, ih, eval_pure]
    rfl

theorem eval_cycles {cycle : State → Code State} {cycle' : State → Res State}
    (h : ∀ s, eval env (cycle s) = cycle' s) (n : Nat) (s : State) : eval env (cyclesCode cycle n s) = cycles cycle' n s := by
  induction n generalizing s with
  | zero => rfl
  | succ n ih =>
    unfold cyclesCode cycles
    rw [eval_bind, h]
    simp only [ih]
    rfl

theorem eval_executeDecoded (h : StaticValues env) {w : Nat} (M : Machine w State Contract) (s : State)
    (decoded : DecodedOpcode w × VariantMonotonicNumber) :
    eval env (executeDecodedCode M s decoded) = executeDecoded M s decoded := by
  unfold executeDecodedCode executeDecoded
  rw [h.prices, h.masks]
  simp only [eval_bind, eval_plain, eval_pure]
  rfl

theorem reads_assembleAll {α : Type} {enc : α → Code (List Byte)} (h : ∀ o, (reads env (enc o)).length ≤ 1)
    (prog : List α) : (reads env (assembleAllCode enc prog)).length ≤ prog.length := by
  induction prog with
  | nil => exact Nat.le_refl 0
  | cons o prog ih =>
    have := reads_length_bind (env := env) (enc o) (fun bytes => assembleAllCode enc prog >>= fun code => pure (bytes ++ code)) 1
      (prog.length + 0) (h o) (fun x => reads_length_bind _ _ _ _ ih fun _ => reads_length_pure _)
    rw [List.length_cons]
    exact Nat.le_trans this (by omega)

theorem reads_cycles {cycle : State → Code State} (h : ∀ s, (reads env (cycle s)).length ≤ 3) (n : Nat) (s : State) :
    (reads env (cyclesCode cycle n s)).length ≤ 3 * n := by
  induction n generalizing s with
  | zero => exact Nat.le_refl 0
  | succ n ih =>
    have := reads_length_bind (env := env) (cycle s) (fun t => cyclesCode cycle n t) 3 (3 * n) (h s) ih
    exact Nat.le_trans this (by omega)

theorem reads_executeDecoded {w : Nat} (M : Machine w State Contract) (s : State)
    (decoded : DecodedOpcode w × VariantMonotonicNumber) : (reads env (executeDecodedCode M s decoded)).length ≤ 2 :=
  reads_length_bind _ _ 1 1 (reads_length_deref _) fun _ => reads_length_bind _ _ 0 1 (reads_length_plain _) fun _ =>
    reads_length_bind _ _ 1 0 (reads_length_deref _) fun _ => reads_length_bind _ _ 0 0 (reads_length_plain _) fun _ =>
      reads_length_pure _

theorem reads_parseProduction (raw : BitVec 64) : (reads env (parseProductionCode raw)).length ≤ 1 :=
  reads_length_bind _ _ 1 0 (reads_length_deref _) fun _ => reads_length_bind _ _ 0 0 (reads_length_plain _) fun _ =>
    reads_length_bind _ _ 0 0 (reads_length_plain _) fun _ => reads_length_pure _

theorem reads_parseTesting (raw : BitVec 128) : (reads env (parseTestingCode raw)).length ≤ 1 :=
  reads_length_bind _ _ 1 0 (reads_length_deref _) fun _ => reads_length_bind _ _ 0 0 (reads_length_plain _) fun _ =>
    reads_length_bind _ _ 0 0 (reads_length_plain _) fun _ => reads_length_pure _

theorem reads_encodeProduction (b : Build) (o : DecodedOpcode 16) : (reads env (encodeProductionCode b o)).length ≤ 1 :=
  reads_length_bind _ _ 1 0 (reads_length_deref _) fun _ => reads_length_bind _ _ 0 0 (reads_length_plain _) fun _ =>
    reads_length_bind _ _ 0 0 (reads_length_plain _) fun _ => reads_length_bind _ _ 0 0 (reads_length_plain _) fun _ =>
    reads_length_bind _ _ 0 0 (reads_length_plain _) fun _ => reads_length_bind _ _ 0 0 (reads_length_plain _) fun _ =>
    reads_length_pure _

theorem reads_encodeTesting (b : Build) (o : DecodedOpcode 32) : (reads env (encodeTestingCode b o)).length ≤ 1 :=
  reads_length_bind _ _ 1 0 (reads_length_deref _) fun _ => reads_length_bind _ _ 0 0 (reads_length_plain _) fun _ =>
    reads_length_bind _ _ 0 0 (reads_length_plain _) fun _ => reads_length_bind _ _ 0 0 (reads_length_plain _) fun _ =>
    reads_length_bind _ _ 0 0 (reads_length_plain _) fun _ => reads_length_bind _ _ 0 0 (reads_length_plain _) fun _ =>
    reads_length_pure _

theorem reads_job (job : Job State Contract) : (reads env job.thread).length ≤ job.lookups := by
  cases job with
  | runProduction M page n s =>
    exact reads_length_bind _ _ (3 * n) 0 (reads_cycles (fun s => reads_length_bind _ _ 0 3 (reads_length_plain _) fun _ =>
      reads_length_bind _ _ 1 2 (reads_parseProduction _) fun _ => reads_executeDecoded ..) n s) fun _ => reads_length_pure _
  | runTesting M page n s =>
    exact reads_length_bind _ _ (3 * n) 0 (reads_cycles (fun s => reads_length_bind _ _ 0 3 (reads_length_plain _) fun _ =>
      reads_length_bind _ _ 1 2 (reads_parseTesting _) fun _ => reads_executeDecoded ..) n s) fun _ => reads_length_pure _
  | assembleProduction b prog =>
    exact reads_length_bind _ _ prog.length 0 (reads_assembleAll (fun o => reads_length_bind _ _ 1 0
      (reads_encodeProduction b o) fun _ => reads_length_pure _) prog) fun _ => reads_length_pure _
  | assembleTesting b prog =>
    exact reads_length_bind _ _ prog.length 0 (reads_assembleAll (fun o => reads_length_bind _ _ 1 0
      (reads_encodeTesting b o) fun _ => reads_length_pure _) prog) fun _ => reads_length_pure _

theorem assembleAll_eq {α : Type} {enc : α → Res (List Byte)} {prog : List α} {code : List Byte}
    (h : Assembled enc prog code) : assembleAll enc prog = .ok code := by
  induction h with
  | nil => rfl
  | cons h _ ih =>
    unfold assembleAll
    rw [h, ih]
    rfl

end ZkEvm.Lazy
