import Verif.Lemmas.Threads
import Verif.Props.Weak
import Verif.Props.Statics
import Verif.Props.Disassembly
/-!
# Virtual machines and assemblers on many threads: C118

`Verif/Spec/Threads.lean` says what a thread may be asked to do and what it delivers alone. The threads are those of
C99: their loads may see outdated words, and they may be delayed, woken spuriously and interleaved in any way.
-/
namespace ZkEvm.Props
open Spec Weak Lazy
open Lazy (Static Code initialiser)

variable {State Contract : Type}

/-! ## C118 -/

private theorem thread_eq {env : (c : Static) → c.Val} (h : StaticValues env) (job : Job State Contract) :
    eval env job.thread = job.alone := by
  cases job with
  | runProduction M page n s =>
    show eval env (cyclesCode (cycleProductionCode M page) n s >>= _) = _
    rw [eval_bind, eval_cycles (cycle' := cycleProduction M page)]
    · rfl
    · intro s
      unfold cycleProductionCode cycleProduction
      rw [eval_bind]
      simp only [eval_bind, eval_plain, (C76_coders env h .debug).1, eval_executeDecoded h]
      rfl
  | runTesting M page n s =>
    show eval env (cyclesCode (cycleTestingCode M page) n s >>= _) = _
    rw [eval_bind, eval_cycles (cycle' := cycleTesting M page)]
    · rfl
    · intro s
      unfold cycleTestingCode cycleTesting
      rw [eval_bind]
      simp only [eval_bind, eval_plain, (C76_coders env h .debug).2.1, eval_executeDecoded h]
      rfl
  | assembleProduction b prog =>
    show eval env (assembleAllCode _ prog >>= _) = _
    rw [eval_bind, eval_assembleAll (enc' := Production.encodeAsBytes b)]
    · rfl
    · intro o
      rw [eval_bind, (C76_coders env h b).2.2.1]
      rfl
  | assembleTesting b prog =>
    show eval env (assembleAllCode _ prog >>= _) = _
    rw [eval_bind, eval_assembleAll (enc' := Testing.encodeAsBytes b)]
    · rfl
    · intro o
      rw [eval_bind, (C76_coders env h b).2.2.2.1]
      rfl

/-- C118: whatever the threads of a process are asked to do and however they are scheduled, first use of the tables
included, a thread that has finished has delivered what it delivers alone; every table is built at most once. -/
theorem C118_results (o : Orders) (ho : OrdersSuffice o) (jobs : List (Job State Contract)) (n k : Nat)
    (s : Process Static Static.Val (Outcome State)) (h : Runs o initialiser (begin (jobs.map Job.thread)) n k s) :
    s.agents.length = jobs.length ∧ s.log.Nodup ∧
    ∀ (t : Nat) a job r, s.agents[t]? = some a → jobs[t]? = some job → a.result = some r → r = job.alone := by
  obtain ⟨env, henv, hall⟩ := C99_any_schedule o ho
  obtain ⟨h1, _, _, h4, h5, _⟩ := hall _ _ n k s h
  refine ⟨by rw [h4, List.length_map], h1, fun t a job r ha hj hr => ?_⟩
  obtain ⟨p, hp, rfl⟩ := h5 t a r ha hr
  rw [List.getElem?_map, hj] at hp
  obtain rfl := Option.some.inj hp
  exact thread_eq henv job

/-- C118: and they can always all finish. -/
theorem C118_finish (o : Orders) (ho : OrdersSuffice o) (jobs : List (Job State Contract)) (n k : Nat)
    (s : Process Static Static.Val (Outcome State)) (h : Runs o initialiser (begin (jobs.map Job.thread)) n k s) :
    ∃ m s', Runs o initialiser s m 0 s' ∧
      ∀ (t : Nat) job, jobs[t]? = some job → ∃ a, s'.agents[t]? = some a ∧ a.result = some job.alone := by
  obtain ⟨m, s', hm, hf⟩ := C99_finishes o ho _ _ n k s h
  obtain ⟨hl, _, hr⟩ := C118_results o ho jobs (n + m) k s' (h.trans hm)
  refine ⟨m, s', hm, fun t job hj => ?_⟩
  have ht : t < s'.agents.length := by rw [hl]; exact (List.getElem?_eq_some_iff.1 hj).1
  have ha := List.getElem?_eq_getElem ht
  refine ⟨_, ha, ?_⟩
  cases hres : (s'.agents[t]'ht).result with
  | none => exact absurd hres (hf t _ ha)
  | some r => rw [hr t _ job r ha hj hres]

/-- C118: as long as a thread has not finished some thread can go on, and the number of operations without delay is
bounded by the numbers of threads, of lookups the jobs need, and of delayed or spurious operations. -/
theorem C118_bounded (o : Orders) (ho : OrdersSuffice o) : ∃ building : Nat,
    ∀ (State Contract : Type) (jobs : List (Job State Contract)) (n k : Nat)
      (s : Process Static Static.Val (Outcome State)), Runs o initialiser (begin (jobs.map Job.thread)) n k s →
      n ≤ (4 * jobs.length + 1) * (2 * ((jobs.map Job.lookups).sum + building) + k + 1) ∧
      ((∃ (t : Nat) (a : Agent Static Static.Val (Outcome State)), s.agents[t]? = some a ∧ a.result = none) →
        ∃ s', Step o initialiser s s') := by
  obtain ⟨env, henv, hall⟩ := C99_any_schedule o ho
  refine ⟨(allStatics.map fun c => (reads env (initialiser c)).length + 2).sum, fun State Contract jobs n k s h => ?_⟩
  obtain ⟨_, _, _, _, _, h6, h7⟩ := hall _ _ n k s h
  refine ⟨Nat.le_trans h7 ?_, h6⟩
  have hs : ∀ jobs : List (Job State Contract),
      ((jobs.map Job.thread).map fun p => (reads env p).length).sum ≤ (jobs.map Job.lookups).sum := by
    intro jobs
    induction jobs with
    | nil => exact Nat.le_refl 0
    | cons job jobs ih =>
      simp only [List.map_cons, List.sum_cons]
      exact Nat.add_le_add (reads_job job) ih
  rw [List.length_map]
  refine Nat.mul_le_mul_left _ ?_
  have := hs jobs
  omega

/-- C118: what the jobs deliver alone: the state after `n` instructions of the programs that the pages disassemble to,
and the code of a program of existing instructions. -/
theorem C118_alone :
    (∀ (M : Machine 16 State Contract) (mask : OpcodeVariant → BitVec 64) (words : Contract → List (Vector Byte 32))
      (page : Contract → Nat → U256) (progs : Contract → List (DecodedOpcode 16)) (n : Nat) (s : State), MasksOk mask →
      (∀ c k, HoldsPageWord (page c k) (words c) k) → (∀ c, Disassembled 8 Production.parse (words c) (progs c)) →
      (Job.runProduction M page n s).alone = .ok (.state (runProgram M mask progs n s))) ∧
    (∀ (M : Machine 32 State Contract) (mask : OpcodeVariant → BitVec 64) (words : Contract → List (Vector Byte 32))
      (page : Contract → Nat → U256) (progs : Contract → List (DecodedOpcode 32)) (n : Nat) (s : State), MasksOk mask →
      (∀ c k, HoldsPageWord (page c k) (words c) k) → (∀ c, Disassembled 16 Testing.parse (words c) (progs c)) →
      (Job.runTesting M page n s).alone = .ok (.state (runProgram M mask progs n s))) ∧
    (∀ b (prog : List (DecodedOpcode 16)) code, Assembled (Production.encodeAsBytes b) prog code →
      (Job.assembleProduction b prog : Job State Contract).alone = .ok (.code code)) ∧
    (∀ b (prog : List (DecodedOpcode 32)) code, Assembled (Testing.encodeAsBytes b) prog code →
      (Job.assembleTesting b prog : Job State Contract).alone = .ok (.code code)) := by
  refine ⟨fun M mask words page progs n s hm hp hd => ?_, fun M mask words page progs n s hm hp hd => ?_,
    fun b prog code h => ?_, fun b prog code h => ?_⟩
  · unfold Job.alone
    dsimp only
    rw [C112_runs_production M mask hm words page hp progs hd n s]
    rfl
  · unfold Job.alone
    dsimp only
    rw [C112_runs_testing M mask hm words page hp progs hd n s]
    rfl
  · unfold Job.alone
    dsimp only
    rw [assembleAll_eq h]
    rfl
  · unfold Job.alone
    dsimp only
    rw [assembleAll_eq h]
    rfl

private theorem merge_builds (b b' : Build) {l h : Byte} (hl : l.toNat < 16) (hh : h.toNat < 16) :
    mergeU4 b l h = mergeU4 b' l h := by
  obtain ⟨x, hx, hn, _⟩ := C59_nibbles.2.1 b l h hl hh
  obtain ⟨y, hy, hm, _⟩ := C59_nibbles.2.1 b' l h hl hh
  rw [hx, hy, BitVec.eq_of_toNat_eq (hn.trans hm.symm)]

private theorem builds_production (b b' : Build) {o : DecodedOpcode 16} (h : Encodable o) :
    Production.encodeAsBytes b o = Production.encodeAsBytes b' o := by
  unfold Production.encodeAsBytes
  rw [Coding.prod_encode b o h.1, Coding.prod_encode b' o h.1, merge_builds b b' h.2.1 h.2.2.1,
    merge_builds b b' h.2.2.2.1 h.2.2.2.2]

private theorem builds_testing (b b' : Build) {o : DecodedOpcode 32} (h : Encodable o) :
    Testing.encodeAsBytes b o = Testing.encodeAsBytes b' o := by
  unfold Testing.encodeAsBytes
  rw [Coding.test_encode b o h.1, Coding.test_encode b' o h.1, merge_builds b b' h.2.1 h.2.2.1,
    merge_builds b b' h.2.2.2.1 h.2.2.2.2]

private theorem assembleAll_congr {α : Type} {enc enc' : α → Res (List Byte)} {prog : List α}
    (h : ∀ o ∈ prog, enc o = enc' o) : assembleAll enc prog = assembleAll enc' prog := by
  induction prog with
  | nil => rfl
  | cons o prog ih =>
    unfold assembleAll
    rw [h o (List.mem_cons_self ..), ih fun o ho => h o (List.mem_cons_of_mem _ ho)]

private theorem same_alone {job job' : Job State Contract} (h : SameWork job job') : job.alone = job'.alone := by
  cases h with
  | runProduction M page page' n s h =>
    obtain ⟨words, words', h1, h2, h3⟩ := h
    unfold Job.alone
    dsimp only
    rw [C112_indistinguishable_production M words words' page page' h1 h2 h3 n s]
  | runTesting M page page' n s h =>
    obtain ⟨words, words', h1, h2, h3⟩ := h
    unfold Job.alone
    dsimp only
    rw [C112_indistinguishable_testing M words words' page page' h1 h2 h3 n s]
  | assembleProduction b b' prog h =>
    unfold Job.alone
    dsimp only
    rw [assembleAll_congr fun o ho => builds_production b b' (h o ho)]
  | assembleTesting b b' prog h =>
    unfold Job.alone
    dsimp only
    rw [assembleAll_congr fun o ho => builds_testing b b' (h o ho)]

/-- C118: two processes, with whatever other threads, schedules, delays, memory orders that suffice, and builds, deliver
the same for the same work, and no thread that runs a machine, or assembles existing instructions, panics. -/
theorem C118_nodes (o o' : Orders) (ho : OrdersSuffice o) (ho' : OrdersSuffice o') (jobs jobs' : List (Job State Contract))
    (n k n' k' : Nat) (s s' : Process Static Static.Val (Outcome State))
    (h : Runs o initialiser (begin (jobs.map Job.thread)) n k s)
    (h' : Runs o' initialiser (begin (jobs'.map Job.thread)) n' k' s') (t t' : Nat) (job job' : Job State Contract)
    (hj : jobs[t]? = some job) (hj' : jobs'[t']? = some job') (hw : SameWork job job')
    (a a' : Agent Static Static.Val (Outcome State)) (ha : s.agents[t]? = some a) (ha' : s'.agents[t']? = some a')
    (r r' : Res (Outcome State)) (hr : a.result = some r) (hr' : a'.result = some r') : r = r' ∧ ∃ x, r = .ok x := by
  have e := (C118_results o ho jobs n k s h).2.2 t a job r ha hj hr
  have e' := (C118_results o' ho' jobs' n' k' s' h').2.2 t' a' job' r' ha' hj' hr'
  refine ⟨e.trans ((same_alone hw).trans e'.symm), ?_⟩
  rw [e]
  obtain ⟨c1, c2, c3, c4⟩ := C118_alone (State := State) (Contract := Contract)
  cases hw with
  | runProduction M page page' n s h =>
    obtain ⟨words, words', h1, h2, h3⟩ := h
    exact ⟨_, c1 M Bitmask.maskOf words page (fun c => (h3 c).choose) n s (fun v _ hi => Bitmask.mask_bit v hi) h1
      fun c => (h3 c).choose_spec.1⟩
  | runTesting M page page' n s h =>
    obtain ⟨words, words', h1, h2, h3⟩ := h
    exact ⟨_, c2 M Bitmask.maskOf words page (fun c => (h3 c).choose) n s (fun v _ hi => Bitmask.mask_bit v hi) h1
      fun c => (h3 c).choose_spec.1⟩
  | assembleProduction b b' prog h =>
    obtain ⟨code, hA, _⟩ := (C09_assembles b).1 prog h
    exact ⟨_, c3 b prog code hA⟩
  | assembleTesting b b' prog h =>
    obtain ⟨code, hA, _⟩ := (C09_assembles b).2 prog h
    exact ⟨_, c4 b prog code hA⟩

/-! ### Examples -/

/-- A thread that runs a machine that counts cycles and one that assembles an instruction, on pages of zeros. -/
private def two (page : Unit → Nat → U256) (b : Build) : List (Job (BitVec 16) Unit) :=
  [.runProduction ⟨fun _ => (), fun s => s, fun s _ _ _ => s + 1⟩ page 5 3,
    .assembleProduction b [{ zeroInstruction 16 with imm0 := 7 }]]

private theorem finished (o : Orders) (ho : OrdersSuffice o) (page : Unit → Nat → U256) (b : Build) :
    ∃ m s, Runs o initialiser (begin ((two page b).map Job.thread)) m 0 s ∧ s.agents.length = 2 ∧
      ∀ (t : Nat) job, (two page b)[t]? = some job → ∃ a, s.agents[t]? = some a ∧ a.result = some job.alone := by
  obtain ⟨m, s, hm, hf⟩ := C118_finish o ho (two page b) 0 0 _ (.start _)
  refine ⟨m, s, hm, (C118_results o ho (two page b) m 0 s hm).1, hf⟩

/-- C118: both finish. -/
example (page : Unit → Nat → U256) : ∃ m s, Runs std initialiser (begin ((two page .debug).map Job.thread)) m 0 s ∧
    ∃ a, s.agents[1]? = some a ∧ ∃ code, a.result = some (.ok (.code code)) ∧ code.length = 8 := by
  obtain ⟨m, s, hm, _, hf⟩ := finished std ⟨rfl, rfl⟩ page .debug
  obtain ⟨a, ha, hr⟩ := hf 1 _ rfl
  obtain ⟨code, hA, hl⟩ := (C09_assembles .debug).1 [{ zeroInstruction 16 with imm0 := 7 }] (by decide)
  exact ⟨m, s, hm, a, ha, code, hr.trans (congrArg some ((C118_alone (State := BitVec 16) (Contract := Unit)).2.2.1 _ _ _ hA)), hl⟩

/-- C118: a debug and a release process give the same code. -/
example (page : Unit → Nat → U256) : ∃ m s m' s', Runs std initialiser (begin ((two page .debug).map Job.thread)) m 0 s ∧
    Runs std initialiser (begin ((two page .release).map Job.thread)) m' 0 s' ∧
    ∃ a a' r, s.agents[1]? = some a ∧ s'.agents[1]? = some a' ∧ a.result = some r ∧ a'.result = some r := by
  obtain ⟨m, s, hm, _, hf⟩ := finished std ⟨rfl, rfl⟩ page .debug
  obtain ⟨m', s', hm', _, hf'⟩ := finished std ⟨rfl, rfl⟩ page .release
  obtain ⟨a, ha, hr⟩ := hf 1 _ rfl
  obtain ⟨a', ha', hr'⟩ := hf' 1 _ rfl
  refine ⟨m, s, m', s', hm, hm', a, a', _, ha, ha', hr, ?_⟩
  rw [hr', (C118_nodes std std ⟨rfl, rfl⟩ ⟨rfl, rfl⟩ _ _ m 0 m' 0 s s' hm hm' 1 1 _ _ rfl rfl
    (.assembleProduction .debug .release _ (by decide)) a a' ha ha' _ _ hr hr').1]

/-- C118: three lookups for each of five cycles, and one for the instruction that is assembled. -/
example (page : Unit → Nat → U256) : ((two page .debug).map Job.lookups).sum = 16 := rfl

/-- C118: running on a code and on another one with the same disassembly is the same work. -/
example (M : Machine 16 State Unit) (n : Nat) (s : State) :
    ∃ (words words' : List (Vector Byte 32)) (page page' : Unit → Nat → U256), words ≠ words' ∧
      (∀ c k, HoldsPageWord (page c k) words k) ∧ (∀ c k, HoldsPageWord (page' c k) words' k) ∧
      SameWork (.runProduction M page n s) (.runProduction M page' n s) := by
  have hv : ∀ words k, ∃ v, HoldsPageWord v words k := fun words k => by
    obtain ⟨v, hv⟩ := C09_word_exists (words.flatMap Vector.toList) k
    exact ⟨v, by unfold HoldsPageWord; rw [Deploy.pageWord_eq]; exact hv⟩
  obtain ⟨words', hne, hl, hd⟩ := C112_not_unique_production [Vector.replicate 32 0] (by decide)
  obtain ⟨prog, hp, _⟩ := C112_disassembly_production [Vector.replicate 32 0]
  exact ⟨[Vector.replicate 32 0], words', fun _ k => (hv [Vector.replicate 32 0] k).choose,
    fun _ k => (hv words' k).choose, hne.symm, fun _ k => (hv _ k).choose_spec, fun _ k => (hv words' k).choose_spec,
    .runProduction M _ _ n s ⟨fun _ => [Vector.replicate 32 0], fun _ => words', fun _ k => (hv _ k).choose_spec,
      fun _ k => (hv words' k).choose_spec, fun _ => ⟨prog, hp, (hd prog).1 hp⟩⟩⟩

end ZkEvm.Props
