import Verif.Model.Lazy
/-! Model of `lazy_static!` at the grain of single atomic operations: `lazy_static::lazy::Lazy::get` (version 1.4) over
the futex implementation of `std::sync::Once`. `Verif.Model.Lazy` treats a dereference, the entry into an initialiser
and its completion as single steps; here each of them is the sequence of loads, compare-and-exchanges, swaps, waits and
wake-ups that the libraries execute, with a scheduler that may switch threads between any two of them.

* `Lazy::get` calls `call_once` with a closure that stores `Some(initialiser())`, then reads the storage; it executes
  `unreachable_unchecked` if the storage is still empty (`Pc.undefined`).
* `Once::call_once` returns if one load finds the word `COMPLETE`. Otherwise it loads the word again and loops:
  `INCOMPLETE` is exchanged for `RUNNING` and the closure runs; `RUNNING` is exchanged for `QUEUED`; at `QUEUED` the
  thread sleeps until it is woken, if the word still is `QUEUED` when it goes to sleep; `COMPLETE` returns; `POISONED`
  panics.
* When the closure ends or unwinds, the word is swapped for `COMPLETE` or `POISONED`, and if it was `QUEUED` all sleepers
  are woken.
* Spurious events: `compare_exchange_weak` may fail without a reason, a sleep may end at any time, and a load or a
  failing exchange may see a word that is out of date.

The libraries are not in `/repo`; this is what `src/lib.rs:127-228` relies on. Simplification: the storage is read and
written in one global order; `Verif.Model.Weak` has the memory orders. -/
namespace ZkEvm.Atomics

variable {Cell : Type} {Val : Cell → Type} {α : Type}

/-- The word of a `Once`, `std::sync::Once` under `src/lib.rs:127-228` -/
inductive OnceState where
  | incomplete
  | running
  | queued
  | complete
  | poisoned
  deriving DecidableEq, Repr

/-- Where a thread is inside `Lazy::get` or at the end of an initialiser, `src/lib.rs:127-228` -/
inductive Pc (Cell : Type) where
  /-- before the first load of `call_once`, or at the end of an initialiser before its result is stored -/
  | start
  /-- before the load at the head of the loop -/
  | slow
  /-- inside the loop, having seen this word -/
  | loaded (seen : OnceState)
  /-- about to sleep, if the word is `QUEUED` -/
  | wait
  /-- asleep -/
  | parked
  /-- `call_once` has returned: about to read the storage -/
  | reading
  /-- at the end of an initialiser, its result stored, before the swap -/
  | stored
  /-- about to wake the threads that sleep on this static -/
  | waking (c : Cell)
  /-- undefined behaviour -/
  | undefined

/-- A thread: what is left of its computation and of the initialisers it runs, and its place in the operation it is
executing, users of `src/lib.rs:127-228` -/
structure Agent (Cell : Type) (Val : Cell → Type) (α : Type) where
  code : Lazy.Thread Cell Val α
  pc : Pc Cell

/-- The shared memory of the statics of `src/lib.rs:127-228`: the word and the storage of each. `owner` is the thread
that last entered the initialiser; it is not in the program and no step looks at it. -/
structure Memory (Cell : Type) (Val : Cell → Type) where
  state : Cell → OnceState
  slot : (c : Cell) → Option (Val c)
  owner : Cell → Nat

/-- The process; `log` lists the initialisers started, newest first. Users of `src/lib.rs:127-228` -/
structure Process (Cell : Type) (Val : Cell → Type) (α : Type) where
  mem : Memory Cell Val
  agents : List (Agent Cell Val α)
  log : List Cell

/-- What a thread is to do next: nothing, dereference a static (with what it becomes when it gets a value, and when it
panics because the static is poisoned), end an initialiser with a value, or unwind out of one. Users of
`src/lib.rs:127-228` -/
inductive Next (Cell : Type) (Val : Cell → Type) (α : Type) where
  | finished
  | reads (c : Cell) (resume : Val c → Lazy.Thread Cell Val α) (fail : Lazy.Thread Cell Val α)
  | returns (d : Cell) (v : Val d) (after : Lazy.Thread Cell Val α)
  | unwinds (d : Cell) (after : Lazy.Thread Cell Val α)

/-- What a thread is to do next, users of `src/lib.rs:127-228` -/
def next (th : Lazy.Thread Cell Val α) : Next Cell Val α :=
  match th.stack with
  | [] =>
    match th.main with
    | .done _ => .finished
    | .read c k => .reads c (fun v => ⟨k v, []⟩) ⟨.done (.error .explicitPanic), []⟩
  | ⟨d, p⟩ :: rest =>
    match p with
    | .read c k => .reads c (fun v => ⟨th.main, ⟨d, k v⟩ :: rest⟩) ⟨th.main, ⟨d, .done (.error .explicitPanic)⟩ :: rest⟩
    | .done (.ok v) => .returns d v ⟨th.main, rest⟩
    | .done (.error e) => .unwinds d (Lazy.raise e th.main rest)

variable [DecidableEq Cell]

/-- Write one word; `src/lib.rs:127-228` -/
def Memory.setState (m : Memory Cell Val) (c : Cell) (s : OnceState) : Memory Cell Val :=
  { m with state := fun d => if c = d then s else m.state d }

/-- Write one storage; `src/lib.rs:127-228` -/
def Memory.setSlot (m : Memory Cell Val) (c : Cell) (v : Val c) : Memory Cell Val :=
  { m with slot := fun d => if h : c = d then some (h ▸ v) else m.slot d }

/-- Remember who entered an initialiser; `src/lib.rs:127-228` -/
def Memory.setOwner (m : Memory Cell Val) (c : Cell) (t : Nat) : Memory Cell Val :=
  { m with owner := fun d => if c = d then t else m.owner d }

/-- One atomic operation of thread number `t`: the new memory, the new thread, the static whose sleepers are woken, and
the initialiser started. `None` if the thread has finished, sleeps or has run into undefined behaviour.
`Once::call_once`, `Once::call`, `CompletionGuard::drop` and `Lazy::get` under `src/lib.rs:127-228` -/
def act (init : (c : Cell) → Lazy.Prog Cell Val (Val c)) (t : Nat) (m : Memory Cell Val) (a : Agent Cell Val α) :
    Option (Memory Cell Val × Agent Cell Val α × Option Cell × List Cell) :=
  match a.pc, next a.code with
  | .waking c, _ => some (m, ⟨a.code, .start⟩, some c, [])
  | .start, .reads c _ _ =>
    some (m, ⟨a.code, if m.state c = .complete then .reading else .slow⟩, none, [])
  | .slow, .reads c _ _ => some (m, ⟨a.code, .loaded (m.state c)⟩, none, [])
  | .loaded .incomplete, .reads c _ _ =>
    if m.state c = .incomplete then
      some ((m.setState c .running).setOwner c t, ⟨⟨a.code.main, ⟨c, init c⟩ :: a.code.stack⟩, .start⟩, none, [c])
    else some (m, ⟨a.code, .loaded (m.state c)⟩, none, [])
  | .loaded .running, .reads c _ _ =>
    if m.state c = .running then some (m.setState c .queued, ⟨a.code, .wait⟩, none, [])
    else some (m, ⟨a.code, .loaded (m.state c)⟩, none, [])
  | .loaded .queued, .reads _ _ _ => some (m, ⟨a.code, .wait⟩, none, [])
  | .loaded .complete, .reads _ _ _ => some (m, ⟨a.code, .reading⟩, none, [])
  | .loaded .poisoned, .reads _ _ fail => some (m, ⟨fail, .start⟩, none, [])
  | .wait, .reads c _ _ => some (m, ⟨a.code, if m.state c = .queued then .parked else .slow⟩, none, [])
  | .reading, .reads c resume _ =>
    match m.slot c with
    | some v => some (m, ⟨resume v, .start⟩, none, [])
    | none => some (m, ⟨a.code, .undefined⟩, none, [])
  | .start, .returns d v _ => some (m.setSlot d v, ⟨a.code, .stored⟩, none, [])
  | .stored, .returns d _ after =>
    some (m.setState d .complete, ⟨after, if m.state d = .queued then .waking d else .start⟩, none, [])
  | .start, .unwinds d after =>
    some (m.setState d .poisoned, ⟨after, if m.state d = .queued then .waking d else .start⟩, none, [])
  | _, _ => none

/-- What a load may see when the word is `now`: any `old` word that is not a last one, since those are never overwritten;
else the word itself. `std::sync::Once` under `src/lib.rs:127-228` -/
def outdated (old now : OnceState) : OnceState :=
  match old with
  | .complete => now
  | .poisoned => now
  | _ => old

/-- A spurious event: a load sees an outdated word, a weak compare-and-exchange fails without a reason or because of an
outdated word, a sleep ends or does not begin. `std::sync::Once` under `src/lib.rs:127-228` -/
def spurious (old : OnceState) (m : Memory Cell Val) (a : Agent Cell Val α) : Option (Agent Cell Val α) :=
  match a.pc, next a.code with
  | .start, .reads _ _ _ => some ⟨a.code, .slow⟩
  | .slow, .reads c _ _ => some ⟨a.code, .loaded (outdated old (m.state c))⟩
  | .loaded .incomplete, .reads c _ _ => some ⟨a.code, .loaded (outdated old (m.state c))⟩
  | .loaded .running, .reads c _ _ => some ⟨a.code, .loaded (outdated old (m.state c))⟩
  | .wait, .reads _ _ _ => some ⟨a.code, .slow⟩
  | .parked, .reads _ _ _ => some ⟨a.code, .slow⟩
  | _, _ => none

/-- Wake a thread if it sleeps on static `c`; it then loads the word again. `futex_wake_all` under
`src/lib.rs:127-228` -/
def wake (c : Cell) (a : Agent Cell Val α) : Agent Cell Val α :=
  match a.pc, next a.code with
  | .parked, .reads d _ _ => if c = d then ⟨a.code, .slow⟩ else a
  | _, _ => a

/-- Wake all sleepers of a static, if any is given; `src/lib.rs:127-228` -/
def wakeAll (c : Option Cell) (l : List (Agent Cell Val α)) : List (Agent Cell Val α) :=
  match c with
  | some c => l.map (wake c)
  | none => l

/-- Some thread executes one operation; `src/lib.rs:127-228` -/
def Step (init : (c : Cell) → Lazy.Prog Cell Val (Val c)) (s s' : Process Cell Val α) : Prop :=
  ∃ t a m a' w started, s.agents[t]? = some a ∧ act init t s.mem a = some (m, a', w, started) ∧
    s' = ⟨m, wakeAll w (s.agents.set t a'), started ++ s.log⟩

/-- A spurious event happens to some thread; `src/lib.rs:127-228` -/
def Glitch (s s' : Process Cell Val α) : Prop :=
  ∃ t a old a', s.agents[t]? = some a ∧ spurious old s.mem a = some a' ∧ s' = ⟨s.mem, s.agents.set t a', s.log⟩

/-- `n` operations and `k` spurious events, in any order; `src/lib.rs:127-228` -/
inductive Runs (init : (c : Cell) → Lazy.Prog Cell Val (Val c)) :
    Process Cell Val α → Nat → Nat → Process Cell Val α → Prop
  | start (s) : Runs init s 0 0 s
  | step {s n k s' s''} : Runs init s n k s' → Step init s' s'' → Runs init s (n + 1) k s''
  | glitch {s n k s' s''} : Runs init s n k s' → Glitch s' s'' → Runs init s n (k + 1) s''

omit [DecidableEq Cell] in
/-- A process whose threads are about to run the given computations, no static being initialised;
`src/lib.rs:127-228` -/
def begin (progs : List (Lazy.Prog Cell Val α)) : Process Cell Val α :=
  ⟨⟨fun _ => .incomplete, fun _ => none, fun _ => 0⟩, progs.map fun p => ⟨⟨p, []⟩, .start⟩, []⟩

omit [DecidableEq Cell] in
/-- The result of a thread that has finished; `src/lib.rs:127-228` -/
def Agent.result (a : Agent Cell Val α) : Option (Res α) :=
  match a.pc with
  | .start => a.code.result
  | _ => none

end ZkEvm.Atomics
