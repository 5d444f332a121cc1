import Verif.Model.Atomics
/-! Model of the lazily initialised statics with the memory orders of their atomic operations. `Verif.Model.Atomics`
lets all threads see one memory; here a load may return any word that the thread is not yet bound to have overtaken,
and a thread may only touch a storage if the write to it happened before.

* Every static has the sequence of all words written to it. A thread has a `View`: for each static the earliest of
  these words it may still see, and whether the write to the storage happened before what it does next.
* A load with `Acquire` that sees a word takes over the view that came with that word. A swap with `Release` leaves the
  thread's view with the word it writes. Every operation that replaces a word passes on the view of the word it
  replaces (a release sequence), sees the latest word, and leaves the thread bound to see its own word.
* Reading a storage whose write did not happen before is a data race, so undefined behaviour; so is writing a storage
  that has been written, as a thread may have read it by then.

In `std::sync::Once` (futex implementation) the loads and failing exchanges are `Acquire`, the exchange that enters the
initialiser is `Acquire`, the one that announces a sleeper is `Relaxed`, and the swap at the end is `Release`. The
strengths are a parameter here (`Orders`), so that it can be asked which of them are needed.

The libraries are not in `/repo`; this is what `src/lib.rs:127-228` relies on. Simplifications: a thread going to sleep
compares the latest word, as the kernel does; views speak only of the words and storages of the statics; no operation
sees a word that is written later. -/
namespace ZkEvm.Weak
open Atomics (OnceState Pc Next next)

variable {Cell : Type} {Val : Cell → Type} {α : Type}

/-- What happened before a point of a thread: words before number `floor c` of static `c` can no longer be seen, and
`knows c` says that the write to its storage is over. Memory model under `src/lib.rs:127-228` -/
structure View (Cell : Type) where
  floor : Cell → Nat
  knows : Cell → Bool

/-- The start of the program; `src/lib.rs:127-228` -/
def View.empty : View Cell := ⟨fun _ => 0, fun _ => false⟩

/-- All that happened before the one or the other; `src/lib.rs:127-228` -/
def View.join (v w : View Cell) : View Cell := ⟨fun c => max (v.floor c) (w.floor c), fun c => v.knows c || w.knows c⟩

variable [DecidableEq Cell]

/-- Having seen word number `i` of static `c`; `src/lib.rs:127-228` -/
def View.see (v : View Cell) (c : Cell) (i : Nat) : View Cell :=
  { v with floor := fun d => if c = d then max (v.floor d) i else v.floor d }

/-- Having written the storage of static `c`; `src/lib.rs:127-228` -/
def View.note (v : View Cell) (c : Cell) : View Cell :=
  { v with knows := fun d => if c = d then true else v.knows d }

/-- A word written to a `Once`, and the view that an acquiring load of it takes over; `src/lib.rs:127-228` -/
structure Write (Cell : Type) where
  word : OnceState
  view : View Cell

/-- The statics of `src/lib.rs:127-228`: the words written to each, numbered from 0 to `last`, and its storage. `owner`
is the thread that last entered the initialiser; it is not in the program and no step looks at it. -/
structure Memory (Cell : Type) (Val : Cell → Type) where
  last : Cell → Nat
  write : Cell → Nat → Write Cell
  slot : (c : Cell) → Option (Val c)
  owner : Cell → Nat

/-- A thread, users of `src/lib.rs:127-228` -/
structure Agent (Cell : Type) (Val : Cell → Type) (α : Type) where
  code : Lazy.Thread Cell Val α
  pc : Pc Cell
  view : View Cell

/-- The process; `log` lists the initialisers started, newest first. Users of `src/lib.rs:127-228` -/
structure Process (Cell : Type) (Val : Cell → Type) (α : Type) where
  mem : Memory Cell Val
  agents : List (Agent Cell Val α)
  log : List Cell

/-- The strengths of the memory orders: of loads and failing exchanges, of the exchange that enters an initialiser, and
of the swap that ends it. `std::sync::Once` under `src/lib.rs:127-228` -/
structure Orders where
  loadAcquires : Bool
  enterAcquires : Bool
  swapReleases : Bool

/-- The strengths chosen in `std::sync::Once`; `src/lib.rs:127-228` -/
def std : Orders := ⟨true, true, true⟩

omit [DecidableEq Cell] in
/-- The latest word; `src/lib.rs:127-228` -/
def Memory.latest (m : Memory Cell Val) (c : Cell) : Write Cell := m.write c (m.last c)

/-- Write one word; `src/lib.rs:127-228` -/
def Memory.push (m : Memory Cell Val) (c : Cell) (w : Write Cell) : Memory Cell Val :=
  { m with
    last := fun d => if c = d then m.last d + 1 else m.last d
    write := fun d i => if c = d ∧ i = m.last d + 1 then w else m.write d i }

/-- Write one storage; `src/lib.rs:127-228` -/
def Memory.setSlot (m : Memory Cell Val) (c : Cell) (v : Val c) : Memory Cell Val :=
  { m with slot := fun d => if h : c = d then some (h ▸ v) else m.slot d }

/-- Remember who entered an initialiser; `src/lib.rs:127-228` -/
def Memory.setOwner (m : Memory Cell Val) (c : Cell) (t : Nat) : Memory Cell Val :=
  { m with owner := fun d => if c = d then t else m.owner d }

/-- A thread's view after it saw word number `i` of static `c`; `src/lib.rs:127-228` -/
def seeing (acquires : Bool) (m : Memory Cell Val) (c : Cell) (i : Nat) (v : View Cell) : View Cell :=
  if acquires then (v.join (m.write c i).view).see c i else v.see c i

/-- The swap at the end of an initialiser; `CompletionGuard::drop` under `src/lib.rs:127-228` -/
def swap (o : Orders) (m : Memory Cell Val) (d : Cell) (x : OnceState) (v : View Cell) : Memory Cell Val :=
  m.push d ⟨x, if o.swapReleases then ((m.latest d).view.join v).see d (m.last d + 1) else (m.latest d).view⟩

/-- One atomic operation of thread number `t`: the new memory, the new thread, the static whose sleepers are woken, and
the initialiser started. `pick` chooses the number of the word that a load or a failing exchange sees; `None` lets the
exchange succeed. With a choice, a thread that sleeps or is about to does not go on sleeping. The result is `None` if
the thread cannot do this. `Once::call_once`, `Once::call`, `CompletionGuard::drop` and `Lazy::get` under
`src/lib.rs:127-228` -/
def act (o : Orders) (init : (c : Cell) → Lazy.Prog Cell Val (Val c)) (t : Nat) (pick : Option Nat)
    (m : Memory Cell Val) (a : Agent Cell Val α) :
    Option (Memory Cell Val × Agent Cell Val α × Option Cell × List Cell) :=
  match a.pc, next a.code, pick with
  | .waking c, _, _ => some (m, ⟨a.code, .start, a.view⟩, some c, [])
  | .start, .reads c _ _, some i =>
    if a.view.floor c ≤ i ∧ i ≤ m.last c then
      some (m, ⟨a.code, if (m.write c i).word = .complete then .reading else .slow,
        seeing o.loadAcquires m c i a.view⟩, none, [])
    else none
  | .slow, .reads c _ _, some i =>
    if a.view.floor c ≤ i ∧ i ≤ m.last c then
      some (m, ⟨a.code, .loaded (m.write c i).word, seeing o.loadAcquires m c i a.view⟩, none, [])
    else none
  | .loaded .incomplete, .reads c _ _, none =>
    if (m.latest c).word = .incomplete then
      some ((m.push c ⟨.running, (m.latest c).view⟩).setOwner c t,
        ⟨⟨a.code.main, ⟨c, init c⟩ :: a.code.stack⟩, .start,
          (seeing o.enterAcquires m c (m.last c) a.view).see c (m.last c + 1)⟩, none, [c])
    else none
  | .loaded .incomplete, .reads c _ _, some i =>
    if a.view.floor c ≤ i ∧ i ≤ m.last c then
      some (m, ⟨a.code, .loaded (m.write c i).word, seeing o.loadAcquires m c i a.view⟩, none, [])
    else none
  | .loaded .running, .reads c _ _, none =>
    if (m.latest c).word = .running then
      some (m.push c ⟨.queued, (m.latest c).view⟩, ⟨a.code, .wait, a.view.see c (m.last c + 1)⟩, none, [])
    else none
  | .loaded .running, .reads c _ _, some i =>
    if a.view.floor c ≤ i ∧ i ≤ m.last c then
      some (m, ⟨a.code, .loaded (m.write c i).word, seeing o.loadAcquires m c i a.view⟩, none, [])
    else none
  | .loaded .queued, .reads _ _ _, _ => some (m, ⟨a.code, .wait, a.view⟩, none, [])
  | .loaded .complete, .reads _ _ _, _ => some (m, ⟨a.code, .reading, a.view⟩, none, [])
  | .loaded .poisoned, .reads _ _ fail, _ => some (m, ⟨fail, .start, a.view⟩, none, [])
  | .wait, .reads c _ _, none =>
    some (m, ⟨a.code, if (m.latest c).word = .queued then .parked else .slow, a.view⟩, none, [])
  | .wait, .reads _ _ _, some _ => some (m, ⟨a.code, .slow, a.view⟩, none, [])
  | .parked, .reads _ _ _, some _ => some (m, ⟨a.code, .slow, a.view⟩, none, [])
  | .reading, .reads c resume _, _ =>
    match m.slot c, a.view.knows c with
    | some v, true => some (m, ⟨resume v, .start, a.view⟩, none, [])
    | _, _ => some (m, ⟨a.code, .undefined, a.view⟩, none, [])
  | .start, .returns d v _, _ =>
    match m.slot d with
    | none => some (m.setSlot d v, ⟨a.code, .stored, a.view.note d⟩, none, [])
    | some _ => some (m, ⟨a.code, .undefined, a.view⟩, none, [])
  | .stored, .returns d _ after, _ =>
    some (swap o m d .complete a.view, ⟨after, if (m.latest d).word = .queued then .waking d else .start,
      a.view.see d (m.last d + 1)⟩, none, [])
  | .start, .unwinds d after, _ =>
    some (swap o m d .poisoned a.view, ⟨after, if (m.latest d).word = .queued then .waking d else .start,
      a.view.see d (m.last d + 1)⟩, none, [])
  | _, _, _ => none

/-- The choice without any delay: a load sees the latest word, and an exchange succeeds if it can. `src/lib.rs:127-228` -/
def prompt (m : Memory Cell Val) (a : Agent Cell Val α) : Option Nat :=
  match a.pc, next a.code with
  | .start, .reads c _ _ => some (m.last c)
  | .slow, .reads c _ _ => some (m.last c)
  | .loaded .incomplete, .reads c _ _ => if (m.latest c).word = .incomplete then none else some (m.last c)
  | .loaded .running, .reads c _ _ => if (m.latest c).word = .running then none else some (m.last c)
  | _, _ => none

/-- Wake a thread if it sleeps on static `c`; it then loads the word again. `futex_wake_all` under
`src/lib.rs:127-228` -/
def wake (c : Cell) (a : Agent Cell Val α) : Agent Cell Val α :=
  match a.pc, next a.code with
  | .parked, .reads d _ _ => if c = d then ⟨a.code, .slow, a.view⟩ else a
  | _, _ => a

/-- Wake all sleepers of a static, if any is given; `src/lib.rs:127-228` -/
def wakeAll (c : Option Cell) (l : List (Agent Cell Val α)) : List (Agent Cell Val α) :=
  match c with
  | some c => l.map (wake c)
  | none => l

/-- Thread number `t` executes one operation with the given choice; `src/lib.rs:127-228` -/
def StepWith (o : Orders) (init : (c : Cell) → Lazy.Prog Cell Val (Val c)) (t : Nat) (pick : Option Nat)
    (s s' : Process Cell Val α) : Prop :=
  ∃ a m a' w started, s.agents[t]? = some a ∧ act o init t pick s.mem a = some (m, a', w, started) ∧
    s' = ⟨m, wakeAll w (s.agents.set t a'), started ++ s.log⟩

/-- Some thread executes one operation without delay; `src/lib.rs:127-228` -/
def Step (o : Orders) (init : (c : Cell) → Lazy.Prog Cell Val (Val c)) (s s' : Process Cell Val α) : Prop :=
  ∃ t a, s.agents[t]? = some a ∧ StepWith o init t (prompt s.mem a) s s'

/-- `n` operations without delay and `k` operations with any choices, in any order; `src/lib.rs:127-228` -/
inductive Runs (o : Orders) (init : (c : Cell) → Lazy.Prog Cell Val (Val c)) :
    Process Cell Val α → Nat → Nat → Process Cell Val α → Prop
  | start (s) : Runs o init s 0 0 s
  | step {s n k s' s''} : Runs o init s n k s' → Step o init s' s'' → Runs o init s (n + 1) k s''
  | any {s n k s' s'' t pick} : Runs o init s n k s' → StepWith o init t pick s' s'' → Runs o init s n (k + 1) s''

omit [DecidableEq Cell] in
/-- A process whose threads are about to run the given computations, no static being initialised;
`src/lib.rs:127-228` -/
def begin (progs : List (Lazy.Prog Cell Val α)) : Process Cell Val α :=
  ⟨⟨fun _ => 0, fun _ _ => ⟨.incomplete, .empty⟩, fun _ => none, fun _ => 0⟩,
    progs.map fun p => ⟨⟨p, []⟩, .start, .empty⟩, []⟩

omit [DecidableEq Cell] in
/-- The result of a thread that has finished; `src/lib.rs:127-228` -/
def Agent.result (a : Agent Cell Val α) : Option (Res α) :=
  match a.pc with
  | .start => a.code.result
  | _ => none

end ZkEvm.Weak
