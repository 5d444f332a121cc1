import Verif.Model.Basic
/-! Model of `lazy_static!` (version 1.4 on `std::sync::Once`) under concurrent use: threads that dereference lazily
initialised statics, interleaved arbitrarily.

* The first thread that dereferences a static runs its initialiser (`Once::call_once`); the initialiser may itself
  dereference other statics.
* A thread that dereferences a static whose initialiser is running, in another thread or further down its own stack,
  waits (`Once` blocks; recursive initialisation never returns).
* A panicking initialiser poisons the static: the panic unwinds the thread, and every later dereference panics.

Simplification: one dereference of an initialised static, one entry into an initialiser and one completion of an
initialiser are each a single atomic step; the code between them is thread-local and pure. Memory ordering is that of
`Once` (a completed initialiser happens before every dereference that sees it completed). -/
namespace ZkEvm.Lazy

variable {Cell : Type} {Val : Cell → Type} {α β : Type}

/-- A computation that dereferences statics: it ends with a value or a panic, or dereferences the static `c` and
continues with its value. (`lazy_static!`'s `Deref::deref`, used in `src/lib.rs:127-228` and by the coders.) -/
inductive Prog (Cell : Type) (Val : Cell → Type) (α : Type) where
  | done (r : Res α)
  | read (c : Cell) (k : Val c → Prog Cell Val α)

/-- Sequencing; a panic ends the computation. Used for `src/lib.rs:127-228` -/
def Prog.bind : Prog Cell Val α → (α → Prog Cell Val β) → Prog Cell Val β
  | .done (.ok a), f => f a
  | .done (.error e), _ => .done (.error e)
  | .read c k, f => .read c fun v => (k v).bind f

instance : Monad (Prog Cell Val) where
  pure a := .done (.ok a)
  bind := Prog.bind

/-- Dereference a static, for example `src/lib.rs:133` -/
def get (c : Cell) : Prog Cell Val (Val c) := .read c fun v => .done (.ok v)

/-- Code that dereferences no static, for example `src/lib.rs:129` -/
def lift (r : Res α) : Prog Cell Val α := .done r

/-- What a static's `Once` and storage hold; `src/lib.rs:127-228` -/
inductive Status (V : Type) where
  | uninit
  | running (thread : Nat)
  | ready (v : V)
  | poisoned

/-- A running initialiser: the static and the rest of its initialiser; `src/lib.rs:127-228` -/
structure Frame (Cell : Type) (Val : Cell → Type) where
  cell : Cell
  prog : Prog Cell Val (Val cell)

/-- A thread: its own computation and the initialisers it is running, innermost first, users of `src/lib.rs:127-228` -/
structure Thread (Cell : Type) (Val : Cell → Type) (α : Type) where
  main : Prog Cell Val α
  stack : List (Frame Cell Val)

/-- The whole process. `log` lists the initialisers started so far, newest first. Users of `src/lib.rs:127-228` -/
structure State (Cell : Type) (Val : Cell → Type) (α : Type) where
  cells : (c : Cell) → Status (Val c)
  threads : List (Thread Cell Val α)
  log : List Cell

/-- Set the status of one static; `src/lib.rs:127-228` -/
def update [DecidableEq Cell] (cells : (c : Cell) → Status (Val c)) (c : Cell) (s : Status (Val c)) :
    (d : Cell) → Status (Val d) :=
  fun d => if h : c = d then h ▸ s else cells d

/-- Unwinding: the computation below the finished one panics; `src/lib.rs:127-228` -/
def raise (e : Panic) (main : Prog Cell Val α) : List (Frame Cell Val) → Thread Cell Val α
  | [] => ⟨.done (.error e), []⟩
  | f :: rest => ⟨main, ⟨f.cell, .done (.error e)⟩ :: rest⟩

/-- One step of thread number `t`, if it can make one. Dereferences in and of `src/lib.rs:127-228` -/
def stepThread [DecidableEq Cell] (init : (c : Cell) → Prog Cell Val (Val c)) (t : Nat)
    (cells : (c : Cell) → Status (Val c)) (th : Thread Cell Val α) :
    Option (((c : Cell) → Status (Val c)) × Thread Cell Val α × List Cell) :=
  match th.stack with
  | [] =>
    match th.main with
    | .done _ => none
    | .read c k =>
      match cells c with
      | .ready v => some (cells, ⟨k v, []⟩, [])
      | .uninit => some (update cells c (.running t), ⟨.read c k, [⟨c, init c⟩]⟩, [c])
      | .running _ => none
      | .poisoned => some (cells, ⟨.done (.error .explicitPanic), []⟩, [])
  | ⟨d, p⟩ :: rest =>
    match p with
    | .done (.ok v) => some (update cells d (.ready v), ⟨th.main, rest⟩, [])
    | .done (.error e) => some (update cells d .poisoned, raise e th.main rest, [])
    | .read c k =>
      match cells c with
      | .ready v => some (cells, ⟨th.main, ⟨d, k v⟩ :: rest⟩, [])
      | .uninit => some (update cells c (.running t), ⟨th.main, ⟨c, init c⟩ :: ⟨d, .read c k⟩ :: rest⟩, [c])
      | .running _ => none
      | .poisoned => some (cells, ⟨th.main, ⟨d, .done (.error .explicitPanic)⟩ :: rest⟩, [])

/-- The scheduler lets some thread make a step. Used for `src/lib.rs:127-228` -/
def Step [DecidableEq Cell] (init : (c : Cell) → Prog Cell Val (Val c)) (s s' : State Cell Val α) : Prop :=
  ∃ t th cells' th' started, s.threads[t]? = some th ∧
    stepThread init t s.cells th = some (cells', th', started) ∧
    s' = ⟨cells', s.threads.set t th', started ++ s.log⟩

/-- `n` steps under some schedule; `src/lib.rs:127-228` -/
inductive Runs [DecidableEq Cell] (init : (c : Cell) → Prog Cell Val (Val c)) :
    State Cell Val α → Nat → State Cell Val α → Prop
  | start (s) : Runs init s 0 s
  | step {s n s' s''} : Runs init s n s' → Step init s' s'' → Runs init s (n + 1) s''

/-- A process whose threads are about to run the given computations, no static being initialised;
`src/lib.rs:127-228` -/
def begin (progs : List (Prog Cell Val α)) : State Cell Val α :=
  ⟨fun _ => .uninit, progs.map fun p => ⟨p, []⟩, []⟩

/-- The result of a thread that has finished; `src/lib.rs:127-228` -/
def Thread.result (th : Thread Cell Val α) : Option (Res α) :=
  match th.stack, th.main with
  | [], .done r => some r
  | _, _ => none

end ZkEvm.Lazy
