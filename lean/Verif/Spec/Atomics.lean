import Verif.Model.Atomics
/-! What a process executing single atomic operations looks like to its user. -/
namespace ZkEvm.Spec
open Atomics

variable {Cell : Type} {Val : Cell → Type} {α : Type}

/-- A process at the grain of atomic operations and a process whose dereferences are atomic look the same: the threads
have the same computations left, the same initialisers have been started, and every static is in the same condition. -/
structure LooksLike (s : Process Cell Val α) (x : Lazy.State Cell Val α) : Prop where
  threads : x.threads = s.agents.map Agent.code
  log : x.log = s.log
  untouched : ∀ c, x.cells c = .uninit ↔ s.mem.state c = .incomplete
  running : ∀ c, (∃ t, x.cells c = .running t) ↔ s.mem.state c = .running ∨ s.mem.state c = .queued
  ready : ∀ c v, x.cells c = .ready v ↔ s.mem.state c = .complete ∧ s.mem.slot c = some v
  poisoned : ∀ c, x.cells c = .poisoned ↔ s.mem.state c = .poisoned

/-- The thread's next operation writes the storage of `c`. -/
def WritesStorage (a : Agent Cell Val α) (c : Cell) : Prop :=
  a.pc = .start ∧ ∃ v after, next a.code = .returns c v after

/-- The thread's next operation reads the storage of `c`. -/
def ReadsStorage (a : Agent Cell Val α) (c : Cell) : Prop :=
  a.pc = .reading ∧ ∃ resume fail, next a.code = .reads c resume fail

/-- The thread sleeps until it is woken for `c`. -/
def SleepsOn (a : Agent Cell Val α) (c : Cell) : Prop :=
  a.pc = .parked ∧ ∃ resume fail, next a.code = .reads c resume fail

end ZkEvm.Spec
