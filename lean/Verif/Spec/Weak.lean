import Verif.Model.Weak
import Verif.Spec.Atomics
/-! What a process with relaxed memory looks like to its user. -/
namespace ZkEvm.Spec
open Weak

variable {Cell : Type} {Val : Cell → Type} {α : Type}

/-- The process with one memory: every static has its latest word, and threads have no views. -/
def forget (s : Weak.Process Cell Val α) : Atomics.Process Cell Val α :=
  ⟨⟨fun c => (s.mem.latest c).word, s.mem.slot, s.mem.owner⟩, s.agents.map fun a => ⟨a.code, a.pc⟩, s.log⟩

/-- The memory orders suffice: loads acquire and the final swap releases. -/
def OrdersSuffice (o : Orders) : Prop := o.loadAcquires = true ∧ o.swapReleases = true

end ZkEvm.Spec
