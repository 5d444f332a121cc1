import Verif.Model.Basic
/-! Debug and release builds. Nothing in this file is a function of the crate. -/
namespace ZkEvm.Spec

/-- Whatever a debug build returns, a release build returns too. -/
def CarriesOver {α : Type} (f : Build → Res α) : Prop := ∀ a, f .debug = .ok a → f .release = .ok a

/-- A debug build panics where a release build returns. -/
def OnlyDebugPanics {α : Type} (f : Build → Res α) : Prop := (∃ e, f .debug = .error e) ∧ ∃ a, f .release = .ok a

end ZkEvm.Spec
