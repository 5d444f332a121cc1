import Verif.Model.Lazy
/-! What a computation over statics means when every static simply has a value. -/
namespace ZkEvm.Spec
open ZkEvm.Lazy

variable {Cell : Type} {Val : Cell → Type} {α : Type}

/-- The result of a computation when static `c` has the value `env c` -/
def eval (env : (c : Cell) → Val c) : Prog Cell Val α → Res α
  | .done r => r
  | .read c k => eval env (k (env c))

/-- The statics it dereferences then, in order -/
def reads (env : (c : Cell) → Val c) : Prog Cell Val α → List Cell
  | .done _ => []
  | .read c k => c :: reads env (k (env c))

/-- What a computation gives when it reads the statics as they are in `cells`: an initialised static gives its value, a
poisoned one panics (with any message). There is no result while a static it needs is not initialised. -/
inductive Sees (cells : (c : Cell) → Status (Val c)) : Prog Cell Val α → Res α → Prop
  | done (r : Res α) : Sees cells (.done r) r
  | ready (c : Cell) (k) (v : Val c) (r) : cells c = .ready v → Sees cells (k v) r → Sees cells (.read c k) r
  | poisoned (c : Cell) (k) (e : Panic) : cells c = .poisoned → Sees cells (.read c k) (.error e)

end ZkEvm.Spec
