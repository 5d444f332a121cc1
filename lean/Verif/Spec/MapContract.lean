import Verif.Model.HashTable
/-! What the documentation of `HashMap` and `HashSet` promises about the operations the crate uses. -/
namespace ZkEvm.Spec
open HashTable

/-- After any insertions, a key has the value it was inserted with last, and no value if it was never inserted. -/
def MapContract {K V : Type} [BEq K] (M : MapOps K V) : Prop :=
  ∀ (ops : List (K × V)) (k : K), M.get (ops.foldl (fun t e => M.insert t e.1 e.2) M.new) k = ops.reverse.lookup k

/-- Every slot of a table of any size is in some group of every probe sequence, so a free slot is always found. -/
def VisitsAll {K : Type} (p : Probing K) : Prop :=
  ∀ h n i, i < n → i ∈ (p.groups h n).flatten

end ZkEvm.Spec
