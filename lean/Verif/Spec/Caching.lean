import Verif.Spec.Machine
/-! Machines that keep the last code word they have read. Nothing in this file is a function of the crate. -/
namespace ZkEvm.Spec

/-- A state together with the last code word read, where it was read, and how many have been read -/
structure CachedState (w : Nat) (State Contract : Type) where
  state : State
  last : Option ((Contract × BitVec w) × U256)
  reads : Nat

variable {State Contract : Type} {w k : Nat}

/-- The contract and the index of the code word that holds the next instruction -/
def place (split : BitVec w → BitVec w × BitVec w) (M : Machine w State Contract) (s : State) : Contract × BitVec w :=
  (M.contract s, (split (M.pc s)).1)

/-- The code word at `p` and the number of words read to get it: none, if it is the last one. -/
def readThrough [DecidableEq Contract] (page : Contract → Nat → U256) (last : Option ((Contract × BitVec w) × U256))
    (p : Contract × BitVec w) : U256 × Nat :=
  match last with
  | some (q, v) => if q = p then (v, 0) else (page p.1 p.2.toNat, 1)
  | none => (page p.1 p.2.toNat, 1)

/-- One cycle that reads the code page only if the instruction is not in the last code word -/
def cachedCycle [DecidableEq Contract] (split : BitVec w → BitVec w × BitVec w) (fetch : U256 → BitVec w → Res (BitVec k))
    (parse : BitVec k → Res (DecodedOpcode w × VariantMonotonicNumber)) (M : Machine w State Contract)
    (page : Contract → Nat → U256) (s : CachedState w State Contract) : Res (CachedState w State Contract) := do
  let (v, n) := readThrough page s.last (place split M s.state)
  let raw ← fetch v (split (M.pc s.state)).2
  let s' ← executeDecoded M s.state (← parse raw)
  pure ⟨s', some (place split M s.state, v), s.reads + n⟩

end ZkEvm.Spec
