import Verif.Spec.Machine
import Verif.Spec.VersionHistory
import Verif.Spec.Published
/-! Specification vocabulary for machines of different versions of the instruction set that run the same code. Nothing in
this file is a function of the crate. -/
namespace ZkEvm.Spec

variable {State Contract : Type}

/-- The instruction a number stands for in a version; numbers the version does not use stand for the invalid one. -/
def meaningIn (table : List OpcodeVariant) (n : Nat) : OpcodeVariant := table[n]?.getD invalidVariant

/-- One cycle of a machine of the version with this table: the fields of the word are those the crate's decoder reads,
the instruction is the one its number stands for in the version. -/
def cycleOfVersion {w n : Nat} (M : Machine w State Contract) (mask : OpcodeVariant → BitVec 64) (table : List OpcodeVariant)
    (fetch : State → Res (BitVec n)) (parse : BitVec n → Res (DecodedOpcode w × VariantMonotonicNumber)) (s : State) :
    Res State := do
  let decoded ← parse (← fetch s)
  let v := meaningIn table decoded.2.intoUsize
  pure (M.execute s { decoded.1 with variant := v } (priceOf v.opcode) (mask v))

/-- The word under the program counter of a machine on code pages of production words -/
def fetchProduction (M : Machine 16 State Contract) (page : Contract → Nat → U256) (s : State) : Res (BitVec 64) :=
  Production.integerRepresentationFromU256 (page (M.contract s) (Production.splitPc (M.pc s)).1.toNat)
    (Production.splitPc (M.pc s)).2

/-- The word under the program counter of a machine on code pages of testing words -/
def fetchTesting (M : Machine 32 State Contract) (page : Contract → Nat → U256) (s : State) : Res (BitVec 128) :=
  Testing.integerRepresentationFromU256 (page (M.contract s) (Testing.splitPc (M.pc s)).1.toNat)
    (Testing.splitPc (M.pc s)).2

/-- The machine does not care how a register source is spelled. -/
def SpellingBlind {w : Nat} (M : Machine w State Contract) : Prop :=
  ∀ s (o : DecodedOpcode w) v price mask, SameMeaning v o.variant →
    M.execute s { o with variant := v } price mask = M.execute s o price mask

/-- In `n` cycles from `s` the words fetched have numbers below `limit`. -/
def FetchesBelow {w : Nat} (limit : Nat) (cycle : State → Res State) (fetch : State → Res (BitVec w)) (n : Nat) (s : State) :
    Prop :=
  ∀ k t raw, k < n → cycles cycle k s = .ok t → fetch t = .ok raw → bits raw 0 11 < limit

end ZkEvm.Spec
