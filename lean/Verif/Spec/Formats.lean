import Verif.Model.Abi
/-! Vocabulary for the ABI and hash formats. -/
namespace ZkEvm.Spec

/-- The two bytes hold `n`, big-endian -/
def HoldsLength (hi lo : Byte) (n : Nat) : Prop := 256 * hi.toNat + lo.toNat = n

/-- The page type for each forwarding byte -/
def pageType (b : Nat) : FarCallForwardPageType :=
  if b = 1 then .forwardFatPointer else if b = 2 then .useAuxHeap else .useHeap

/-- The same page type in the return ABI -/
def retOfFarCall : FarCallForwardPageType → RetForwardPageType
  | .useHeap => .useHeap
  | .forwardFatPointer => .forwardFatPointer
  | .useAuxHeap => .useAuxHeap

end ZkEvm.Spec
