import Verif.Model.Derived
/-! What hashing and ordering of values have to satisfy. -/
namespace ZkEvm.Spec

/-- A platform: number of bytes of `usize` and byte order -/
structure Platform where
  usizeBytes : Nat
  bigEndian : Bool
  wide : 1 ≤ usizeBytes

/-- `n` bytes of a number, least significant first -/
def leBytes : Nat → Nat → List Byte
  | 0, _ => []
  | n + 1, v => BitVec.ofNat 8 v :: leBytes n (v / 256)

/-- `n` bytes of a number in the platform's order -/
def Platform.bytes (p : Platform) (n v : Nat) : List Byte := if p.bigEndian then (leBytes n v).reverse else leBytes n v

/-- The bytes a call hands over to a hasher that implements `write` only -/
def Platform.callBytes (p : Platform) : HasherCall → List Byte
  | .writeU8 v => p.bytes 1 v.toNat
  | .writeU16 v => p.bytes 2 v.toNat
  | .writeU32 v => p.bytes 4 v.toNat
  | .writeU64 v => p.bytes 8 v.toNat
  | .writeUsize v => p.bytes p.usizeBytes v
  | .writeIsize v => p.bytes p.usizeBytes v
  | .write l => l

/-- All bytes of a sequence of calls: what such a hasher sees of a value -/
def Platform.stream (p : Platform) (calls : List HasherCall) : List Byte := calls.flatMap p.callBytes

/-- The contract of `std::hash::Hash` on values that are not equal: what one of them feeds to the hasher is not a prefix
of what the other does. -/
def PrefixFree {α β : Type} (feed : α → List β) : Prop := ∀ a b, feed a <+: feed b → a = b

/-- A hasher: any state machine over calls -/
structure Hasher where
  State : Type
  init : State
  call : State → HasherCall → State
  finish : State → Nat

/-- The hash value of a sequence of calls -/
def Hasher.value (H : Hasher) (calls : List HasherCall) : Nat := H.finish (calls.foldl H.call H.init)

/-- The contract of `Ord`: comparing is a total order whose equality is equality of values -/
structure TotalOrder {α : Type} (cmp : α → α → Ordering) : Prop where
  eq : ∀ a b, cmp a b = .eq ↔ a = b
  swap : ∀ a b, cmp b a = (cmp a b).swap
  trans : ∀ a b c, cmp a b ≠ .gt → cmp b c ≠ .gt → cmp a c ≠ .gt
  strict : ∀ a b c, cmp a b = .lt → cmp b c ≠ .gt → cmp a c = .lt

/-- Comparing lists of numbers: the first difference decides -/
def lexCmp : List Nat → List Nat → Ordering
  | [], [] => .eq
  | [], _ :: _ => .lt
  | _ :: _, [] => .gt
  | a :: l, b :: m => if a < b then .lt else if b < a then .gt else lexCmp l m

end ZkEvm.Spec
