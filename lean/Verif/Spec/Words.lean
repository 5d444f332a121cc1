import Verif.Model.Decoding
import Verif.Spec.Isa
/-! Vocabulary for statements about instruction words and byte strings. -/
namespace ZkEvm.Spec

/-- The number in bits `pos`, ..., `pos + len - 1` of a word (bit 0 is least significant). -/
def bits {w : Nat} (x : BitVec w) (pos len : Nat) : Nat := x.toNat / 2 ^ pos % 2 ^ len

/-- All four register indices are registers r0..r15. -/
def RegistersOk {w : Nat} (o : DecodedOpcode w) : Prop :=
  o.src0RegIdx.toNat < 16 ∧ o.src1RegIdx.toNat < 16 ∧ o.dst0RegIdx.toNat < 16 ∧ o.dst1RegIdx.toNat < 16

instance {w : Nat} (o : DecodedOpcode w) : Decidable (RegistersOk o) := by
  unfold RegistersOk; infer_instance

/-- An instruction that exists: a well-formed variant and registers r0..r15. -/
def Encodable {w : Nat} (o : DecodedOpcode w) : Prop := WellFormed o.variant = true ∧ RegistersOk o

instance {w : Nat} (o : DecodedOpcode w) : Decidable (Encodable o) := by
  unfold Encodable; infer_instance

/-- Two words agree on every bit outside positions `lo`, ..., `hi - 1`. -/
def AgreeOutside {w : Nat} (a b : BitVec w) (lo hi : Nat) : Prop :=
  ∀ i, i < lo ∨ hi ≤ i → a.getLsbD i = b.getLsbD i

/-- The number written by a big-endian byte string. -/
def beNat : List Byte → Nat
  | [] => 0
  | b :: bs => b.toNat * 256 ^ bs.length + beNat bs

/-- The number represented by the limbs of a `U256`. -/
def u256Nat (v : U256) : Nat :=
  v.l0.toNat + v.l1.toNat * 2 ^ 64 + v.l2.toNat * 2 ^ 128 + v.l3.toNat * 2 ^ 192

/-- The number in bits `pos`, ..., `pos + len - 1` of a 256-bit word (bit 0 is least significant). -/
def ubits (v : U256) (pos len : Nat) : Nat := u256Nat v / 2 ^ pos % 2 ^ len

/-- Byte `i` of a 256-bit word, byte 0 being least significant -/
def ubyte (v : U256) (i : Nat) : Nat := ubits v (8 * i) 8

/-- The `k`-th 32-byte word of a byte string that is followed by zero bytes. -/
def wordBytes (code : List Byte) (k : Nat) : List Byte :=
  (List.range 32).map fun j => code.getD (32 * k + j) 0

/-- The `U256` `v` holds the `k`-th 32-byte word of `code`, read big-endian. -/
def HoldsWord (v : U256) (code : List Byte) (k : Nat) : Prop := u256Nat v = beNat (wordBytes code k)

/-- `code` is the concatenation of the byte serialisations `enc o` of the instructions of `prog`. -/
inductive Assembled {α : Type} (enc : α → Res (List Byte)) : List α → List Byte → Prop
  | nil : Assembled enc [] []
  | cons {o prog bs code} : enc o = .ok bs → Assembled enc prog code → Assembled enc (o :: prog) (bs ++ code)

end ZkEvm.Spec
