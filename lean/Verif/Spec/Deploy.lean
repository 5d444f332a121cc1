import Verif.Spec.Words
/-! Specification vocabulary for deployed bytecode: padding code to 32-byte words, and the code page of a contract. -/
namespace ZkEvm.Spec

/-- `words` is the code followed by fewer than 64 zero bytes, cut into an odd number of 32-byte words. -/
def PaddedTo (code : List Byte) (words : List (Vector Byte 32)) : Prop :=
  words.length % 2 = 1 ∧ ∃ n, n < 64 ∧ words.flatMap Vector.toList = code ++ List.replicate n 0

/-- Word `k` of a code page filled with `words`; the rest of the page is zero. -/
def pageWord (words : List (Vector Byte 32)) (k : Nat) : List Byte :=
  match words[k]? with
  | some w => w.toList
  | none => List.replicate 32 0

/-- `v` is the `k`-th word of a code page filled with `words`, read big-endian. -/
def HoldsPageWord (v : U256) (words : List (Vector Byte 32)) (k : Nat) : Prop :=
  u256Nat v = beNat (pageWord words k)

/-- The instruction written as all zero bytes: the invalid opcode, unconditional, every register r0, immediates 0. -/
def zeroInstruction (w : Nat) : DecodedOpcode w := ⟨invalidVariant, .always, 0, 0, 0, 0, 0, 0⟩

end ZkEvm.Spec
