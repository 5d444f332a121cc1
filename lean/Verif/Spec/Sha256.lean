import Verif.Model.Sha256
/-! The SHA-256 standard (FIPS 180-4): padding, chaining of blocks, message schedule, rounds and constants. Of the model
only the record `State` of eight words and its initial value and list of round constants are used; `IsRootBits` says what
those must be. -/
namespace ZkEvm.Spec
open Sha256 (State Word)

/-! ### Section 4.1.2: functions -/

def rotr (n : Nat) (x : Word) : Word := (x >>> n) ||| (x <<< (32 - n))
def chooses (x y z : Word) : Word := (x &&& y) ^^^ (~~~x &&& z)
def majority (x y z : Word) : Word := (x &&& y) ^^^ (x &&& z) ^^^ (y &&& z)
def bigSigma0 (x : Word) : Word := rotr 2 x ^^^ rotr 13 x ^^^ rotr 22 x
def bigSigma1 (x : Word) : Word := rotr 6 x ^^^ rotr 11 x ^^^ rotr 25 x
def smallSigma0 (x : Word) : Word := rotr 7 x ^^^ rotr 18 x ^^^ (x >>> 3)
def smallSigma1 (x : Word) : Word := rotr 17 x ^^^ rotr 19 x ^^^ (x >>> 10)

/-! ### Sections 4.2.2 and 5.3.3: constants -/

def divides (d n : Nat) : Bool := n % d == 0

def isPrime (n : Nat) : Bool := 2 ≤ n && (List.range n).all fun d => d < 2 || !divides d n

/-- The first 64 prime numbers, 2 to 311 -/
def firstPrimes : List Nat := (List.range 312).filter isPrime

/-- `k` is the first 32 bits of the fractional part of the `d`-th root of `p` -/
def IsRootBits (d p : Nat) (k : Word) : Prop :=
  ∃ i, (2 ^ 32 * i + k.toNat) ^ d ≤ 2 ^ (32 * d) * p ∧ 2 ^ (32 * d) * p < (2 ^ 32 * i + k.toNat + 1) ^ d

/-! ### Section 5.1.1: padding -/

/-- A number in eight bytes, the most significant first -/
def bigEndian64 (n : Nat) : List Byte := (List.range 8).map fun i => BitVec.ofNat 8 (n / 256 ^ (7 - i))

/-- The padded message: the message, a one bit, the fewest zeros that fill the last block, the number of bits -/
def Padded (m p : List Byte) : Prop :=
  ∃ k, k < 64 ∧ p = m ++ [0x80] ++ List.replicate k 0 ++ bigEndian64 (8 * m.length) ∧ p.length % 64 = 0

/-! ### Section 6.2.2: the hash computation -/

/-- The word at position `i` of some bytes, the first of its four bytes the most significant -/
def wordAt (b : List Byte) (i : Nat) : Word :=
  BitVec.ofNat 32 (((b.drop (4 * i)).take 4).foldl (fun n x => 256 * n + x.toNat) 0)

/-- The message schedule -/
def schedule (b : List Byte) (t : Nat) : Word :=
  if t < 16 then wordAt b t
  else smallSigma1 (schedule b (t - 2)) + schedule b (t - 7) + smallSigma0 (schedule b (t - 15)) + schedule b (t - 16)
termination_by t

/-- The working variables after `t` rounds -/
def workingVariables (s : State) (b : List Byte) : Nat → State
  | 0 => s
  | t + 1 =>
    let v := workingVariables s b t
    let t1 := v.h + bigSigma1 v.e + chooses v.e v.f v.g + Sha256.ROUND_CONSTANTS.getD t 0 + schedule b t
    let t2 := bigSigma0 v.a + majority v.a v.b v.c
    ⟨t1 + t2, v.a, v.b, v.c, v.d + t1, v.e, v.f, v.g⟩

/-- The intermediate hash value after a block -/
def compression (s : State) (b : List Byte) : State :=
  let v := workingVariables s b 64
  ⟨v.a + s.a, v.b + s.b, v.c + s.c, v.d + s.d, v.e + s.e, v.f + s.f, v.g + s.g, v.h + s.h⟩

/-- Block `i` of a padded message -/
def block (p : List Byte) (i : Nat) : List Byte := (p.drop (64 * i)).take 64

/-- The hash value after the first `n` blocks, for any compression function -/
def chain {S : Type} (f : S → List Byte → S) (initial : S) (p : List Byte) : Nat → S
  | 0 => initial
  | n + 1 => f (chain f initial p n) (block p n)

/-- The words of a hash state -/
def stateWords (s : State) : List Word := [s.a, s.b, s.c, s.d, s.e, s.f, s.g, s.h]

/-- Hashing the two messages runs the compression function on two different inputs (a hash value and a block each) that
give hash values which agree in all words but the first. -/
def RoundCollision (m m' : List Byte) : Prop :=
  ∃ p p' i j, Padded m p ∧ Padded m' p' ∧ i < p.length / 64 ∧ j < p'.length / 64 ∧
    (chain compression Sha256.INITIAL p i, block p i) ≠ (chain compression Sha256.INITIAL p' j, block p' j) ∧
    (stateWords (compression (chain compression Sha256.INITIAL p i) (block p i))).drop 1 =
      (stateWords (compression (chain compression Sha256.INITIAL p' j) (block p' j))).drop 1

/-- `d` is the SHA-256 digest of `m` -/
def IsSha256 (m d : List Byte) : Prop :=
  ∃ p, Padded m p ∧ d.length = 32 ∧
    ∀ i, i < 8 → (stateWords (chain compression Sha256.INITIAL p (p.length / 64)))[i]? = some (wordAt d i)

end ZkEvm.Spec
