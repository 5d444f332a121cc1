import Verif.Model.EncodingMode
import Verif.Spec.Deploy
import Verif.Spec.Machine
/-! Specification vocabulary for encoding modes: what an implementation of the encoding-mode trait, written inside or
outside the crate, has to satisfy, and machines that run code of an arbitrary mode. Nothing in this file is a function
of the crate. -/
namespace ZkEvm.Spec

/-- The number that a program counter or immediate stands for -/
def value {P : PcOrImmType} (x : P.carrier) : Nat := (P.asU64 x).toNat

/-- The contract of a type of program counters and immediates: it represents the numbers from 0 to some largest number,
and calculates modulo the next number. -/
structure LawfulCounter (P : PcOrImmType) : Prop where
  distinct : ∀ x y : P.carrier, value x = value y → x = y
  zero : value P.zero = 0
  max : ∀ x : P.carrier, value x ≤ value P.max
  clip : ∀ v, value (P.fromU64Clipped v) = v.toNat % (value P.max + 1)
  add : ∀ x y : P.carrier, value (P.wrappingAdd x y) = (value x + value y) % (value P.max + 1)
  sub : ∀ x y : P.carrier, value (P.wrappingSub x y) = (value x + (value P.max + 1) - value y) % (value P.max + 1)

/-- The contract of an encoding mode. `valid` says which instructions the mode can represent. -/
structure Lawful {N : Nat} (E : VmEncodingMode N) (valid : E.Decoded → Prop) : Prop where
  counter : LawfulCounter E.pcOrImm
  /-- Instructions fill 32-byte words. -/
  size : 0 < N ∧ 32 % N = 0
  /-- Representable instructions can be encoded, in every build, canonically, and decode to themselves. -/
  roundtrip : ∀ b o, valid o → ∃ i n, E.encodeAsInteger b o = .ok i ∧ E.parse i = .ok (o, n) ∧
    E.isCanonicalEncoding i = true
  /-- The byte encoding is the byte representation of the integer encoding. -/
  bytes : ∀ b o i, E.encodeAsInteger b o = .ok i → E.encodeAsBytes b o = .ok (E.integerAsBytes i)
  /-- Different integers have different bytes. -/
  distinct : ∀ i j, E.integerAsBytes i = E.integerAsBytes j → i = j
  /-- Instructions masked into a panic or a no-operation are representable, and the two fixed encodings are theirs. -/
  masked : ∀ o : E.Decoded, valid o.maskIntoNop ∧ valid o.maskIntoPanic
  nop : ∀ b, E.nopEncoding b = E.encodeAsInteger b E.defaultOpcode.maskIntoNop
  panic : ∀ b, E.exceptionRevertEncoding b = E.encodeAsInteger b E.defaultOpcode.maskIntoPanic
  /-- The program counter counts instructions: the second part is the position within a word, the first the word. -/
  split : ∀ pc : E.pcOrImm.carrier, value pc = 32 / N * value (E.splitPc pc).1 + value (E.splitPc pc).2 ∧
    value (E.splitPc pc).2 < 32 / N
  /-- Fetching reads the group of `N` bytes at that position, counted from the most significant byte. -/
  fetch : ∀ v (i : E.pcOrImm.carrier), value i < 32 / N → ∃ raw, E.integerRepresentationFromU256 v i = .ok raw ∧
    beNat (E.integerAsBytes raw) = u256Nat v / 256 ^ (32 - N * (value i + 1)) % 256 ^ N

/-- The program counter after `n` steps from zero, adding one each time -/
def counterAfter (P : PcOrImmType) : Nat → P.carrier
  | 0 => P.zero
  | n + 1 => P.wrappingAdd (counterAfter P n) (P.fromU64Clipped 1)

/-- A machine that runs code of an arbitrary mode -/
structure ModeMachine {N : Nat} (E : VmEncodingMode N) (State Contract : Type) where
  contract : State → Contract
  pc : State → E.pcOrImm.carrier
  execute : State → E.Decoded → State

/-- One cycle: fetch the word, decode it, execute the instruction. -/
def modeCycle {N : Nat} {E : VmEncodingMode N} {State Contract : Type} (M : ModeMachine E State Contract)
    (page : Contract → Nat → U256) (s : State) : Res State := do
  let raw ← E.integerRepresentationFromU256 (page (M.contract s) (value (E.splitPc (M.pc s)).1)) (E.splitPc (M.pc s)).2
  let decoded ← E.parse raw
  pure (M.execute s decoded.1)

/-- `n` steps on the instructions themselves; after the end of a program the instruction is `z`. -/
def runMode {N : Nat} {E : VmEncodingMode N} {State Contract : Type} (M : ModeMachine E State Contract)
    (z : E.Decoded) (progs : Contract → List E.Decoded) : Nat → State → State
  | 0, s => s
  | n + 1, s =>
    runMode M z progs n (M.execute s ((progs (M.contract s))[value (M.pc s)]?.getD z))

end ZkEvm.Spec
