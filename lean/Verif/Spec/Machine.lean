import Verif.Model.Lib
import Verif.Spec.Deploy
import Verif.Spec.Facts
import Verif.Spec.History
/-! Specification vocabulary for virtual machines that get their instructions, prices and property masks from the
crate. A machine is arbitrary: nothing is said about what its instructions do. Nothing in this file is a function of
the crate. -/
namespace ZkEvm.Spec

/-- A virtual machine: the contract whose code runs in a state, the program counter, and the effect of an instruction,
which may depend on its price and on its property mask. -/
structure Machine (w : Nat) (State Contract : Type) where
  contract : State → Contract
  pc : State → BitVec w
  execute : State → DecodedOpcode w → Nat → BitVec 64 → State

variable {State Contract : Type}

/-- Look up price and mask of a decoded instruction under its number, then execute it. -/
def executeDecoded {w : Nat} (M : Machine w State Contract) (s : State)
    (decoded : DecodedOpcode w × VariantMonotonicNumber) : Res State := do
  let price ← index (← OPCODES_PRICES) decoded.2.intoUsize
  let mask ← index (← OPCODES_PROPS_INTEGER_BITMASKS) decoded.2.intoUsize
  pure (M.execute s decoded.1 price mask)

/-- One cycle on code pages of production words: fetch the word, decode it, execute the instruction. -/
def cycleProduction (M : Machine 16 State Contract) (page : Contract → Nat → U256) (s : State) : Res State := do
  let raw ← Production.integerRepresentationFromU256 (page (M.contract s) (Production.splitPc (M.pc s)).1.toNat)
    (Production.splitPc (M.pc s)).2
  executeDecoded M s (← Production.parse raw)

/-- One cycle on code pages of testing words -/
def cycleTesting (M : Machine 32 State Contract) (page : Contract → Nat → U256) (s : State) : Res State := do
  let raw ← Testing.integerRepresentationFromU256 (page (M.contract s) (Testing.splitPc (M.pc s)).1.toNat)
    (Testing.splitPc (M.pc s)).2
  executeDecoded M s (← Testing.parse raw)

/-- `n` cycles; a panic stops the run. -/
def cycles (cycle : State → Res State) : Nat → State → Res State
  | 0, s => pure s
  | n + 1, s => do cycles cycle n (← cycle s)

/-- The instruction of a program at a position; after its end, the all-zero instruction -/
def instructionAt {w : Nat} (prog : List (DecodedOpcode w)) (i : Nat) : DecodedOpcode w :=
  prog[i]?.getD (zeroInstruction w)

/-- `n` steps of the machine on the instructions themselves, without words, pages, numbers or tables -/
def runProgram {w : Nat} (M : Machine w State Contract) (mask : OpcodeVariant → BitVec 64)
    (progs : Contract → List (DecodedOpcode w)) : Nat → State → State
  | 0, s => s
  | n + 1, s =>
    let o := instructionAt (progs (M.contract s)) (M.pc s).toNat
    runProgram M mask progs n (M.execute s o (priceOf o.variant.opcode) (mask o.variant))

/-- `mask v` has the bits that describe `v`. -/
def MasksOk (mask : OpcodeVariant → BitVec 64) : Prop := ∀ v i, i < 64 → (mask v).getLsbD i = bitSpec v i

/-- The program has been assembled by `enc` and padded to `words`, and `page` is filled with them. -/
def Deployed {w : Nat} (enc : DecodedOpcode w → Res (List Byte)) (prog : List (DecodedOpcode w))
    (words : List (Vector Byte 32)) (page : Nat → U256) : Prop :=
  ∃ code, Assembled enc prog code ∧ PaddedTo code words ∧ ∀ k, HoldsPageWord (page k) words k

/-- What a machine checks before it executes an instruction -/
structure Checks where
  ergs : Nat
  kernel : Bool
  isStatic : Bool
  holds : Condition → Bool

/-- The instruction that is really executed: panic if it cannot be paid for, or if its property mask says that it is
the explicit panic or that it is not allowed here; otherwise nop if its condition does not hold. `base` is the position
of the first of the three bits. -/
def guarded {w : Nat} (c : Checks) (base : Nat) (o : DecodedOpcode w) (price : Nat) (mask : BitVec 64) : DecodedOpcode w :=
  if c.ergs < price ∨ mask.getLsbD (base + EXPLICIT_PANIC_FLAG_IDX) = true ∨
      (mask.getLsbD (base + KERNER_MODE_FLAG_IDX) = true ∧ c.kernel = false) ∨
      (mask.getLsbD (base + CAN_BE_USED_IN_STATIC_CONTEXT_FLAG_IDX) = false ∧ c.isStatic = true)
  then o.maskIntoPanic
  else if c.holds o.condition then o else o.maskIntoNop

/-- The instruction may be executed: it can be paid for, exists, and is not forbidden here. -/
def Allowed {w : Nat} (c : Checks) (o : DecodedOpcode w) (price : Nat) : Prop :=
  price ≤ c.ergs ∧ isInvalid o.variant.opcode = false ∧ (kernelOnly o.variant.opcode = true → c.kernel = true) ∧
  (c.isStatic = true → changesState o.variant.opcode = false)

/-- A machine that executes guarded instructions: `checks` reads what is needed from the state, `effect` is what the
instruction that is really executed does, its price included. -/
def guardedMachine {w : Nat} (contract : State → Contract) (pc : State → BitVec w) (checks : State → Checks)
    (effect : State → DecodedOpcode w → Nat → State) (base : Nat) : Machine w State Contract where
  contract := contract
  pc := pc
  execute s o price mask := effect s (guarded (checks s) base o price mask) price

end ZkEvm.Spec
