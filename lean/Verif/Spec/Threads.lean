import Verif.Spec.Disassembly
import Verif.Spec.Machine
import Verif.Spec.Statics
/-! Vocabulary for processes whose threads run virtual machines and assemble programs at the same time, all using the
lazily initialised tables. What a thread does is code that dereferences the tables; what it does when it is alone is the
sequential function. Nothing in this file is a function of the crate. -/
namespace ZkEvm.Spec
open ZkEvm.Lazy

variable {State Contract : Type}

/-- Assemble a program instruction by instruction; a panic ends it. -/
def assembleAll {α : Type} (enc : α → Res (List Byte)) : List α → Res (List Byte)
  | [] => pure []
  | o :: prog => do
    let bytes ← enc o
    let code ← assembleAll enc prog
    pure (bytes ++ code)

/-- The same as code that dereferences tables -/
def assembleAllCode {α : Type} (enc : α → Code (List Byte)) : List α → Code (List Byte)
  | [] => pure []
  | o :: prog => do
    let bytes ← enc o
    let code ← assembleAllCode enc prog
    pure (bytes ++ code)

/-- `executeDecoded` as code that dereferences the tables of prices and of masks -/
def executeDecodedCode {w : Nat} (M : Machine w State Contract) (s : State)
    (decoded : DecodedOpcode w × VariantMonotonicNumber) : Code State := do
  let prices : List Nat ← deref .opcodesPrices
  let price ← Lazy.plain (index prices decoded.2.intoUsize)
  let masks : List (BitVec 64) ← deref .bitmasks
  let mask ← Lazy.plain (index masks decoded.2.intoUsize)
  pure (M.execute s decoded.1 price mask)

/-- `cycleProduction` as code that dereferences tables -/
def cycleProductionCode (M : Machine 16 State Contract) (page : Contract → Nat → U256) (s : State) : Code State := do
  let raw ← Lazy.plain (Production.integerRepresentationFromU256 (page (M.contract s) (Production.splitPc (M.pc s)).1.toNat)
    (Production.splitPc (M.pc s)).2)
  executeDecodedCode M s (← parseProductionCode raw)

/-- `cycleTesting` as code that dereferences tables -/
def cycleTestingCode (M : Machine 32 State Contract) (page : Contract → Nat → U256) (s : State) : Code State := do
  let raw ← Lazy.plain (Testing.integerRepresentationFromU256 (page (M.contract s) (Testing.splitPc (M.pc s)).1.toNat)
    (Testing.splitPc (M.pc s)).2)
  executeDecodedCode M s (← parseTestingCode raw)

/-- `n` cycles as code that dereferences tables -/
def cyclesCode (cycle : State → Code State) : Nat → State → Code State
  | 0, s => pure s
  | n + 1, s => do cyclesCode cycle n (← cycle s)

/-- What a thread is asked to do: run a machine for `n` cycles from a state, or assemble a program in a build -/
inductive Job (State Contract : Type) where
  | runProduction (M : Machine 16 State Contract) (page : Contract → Nat → U256) (n : Nat) (s : State)
  | runTesting (M : Machine 32 State Contract) (page : Contract → Nat → U256) (n : Nat) (s : State)
  | assembleProduction (b : Build) (prog : List (DecodedOpcode 16))
  | assembleTesting (b : Build) (prog : List (DecodedOpcode 32))

/-- What it delivers -/
inductive Outcome (State : Type) where
  | state (s : State)
  | code (bytes : List Byte)

/-- The thread's code -/
def Job.thread : Job State Contract → Code (Outcome State)
  | .runProduction M page n s => do let t ← cyclesCode (cycleProductionCode M page) n s; pure (.state t)
  | .runTesting M page n s => do let t ← cyclesCode (cycleTestingCode M page) n s; pure (.state t)
  | .assembleProduction b prog => do
    let code ← assembleAllCode (fun o => do let w ← encodeProductionCode b o; pure (toBeBytes 8 w)) prog
    pure (.code code)
  | .assembleTesting b prog => do
    let code ← assembleAllCode (fun o => do let w ← encodeTestingCode b o; pure (toBeBytes 16 w)) prog
    pure (.code code)

/-- What the job delivers when nothing else is going on and the tables simply have their values -/
def Job.alone : Job State Contract → Res (Outcome State)
  | .runProduction M page n s => do let t ← cycles (cycleProduction M page) n s; pure (.state t)
  | .runTesting M page n s => do let t ← cycles (cycleTesting M page) n s; pure (.state t)
  | .assembleProduction b prog => do let code ← assembleAll (Production.encodeAsBytes b) prog; pure (.code code)
  | .assembleTesting b prog => do let code ← assembleAll (Testing.encodeAsBytes b) prog; pure (.code code)

/-- How often the job looks something up in a table: in each cycle the instruction, its price and its mask; for each
instruction that is assembled its number -/
def Job.lookups : Job State Contract → Nat
  | .runProduction _ _ n _ | .runTesting _ _ n _ => 3 * n
  | .assembleProduction _ prog => prog.length
  | .assembleTesting _ prog => prog.length

/-- The code pages of all contracts hold words that can be disassembled in the same way. -/
def SamePages {w k : Nat} (N : Nat) (parse : BitVec k → Res (DecodedOpcode w × VariantMonotonicNumber))
    (page page' : Contract → Nat → U256) : Prop :=
  ∃ words words' : Contract → List (Vector Byte 32),
    (∀ c k, HoldsPageWord (page c k) (words c) k) ∧ (∀ c k, HoldsPageWord (page' c k) (words' c) k) ∧
    ∀ c, ∃ prog, Disassembled N parse (words c) prog ∧ Disassembled N parse (words' c) prog

/-- Two jobs ask for the same: the same machine and cycles on code that disassembles alike, or to assemble the same
program of existing instructions, in whatever builds. -/
inductive SameWork : Job State Contract → Job State Contract → Prop
  | runProduction (M page page' n s) (h : SamePages 8 Production.parse page page') :
    SameWork (.runProduction M page n s) (.runProduction M page' n s)
  | runTesting (M page page' n s) (h : SamePages 16 Testing.parse page page') :
    SameWork (.runTesting M page n s) (.runTesting M page' n s)
  | assembleProduction (b b' prog) (h : ∀ o ∈ prog, Encodable o) :
    SameWork (.assembleProduction b prog) (.assembleProduction b' prog)
  | assembleTesting (b b' prog) (h : ∀ o ∈ prog, Encodable o) :
    SameWork (.assembleTesting b prog) (.assembleTesting b' prog)

end ZkEvm.Spec
