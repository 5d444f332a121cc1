import Verif.Model.SystemParams
import Verif.Model.Utils
/-! Vocabulary for checking the memory of an execution afterwards, as provers do: every access to memory is logged with a
timestamp, the log is sorted by cell and timestamp, and each read is compared with its neighbour. Nothing in this file is
a function of the crate. -/
namespace ZkEvm.Spec

/-- An access to a word of a page, in a phase of a cycle; `value` is what is written or what the read is claimed to give. -/
structure Access where
  cycle : Nat
  phase : Nat
  page : BitVec 32
  index : BitVec 32
  write : Bool
  value : U256
deriving DecidableEq, Repr

/-- The contents of every word of every page -/
abbrev Memory := BitVec 32 → BitVec 32 → U256

/-- Two accesses to the same word -/
def SameCell (a b : Access) : Prop := a.page = b.page ∧ a.index = b.index

instance (a b : Access) : Decidable (SameCell a b) := inferInstanceAs (Decidable (_ ∧ _))

/-- `a` comes before `b` in an execution: in an earlier cycle, or in an earlier phase of the same cycle. In one phase of a
cycle a machine may access several words, but the same word only to read it. -/
def Before (a b : Access) : Prop :=
  a.cycle < b.cycle ∨
  (a.cycle = b.cycle ∧ a.phase < b.phase) ∨
  (a.cycle = b.cycle ∧ a.phase = b.phase ∧ (SameCell a b → a.write = false ∧ b.write = false))

/-- The memory after an access -/
def Memory.after (mem : Memory) (a : Access) : Memory :=
  if a.write then fun page index => if page = a.page ∧ index = a.index then a.value else mem page index else mem

/-- Every read gives what the word holds at that moment. -/
def Consistent : Memory → List Access → Prop
  | _, [] => True
  | mem, a :: log => (a.write = false → a.value = mem a.page a.index) ∧ Consistent (mem.after a) log

/-- The timestamp of an access: a 32-bit counter that starts at `STARTING_TIMESTAMP` and goes up by
`TIME_DELTA_PER_CYCLE` in every cycle, plus the phase -/
def Access.timestamp (a : Access) : BitVec 32 :=
  BitVec.ofNat 32 STARTING_TIMESTAMP + BitVec.ofNat 32 TIME_DELTA_PER_CYCLE * BitVec.ofNat 32 a.cycle +
    BitVec.ofNat 32 a.phase

/-- What logs are sorted by: page, index and timestamp, of 32 bits each, as one number -/
def Access.sortKey (a : Access) : Nat := (a.page.toNat * 2 ^ 32 + a.index.toNat) * 2 ^ 32 + a.timestamp.toNat

/-- What a read of `a`'s word should give if `previous` is the access before it in a sorted log: what that access wrote
or read, if it was to the same word, and otherwise what the word holds at the start -/
def expected (start : Memory) (previous : Option Access) (a : Access) : U256 :=
  match previous with
  | some p => if SameCell p a then p.value else start a.page a.index
  | none => start a.page a.index

/-- One pass over a sorted log that looks at neighbours only -/
def NeighboursAgree (start : Memory) : Option Access → List Access → Prop
  | _, [] => True
  | previous, a :: log =>
    (a.write = false → a.value = expected start previous a) ∧ NeighboursAgree start (some a) log

end ZkEvm.Spec
