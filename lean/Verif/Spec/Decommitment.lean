import Verif.Spec.Sha256
import Verif.Spec.Published
/-! What loading code costs: rounds of SHA-256 and far calls -/
namespace ZkEvm.Spec

def isFarCall : Option Opcode → Bool
  | some (.farCall _) => true
  | _ => false

/-- Far calls in a sequence of instructions -/
def farCalls (m : Mode) (ws : List (BitVec m.bits)) : Nat := ws.countP fun w => isFarCall (opcodeOf m w)

/-- Blocks of the padded bytecode, which are the rounds the decommitter circuit takes for it -/
def IsRounds (words : List (Vector Byte 32)) (n : Nat) : Prop :=
  ∃ p, Padded (words.flatMap Vector.toList) p ∧ p.length = 64 * n

/-- The rounds of several bytecodes, each with an odd number of words, together -/
inductive Decommits : List (List (Vector Byte 32)) → Nat → Prop
  | none : Decommits [] 0
  | more {words codes n k} : words.length % 2 = 1 → IsRounds words n → Decommits codes k → Decommits (words :: codes) (n + k)

end ZkEvm.Spec
