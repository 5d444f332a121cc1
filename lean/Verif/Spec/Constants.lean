import Verif.Spec.Deploy
/-! How contracts with constants are laid out. Nothing in this file is a function of the crate. -/
namespace ZkEvm.Spec

/-- Number of 32-byte words that `n` bytes take -/
def wordsFor (n : Nat) : Nat := (n + 31) / 32

/-- A word of zeros -/
def zeroWord : Vector Byte 32 := Vector.replicate 32 0

/-- `words` is a contract as compilers lay it out: the code, filled up with zeros to whole words, then the constants, then a
word of zeros if the number of words would be even. -/
def Linked (code : List Byte) (constants words : List (Vector Byte 32)) : Prop :=
  words.length % 2 = 1 ∧ ∃ text tail, words = text ++ constants ++ tail ∧ text.length = wordsFor code.length ∧
    (∃ n, text.flatMap Vector.toList = code ++ List.replicate n 0) ∧ (tail = [] ∨ tail = [zeroWord])

end ZkEvm.Spec
