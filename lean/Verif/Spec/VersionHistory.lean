import Verif.Spec.Meaning
import Verif.Model.Table
/-! A history of ISA versions, each given by its list of variants, merged one after the other. -/
namespace ZkEvm.Spec

/-- Merge the versions of a history, oldest first, into the table `t`: what the loop of
`synthesize_opcode_decoding_tables` (`src/definitions/mod.rs:215-224`) does, for arbitrary versions. -/
def mergeHistory (t : List OpcodeVariant) : List (List OpcodeVariant) → Res (List OpcodeVariant)
  | [] => .ok t
  | version :: rest =>
    match findNewOpcodes t version with
    | .error e => .error e
    | .ok (kept, new) => mergeHistory (kept ++ new) rest

/-- No two variants of the list mean the same. -/
def Distinct (l : List OpcodeVariant) : Prop := l.Pairwise fun a b => ¬ SameMeaning a b

/-- Each version of the history has, for every variant of the version before it, one that means the same. -/
def Expanding : List (List OpcodeVariant) → Prop
  | [] => True
  | [_] => True
  | a :: b :: rest => (∀ o ∈ a, ∃ n ∈ b, SameMeaning n o) ∧ Expanding (b :: rest)

end ZkEvm.Spec
