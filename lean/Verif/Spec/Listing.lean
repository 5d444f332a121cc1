import Verif.Model.Display
import Verif.Spec.Text
/-! Listings of programs. Nothing in this file is a function of the crate. -/
namespace ZkEvm.Spec

/-- What `println!("{}", instruction)` for one instruction after the other prints -/
def listing {w : Nat} (prog : List (DecodedOpcode w)) : List Char := prog.flatMap fun o => o.display ++ ['\n']

/-- An instruction of one encoding mode and one of another have the same contents. -/
def SameContents {w w' : Nat} (o : DecodedOpcode w) (o' : DecodedOpcode w') : Prop :=
  o.variant = o'.variant ∧ o.condition = o'.condition ∧ o.src0RegIdx = o'.src0RegIdx ∧ o.src1RegIdx = o'.src1RegIdx ∧
  o.dst0RegIdx = o'.dst0RegIdx ∧ o.dst1RegIdx = o'.dst1RegIdx ∧ o.imm0.toNat = o'.imm0.toNat ∧ o.imm1.toNat = o'.imm1.toNat

end ZkEvm.Spec
