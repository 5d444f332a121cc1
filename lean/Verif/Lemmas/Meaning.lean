import Verif.Lemmas.Merge
import Verif.Spec.Meaning
namespace ZkEvm
open Spec

theorem semKey_eq_iff (a b : OpcodeVariant) : semKey a = semKey b ↔ SameMeaning a b := by
  have h : ∀ o : Operand, (if o = .regOrImm .useRegOnly then Operand.regOnly else o) = sourceMeaning o := by
    intro o
    rcases o with _ | f | f
    · rfl
    · cases f <;> rfl
    · rfl
  rcases a with ⟨ao, as, ad, af⟩
  rcases b with ⟨bo, bs, bd, bf⟩
  simp only [semKey, SameMeaning, OpcodeVariant.mk.injEq, h]
  constructor
  · rintro ⟨h1, h2, h3, h4⟩; exact ⟨h1, h3, h4, h2⟩
  · rintro ⟨h1, h3, h4, h2⟩; exact ⟨h1, h2, h3, h4⟩

theorem semanticallyEqual_iff_sameMeaning (a b : OpcodeVariant) :
    semanticallyEqual a b = true ↔ SameMeaning a b := by
  rw [semanticallyEqual_iff, semKey_eq_iff]

theorem panics_error {α : Type} (e : Panic) : Panics (.error e : Res α) := ⟨e, rfl⟩
theorem not_panics_ok {α : Type} (a : α) : ¬ Panics (.ok a : Res α) := by rintro ⟨e, h⟩; cases h
theorem panics_iff {α : Type} (r : Res α) : Panics r ↔ ¬ ∃ a, r = .ok a := by
  cases r with
  | error e => simp [Panics]
  | ok a => simp [Panics]

end ZkEvm
