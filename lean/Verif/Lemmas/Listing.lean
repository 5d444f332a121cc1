import Verif.Spec.Listing
/-! Lemmas on texts of several lines. -/
namespace ZkEvm.ListingLemmas
open Spec

theorem lines_ne_nil : ∀ s : List Char, lines s ≠ []
  | [] => nofun
  | c :: s => by
    unfold lines
    split
    · nofun
    · split <;> nofun

theorem lines_append : ∀ s t : List Char, lines (s ++ '\n' :: t) = lines s ++ lines t
  | [], t => by show lines ('\n' :: t) = [] :: lines t; rw [lines, if_pos rfl]
  | c :: s, t => by
    rw [List.cons_append, lines, lines, lines_append s t]
    split
    · rfl
    · cases h : lines s with
      | nil => exact absurd h (lines_ne_nil s)
      | cons l ls => rfl

theorem lines_inj : ∀ {s t : List Char}, lines s = lines t → s = t
  | [], [], _ => rfl
  | [], c :: t, h => by
    rw [lines, lines] at h
    split at h
    · exact absurd (List.cons.inj h).2.symm (lines_ne_nil t)
    · split at h <;> cases h
  | c :: s, [], h => by
    rw [lines, lines] at h
    split at h
    · exact absurd (List.cons.inj h).2 (lines_ne_nil s)
    · split at h <;> cases h
  | c :: s, d :: t, h => by
    rw [lines, lines] at h
    cases hs : lines s with
    | nil => exact absurd hs (lines_ne_nil s)
    | cons l ls =>
      cases ht : lines t with
      | nil => exact absurd ht (lines_ne_nil t)
      | cons m ms =>
        rw [hs, ht] at h
        dsimp only at h
        split at h
        · rename_i hc
          split at h
          · rename_i hd
            rw [hc, hd, lines_inj (hs.trans ((List.cons.inj h).2.trans ht.symm))]
          · cases (List.cons.inj h).1
        · split at h
          · cases (List.cons.inj h).1
          · obtain ⟨h1, h2⟩ := List.cons.inj h
            obtain ⟨h3, h4⟩ := List.cons.inj h1
            rw [h3, lines_inj (hs.trans ((by rw [h4, h2]) : l :: ls = m :: ms) |>.trans ht.symm)]

theorem listing_cons {w : Nat} (o : DecodedOpcode w) (prog : List (DecodedOpcode w)) :
    listing (o :: prog) = o.display ++ '\n' :: listing prog := by
  unfold listing
  rw [List.flatMap_cons, List.append_assoc]
  rfl

theorem flat_inj : ∀ (p q : List (Vector Byte 32)), p.flatMap Vector.toList = q.flatMap Vector.toList → p = q
  | [], [], _ => rfl
  | [], y :: q, h => by
    have := congrArg List.length h
    simp at this
    omega
  | x :: p, [], h => by
    have := congrArg List.length h
    simp at this
  | x :: p, y :: q, h => by
    rw [List.flatMap_cons, List.flatMap_cons] at h
    obtain ⟨h1, h2⟩ := List.append_inj h (by simp)
    rw [flat_inj p q h2, Vector.toList_inj.1 h1]

end ZkEvm.ListingLemmas
