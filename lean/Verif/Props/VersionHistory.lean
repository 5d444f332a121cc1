import Verif.Spec.VersionHistory
import Verif.Props.Table
/-! C77: histories of ISA versions. -/
namespace ZkEvm.Props
open Spec Tables

/-! ## C77 -/

-- a three-version history that can be merged: a spelling changes, then a variant is added
private def first : List OpcodeVariant := [⟨.uma .heapRead, .regOnly, .regOnly, ⟨false, false⟩⟩]
private def second : List OpcodeVariant := [⟨.uma .heapRead, .regOrImm .useRegOnly, .regOnly, ⟨false, false⟩⟩]
private def third : List OpcodeVariant :=
  [⟨.nop .mk, .regOnly, .regOnly, ⟨false, false⟩⟩, ⟨.uma .heapRead, .regOrImm .useRegOnly, .regOnly, ⟨false, false⟩⟩]
private def merged : List OpcodeVariant :=
  [⟨.uma .heapRead, .regOrImm .useRegOnly, .regOnly, ⟨false, false⟩⟩, ⟨.nop .mk, .regOnly, .regOnly, ⟨false, false⟩⟩]
private theorem merged_ok : mergeHistory [] [first, second, third] = .ok merged := by decide

private theorem history_append (t : List OpcodeVariant) (vs ws : List (List OpcodeVariant)) :
    mergeHistory t (vs ++ ws) =
      match mergeHistory t vs with
      | .error e => .error e
      | .ok t' => mergeHistory t' ws := by
  induction vs generalizing t with
  | nil => rfl
  | cons v vs ih =>
    simp only [List.cons_append, mergeHistory]
    cases findNewOpcodes t v with
    | error e => rfl
    | ok r => exact ih _

private theorem history_keeps (t t' : List OpcodeVariant) (vs : List (List OpcodeVariant))
    (h : mergeHistory t vs = .ok t') : t.length ≤ t'.length ∧
      ∀ (i : Nat) o, t[i]? = some o → ∃ o', t'[i]? = some o' ∧ SameMeaning o' o := by
  induction vs generalizing t with
  | nil => cases h; exact ⟨Nat.le_refl _, fun i o ho => ⟨o, ho, (semKey_eq_iff _ _).1 rfl⟩⟩
  | cons v vs ih =>
    unfold mergeHistory at h
    cases hm : findNewOpcodes t v with
    | error e => rw [hm] at h; cases h
    | ok r =>
      rcases r with ⟨kept, new⟩
      rw [hm] at h
      obtain ⟨hl, hg⟩ := ih _ h
      obtain ⟨h1, h2, _⟩ := C21_merge t v kept new hm
      refine ⟨by rw [List.length_append] at hl; omega, fun i o ho => ?_⟩
      obtain ⟨o', ho', hs, _⟩ := h2 i o ho
      have hi : i < kept.length := (List.getElem?_eq_some_iff.1 ho').1
      obtain ⟨o'', ho'', hs'⟩ := hg i o' (by rw [List.getElem?_append_left hi]; exact ho')
      exact ⟨o'', ho'', (semKey_eq_iff _ _).1 (((semKey_eq_iff _ _).2 hs').trans ((semKey_eq_iff _ _).2 hs))⟩

/-- C77: an assigned number never changes its meaning. For any history of versions that can be merged, the table after
any earlier part of it is not longer than the final table, and every number of the earlier table has the same meaning
in the final one. -/
theorem C77_numbers_keep_meaning (earlier later : List (List OpcodeVariant)) (t : List OpcodeVariant)
    (h : mergeHistory [] (earlier ++ later) = .ok t) :
    ∃ t0, mergeHistory [] earlier = .ok t0 ∧ t0.length ≤ t.length ∧
      ∀ (i : Nat) o, t0[i]? = some o → ∃ o', t[i]? = some o' ∧ SameMeaning o' o := by
  rw [history_append] at h
  cases h0 : mergeHistory [] earlier with
  | error e => rw [h0] at h; cases h
  | ok t0 =>
    rw [h0] at h
    exact ⟨t0, rfl, history_keeps t0 t later h⟩

/-- C77: the one number of the first version keeps its meaning through the next two. -/
example : ∃ t0, mergeHistory [] [first] = .ok t0 ∧ t0.length ≤ 2 ∧
    ∀ (i : Nat) o, t0[i]? = some o → ∃ o', merged[i]? = some o' ∧ SameMeaning o' o :=
  C77_numbers_keep_meaning [first] [second, third] merged merged_ok

private theorem merge_ok_iff (old new : List OpcodeVariant) :
    (∃ r, findNewOpcodes old new = .ok r) ↔ ∀ o ∈ old, ∃ n ∈ new, SameMeaning n o := by
  have h := C21_merge_panics_iff old new
  cases hm : findNewOpcodes old new with
  | error e =>
    rw [hm] at h
    obtain ⟨o, ho, hn⟩ := h.1 ⟨e, rfl⟩
    exact ⟨fun ⟨r, hr⟩ => (nomatch hr), fun hall => let ⟨n, hn', hs⟩ := hall o ho; absurd hs (hn n hn')⟩
  | ok r =>
    refine ⟨fun _ o ho => ?_, fun _ => ⟨r, rfl⟩⟩
    apply Classical.byContradiction
    intro hno
    have : Panics (findNewOpcodes old new) :=
      (C21_merge_panics_iff old new).2 ⟨o, ho, fun n hn hs => hno ⟨n, hn, hs⟩⟩
    obtain ⟨e, he⟩ := this
    rw [hm] at he; cases he

private theorem history_last (t : List OpcodeVariant) (v : List OpcodeVariant) (vs : List (List OpcodeVariant))
    (ht : Distinct t) (hv : ∀ w ∈ v :: vs, Distinct w) :
    ((∃ t', mergeHistory t (v :: vs) = .ok t') ↔ (∀ o ∈ t, ∃ n ∈ v, SameMeaning n o) ∧ Expanding (v :: vs)) ∧
    ∀ t', mergeHistory t (v :: vs) = .ok t' →
      Distinct t' ∧ ∀ x, x ∈ t' ↔ x ∈ (v :: vs).getLast (by simp) := by
  induction vs generalizing t v with
  | nil =>
    have hm := merge_ok_iff t v
    unfold mergeHistory mergeHistory
    cases hf : findNewOpcodes t v with
    | error e =>
      rw [hf] at hm
      refine ⟨?_, fun t' h => (nomatch h)⟩
      constructor
      · rintro ⟨t', h⟩; cases h
      · rintro ⟨h, _⟩; obtain ⟨r, hr⟩ := hm.2 h; cases hr
    | ok r =>
      rcases r with ⟨kept, new⟩
      have hd := C21_merge_distinct t v kept new hf ht (hv v (by simp))
      refine ⟨⟨fun _ => ⟨hm.1 ⟨_, hf⟩, trivial⟩, fun _ => ⟨_, rfl⟩⟩, fun t' h => ?_⟩
      cases h
      exact ⟨hd.1, hd.2⟩
  | cons w ws ih =>
    have hm := merge_ok_iff t v
    unfold mergeHistory
    cases hf : findNewOpcodes t v with
    | error e =>
      rw [hf] at hm
      refine ⟨?_, fun t' h => (nomatch h)⟩
      constructor
      · rintro ⟨t', h⟩; cases h
      · rintro ⟨h, _⟩; obtain ⟨r, hr⟩ := hm.2 h; cases hr
    | ok r =>
      rcases r with ⟨kept, new⟩
      have hd := C21_merge_distinct t v kept new hf ht (hv v (by simp))
      obtain ⟨h1, h2⟩ := ih (kept ++ new) w hd.1 (fun x hx => hv x (List.mem_cons_of_mem _ hx))
      refine ⟨?_, fun t' h => ?_⟩
      · show (∃ t', mergeHistory (kept ++ new) (w :: ws) = .ok t') ↔ _
        rw [h1]
        have : Expanding (v :: w :: ws) ↔ (∀ o ∈ v, ∃ n ∈ w, SameMeaning n o) ∧ Expanding (w :: ws) := Iff.rfl
        rw [this]
        constructor
        · rintro ⟨ha, hb⟩
          exact ⟨hm.1 ⟨_, hf⟩, fun o ho => ha o ((hd.2 o).2 ho), hb⟩
        · rintro ⟨_, ha, hb⟩
          exact ⟨fun o ho => ha o ((hd.2 o).1 ho), hb⟩
      · obtain ⟨h3, h4⟩ := h2 t' h
        refine ⟨h3, fun x => ?_⟩
        rw [h4 x, List.getLast_cons (List.cons_ne_nil w ws)]

/-- C77: if no version of the history contains two variants of the same meaning, then the history can be merged exactly
if every version contains all meanings of the version before; and then the final table contains no two numbers of the
same meaning and consists of exactly the variants of the last version (in particular it is as long as that version). -/
theorem C77_last_version (versions : List (List OpcodeVariant)) (hne : versions ≠ [])
    (hd : ∀ v ∈ versions, Distinct v) :
    ((∃ t, mergeHistory [] versions = .ok t) ↔ Expanding versions) ∧
    ∀ t, mergeHistory [] versions = .ok t →
      Distinct t ∧ (∀ x, x ∈ t ↔ x ∈ versions.getLast hne) ∧ t.length = (versions.getLast hne).length := by
  cases versions with
  | nil => exact absurd rfl hne
  | cons v vs =>
    obtain ⟨h1, h2⟩ := history_last [] v vs List.Pairwise.nil hd
    refine ⟨?_, fun t h => ?_⟩
    · rw [h1]; simp
    · obtain ⟨h3, h4⟩ := h2 t h
      refine ⟨h3, h4, ?_⟩
      have hnod : ∀ l : List OpcodeVariant, Distinct l → l.Nodup := fun l hl =>
        List.Pairwise.imp (fun {a b} hab he => hab ((semKey_eq_iff _ _).1 (by rw [he]))) hl
      have hlast : Distinct ((v :: vs).getLast (by simp)) := hd _ (List.getLast_mem _)
      exact Nat.le_antisymm
        ((hnod t h3).length_le_of_subset fun x hx => (h4 x).1 hx)
        ((hnod _ hlast).length_le_of_subset fun x hx => (h4 x).2 hx)

/-- C77: the merged table has exactly the variants of the third version. -/
example : Expanding [first, second, third] ∧ ∀ x, x ∈ merged ↔ x ∈ third := by
  have hd : ∀ v ∈ [first, second, third], Distinct v := by
    unfold Distinct SameMeaning; decide
  obtain ⟨h1, h2⟩ := C77_last_version [first, second, third] (by simp) hd
  exact ⟨h1.1 ⟨_, merged_ok⟩, (h2 merged merged_ok).2.1⟩

private theorem bind_ok {α β : Type} {r : Res α} {f : α → Res β} {b : β} (h : (r >>= f) = .ok b) :
    ∃ a, r = .ok a ∧ f a = .ok b := by
  cases r with
  | error e => cases h
  | ok a => exact ⟨a, rfl, h⟩

/-- C77: the version loop of the table builder is such a history. Whatever the list of versions and the limit, if the
loop succeeds then it has merged the variant lists of the versions before the first one above the limit, and after each
of them the length of the table was the encoding density of that version. -/
theorem C77_builder (upTo : ISAVersion) (versions : List ISAVersion) (t0 t : List OpcodeVariant)
    (h : synthesizeLoop upTo t0 versions = .ok t) :
    ∃ (used : List ISAVersion) (lists : List (List OpcodeVariant)),
      used = versions.takeWhile (fun v => decide (v.num ≤ upTo.num)) ∧
      lists.length = used.length ∧
      (∀ (i : Nat) v, used[i]? = some v → ∃ l, lists[i]? = some l ∧ allVariantsInVersion v = .ok l ∧
        ∃ ti, mergeHistory t0 (lists.take (i + 1)) = .ok ti ∧ computeEncodingDensity v = .ok ti.length) ∧
      mergeHistory t0 lists = .ok t := by
  induction versions generalizing t0 with
  | nil => cases h; exact ⟨[], [], rfl, rfl, fun i v hv => (by simp at hv), rfl⟩
  | cons v vs ih =>
    unfold synthesizeLoop at h
    by_cases hle : v.num ≤ upTo.num
    · have hle' : v.le upTo = true := by simp [ISAVersion.le, hle]
      simp only [hle', Bool.not_true, Bool.false_eq_true, if_false] at h
      obtain ⟨l, ha, h⟩ := bind_ok h
      obtain ⟨⟨kept, new⟩, hf, h⟩ := bind_ok h
      obtain ⟨d, hc, h⟩ := bind_ok h
      by_cases hlen : (kept ++ new).length = d
      · rw [show rassert ((kept ++ new).length == d) = .ok () by simp [rassert, hlen]] at h
        obtain ⟨_, _, h⟩ := bind_ok h
        obtain ⟨used, lists, h1, h2, h3, h4⟩ := ih (kept ++ new) h
        refine ⟨v :: used, l :: lists, ?_, by simp [h2], ?_, ?_⟩
        · rw [List.takeWhile_cons, if_pos (by simpa using hle), h1]
        · intro i w hw
          cases i with
          | zero =>
            simp only [List.getElem?_cons_zero, Option.some.injEq] at hw
            subst hw
            refine ⟨l, rfl, ha, kept ++ new, ?_, by rw [hc, hlen]⟩
            simp [mergeHistory, hf]
          | succ i =>
            obtain ⟨l', hl', ha', ti, hti, hd⟩ := h3 i w (by simpa using hw)
            refine ⟨l', by simpa using hl', ha', ti, ?_, hd⟩
            rw [List.take_succ_cons]
            simp only [mergeHistory, hf]
            exact hti
        · simp only [mergeHistory, hf]
          exact h4
      · rw [show rassert ((kept ++ new).length == d) = .error .assertFailed by
          rw [beq_false_of_ne hlen]; rfl] at h
        cases h
    · have hle' : v.le upTo = false := by simp [ISAVersion.le, hle]
      simp only [hle', Bool.not_false, if_true] at h
      cases h
      refine ⟨[], [], ?_, rfl, fun i w hw => (by simp at hw), rfl⟩
      rw [List.takeWhile_cons, if_neg (by simpa using hle)]

-- the crate's own history satisfies the hypothesis of `C77_builder`
example : ∃ t, synthesizeLoop DEFAULT_ISA_VERSION [] allIsaVersions = .ok t ∧ t.length = 1093 :=
  ⟨_, loop_ge1 (by decide), length_tableV1⟩

-- and one that cannot: the second version drops a variant
example : Panics (mergeHistory [] [[OpcodeVariant.default], []]) := ⟨_, rfl⟩

end ZkEvm.Props
