import Verif.Model.PowerFailure
import Verif.Lemmas.Generator
import Verif.Lemmas.PriceReader
/-! Damaged price files. -/
namespace ZkEvm.GeneratorLemmas
open Spec PriceGenerator

theorem dropPrefix_some {p s r : List Char} (h : dropPrefix p s = some r) : s = p ++ r := by
  induction p generalizing s with
  | nil => cases h; rfl
  | cons c p ih =>
    cases s with
    | nil => cases h
    | cons d s =>
      unfold dropPrefix at h
      split at h
      · rename_i hc; subst hc; rw [ih h]; rfl
      · cases h

/-- A line that declares a constant holds no zero byte. -/
theorem constant_clean {s : List Char} {n : String} {v : Nat} (h : readLine s = .constant n v) : Char.ofNat 0 ∉ s := by
  unfold readLine at h
  split at h
  · cases h
  split at h
  · cases h
  split at h
  · cases h
  · rename_i r h1
    dsimp only at h
    split at h
    · cases h
    · rename_i u h2
      split at h
      · cases h
      · rename_i m h3
        have e1 := dropPrefix_some h1
        have e2 := dropPrefix_some h2
        have e3 : r = r.takeWhile (fun c => c.isUpper || c.isDigit || c = '_') ++
            r.drop (r.takeWhile fun c => c.isUpper || c.isDigit || c = '_').length := by
          conv => lhs; rw [← List.takeWhile_append_dropWhile (p := fun c => c.isUpper || c.isDigit || c = '_') (l := r)]
          congr 1
          conv => rhs; rw [← List.takeWhile_append_dropWhile (p := fun c => c.isUpper || c.isDigit || c = '_') (l := r)]
          rw [List.takeWhile_append_dropWhile]
          conv => rhs; arg 2; rw [← List.takeWhile_append_dropWhile (p := fun c => c.isUpper || c.isDigit || c = '_') (l := r)]
          rw [List.drop_left]
        have d1 : Char.ofNat 0 ∉ "pub const ".toList := by decide
        have d2 : Char.ofNat 0 ∉ ": u32 = ".toList := by decide
        have d3 : Char.ofNat 0 ∉ r.takeWhile fun c => c.isUpper || c.isDigit || c = '_' := by
          intro hm
          have := List.all_takeWhile (p := fun c => c.isUpper || c.isDigit || c = '_') (l := r)
          have := List.all_eq_true.1 this _ hm
          revert this; decide
        have d4 : Char.ofNat 0 ∉ u := by
          unfold readValue at h3
          split at h3
          · rename_i hl
            dsimp only at h3
            split at h3
            · rename_i hd
              have hu : u = u.dropLast ++ [';'] := by
                have hne : u ≠ [] := fun h => by rw [h] at hl; cases hl
                rw [List.getLast?_eq_some_getLast hne] at hl
                rw [← Option.some.inj hl, List.dropLast_concat_getLast]
              rw [hu]
              intro hm
              rcases List.mem_append.1 hm with hm | hm
              · have := List.all_eq_true.1 hd.2 _ hm
                revert this; decide
              · revert hm; decide
            · cases h3
          · cases h3
        rw [e1, e3, e2]
        simp only [List.mem_append, not_or]
        exact ⟨d1, d3, d2, d4⟩

/-- A text of which a part at the end may be missing and some characters may have become zeros. -/
inductive Damaged : List Char → List Char → Prop
  | cut (l) : Damaged [] l
  | same {d l} (c) : Damaged d l → Damaged (c :: d) (c :: l)
  | zero {d l} (c) : Damaged d l → Damaged (Char.ofNat 0 :: d) (c :: l)

theorem Damaged.of_get {d l : List Char} (hlen : d.length ≤ l.length)
    (h : ∀ (i : Nat) c, d[i]? = some c → c = Char.ofNat 0 ∨ l[i]? = some c) : Damaged d l := by
  induction d generalizing l with
  | nil => exact .cut l
  | cons x d ih =>
    cases l with
    | nil => simp at hlen
    | cons c l =>
      have ht := ih (by simpa using hlen) fun i => h (i + 1)
      rcases h 0 x rfl with rfl | hx
      · exact .zero c ht
      · cases hx; exact .same x ht

/-- Some of the lines, in order, the last of them possibly cut -/
inductive Sub : List (List Char) → List (List Char) → Prop
  | nil (L) : Sub [] L
  | skip {D L} (l) : Sub D L → Sub D (l :: L)
  | keep {D L} (l) : Sub D L → Sub (l :: D) (l :: L)
  | cut {p l} (L) : p <+: l → Sub [p] (l :: L)

def clean (s : List Char) : Bool := decide (Char.ofNat 0 ∉ s)

theorem lines_damaged {d l : List Char} (h : Damaged d l) : ∃ a as b bs, lines d = a :: as ∧ lines l = b :: bs ∧
    Sub (as.filter clean) bs ∧ (clean a = true → a = b ∨ (as = [] ∧ a <+: b)) := by
  induction h with
  | cut l =>
    cases hl : lines l with
    | nil => exact absurd hl (lines_ne_nil l)
    | cons b bs => exact ⟨[], [], b, bs, rfl, rfl, .nil _, fun _ => .inr ⟨rfl, List.nil_prefix⟩⟩
  | @same d l c _ ih =>
    obtain ⟨a, as, b, bs, h1, h2, h3, h4⟩ := ih
    unfold lines
    rw [h1, h2]
    split
    · refine ⟨[], a :: as, [], b :: bs, rfl, rfl, ?_, fun _ => .inl rfl⟩
      by_cases ha : clean a = true
      · rw [List.filter_cons_of_pos ha]
        rcases h4 ha with rfl | ⟨rfl, hp⟩
        · exact .keep a h3
        · exact .cut bs hp
      · rw [List.filter_cons_of_neg ha]
        exact .skip b h3
    · refine ⟨c :: a, as, c :: b, bs, rfl, rfl, h3, fun hc => ?_⟩
      have ha : clean a = true := by
        simp only [clean, decide_eq_true_eq, List.mem_cons, not_or] at hc ⊢
        exact hc.2
      rcases h4 ha with rfl | ⟨rfl, hp⟩
      · exact .inl rfl
      · exact .inr ⟨rfl, by simpa using hp⟩
  | @zero d l c _ ih =>
    obtain ⟨a, as, b, bs, h1, h2, h3, h4⟩ := ih
    have hz : lines (Char.ofNat 0 :: d) = (Char.ofNat 0 :: a) :: as := by
      conv => lhs; unfold lines
      rw [h1, if_neg (by decide)]
    have hno : ¬ clean (Char.ofNat 0 :: a) = true := by simp [clean]
    rw [hz]
    unfold lines
    rw [h2]
    split
    · exact ⟨_, as, [], b :: bs, rfl, rfl, .skip b h3, fun h => absurd h hno⟩
    · exact ⟨_, as, c :: b, bs, rfl, rfl, h3, fun h => absurd h hno⟩

theorem lines_sub {d l : List Char} (h : Damaged d l) : Sub ((lines d).filter clean) (lines l) := by
  obtain ⟨a, as, b, bs, h1, h2, h3, h4⟩ := lines_damaged h
  rw [h1, h2]
  by_cases ha : clean a = true
  · rw [List.filter_cons_of_pos ha]
    rcases h4 ha with rfl | ⟨rfl, hp⟩
    · exact .keep a h3
    · exact .cut bs hp
  · rw [List.filter_cons_of_neg ha]
    exact .skip b h3

/-- the constant of a line, if it declares one -/
def constantOf (s : List Char) : Option (String × Nat) :=
  match readLine s with
  | .constant n v => some (n, v)
  | _ => none

theorem readConstants_eq {L : List (List Char)} {r : List (String × Nat)} (h : readConstants L = some r) :
    r = L.filterMap constantOf := by
  induction L generalizing r with
  | nil => cases h; rfl
  | cons l L ih =>
    unfold readConstants at h
    cases hl : readLine l with
    | malformed => rw [hl] at h; cases h
    | nothing =>
      rw [hl] at h
      cases hr : readConstants L with
      | none => rw [hr] at h; cases h
      | some r' =>
        rw [hr] at h; cases h
        rw [List.filterMap_cons_none (by rw [constantOf, hl])]; exact ih hr
    | constant n v =>
      rw [hl] at h
      cases hr : readConstants L with
      | none => rw [hr] at h; cases h
      | some r' =>
        rw [hr] at h; cases h
        rw [List.filterMap_cons_some (b := (n, v)) (by rw [constantOf, hl]), ← ih hr]

theorem constants_clean (L : List (List Char)) : (L.filter clean).filterMap constantOf = L.filterMap constantOf := by
  induction L with
  | nil => rfl
  | cons l L ih =>
    by_cases h : clean l = true
    · rw [List.filter_cons_of_pos h, List.filterMap_cons, List.filterMap_cons, ih]
    · rw [List.filter_cons_of_neg h, List.filterMap_cons_none, ih]
      cases hc : readLine l with
      | constant n v => exact absurd (decide_eq_true (constant_clean hc)) h
      | nothing => rw [constantOf, hc]
      | malformed => rw [constantOf, hc]

theorem Sub.constants {D L : List (List Char)} (h : Sub D L) (hp : L.all partsOk = true) :
    (D.filterMap constantOf).Sublist (L.filterMap constantOf) := by
  induction h with
  | nil => exact List.nil_sublist _
  | skip l _ ih =>
    rw [List.all_cons, Bool.and_eq_true] at hp
    refine (ih hp.2).trans ?_
    exact (List.sublist_cons_self l _).filterMap _
  | keep l _ ih =>
    rw [List.all_cons, Bool.and_eq_true] at hp
    rw [List.filterMap_cons, List.filterMap_cons]
    split
    · exact ih hp.2
    · exact (ih hp.2).cons_cons _
  | @cut p l L hpl =>
    rw [List.all_cons, Bool.and_eq_true] at hp
    have he := List.prefix_iff_eq_take.1 hpl
    have hle := hpl.length_le
    have := List.all_eq_true.1 hp.1 p.length (List.mem_range.2 (by omega))
    rw [← he] at this
    simp only [Bool.or_eq_true, decide_eq_true_eq] at this
    rcases this with (h | h) | h
    · rw [List.filterMap_cons_none (by rw [constantOf, h])]; exact List.nil_sublist _
    · rw [List.filterMap_cons_none (by rw [constantOf, h])]; exact List.nil_sublist _
    · have : constantOf p = constantOf l := by unfold constantOf; rw [h]
      rw [List.filterMap_cons, List.filterMap_cons, this]
      split
      · exact List.nil_sublist _
      · exact (List.nil_sublist _).cons_cons _

/-- A damaged text declares only what the text declares. -/
theorem read_damaged {d l : List Char} {full r : List (String × Nat)} (h : readConstants (lines l) = some full)
    (hp : (lines l).all partsOk = true) (hd : Damaged d l) (hr : readConstants (lines d) = some r) : r.Sublist full := by
  rw [readConstants_eq h, readConstants_eq hr, ← constants_clean (lines d)]
  exact (lines_sub hd).constants hp

/-- Every byte is that of one of the files, or zero. -/
def Mixed (text old file : List Byte) : Prop :=
  file.length ≤ max old.length text.length ∧
  ∀ (i : Nat) b, file[i]? = some b → b = 0 ∨ old[i]? = some b ∨ text[i]? = some b

theorem Seen.reaches {text : List Byte} {w w' : World} {fs : List (List Byte)} (h : Seen text w w' fs) :
    Reaches text w w' ∧ ∀ f ∈ fs, ∃ v, Reaches text w v ∧ v.file = f := by
  induction h with
  | refl => exact ⟨.refl, fun f hf => ⟨w, .refl, (List.mem_singleton.1 hf).symm⟩⟩
  | step _ ha ih =>
    have hr := Reaches.step ih.1 ha
    refine ⟨hr, fun f hf => ?_⟩
    rcases List.mem_cons.1 hf with rfl | hf
    · exact ⟨_, hr, rfl⟩
    · exact ih.2 f hf

theorem mixed_reach {text old f : List Byte} {n : Nat} {w : World} (hf : Mixed text old f)
    (h : Reaches text (launch f n) w) : Mixed text old w.file := by
  have hi := Inv.reaches h
  by_cases hc : w.created = []
  · rw [(hi.fresh hc).1]; exact hf
  · obtain ⟨h1, h2⟩ := hi.bytes hc
    refine ⟨by omega, fun i b hb => ?_⟩
    rcases h2 i b hb with h | h
    · exact .inl h
    · exact .inr (.inr h)

theorem mixed_boots {text old file : List Byte} (h : Boots text old file) : Mixed text old file := by
  induction h with
  | first => exact ⟨by omega, fun i b hb => .inr (.inl hb)⟩
  | failure n _ hs hd ih =>
    have hall := (Seen.reaches hs).2
    obtain ⟨⟨f, hf, hlen⟩, hbytes⟩ := hd
    refine ⟨?_, fun i b hb => ?_⟩
    · obtain ⟨v, hv, rfl⟩ := hall f hf
      rw [hlen]; exact (mixed_reach ih hv).1
    · rcases hbytes i b hb with h | ⟨g, hg, hgb⟩
      · exact .inl h
      · obtain ⟨v, hv, rfl⟩ := hall g hg
        exact (mixed_reach ih hv).2 i b hgb

end ZkEvm.GeneratorLemmas
