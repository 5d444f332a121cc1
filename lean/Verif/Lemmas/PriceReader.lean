import Verif.Model.GeneratorRun
import Verif.Spec.PriceReader
/-! Reading the committed price file, and any prefix of it. -/
namespace ZkEvm.GeneratorLemmas
open Spec PriceGenerator

theorem toList_lit {s : String} {l : List Char} (h : String.ofList l = s) : s.toList = l := by
  rw [← h, String.toList_ofList]

theorem toList_append {a b : String} {l m : List Char} (h : a.toList = l) (h' : b.toList = m) :
    (a ++ b).toList = l ++ m := by rw [String.toList_append, h, h']

/-- every part of the line says nothing, is malformed, or says what the whole line says -/
def partsOk (line : List Char) : Bool :=
  (List.range (line.length + 1)).all fun m =>
    let p := readLine (line.take m)
    p = .malformed || p = .nothing || p = readLine line

/-- no part of the line says what the whole line says -/
def partsLess (line : List Char) : Bool :=
  (List.range line.length).all fun m => readLine (line.take m) = .malformed || readLine (line.take m) = .nothing

theorem facts_of {s : String} {P : List Char → Prop} {l : List Char} (h : s.toList = l) (hp : P l) :
    ∃ l, s.toList = l ∧ P l := ⟨l, h, hp⟩

local infixl:65 " +++ " => toList_append
local notation "lit" => toList_lit rfl

theorem file_facts : ∃ l, committedPriceFile.toList = l ∧
    ((l.all (fun c => decide (c.toNat < 128)) && decide (readConstants (lines l) = some priceConstants) &&
      (lines l).all partsOk && decide ((lines l).length = 28) && decide ((lines l)[27]? = some []) &&
      ((lines l)[26]?.any partsLess) && decide ((readConstants ((lines l).take 26)).any (·.length < 18))) = true) := by
  unfold committedPriceFile
  exact facts_of
    (lit +++ lit +++ lit +++ lit +++ lit +++ lit +++ lit +++ lit +++ lit +++ lit +++ lit +++ lit +++ lit +++ lit +++ lit +++
      lit +++ lit +++ lit +++ lit +++ lit +++ lit +++ lit +++ lit +++ lit +++ lit +++ lit +++ lit)
    (by decide +kernel)

theorem lines_ne_nil (s : List Char) : lines s ≠ [] := by
  cases s with
  | nil => simp [lines]
  | cons c s =>
    unfold lines
    split
    · simp
    · split <;> simp

/-- the text of some lines -/
def unlines : List (List Char) → List Char
  | [] => []
  | [l] => l
  | l :: ls => l ++ '\n' :: unlines ls

theorem unlines_lines (s : List Char) : unlines (lines s) = s := by
  induction s with
  | nil => rfl
  | cons c s ih =>
    unfold lines
    split
    · rename_i h
      subst h
      cases hl : lines s with
      | nil => exact absurd hl (lines_ne_nil s)
      | cons a as => rw [hl] at ih; simp only [unlines, List.nil_append, ih]
    · cases hl : lines s with
      | nil => exact absurd hl (lines_ne_nil s)
      | cons a as =>
        rw [hl] at ih
        cases as with
        | nil => simp only [unlines] at ih ⊢; rw [ih]
        | cons b bs => simp only [unlines, List.cons_append] at ih ⊢; rw [ih]

theorem lines_injective {a b : List Char} (h : lines a = lines b) : a = b := by
  rw [← unlines_lines a, h, unlines_lines]

theorem lines_newline (s : List Char) : lines (s ++ ['\n']) = lines s ++ [[]] := by
  induction s with
  | nil => rfl
  | cons c s ih =>
    rw [List.cons_append]
    unfold lines
    rw [ih]
    split
    · rfl
    · cases hl : lines s with
      | nil => exact absurd hl (lines_ne_nil s)
      | cons a as => rfl

theorem lines_take (s : List Char) (n : Nat) : ∃ k l m, (lines s)[k]? = some l ∧ m ≤ l.length ∧
    lines (s.take n) = (lines s).take k ++ [l.take m] := by
  induction s generalizing n with
  | nil => exact ⟨0, [], 0, rfl, Nat.le_refl _, by simp [lines]⟩
  | cons c s ih =>
    cases n with
    | zero =>
      cases hl : lines (c :: s) with
      | nil => exact absurd hl (lines_ne_nil _)
      | cons a as => exact ⟨0, a, 0, rfl, Nat.zero_le _, rfl⟩
    | succ n =>
      obtain ⟨k, l, m, h1, h2, h3⟩ := ih n
      rw [List.take_succ_cons]
      unfold lines
      rw [h3]
      split
      · exact ⟨k + 1, l, m, by simpa using h1, h2, rfl⟩
      · cases hl : lines s with
        | nil => exact absurd hl (lines_ne_nil _)
        | cons a as =>
          rw [hl] at h1
          cases k with
          | zero =>
            cases Option.some.inj h1
            exact ⟨0, c :: l, m + 1, rfl, by simpa using h2, rfl⟩
          | succ k =>
            exact ⟨k + 1, l, m, h1, h2, rfl⟩

theorem readConstants_append (a b : List (List Char)) (r : List (String × Nat)) (h : readConstants (a ++ b) = some r) :
    ∃ ra rb, readConstants a = some ra ∧ readConstants b = some rb ∧ r = ra ++ rb := by
  induction a generalizing r with
  | nil => exact ⟨[], r, rfl, h, rfl⟩
  | cons l ls ih =>
    rw [List.cons_append] at h
    unfold readConstants at h
    cases hl : readLine l with
    | malformed => rw [hl] at h; cases h
    | nothing =>
      rw [hl] at h
      cases hr : readConstants (ls ++ b) with
      | none => rw [hr] at h; cases h
      | some r' =>
        rw [hr] at h
        obtain ⟨ra, rb, h1, h2, h3⟩ := ih r' hr
        cases h
        exact ⟨ra, rb, by simp only [readConstants, hl, h1], h2, h3⟩
    | constant n v =>
      rw [hl] at h
      cases hr : readConstants (ls ++ b) with
      | none => rw [hr] at h; cases h
      | some r' =>
        rw [hr] at h
        obtain ⟨ra, rb, h1, h2, h3⟩ := ih r' hr
        cases h
        exact ⟨(n, v) :: ra, rb, by simp only [readConstants, hl, h1], h2, by rw [h3]; rfl⟩

theorem readConstants_append_some {a b : List (List Char)} {ra rb : List (String × Nat)}
    (ha : readConstants a = some ra) (hb : readConstants b = some rb) : readConstants (a ++ b) = some (ra ++ rb) := by
  induction a generalizing ra with
  | nil => cases ha; exact hb
  | cons l ls ih =>
    rw [List.cons_append]
    unfold readConstants at ha ⊢
    cases hl : readLine l with
    | malformed => rw [hl] at ha; cases ha
    | nothing =>
      rw [hl] at ha
      cases hr : readConstants ls with
      | none => rw [hr] at ha; cases ha
      | some r' => rw [hr] at ha; cases ha; rw [ih hr]
    | constant n v =>
      rw [hl] at ha
      cases hr : readConstants ls with
      | none => rw [hr] at ha; cases ha
      | some r' => rw [hr] at ha; cases ha; rw [ih hr]; rfl

theorem readConstants_append_none {a b : List (List Char)} (hb : readConstants b = none) :
    readConstants (a ++ b) = none := by
  cases h : readConstants (a ++ b) with
  | none => rfl
  | some r =>
    obtain ⟨_, _, _, h2, _⟩ := readConstants_append a b r h
    rw [hb] at h2; cases h2

/-- What can be read from lines of which the last is cut -/
theorem read_part {L : List (List Char)} (hp : L.all partsOk = true) {k m : Nat} {l : List Char} {q : List (String × Nat)}
    (h1 : L[k]? = some l) (h2 : m ≤ l.length) (h : readConstants (L.take (k + 1)) = some q) :
    readConstants (L.take k ++ [l.take m]) = none ∨ ∃ r, readConstants (L.take k ++ [l.take m]) = some r ∧ r <+: q := by
  have hlt : k < L.length := (List.getElem?_eq_some_iff.1 h1).1
  have hl := (List.getElem?_eq_some_iff.1 h1).2
  have hmem : l ∈ L := hl ▸ List.getElem_mem hlt
  have hk : L.take (k + 1) = L.take k ++ [l] := by
    rw [List.take_add_one, h1]; rfl
  rw [hk] at h
  obtain ⟨rc, rd, h7, h8, h9⟩ := readConstants_append _ _ _ h
  have hpl := List.all_eq_true.1 (List.all_eq_true.1 hp l hmem) m (List.mem_range.2 (by omega))
  simp only [Bool.or_eq_true, decide_eq_true_eq] at hpl
  rcases hpl with (hm | hm) | hm
  · left
    exact readConstants_append_none (by simp [readConstants, hm])
  · right
    refine ⟨rc ++ [], readConstants_append_some h7 (by simp [readConstants, hm]), ?_⟩
    rw [h9, List.append_nil]
    exact List.prefix_append _ _
  · right
    refine ⟨rc ++ rd, readConstants_append_some h7 ?_, by rw [h9]; exact List.prefix_refl _⟩
    rw [← h8]; simp only [readConstants, hm]

theorem read_lines_take {L : List (List Char)} {full : List (String × Nat)} (h : readConstants L = some full) (k : Nat) :
    ∃ q, readConstants (L.take k) = some q ∧ q <+: full := by
  rw [← List.take_append_drop k L] at h
  obtain ⟨ra, rb, h4, h5, h6⟩ := readConstants_append _ _ _ h
  exact ⟨ra, h4, h6 ▸ List.prefix_append _ _⟩

/-- What can be read from a part of a text that reads as `full`, if parts of lines never say anything else than the
whole lines -/
theorem read_take {s : List Char} {full : List (String × Nat)} (h : readConstants (lines s) = some full)
    (hp : (lines s).all partsOk = true) (n : Nat) :
    readConstants (lines (s.take n)) = none ∨ ∃ r, readConstants (lines (s.take n)) = some r ∧ r <+: full := by
  obtain ⟨k, l, m, h1, h2, h3⟩ := lines_take s n
  rw [h3]
  obtain ⟨q, hq, hqf⟩ := read_lines_take h (k + 1)
  rcases read_part hp h1 h2 hq with h | ⟨r, hr, hrq⟩
  · exact .inl h
  · exact .inr ⟨r, hr, hrq.trans hqf⟩

/-- A text that ends with a full line saying something reads as less when more than the final newline is missing. -/
theorem read_take_less {s : List Char} {full rest : List (String × Nat)} {last : List Char} {N : Nat}
    (hp : (lines s).all partsOk = true) (hlen : (lines s).length = N + 2)
    (hlast : (lines s)[N + 1]? = some []) (hl : (lines s)[N]? = some last) (hless : partsLess last = true)
    (hrest : readConstants ((lines s).take N) = some rest) (hc : rest.length < full.length) (n : Nat)
    (h : readConstants (lines (s.take n)) = some full) : s.take n = s ∨ s.take n ++ ['\n'] = s := by
  obtain ⟨k, l, m, h1, h2, h3⟩ := lines_take s n
  have hk : k < (lines s).length := (List.getElem?_eq_some_iff.1 h1).1
  have hall : lines s = (lines s).take N ++ [last] ++ [[]] := by
    have e1 : (lines s).take (N + 1) = (lines s).take N ++ [last] := by rw [List.take_add_one, hl]; rfl
    have e2 : (lines s).take (N + 2) = (lines s).take (N + 1) ++ [[]] := by rw [List.take_add_one, hlast]; rfl
    rw [← e1, ← e2, ← hlen, List.take_length]
  by_cases hk1 : k = N + 1
  · left
    subst hk1
    rw [hlast] at h1
    cases Option.some.inj h1
    apply lines_injective
    rw [h3, List.take_add_one, hl, List.take_nil]
    exact hall.symm
  by_cases hk2 : k = N
  · subst hk2
    rw [hl] at h1
    cases Option.some.inj h1
    by_cases hm : m = last.length
    · right
      apply lines_injective
      rw [lines_newline, h3, hm, List.take_length]
      exact hall.symm
    · exfalso
      have := List.all_eq_true.1 hless m (List.mem_range.2 (by omega))
      simp only [Bool.or_eq_true, decide_eq_true_eq] at this
      rw [h3] at h
      rcases this with hm | hm
      · rw [readConstants_append_none (by simp [readConstants, hm])] at h
        cases h
      · rw [readConstants_append_some hrest (rb := []) (by simp [readConstants, hm]), List.append_nil] at h
        cases h
        omega
  · exfalso
    obtain ⟨q, hq, hqf⟩ := read_lines_take hrest (k + 1)
    rw [List.take_take, Nat.min_eq_left (by omega)] at hq
    rw [h3] at h
    rcases read_part hp h1 h2 hq with h' | ⟨r, hr, hrq⟩
    · rw [h'] at h; cases h
    · rw [hr] at h
      cases h
      have := (hrq.trans hqf).length_le
      omega

end ZkEvm.GeneratorLemmas
