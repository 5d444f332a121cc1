import Verif.Lemmas.PriceReader
import Verif.Lemmas.Prices
import Verif.Spec.PriceParams
/-! The generator for arbitrary parameters: when it runs, and how its text reads. -/
namespace ZkEvm.GeneratorLemmas
open Spec PriceGenerator PriceLemmas

/-! ### Arithmetic -/

theorem bind_ok {α β : Type} {x : Res α} {f : α → Res β} {b : β} :
    (x >>= f) = .ok b ↔ ∃ a, x = .ok a ∧ f a = .ok b := by
  cases x with
  | error e => exact ⟨fun h => (nomatch h), fun ⟨_, h, _⟩ => (nomatch h)⟩
  | ok a => exact ⟨fun h => ⟨a, rfl, h⟩, fun ⟨_, h, h'⟩ => by cases h; exact h'⟩

theorem ceilDiv_eq (a b : Nat) : ceilDiv a b .debug = if a + b < 2 ^ 32 then
    (if 1 ≤ a + b then (if b = 0 then .error .divByZero else .ok ((a + b - 1) / b)) else .error .arithOverflow)
    else .error .arithOverflow := by
  unfold ceilDiv addU32
  dsimp only
  by_cases h1 : a + b < 2 ^ 32
  · rw [if_pos h1, if_pos h1]
    show (subU32 (a + b) 1 >>= fun y => divU32 y b) = _
    unfold subU32
    dsimp only
    by_cases h2 : 1 ≤ a + b
    · rw [if_pos h2, if_pos h2]; rfl
    · rw [if_neg h2, if_neg h2]; rfl
  · rw [if_neg h1, if_neg h1]; rfl

theorem ceilDiv_ok {a b q : Nat} :
    ceilDiv a b .debug = .ok q ↔ 0 < b ∧ a + b < 2 ^ 32 ∧ q = (a + b - 1) / b := by
  rw [ceilDiv_eq]
  by_cases h1 : a + b < 2 ^ 32
  · rw [if_pos h1]
    by_cases h2 : 1 ≤ a + b
    · rw [if_pos h2]
      by_cases h3 : b = 0
      · rw [if_pos h3]
        exact ⟨fun h => (nomatch h), fun h => by omega⟩
      · rw [if_neg h3]
        exact ⟨fun h => ⟨by omega, h1, (Except.ok.inj h).symm⟩, fun h => by rw [h.2.2]⟩
    · rw [if_neg h2]
      exact ⟨fun h => (nomatch h), fun h => by omega⟩
  · rw [if_neg h1]
    exact ⟨fun h => (nomatch h), fun h => absurd h.2.1 h1⟩

theorem ceilDiv_release {a b q : Nat} (h : ceilDiv a b .debug = .ok q) : ceilDiv a b .release = .ok q := by
  obtain ⟨h1, h2, h3⟩ := ceilDiv_ok.1 h
  show (if b = 0 then Except.error Panic.divByZero else
      .ok (((a + b) % 2 ^ 32 + 2 ^ 32 - 1) % 2 ^ 32 / b)) = .ok q
  rw [if_neg (by omega), h3]
  rw [show ((a + b) % 2 ^ 32 + 2 ^ 32 - 1) % 2 ^ 32 = a + b - 1 by omega]

theorem mulU32_ok {a b q : Nat} : mulU32 a b .debug = .ok q ↔ a * b < 2 ^ 32 ∧ q = a * b := by
  unfold mulU32
  dsimp only
  by_cases h : a * b < 2 ^ 32
  · rw [if_pos h]; exact ⟨fun e => ⟨h, (Except.ok.inj e).symm⟩, fun e => by rw [e.2]⟩
  · rw [if_neg h]; exact ⟨fun e => (nomatch e), fun e => absurd e.1 h⟩

theorem mulU32_release {a b q : Nat} (h : mulU32 a b .debug = .ok q) : mulU32 a b .release = .ok q := by
  obtain ⟨h1, h2⟩ := mulU32_ok.1 h
  show Except.ok (a * b % 2 ^ 32) = _
  rw [h2, Nat.mod_eq_of_lt h1]

/-- the rule for single-instance circuits -/
def minPrice (build : Build) (maxPubdata maxTx limit bytes : Nat) : Res Nat := do
  let maxPossible ← mulU32 limit bytes build
  if maxPubdata ≤ maxPossible then .ok 0 else ceilDiv maxTx limit build

theorem minPrice_ok {mp mt limit bytes q : Nat} : minPrice .debug mp mt limit bytes = .ok q ↔
    limit * bytes < 2 ^ 32 ∧ ((mp ≤ limit * bytes ∧ q = 0) ∨
      (limit * bytes < mp ∧ 0 < limit ∧ mt + limit < 2 ^ 32 ∧ q = (mt + limit - 1) / limit)) := by
  unfold minPrice
  rw [bind_ok]
  constructor
  · rintro ⟨a, h1, h2⟩
    obtain ⟨h3, h4⟩ := mulU32_ok.1 h1
    subst h4
    refine ⟨h3, ?_⟩
    by_cases h : mp ≤ limit * bytes
    · rw [if_pos h] at h2; exact .inl ⟨h, (Except.ok.inj h2).symm⟩
    · rw [if_neg h] at h2
      obtain ⟨a1, a2, a3⟩ := ceilDiv_ok.1 h2
      exact .inr ⟨by omega, a1, a2, a3⟩
  · rintro ⟨h1, h2⟩
    refine ⟨_, mulU32_ok.2 ⟨h1, rfl⟩, ?_⟩
    rcases h2 with ⟨h, h'⟩ | ⟨h, h1, h2, h3⟩
    · rw [if_pos h, h']
    · rw [if_neg (by omega)]; exact ceilDiv_ok.2 ⟨h1, h2, h3⟩

theorem minPrice_release {mp mt limit bytes q : Nat} (h : minPrice .debug mp mt limit bytes = .ok q) :
    minPrice .release mp mt limit bytes = .ok q := by
  unfold minPrice at h ⊢
  rw [bind_ok] at h ⊢
  obtain ⟨a, h1, h2⟩ := h
  refine ⟨a, mulU32_release h1, ?_⟩
  by_cases h : mp ≤ a
  · rw [if_pos h] at h2 ⊢; exact h2
  · rw [if_neg h] at h2 ⊢; exact ceilDiv_release h2

/-! ### Reading the text of items -/

theorem lines_append (l s : List Char) (h : '\n' ∉ l) : lines (l ++ '\n' :: s) = l :: lines s := by
  induction l with
  | nil => simp [lines]
  | cons c l ih =>
    rw [List.cons_append, lines, if_neg (fun e => h (by rw [e]; exact List.mem_cons_self)), ih (fun e => h (List.mem_cons_of_mem _ e))]

theorem dropPrefix_append (p s : List Char) : dropPrefix p (p ++ s) = some s := by
  induction p with
  | nil => rfl
  | cons c p ih => rw [List.cons_append, dropPrefix, if_pos rfl, ih]

theorem takeWhile_append_stop {f : Char → Bool} (l : List Char) (c : Char) (s : List Char)
    (h : ∀ x ∈ l, f x = true) (hc : f c = false) : (l ++ c :: s).takeWhile f = l := by
  induction l with
  | nil => rw [List.nil_append, List.takeWhile_cons, hc]; rfl
  | cons a l ih =>
    rw [List.cons_append, List.takeWhile_cons, h a List.mem_cons_self]
    exact congrArg (a :: ·) (ih fun x hx => h x (List.mem_cons_of_mem _ hx))

theorem digitValue_of_isDigit {c : Char} (h : c.isDigit = true) : digitValue c = c.toNat - '0'.toNat := by
  unfold digitValue
  rw [if_pos]
  simp only [Char.isDigit, Bool.and_eq_true, decide_eq_true_eq] at h
  exact h.2

theorem readNumber_toDigits (n : Nat) : readNumber 10 (Nat.toDigits 10 n) = n := by
  have h : ∀ l : List Char, (∀ c ∈ l, c.isDigit = true) → ∀ k,
      l.foldl (fun acc c => acc * 10 + digitValue c) k = Nat.ofDigitChars 10 l k := by
    intro l hl
    induction l with
    | nil => exact fun _ => rfl
    | cons c l ih =>
      intro k
      rw [List.foldl_cons, ih (fun x hx => hl x (List.mem_cons_of_mem _ hx)),
        digitValue_of_isDigit (hl c List.mem_cons_self), Nat.ofDigitChars_eq_foldl, Nat.ofDigitChars_eq_foldl,
        List.foldl_cons, Nat.mul_comm k]
  rw [readNumber, h _ (fun c hc => Nat.isDigit_of_mem_toDigits (by decide) (by decide) hc)]
  exact Nat.ofDigitChars_ten_toDigits

/-- characters of the names of constants -/
def nameChar (c : Char) : Bool := c.isUpper || c.isDigit || c = '_'

theorem readLine_const (name : List Char) (v : Nat) (h0 : name ≠ []) (h : ∀ c ∈ name, nameChar c = true) :
    readLine ("pub const ".toList ++ (name ++ (": u32 = ".toList ++ (Nat.toDigits 10 v ++ [';'])))) =
      .constant (String.ofList name) v := by
  have hs : ("pub const ".toList ++ (name ++ (": u32 = ".toList ++ (Nat.toDigits 10 v ++ [';'])))) ≠ [] := by
    intro e
    have := congrArg List.length e
    rw [List.length_append, show "pub const ".toList.length = 10 by decide] at this
    simp at this
  unfold readLine
  rw [if_neg hs]
  rw [show (dropPrefix "//".toList ("pub const ".toList ++ (name ++ (": u32 = ".toList ++ (Nat.toDigits 10 v ++ [';']))))).isSome
    = false from by
      rw [show "//".toList = ['/', '/'] by decide,
        show "pub const ".toList = 'p' :: "ub const ".toList by decide, List.cons_append, dropPrefix,
        if_neg (by decide)]
      rfl]
  rw [if_neg (by decide), dropPrefix_append]
  dsimp only
  have htake : (name ++ (": u32 = ".toList ++ (Nat.toDigits 10 v ++ [';']))).takeWhile
      (fun c => c.isUpper || c.isDigit || c = '_') = name := by
    rw [show ": u32 = ".toList = ':' :: " u32 = ".toList by decide, List.cons_append]
    exact takeWhile_append_stop name ':' _ h (by decide)
  rw [htake, List.drop_left, dropPrefix_append]
  dsimp only
  have hv : readValue (Nat.toDigits 10 v ++ [';']) = some v := by
    unfold readValue
    rw [List.getLast?_append, List.getLast?_singleton]
    simp only [Option.some_or, List.dropLast_concat]
    rw [if_pos ⟨Nat.toDigits_ne_nil, List.all_eq_true.2 fun c hc =>
      Nat.isDigit_of_mem_toDigits (by decide) (by decide) hc⟩, readNumber_toDigits]
  rw [hv]
  dsimp only
  rw [if_neg h0]

theorem readLine_comment (c : List Char) : readLine ("// ".toList ++ c) = .nothing := by
  unfold readLine
  rw [show "// ".toList = '/' :: '/' :: [' '] by decide]
  simp only [List.cons_append]
  rw [if_neg (List.cons_ne_nil _ _), show "//".toList = ['/', '/'] by decide]
  rfl

/-- names are upper case, comments are single lines, all ASCII -/
def itemOk : Item → Bool
  | .const n _ => n.toList ≠ [] && n.toList.all nameChar
  | .comment c => c.toList.all fun x => decide (x.toNat < 128) && x != '\n'

/-- the constants among the items -/
def consts (items : List Item) : List (String × Nat) :=
  items.filterMap fun | .const n v => some (n, v) | .comment _ => none

theorem nameChar_plain {c : Char} (h : nameChar c = true) : c.toNat < 128 ∧ c ≠ '\n' := by
  simp only [nameChar, Char.isUpper, Char.isDigit, Bool.or_eq_true, Bool.and_eq_true, decide_eq_true_eq] at h
  have key : c.toNat < 128 ∧ c.toNat ≠ 10 := by
    rcases h with (h | h) | h
    · have h1 : c.toNat ≤ 90 := h.2
      have h2 : 65 ≤ c.toNat := h.1
      omega
    · have h1 : c.toNat ≤ 57 := h.2
      have h2 : 48 ≤ c.toNat := h.1
      omega
    · rw [h]; decide
  exact ⟨key.1, fun e => key.2 (by rw [e]; decide)⟩

theorem digit_plain {c : Char} {v : Nat} (h : c ∈ Nat.toDigits 10 v) : c.toNat < 128 ∧ c ≠ '\n' := by
  apply nameChar_plain
  have := Nat.isDigit_of_mem_toDigits (by decide) (by decide) h
  simp [nameChar, this]

/-- the line of a constant -/
def constLine (n : String) (v : Nat) : List Char :=
  "pub const ".toList ++ (n.toList ++ (": u32 = ".toList ++ (Nat.toDigits 10 v ++ [';'])))

theorem text_const (n : String) (v : Nat) : (Item.const n v).text.toList = constLine n v ++ ['\n'] := by
  show (ergsConstant n v).toList = _
  unfold ergsConstant constLine
  simp only [String.toList_append]
  rw [show (toString v).toList = Nat.toDigits 10 v from Nat.toList_repr,
    show ";\n".toList = [';'] ++ ['\n'] by decide]
  simp only [List.append_assoc]

theorem text_comment (c : String) : (Item.comment c).text.toList = '\n' :: ("// ".toList ++ c.toList ++ ['\n']) := by
  show (PriceGenerator.comment c).toList = _
  unfold PriceGenerator.comment
  simp only [String.toList_append]
  rw [show "\n// ".toList = '\n' :: "// ".toList by decide, show "\n".toList = ['\n'] by decide]
  rfl

theorem plain_append {a b : List Char} (ha : ∀ c ∈ a, c.toNat < 128 ∧ c ≠ '\n')
    (hb : ∀ c ∈ b, c.toNat < 128 ∧ c ≠ '\n') : ∀ c ∈ a ++ b, c.toNat < 128 ∧ c ≠ '\n' := fun c hc =>
  (List.mem_append.1 hc).elim (ha c) (hb c)

theorem constLine_plain {n : String} {v : Nat} (h : itemOk (.const n v) = true) :
    ∀ c ∈ constLine n v, c.toNat < 128 ∧ c ≠ '\n' := by
  simp only [itemOk, Bool.and_eq_true] at h
  exact plain_append (by decide) (plain_append (fun c hc => nameChar_plain (List.all_eq_true.1 h.2 c hc))
    (plain_append (by decide) (plain_append (fun c hc => digit_plain hc) (by decide))))

theorem commentLine_plain {s : String} (h : itemOk (.comment s) = true) :
    ∀ c ∈ "// ".toList ++ s.toList, c.toNat < 128 ∧ c ≠ '\n' :=
  plain_append (by decide) fun c hc => by
    have := List.all_eq_true.1 h c hc
    simpa using this

theorem join_cons (a : String) (l : List String) : (String.join (a :: l)).toList = a.toList ++ (String.join l).toList := by
  have : ∀ (l : List String) (a b : String), l.foldl (fun r s => r ++ s) (a ++ b) = a ++ l.foldl (fun r s => r ++ s) b := by
    intro l
    induction l with
    | nil => exact fun _ _ => rfl
    | cons c l ih =>
      intro a b
      rw [List.foldl_cons, List.foldl_cons, String.append_assoc, ih]
  rw [← String.toList_append]
  congr 1
  show List.foldl (fun r s => r ++ s) ("" ++ a) l = a ++ List.foldl (fun r s => r ++ s) "" l
  rw [← this, String.append_empty, String.empty_append]

/-- the characters of the items -/
def chars (items : List Item) : List Char := (String.join (items.map Item.text)).toList

theorem chars_cons (i : Item) (items : List Item) : chars (i :: items) = i.text.toList ++ chars items := join_cons _ _

theorem chars_ascii (items : List Item) (h : ∀ i ∈ items, itemOk i = true) : ∀ c ∈ chars items, c.toNat < 128 := by
  induction items with
  | nil => intro c hc; simp [chars, String.join] at hc
  | cons i items ih =>
    intro c hc
    rw [chars_cons, List.mem_append] at hc
    rcases hc with hc | hc
    · have hi := h i List.mem_cons_self
      cases i with
      | const n v =>
        rw [text_const, List.mem_append] at hc
        rcases hc with hc | hc
        · exact (constLine_plain hi c hc).1
        · revert c; decide
      | comment s =>
        rw [text_comment, List.mem_cons, List.mem_append] at hc
        rcases hc with hc | hc | hc
        · rw [hc]; decide
        · exact (commentLine_plain hi c hc).1
        · revert c; decide
    · exact ih (fun j hj => h j (List.mem_cons_of_mem _ hj)) c hc

theorem readConstants_const {l : List Char} {ls : List (List Char)} {n : String} {v : Nat} {r : List (String × Nat)}
    (hl : readLine l = .constant n v) (hs : readConstants ls = some r) : readConstants (l :: ls) = some ((n, v) :: r) := by
  simp only [readConstants, hl, hs]

theorem readConstants_nothing {l : List Char} {ls : List (List Char)} {r : List (String × Nat)}
    (hl : readLine l = .nothing) (hs : readConstants ls = some r) : readConstants (l :: ls) = some r := by
  simp only [readConstants, hl, hs]

theorem readLine_constLine {n : String} {v : Nat} (h : itemOk (.const n v) = true) :
    readLine (constLine n v) = .constant n v := by
  simp only [itemOk, Bool.and_eq_true, decide_eq_true_eq] at h
  have := readLine_const n.toList v (by simpa using h.1) (fun c hc => List.all_eq_true.1 h.2 c hc)
  rw [String.ofList_toList] at this
  exact this

theorem chars_read (items : List Item) (h : ∀ i ∈ items, itemOk i = true) :
    readConstants (lines (chars items)) = some (consts items) := by
  induction items with
  | nil =>
    rw [show chars [] = [] by simp [chars, String.join]]
    rfl
  | cons i items ih =>
    have hi := h i List.mem_cons_self
    have ih := ih (fun j hj => h j (List.mem_cons_of_mem _ hj))
    rw [chars_cons]
    cases i with
    | const n v =>
      rw [text_const, List.append_assoc, List.singleton_append,
        lines_append _ _ (fun e => (constLine_plain hi _ e).2 rfl)]
      exact readConstants_const (readLine_constLine hi) ih
    | comment s =>
      rw [text_comment, List.cons_append, List.append_assoc, List.singleton_append]
      show readConstants (lines ([] ++ '\n' :: _)) = _
      rw [lines_append [] _ (by simp), lines_append _ _ (fun e => (commentLine_plain hi _ e).2 rfl)]
      exact readConstants_nothing rfl (readConstants_nothing (readLine_comment _) ih)

theorem ascii_back (l : List Char) (h : ∀ c ∈ l, c.toNat < 128) :
    (l.map fun c => BitVec.ofNat 8 c.toNat).map (fun b => Char.ofNat b.toNat) = l := by
  rw [List.map_map]
  conv => rhs; rw [← List.map_id l]
  apply List.map_congr_left
  intro c hc
  have := h c hc
  simp only [Function.comp_apply, BitVec.toNat_ofNat, id]
  rw [Nat.mod_eq_of_lt (by omega), Char.ofNat_toNat]

theorem text_read (items : List Item) (h : ∀ i ∈ items, itemOk i = true) :
    readPrices (asBytes ("// This file is auto-generated, do not edit it manually\n"
      ++ "// Any changes to this file require system upgrade!\n\n" ++ String.join (items.map Item.text)))
      = some (consts items) := by
  have e1 : "// This file is auto-generated, do not edit it manually\n".toList =
      "// ".toList ++ "This file is auto-generated, do not edit it manually".toList ++ ['\n'] := by decide
  have e2 : "// Any changes to this file require system upgrade!\n\n".toList =
      "// ".toList ++ "Any changes to this file require system upgrade!".toList ++ ['\n', '\n'] := by decide
  have hl : ("// This file is auto-generated, do not edit it manually\n"
      ++ "// Any changes to this file require system upgrade!\n\n" ++ String.join (items.map Item.text)).toList =
      ("// ".toList ++ "This file is auto-generated, do not edit it manually".toList) ++ '\n' ::
      (("// ".toList ++ "Any changes to this file require system upgrade!".toList) ++ '\n' :: ([] ++ '\n' :: chars items)) := by
    rw [String.toList_append, String.toList_append, e1, e2]
    simp only [List.append_assoc, List.cons_append, List.nil_append]
    rfl
  unfold readPrices asBytes
  rw [ascii_back, hl, lines_append _ _ (by decide), lines_append _ _ (by decide), lines_append _ _ (by decide),
    readConstants_nothing (readLine_comment _)
      (readConstants_nothing (readLine_comment _) (readConstants_nothing rfl (chars_read items h)))]
  · rw [hl]
    intro c hc
    rcases List.mem_append.1 hc with hc | hc
    · exact (by decide : ∀ c ∈ "// ".toList ++ "This file is auto-generated, do not edit it manually".toList, c.toNat < 128) c hc
    rcases List.mem_cons.1 hc with hc | hc
    · rw [hc]; decide
    rcases List.mem_append.1 hc with hc | hc
    · exact (by decide : ∀ c ∈ "// ".toList ++ "Any changes to this file require system upgrade!".toList, c.toNat < 128) c hc
    rcases List.mem_cons.1 hc with hc | hc
    · rw [hc]; decide
    rcases List.mem_cons.1 hc with hc | hc
    · rw [hc]; decide
    exact chars_ascii items h c hc

/-- the items of a run -/
def itemsOf (i r v1 v2 v3 v4 v5 v6 v7 v8 v9 v10 v11 v12 v13 v14 v15 : Nat) : List Item := [
  .const "VM_CYCLE_COST_IN_ERGS" v1, .const "RAM_PERMUTATION_COST_IN_ERGS" v2,
  .const "CODE_DECOMMITMENT_COST_PER_WORD_IN_ERGS" v3, .const "STORAGE_APPLICATION_COST_IN_ERGS" v4,
  .const "CODE_DECOMMITTER_SORTER_COST_IN_ERGS" v5, .const "LOG_DEMUXER_COST_IN_ERGS" v6,
  .const "STORAGE_SORTER_COST_IN_ERGS" v7, .const "EVENTS_OR_L1_MESSAGES_SORTER_COST_IN_ERGS" v8,
  .const "INITIAL_WRITES_PUBDATA_HASHER_COST_IN_ERGS" v9, .const "REPEATED_WRITES_PUBDATA_HASHER_COST_IN_ERGS" v10,
  .const "CODE_DECOMMITMENT_SORTER_COST_IN_ERGS" v11,
  .comment "The following circuits are single-instance and so the provided prices are just minimal prices to preserve DDoS safety",
  .const "L1_MESSAGE_MIN_COST_IN_ERGS" v12, .const "INITIAL_WRITES_PUBDATA_HASHER_MIN_COST_IN_ERGS" i,
  .const "REPEATED_WRITES_PUBDATA_HASHER_MIN_COST_IN_ERGS" r,
  .comment "Equals to max(INITIAL_WRITES_PUBDATA_HASHER_MIN_COST_IN_ERGS, REPEATED_WRITES_PUBDATA_HASHER_MIN_COST_IN_ERGS)",
  .const "STORAGE_WRITE_HASHER_MIN_COST_IN_ERGS" (max i r),
  .comment "The following constants should not be used in the VM directly, but only in Solidity wrappers",
  .const "KECCAK256_CIRCUIT_COST_IN_ERGS" v13, .const "SHA256_CIRCUIT_COST_IN_ERGS" v14,
  .const "ECRECOVER_CIRCUIT_COST_IN_ERGS" v15]

/-- the constants of a run -/
def constsOf (i r v1 v2 v3 v4 v5 v6 v7 v8 v9 v10 v11 v12 v13 v14 v15 : Nat) : List (String × Nat) := [
  ("VM_CYCLE_COST_IN_ERGS", v1), ("RAM_PERMUTATION_COST_IN_ERGS", v2),
  ("CODE_DECOMMITMENT_COST_PER_WORD_IN_ERGS", v3), ("STORAGE_APPLICATION_COST_IN_ERGS", v4),
  ("CODE_DECOMMITTER_SORTER_COST_IN_ERGS", v5), ("LOG_DEMUXER_COST_IN_ERGS", v6),
  ("STORAGE_SORTER_COST_IN_ERGS", v7), ("EVENTS_OR_L1_MESSAGES_SORTER_COST_IN_ERGS", v8),
  ("INITIAL_WRITES_PUBDATA_HASHER_COST_IN_ERGS", v9), ("REPEATED_WRITES_PUBDATA_HASHER_COST_IN_ERGS", v10),
  ("CODE_DECOMMITMENT_SORTER_COST_IN_ERGS", v11),
  ("L1_MESSAGE_MIN_COST_IN_ERGS", v12), ("INITIAL_WRITES_PUBDATA_HASHER_MIN_COST_IN_ERGS", i),
  ("REPEATED_WRITES_PUBDATA_HASHER_MIN_COST_IN_ERGS", r),
  ("STORAGE_WRITE_HASHER_MIN_COST_IN_ERGS", max i r),
  ("KECCAK256_CIRCUIT_COST_IN_ERGS", v13), ("SHA256_CIRCUIT_COST_IN_ERGS", v14),
  ("ECRECOVER_CIRCUIT_COST_IN_ERGS", v15)]

theorem itemsOf_ok (i r v1 v2 v3 v4 v5 v6 v7 v8 v9 v10 v11 v12 v13 v14 v15 : Nat) :
    ∀ x ∈ itemsOf i r v1 v2 v3 v4 v5 v6 v7 v8 v9 v10 v11 v12 v13 v14 v15, itemOk x = true := by
  rw [← List.all_eq_true]
  simp only [itemsOf, itemOk, List.all_cons, List.all_nil]
  decide +kernel

theorem consts_itemsOf (i r v1 v2 v3 v4 v5 v6 v7 v8 v9 v10 v11 v12 v13 v14 v15 : Nat) :
    consts (itemsOf i r v1 v2 v3 v4 v5 v6 v7 v8 v9 v10 v11 v12 v13 v14 v15) =
      constsOf i r v1 v2 v3 v4 v5 v6 v7 v8 v9 v10 v11 v12 v13 v14 v15 := rfl

theorem fileContent_ok {build : Build} {p : Params} {text : String} :
    fileContent build p = .ok text ↔ ∃ i r v1 v2 w v3 v4 v5 v6 v7 v8 v9 v10 v11 v12 v13 v14 v15,
      minPrice build p.maxPubdataPerBlock p.maxTxErgsLimit p.limitForInitialWritesPubdataHasher
        (p.initialStorageWritePubdataBytes % 2 ^ 32) = .ok i ∧
      minPrice build p.maxPubdataPerBlock p.maxTxErgsLimit p.limitForRepeatedWritesPubdataHasher
        (p.repeatedStorageWritePubdataBytes % 2 ^ 32) = .ok r ∧
      ceilDiv p.ergsPerCircuit p.cyclesPerVmSnapshot build = .ok v1 ∧
      ceilDiv p.ergsPerCircuit p.cyclesPerRamPermutation build = .ok v2 ∧
      mulU32 2 p.cyclesPerCodeDecommitter build = .ok w ∧
      ceilDiv p.ergsPerCircuit w build = .ok v3 ∧
      ceilDiv p.ergsPerCircuit p.cyclesPerStorageApplication build = .ok v4 ∧
      ceilDiv p.ergsPerCircuit p.cyclesForCodeDecommitterSorter build = .ok v5 ∧
      ceilDiv p.ergsPerCircuit p.cyclesForLogDemuxer build = .ok v6 ∧
      ceilDiv p.ergsPerCircuit p.cyclesForStorageSorter build = .ok v7 ∧
      ceilDiv p.ergsPerCircuit p.cyclesForEventsOrL1MessagesSorter build = .ok v8 ∧
      ceilDiv p.ergsPerCircuit p.limitForInitialWritesPubdataHasher build = .ok v9 ∧
      ceilDiv p.ergsPerCircuit p.limitForRepeatedWritesPubdataHasher build = .ok v10 ∧
      ceilDiv p.ergsPerCircuit p.cyclesForCodeDecommitterSorter build = .ok v11 ∧
      ceilDiv p.maxTxErgsLimit p.limitForL1MessagesMerklizer build = .ok v12 ∧
      ceilDiv p.ergsPerCircuit p.cyclesPerKeccak256Circuit build = .ok v13 ∧
      ceilDiv p.ergsPerCircuit p.cyclesPerSha256Circuit build = .ok v14 ∧
      ceilDiv p.ergsPerCircuit p.cyclesPerEcrecoverCircuit build = .ok v15 ∧
      "// This file is auto-generated, do not edit it manually\n"
        ++ "// Any changes to this file require system upgrade!\n\n"
        ++ String.join ((itemsOf i r v1 v2 v3 v4 v5 v6 v7 v8 v9 v10 v11 v12 v13 v14 v15).map Item.text) = text := by
  unfold fileContent circuitPrices
  simp only [bind_ok]
  constructor
  · rintro ⟨items, ⟨i, hi, r, hr, v1, h1, v2, h2, w, hw, v3, h3, v4, h4, v5, h5, v6, h6, v7, h7, v8, h8, v9, h9, v10, h10,
      v11, h11, v12, h12, v13, h13, v14, h14, v15, h15, he⟩, ht⟩
    cases he
    exact ⟨i, r, v1, v2, w, v3, v4, v5, v6, v7, v8, v9, v10, v11, v12, v13, v14, v15, hi, hr, h1, h2, hw, h3, h4, h5, h6,
      h7, h8, h9, h10, h11, h12, h13, h14, h15, Except.ok.inj ht⟩
  · rintro ⟨i, r, v1, v2, w, v3, v4, v5, v6, v7, v8, v9, v10, v11, v12, v13, v14, v15, hi, hr, h1, h2, hw, h3, h4, h5, h6,
      h7, h8, h9, h10, h11, h12, h13, h14, h15, ht⟩
    exact ⟨_, ⟨i, hi, r, hr, v1, h1, v2, h2, w, hw, v3, h3, v4, h4, v5, h5, v6, h6, v7, h7, v8, h8, v9, h9, v10, h10,
      v11, h11, v12, h12, v13, h13, v14, h14, v15, h15, rfl⟩, congrArg Except.ok ht⟩

theorem reads {text : String} {i r v1 v2 v3 v4 v5 v6 v7 v8 v9 v10 v11 v12 v13 v14 v15 : Nat}
    (h : "// This file is auto-generated, do not edit it manually\n"
        ++ "// Any changes to this file require system upgrade!\n\n"
        ++ String.join ((itemsOf i r v1 v2 v3 v4 v5 v6 v7 v8 v9 v10 v11 v12 v13 v14 v15).map Item.text) = text) :
    readPrices (asBytes text) = some (constsOf i r v1 v2 v3 v4 v5 v6 v7 v8 v9 v10 v11 v12 v13 v14 v15) := by
  rw [← h, text_read _ (itemsOf_ok i r v1 v2 v3 v4 v5 v6 v7 v8 v9 v10 v11 v12 v13 v14 v15), consts_itemsOf]

theorem ceil {a b q : Nat} (h : ceilDiv a b .debug = .ok q) : IsCeilDiv a b q := by
  obtain ⟨h1, _, h2⟩ := ceilDiv_ok.1 h
  rw [h2]
  exact isCeilDiv_div a b h1

theorem minimal {p : Params} {limit bytes q : Nat}
    (h : minPrice .debug p.maxPubdataPerBlock p.maxTxErgsLimit limit bytes = .ok q) : MinimalPrice p limit bytes q := by
  rcases (minPrice_ok.1 h).2 with ⟨h1, h2⟩ | ⟨h1, h2, _, h3⟩
  · exact ⟨fun _ => h2, fun h => absurd h1 (by omega)⟩
  · exact ⟨fun h => absurd h1 (by omega), fun _ => by rw [h3]; exact isCeilDiv_div _ _ h2⟩

end ZkEvm.GeneratorLemmas
