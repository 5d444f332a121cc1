import Verif.Model.FlagText
import Verif.Spec.FlagText
import Verif.Lemmas.Exceptions
/-! Lemmas about the texts of `FatPointerValidationException`. -/
namespace ZkEvm.FlagTextLemmas
open Spec FatPointerValidationException ExceptionLemmas

/-! ### White space -/

theorem isWhitespace_iff (c : Char) : isWhitespace c = true ↔ Blank c := by
  unfold isWhitespace Blank
  simp only [Bool.or_eq_true, Bool.and_eq_true, decide_eq_true_eq, beq_iff_eq, List.mem_cons, List.not_mem_nil, or_false]
  omega

theorem drop_blank {l : List Char} (h : AllBlank l) (t : List Char) :
    (l ++ t).dropWhile isWhitespace = t.dropWhile isWhitespace := by
  induction l with
  | nil => rfl
  | cons c l ih =>
    have hc := (isWhitespace_iff c).2 (h c List.mem_cons_self)
    rw [List.cons_append, List.dropWhile_cons, if_pos hc]
    exact ih fun x hx => h x (List.mem_cons_of_mem _ hx)

theorem drop_all {l : List Char} (h : AllBlank l) : l.dropWhile isWhitespace = [] := by
  have := drop_blank h []
  rwa [List.append_nil] at this

/-- No white space -/
def Solid (t : List Char) : Prop := ∀ c ∈ t, ¬ Blank c

theorem drop_solid {t : List Char} (h : Solid t) : ∀ r, t ≠ [] → (t ++ r).dropWhile isWhitespace = t ++ r := by
  intro r ht
  cases t with
  | nil => exact absurd rfl ht
  | cons c t =>
    rw [List.cons_append, List.dropWhile_cons, if_neg]
    exact fun hc => h c List.mem_cons_self ((isWhitespace_iff c).1 hc)

theorem AllBlank.reverse {l : List Char} (h : AllBlank l) : AllBlank l.reverse :=
  fun c hc => h c (List.mem_reverse.1 hc)

theorem trim_solid {l t r : List Char} (hl : AllBlank l) (ht : Solid t) (hr : AllBlank r) : trim (l ++ t ++ r) = t := by
  unfold trim
  rw [List.append_assoc, drop_blank hl]
  by_cases h : t = []
  · rw [h, List.nil_append, drop_all hr]
    rfl
  · rw [drop_solid ht r h, List.reverse_append, drop_blank (AllBlank.reverse hr)]
    have h' : t.reverse ≠ [] := fun h' => h (List.reverse_eq_nil_iff.1 h')
    have := drop_solid (t := t.reverse) (fun c hc => ht c (List.mem_reverse.1 hc)) [] h'
    rw [List.append_nil] at this
    rw [this, List.reverse_reverse]

theorem drop_split (t : List Char) : ∃ l, AllBlank l ∧ t = l ++ t.dropWhile isWhitespace := by
  induction t with
  | nil => exact ⟨[], (fun _ h => nomatch h), rfl⟩
  | cons c t ih =>
    by_cases hc : isWhitespace c = true
    · obtain ⟨l, hl, h⟩ := ih
      refine ⟨c :: l, fun x hx => ?_, ?_⟩
      · rcases List.mem_cons.1 hx with rfl | hx
        · exact (isWhitespace_iff _).1 hc
        · exact hl x hx
      · rw [List.dropWhile_cons, if_pos hc, List.cons_append, ← h]
    · exact ⟨[], (fun _ h => nomatch h), by rw [List.dropWhile_cons, if_neg hc]; rfl⟩

theorem trim_split (t : List Char) : ∃ l r, AllBlank l ∧ AllBlank r ∧ t = l ++ trim t ++ r := by
  obtain ⟨l, hl, h⟩ := drop_split t
  obtain ⟨r, hr, h'⟩ := drop_split (t.dropWhile isWhitespace).reverse
  refine ⟨l, r.reverse, hl, AllBlank.reverse hr, ?_⟩
  unfold trim
  rw [List.append_assoc, ← List.reverse_append, ← h', List.reverse_reverse]
  exact h

theorem trim_nil (t : List Char) : trim t = [] ↔ AllBlank t := by
  constructor
  · intro h
    obtain ⟨l, r, hl, hr, ht⟩ := trim_split t
    rw [h, List.append_nil] at ht
    rw [ht]
    intro c hc
    exact (List.mem_append.1 hc).elim (hl c) (hr c)
  · intro h
    have := trim_solid (l := t) (t := []) (r := []) h (fun _ h => nomatch h) (fun _ h => nomatch h)
    rwa [List.append_nil, List.append_nil] at this

theorem bar_not_blank : ¬ Blank '|' := by unfold Blank; decide

/-! ### Parts -/

theorem split_none : ∀ {p : List Char}, '|' ∉ p → splitBar p = [p]
  | [], _ => rfl
  | c :: p, h => by
    rw [splitBar, if_neg (show ¬ c = '|' from fun hc => h (by rw [hc]; exact List.mem_cons_self)), split_none (fun hp => h (List.mem_cons_of_mem _ hp))]

theorem split_bar : ∀ {p : List Char} (u : List Char), '|' ∉ p → splitBar (p ++ '|' :: u) = p :: splitBar u
  | [], u, _ => by rw [List.nil_append, splitBar, if_pos rfl]
  | c :: p, u, h => by
    rw [List.cons_append, splitBar, if_neg (show ¬ c = '|' from fun hc => h (by rw [hc]; exact List.mem_cons_self)),
      split_bar u (fun hp => h (List.mem_cons_of_mem _ hp))]

theorem bar_cases (t : List Char) : '|' ∉ t ∨ ∃ p u, '|' ∉ p ∧ t = p ++ '|' :: u := by
  induction t with
  | nil => exact .inl (fun h => nomatch h)
  | cons c t ih =>
    by_cases hc : c = '|'
    · exact .inr ⟨[], t, fun h => (nomatch h), by rw [hc]; rfl⟩
    · rcases ih with h | ⟨p, u, hp, h⟩
      · exact .inl fun hm => (List.mem_cons.1 hm).elim (fun h' => hc h'.symm) h
      · exact .inr ⟨c :: p, u, fun hm => (List.mem_cons.1 hm).elim (fun h' => hc h'.symm) hp, by rw [h]; rfl⟩

/-- What a parser of one part must be for the loop to be right -/
structure Reads (one : Text → Except ParseError FatPointerValidationException) (names : List Char → Nat → Prop) : Prop where
  iff : ∀ t e, one t = .ok e ↔ names t e.bits.toNat
  lt : ∀ t n, names t n → n < 2 ^ 64
  solid : ∀ t n, names t n → Solid t ∧ t ≠ [] ∧ '|' ∉ t

theorem blank_bar {l : List Char} (h : AllBlank l) : '|' ∉ l := fun hm => bar_not_blank (h _ hm)

theorem part_bar {l t r : List Char} (hl : AllBlank l) (ht : '|' ∉ t) (hr : AllBlank r) : '|' ∉ l ++ t ++ r := by
  intro h
  rcases List.mem_append.1 h with h | h
  · exact (List.mem_append.1 h).elim (blank_bar hl) ht
  · exact blank_bar hr h

theorem of_nat {n : Nat} (h : n < 2 ^ 64) : (FatPointerValidationException.mk (BitVec.ofNat 64 n)).bits.toNat = n := by
  show (BitVec.ofNat 64 n).toNat = n
  rw [BitVec.toNat_ofNat, Nat.mod_eq_of_lt h]

theorem eq_of_toNat {e f : FatPointerValidationException} (h : e.bits.toNat = f.bits.toNat) : e = f := by
  cases e; cases f
  exact congrArg _ (BitVec.eq_of_toNat_eq h)

theorem insert_toNat (e f : FatPointerValidationException) : (e.insert f).bits.toNat = e.bits.toNat ||| f.bits.toNat :=
  BitVec.toNat_or ..

section loop
variable {one : Text → Except ParseError FatPointerValidationException} {names : List Char → Nat → Prop}

theorem loop_sound (h : Reads one names) : ∀ k t acc e, t.length ≤ k → parseLoop one acc (splitBar t) = .ok e →
    ∃ n, IsUnion names t n ∧ e.bits.toNat = acc.bits.toNat ||| n := by
  intro k
  induction k with
  | zero =>
    intro t acc e hk he
    obtain rfl : t = [] := List.length_eq_zero_iff.1 (Nat.le_zero.1 hk)
    rw [show splitBar [] = [[]] from rfl, parseLoop] at he
    split at he
    · cases he
    · rename_i f hf
      rw [show trim [] = [] from rfl] at hf
      exact absurd rfl (h.solid _ _ ((h.iff _ _).1 hf)).2.1
  | succ k ih =>
    intro t acc e hk he
    rcases bar_cases t with hb | ⟨p, u, hp, rfl⟩
    · rw [split_none hb, parseLoop] at he
      split at he
      · cases he
      · rename_i f hf
        obtain ⟨l, r, hl, hr, ht⟩ := trim_split t
        refine ⟨f.bits.toNat, ?_, ?_⟩
        · rw [ht]
          exact .last hl ((h.iff _ _).1 hf) hr
        · rw [parseLoop] at he
          cases he
          exact insert_toNat ..
    · rw [split_bar u hp, parseLoop] at he
      split at he
      · cases he
      · rename_i f hf
        have hu : u.length ≤ k := by
          rw [List.length_append, List.length_cons] at hk
          omega
        obtain ⟨n, hn, hv⟩ := ih u _ e hu he
        obtain ⟨l, r, hl, hr, ht⟩ := trim_split p
        refine ⟨f.bits.toNat ||| n, ?_, ?_⟩
        · rw [ht]
          exact .cons hl ((h.iff _ _).1 hf) hr hn
        · rw [hv, insert_toNat, Nat.or_assoc]

theorem union_lt (h : Reads one names) {t n} (hu : IsUnion names t n) : n < 2 ^ 64 := by
  induction hu with
  | last _ ht _ => exact h.lt _ _ ht
  | cons _ ht _ _ ih => exact Nat.or_lt_two_pow (h.lt _ _ ht) ih

theorem one_ok (h : Reads one names) {t n} (ht : names t n) : one t = .ok ⟨BitVec.ofNat 64 n⟩ :=
  (h.iff _ _).2 (by rw [of_nat (h.lt _ _ ht)]; exact ht)

theorem loop_complete (h : Reads one names) {t n} (hu : IsUnion names t n) : ∀ acc, ∃ e,
    parseLoop one acc (splitBar t) = .ok e ∧ e.bits.toNat = acc.bits.toNat ||| n := by
  induction hu with
  | @last l t r n hl ht hr =>
    intro acc
    obtain ⟨hs, _, hb⟩ := h.solid _ _ ht
    refine ⟨acc.insert ⟨BitVec.ofNat 64 n⟩, ?_, by rw [insert_toNat, of_nat (h.lt _ _ ht)]⟩
    rw [split_none (part_bar hl hb hr), parseLoop, trim_solid hl hs hr, one_ok h ht]
    rfl
  | @cons l t r n u m hl ht hr _ ih =>
    intro acc
    obtain ⟨hs, _, hb⟩ := h.solid _ _ ht
    obtain ⟨e, he, hv⟩ := ih (acc.insert ⟨BitVec.ofNat 64 n⟩)
    refine ⟨e, ?_, by rw [hv, insert_toNat, of_nat (h.lt _ _ ht), Nat.or_assoc]⟩
    rw [split_bar u (part_bar hl hb hr), parseLoop, trim_solid hl hs hr, one_ok h ht]
    exact he

theorem union_not_blank (h : Reads one names) {t n} (hu : IsUnion names t n) : ¬ AllBlank t := by
  intro hb
  cases hu with
  | last hl ht hr =>
    obtain ⟨hs, hne, _⟩ := h.solid _ _ ht
    obtain ⟨c, hc⟩ := List.exists_mem_of_ne_nil _ hne
    exact hs c hc (hb c (List.mem_append_left _ (List.mem_append_right _ hc)))
  | cons hl ht hr _ =>
    obtain ⟨hs, hne, _⟩ := h.solid _ _ ht
    obtain ⟨c, hc⟩ := List.exists_mem_of_ne_nil _ hne
    exact hs c hc (hb c (List.mem_append_left _ (List.mem_append_left _ (List.mem_append_right _ hc))))

theorem parse_iff (h : Reads one names) (t : Text) (e : FatPointerValidationException) :
    (if (trim t).isEmpty then Except.ok empty else parseLoop one empty (splitBar t)) = .ok e ↔
      Describes names t e.bits.toNat := by
  by_cases hb : AllBlank t
  · rw [(trim_nil t).2 hb, List.isEmpty_nil, if_pos rfl]
    constructor
    · intro he
      cases he
      exact .inl ⟨hb, rfl⟩
    · rintro (⟨_, h0⟩ | hu)
      · exact congrArg _ (eq_of_toNat (by rw [h0]; rfl))
      · exact absurd hb (union_not_blank h hu)
  · rw [if_neg (fun he => hb ((trim_nil t).1 (List.isEmpty_iff.1 he)))]
    have h0 : ∀ n, empty.bits.toNat ||| n = n := fun n => Nat.zero_or n
    constructor
    · intro he
      obtain ⟨n, hu, hv⟩ := loop_sound h _ t _ e (Nat.le_refl _) he
      rw [h0] at hv
      rw [hv]
      exact .inr hu
    · rintro (⟨hb', _⟩ | hu)
      · exact absurd hb' hb
      · obtain ⟨e', he, hv⟩ := loop_complete h hu empty
        rw [h0] at hv
        rw [he, eq_of_toNat hv]

end loop

/-! ### Digits -/

theorem digit_small : ∀ n, n < 128 → ∀ d, d < 16 → (toDigit16 (Char.ofNat n) = some d ↔
    (lowerDigits[d]? = some (Char.ofNat n) ∨ upperDigits[d]? = some (Char.ofNat n))) := by decide +kernel

theorem digits_ascii : ∀ c ∈ lowerDigits ++ upperDigits, c.toNat < 128 := by decide

theorem isDigit_bounds {c : Char} {d : Nat} (h : IsDigit c d) : c.toNat < 128 ∧ d < 16 := by
  rcases h with h | h
  · exact ⟨digits_ascii c (List.mem_append_left _ (List.mem_of_getElem? h)), (List.getElem?_eq_some_iff.1 h).1⟩
  · exact ⟨digits_ascii c (List.mem_append_right _ (List.mem_of_getElem? h)), (List.getElem?_eq_some_iff.1 h).1⟩

theorem toDigit_bounds {c : Char} {d : Nat} (h : toDigit16 c = some d) : c.toNat < 128 ∧ d < 16 := by
  unfold toDigit16 at h
  dsimp only at h
  split at h
  · cases h; omega
  · split at h
    · cases h; omega
    · split at h
      · cases h; omega
      · cases h

theorem toDigit_iff (c : Char) (d : Nat) : toDigit16 c = some d ↔ IsDigit c d := by
  have key : c.toNat < 128 → d < 16 → (toDigit16 c = some d ↔ IsDigit c d) := by
    intro hc hd
    have := digit_small c.toNat hc d hd
    rwa [Char.ofNat_toNat] at this
  constructor
  · intro h
    exact (key (toDigit_bounds h).1 (toDigit_bounds h).2).1 h
  · intro h
    exact (key (isDigit_bounds h).1 (isDigit_bounds h).2).2 h

theorem digit_solid {c : Char} {d : Nat} (h : IsDigit c d) : ¬ Blank c ∧ c ≠ '|' ∧ c ≠ '+' := by
  have hall : ∀ c ∈ lowerDigits ++ upperDigits, ¬ c.toNat ∈ [0x9, 0xa, 0xb, 0xc, 0xd, 0x20, 0x85, 0xa0, 0x1680, 0x2000, 0x2001,
    0x2002, 0x2003, 0x2004, 0x2005, 0x2006, 0x2007, 0x2008, 0x2009, 0x200a, 0x2028, 0x2029, 0x202f, 0x205f, 0x3000] ∧
      c ≠ '|' ∧ c ≠ '+' := by decide +kernel
  rcases h with h | h
  · exact hall c (List.mem_append_left _ (List.mem_of_getElem? h))
  · exact hall c (List.mem_append_right _ (List.mem_of_getElem? h))

/-- The number of the digits after `acc`, of any size -/
def hexVal : Nat → List Char → Option Nat
  | acc, [] => some acc
  | acc, c :: t => match toDigit16 c with
    | none => none
    | some d => hexVal (acc * 16 + d) t

theorem hexVal_ge : ∀ t acc n, hexVal acc t = some n → acc ≤ n
  | [], acc, n, h => by cases h; exact Nat.le_refl _
  | c :: t, acc, n, h => by
    rw [hexVal] at h
    split at h
    · cases h
    · have := hexVal_ge t _ n h
      omega

theorem radix_iff : ∀ t acc n, acc < 2 ^ 64 → (radixLoop acc t = some n ↔ hexVal acc t = some n ∧ n < 2 ^ 64)
  | [], acc, n, ha => by
    rw [radixLoop, hexVal]
    constructor
    · intro h; cases h; exact ⟨rfl, ha⟩
    · exact fun h => h.1
  | c :: t, acc, n, ha => by
    rw [radixLoop, hexVal]
    cases hd : toDigit16 c with
    | none => exact ⟨fun h => (nomatch h), fun h => (nomatch h.1)⟩
    | some d =>
      dsimp only
      by_cases h2 : 2 ^ 64 ≤ acc * 16 + d
      · have hno : ¬ (hexVal (acc * 16 + d) t = some n ∧ n < 2 ^ 64) := by
          rintro ⟨h, hn⟩
          have := hexVal_ge t _ n h
          omega
        constructor
        · intro h
          split at h
          · cases h
          · first | (rw [if_pos h2] at h; cases h) | cases h
        · exact fun h => absurd h hno
      · rw [if_neg (by omega), if_neg h2]
        exact radix_iff t _ n (by omega)

theorem hexVal_append (t : List Char) (c : Char) : ∀ acc, hexVal acc (t ++ [c]) =
    (hexVal acc t).bind fun n => (toDigit16 c).map fun d => n * 16 + d := by
  induction t with
  | nil =>
    intro acc
    rw [List.nil_append, hexVal, hexVal]
    cases toDigit16 c <;> rfl
  | cons x t ih =>
    intro acc
    rw [List.cons_append, hexVal, hexVal]
    cases toDigit16 x with
    | none => rfl
    | some d => exact ih _

theorem hexVal_of_isHex {t : List Char} {n : Nat} (h : IsHex t n) : hexVal 0 t = some n := by
  induction h with
  | one hd =>
    rw [hexVal, (toDigit_iff _ _).2 hd]
    show hexVal (0 * 16 + _) [] = _
    rw [hexVal, Nat.zero_mul, Nat.zero_add]
  | more _ hd ih => rw [hexVal_append, ih, (toDigit_iff _ _).2 hd]; rfl

theorem isHex_extend : ∀ t {p acc n}, IsHex p acc → hexVal acc t = some n → IsHex (p ++ t) n
  | [], p, acc, n, hp, h => by cases h; rwa [List.append_nil]
  | c :: t, p, acc, n, hp, h => by
    rw [hexVal] at h
    split at h
    · cases h
    · rename_i d hd
      have := isHex_extend t (IsHex.more hp ((toDigit_iff _ _).1 hd)) h
      rwa [List.append_assoc] at this

theorem isHex_iff (t : List Char) (n : Nat) : IsHex t n ↔ t ≠ [] ∧ hexVal 0 t = some n := by
  constructor
  · intro h
    refine ⟨?_, hexVal_of_isHex h⟩
    cases h with
    | one => exact List.cons_ne_nil _ _
    | more => exact List.append_ne_nil_of_right_ne_nil _ (List.cons_ne_nil _ _)
  · rintro ⟨hne, h⟩
    cases t with
    | nil => exact absurd rfl hne
    | cons c t =>
      rw [hexVal] at h
      split at h
      · cases h
      · rename_i d hd
        rw [Nat.zero_mul, Nat.zero_add] at h
        exact isHex_extend t (.one ((toDigit_iff _ _).1 hd)) h

theorem isHex_plain {t : List Char} {n : Nat} (h : IsHex t n) : ∀ c ∈ t, ¬ Blank c ∧ c ≠ '|' ∧ c ≠ '+' := by
  induction h with
  | one hd =>
    intro c hc
    rw [List.mem_singleton.1 hc]
    exact digit_solid hd
  | more _ hd ih =>
    intro c hc
    rcases List.mem_append.1 hc with hc | hc
    · exact ih c hc
    · rw [List.mem_singleton.1 hc]
      exact digit_solid hd

theorem plus_not_digit : toDigit16 '+' = none := by decide

theorem parseHex_iff (t : Text) (n : Nat) : parseHex t = some n ↔
    (IsHex t n ∨ ∃ u, t = '+' :: u ∧ IsHex u n) ∧ n < 2 ^ 64 := by
  have hnone : ∀ u, ¬ IsHex ('+' :: u) n := fun u h => (isHex_plain h '+' List.mem_cons_self).2.2 rfl
  have h0 : (0 : Nat) < 2 ^ 64 := by decide
  unfold parseHex
  split
  · refine ⟨fun h => (nomatch h), ?_⟩
    rintro ⟨h | ⟨u, h, _⟩, _⟩
    · exact absurd rfl ((isHex_iff _ _).1 h).1
    · cases h
  · refine ⟨fun h => (nomatch h), ?_⟩
    rintro ⟨h | ⟨u, h, h'⟩, _⟩
    · exact absurd h (hnone _)
    · cases h
      exact absurd rfl ((isHex_iff _ _).1 h').1
  · rename_i u hu
    rw [radix_iff _ _ _ h0]
    have hne : u ≠ [] := fun h => hu (by rw [h])
    constructor
    · rintro ⟨h, hn⟩
      exact ⟨.inr ⟨u, rfl, (isHex_iff _ _).2 ⟨hne, h⟩⟩, hn⟩
    · rintro ⟨h | ⟨u', h, h'⟩, hn⟩
      · exact absurd h (hnone _)
      · cases h
        exact ⟨((isHex_iff _ _).1 h').2, hn⟩
  · rename_i u h1 h2 h3
    rw [radix_iff _ _ _ h0]
    constructor
    · rintro ⟨h, hn⟩
      exact ⟨.inl ((isHex_iff _ _).2 ⟨fun he => h1 he, h⟩), hn⟩
    · rintro ⟨h | ⟨u', h, h'⟩, hn⟩
      · exact ⟨((isHex_iff _ _).1 h).2, hn⟩
      · exact absurd h (h3 _)

/-! ### One part -/

theorem flag_toNat (q : Problem) : (flag q).bits.toNat = 2 ^ q.bit := by cases q <;> decide

theorem fromName_iff (t : List Char) (f : FatPointerValidationException) :
    fromName (String.ofList t) = some f ↔ ∃ q : Problem, t = q.name.toList ∧ f = flag q := by
  unfold fromName
  rw [FLAGS_eq]
  have hs : ∀ s : String, String.ofList t = s ↔ t = s.toList := by
    intro s
    constructor
    · rintro rfl; rw [String.toList_ofList]
    · rintro rfl; rw [String.ofList_toList]
  rw [List.lookup_cons, List.lookup_cons, List.lookup_nil]
  by_cases h0 : t = Problem.offsetNotZero.name.toList
  · rw [(hs _).2 h0]
    constructor
    · intro h
      rw [beq_self_eq_true] at h
      exact ⟨.offsetNotZero, h0, (Option.some.inj h).symm⟩
    · rintro ⟨q, hq, rfl⟩
      rw [beq_self_eq_true]
      cases q
      · rfl
      · exact absurd (h0.symm.trans hq) (by decide)
  · rw [beq_false_of_ne (fun h => h0 ((hs _).1 h))]
    by_cases h1 : t = Problem.beyondHeap.name.toList
    · rw [(hs _).2 h1, beq_self_eq_true]
      constructor
      · intro h
        exact ⟨.beyondHeap, h1, (Option.some.inj h).symm⟩
      · rintro ⟨q, hq, rfl⟩
        cases q
        · exact absurd hq h0
        · rfl
    · rw [beq_false_of_ne (fun h => h1 ((hs _).1 h))]
      constructor
      · intro h; cases h
      · rintro ⟨q, hq, rfl⟩
        cases q
        · exact absurd hq h0
        · exact absurd hq h1

theorem name_head (q : Problem) (u : List Char) : q.name.toList ≠ '0' :: u := by
  intro h
  have h' : q.name.toList.head? = some '0' := congrArg List.head? h
  revert h'
  cases q <;> decide

theorem name_ne (q : Problem) : q.name.toList ≠ [] := by cases q <;> decide

theorem name_solid (q : Problem) : Solid q.name.toList ∧ q.name.toList ≠ [] ∧ '|' ∉ q.name.toList := by
  refine ⟨?_, name_ne q, by cases q <;> decide⟩
  unfold Solid Blank
  cases q <;> decide +kernel

theorem reads_flag : Reads parseFlag NamesBits := by
  refine ⟨fun t e => ?_, fun t n h => ?_, fun t n h => ?_⟩
  · unfold parseFlag
    by_cases hn : t = []
    · rw [hn, List.isEmpty_nil, if_pos rfl]
      refine ⟨fun h => (nomatch h), fun h => ?_⟩
      generalize hx : e.bits.toNat = x at h
      generalize hy : ([] : List Char) = y at h
      cases h with
      | name q => exact absurd hy.symm (name_ne q)
      | hex => cases hy
      | hexPlus => cases hy
    · rw [if_neg (fun h => hn (List.isEmpty_iff.1 h))]
      split
      · rename_i hex
        have key : NamesBits ('0' :: 'x' :: hex) e.bits.toNat ↔ parseHex hex = some e.bits.toNat := by
          rw [parseHex_iff]
          constructor
          · intro h
            generalize hx : e.bits.toNat = x at h
            generalize hy : ('0' :: 'x' :: hex) = y at h
            cases h with
            | name q => exact absurd hy.symm (name_head q _)
            | hex h hlt => cases hy; exact ⟨.inl h, hlt⟩
            | hexPlus h hlt => cases hy; exact ⟨.inr ⟨_, rfl, h⟩, hlt⟩
          · rintro ⟨h | ⟨u, rfl, h⟩, hlt⟩
            · exact .hex h hlt
            · exact .hexPlus h hlt
        rw [key]
        cases hp : parseHex hex with
        | none => exact ⟨fun h => (nomatch h), fun h => (nomatch h)⟩
        | some n =>
          have hlt := ((parseHex_iff _ _).1 hp).2
          constructor
          · intro h
            cases h
            exact congrArg some (of_nat hlt).symm
          · intro h
            exact congrArg Except.ok (eq_of_toNat (by rw [← Option.some.inj h]; exact of_nat hlt))
      · rename_i hno
        have key : NamesBits t e.bits.toNat ↔ fromName (String.ofList t) = some e := by
          rw [fromName_iff]
          constructor
          · intro h
            generalize hx : e.bits.toNat = x at h
            cases h with
            | name q => exact ⟨q, rfl, eq_of_toNat (by rw [hx, flag_toNat])⟩
            | hex => exact absurd rfl (hno _)
            | hexPlus => exact absurd rfl (hno _)
          · rintro ⟨q, rfl, rfl⟩
            rw [flag_toNat]
            exact .name q
        rw [key]
        cases fromName (String.ofList t) with
        | none => exact ⟨fun h => (nomatch h), fun h => (nomatch h)⟩
        | some f => exact ⟨fun h => by cases h; rfl, fun h => by cases h; rfl⟩
  · cases h with
    | name q => cases q <;> decide
    | hex _ h => exact h
    | hexPlus _ h => exact h
  · have z : ¬ Blank '0' ∧ ¬ Blank 'x' ∧ ¬ Blank '+' := by unfold Blank; decide
    cases h with
    | name q => exact name_solid q
    | hex h _ =>
      refine ⟨fun c hc => ?_, List.cons_ne_nil _ _, fun hc => ?_⟩
      · rcases List.mem_cons.1 hc with rfl | hc
        · exact z.1
        · rcases List.mem_cons.1 hc with rfl | hc
          · exact z.2.1
          · exact (isHex_plain h c hc).1
      · rcases List.mem_cons.1 hc with hc | hc
        · revert hc; decide
        · rcases List.mem_cons.1 hc with hc | hc
          · revert hc; decide
          · exact (isHex_plain h _ hc).2.1 rfl
    | hexPlus h _ =>
      refine ⟨fun c hc => ?_, List.cons_ne_nil _ _, fun hc => ?_⟩
      · rcases List.mem_cons.1 hc with rfl | hc
        · exact z.1
        · rcases List.mem_cons.1 hc with rfl | hc
          · exact z.2.1
          · rcases List.mem_cons.1 hc with rfl | hc
            · exact z.2.2
            · exact (isHex_plain h c hc).1
      · rcases List.mem_cons.1 hc with hc | hc
        · revert hc; decide
        · rcases List.mem_cons.1 hc with hc | hc
          · revert hc; decide
          · rcases List.mem_cons.1 hc with hc | hc
            · revert hc; decide
            · exact (isHex_plain h _ hc).2.1 rfl

theorem reads_strict : Reads parseFlagStrict NamesProblem := by
  refine ⟨fun t e => ?_, fun t n h => ?_, fun t n h => ?_⟩
  · unfold parseFlagStrict
    have key : NamesProblem t e.bits.toNat ↔ fromName (String.ofList t) = some e := by
      rw [fromName_iff]
      constructor
      · intro h
        generalize hx : e.bits.toNat = x at h
        cases h with
        | name q => exact ⟨q, rfl, eq_of_toNat (by rw [hx, flag_toNat])⟩
      · rintro ⟨q, rfl, rfl⟩
        rw [flag_toNat]
        exact .name q
    by_cases hn : t = []
    · rw [hn, List.isEmpty_nil, if_pos rfl]
      rw [hn] at key
      refine ⟨fun h => (nomatch h), fun h => ?_⟩
      obtain ⟨q, hq, _⟩ := (fromName_iff _ _).1 (key.1 h)
      exact absurd hq.symm (name_ne q)
    · rw [if_neg (fun h => hn (List.isEmpty_iff.1 h)), key]
      split
      · refine ⟨fun h => (nomatch h), fun h => ?_⟩
        obtain ⟨q, hq, _⟩ := (fromName_iff _ _).1 h
        exact absurd hq.symm (name_head q _)
      · cases fromName (String.ofList t) with
        | none => exact ⟨fun h => (nomatch h), fun h => (nomatch h)⟩
        | some f => exact ⟨fun h => by cases h; rfl, fun h => by cases h; rfl⟩
  · cases h with
    | name q => cases q <;> decide
  · cases h with
    | name q => exact name_solid q

/-! ### Faults -/

theorem drop_head (t : List Char) : ∀ c, (t.dropWhile isWhitespace).head? = some c → ¬ Blank c := by
  induction t with
  | nil => intro c h; cases h
  | cons x t ih =>
    rw [List.dropWhile_cons]
    split
    · exact ih
    · rename_i hx
      intro c h
      cases h
      exact fun hb => hx ((isWhitespace_iff _).2 hb)

theorem drop_fixed {t : List Char} (h : ∀ c, t.head? = some c → ¬ Blank c) : t.dropWhile isWhitespace = t := by
  cases t with
  | nil => rfl
  | cons c t => rw [List.dropWhile_cons, if_neg (fun hc => h c rfl ((isWhitespace_iff c).1 hc))]

theorem drop_suffix (t : List Char) : ∀ c, t.getLast? = some c → ¬ Blank c → (t.dropWhile isWhitespace).getLast? = some c := by
  obtain ⟨l, hl, h⟩ := drop_split t
  intro c hc hb
  generalize hd : t.dropWhile isWhitespace = d at h
  rw [h, List.getLast?_append] at hc
  cases hg : d.getLast? with
  | some x => rw [hg] at hc; exact hc
  | none =>
    rw [hg] at hc
    exact absurd (hl c (List.mem_of_getLast? hc)) hb

theorem trim_trimmed (t : List Char) : Trimmed (trim t) := by
  have hlast : ∀ c, (trim t).getLast? = some c → ¬ Blank c := by
    intro c hc
    unfold trim at hc
    rw [List.getLast?_reverse] at hc
    exact drop_head _ c hc
  refine ⟨fun c hc => ?_, hlast⟩
  unfold trim at hc
  rw [List.head?_reverse] at hc
  generalize hx : t.dropWhile isWhitespace = x at hc
  have hh : ∀ c, x.head? = some c → ¬ Blank c := by
    rw [← hx]
    exact drop_head t
  -- the last character of `x.reverse` is the first of `x`
  cases x with
  | nil => cases hc
  | cons y ys =>
    have hy := hh y rfl
    have := drop_suffix (y :: ys).reverse y (by rw [List.getLast?_reverse]; rfl) hy
    rw [this] at hc
    cases hc
    exact hy

theorem trim_eq {l t r : List Char} (hl : AllBlank l) (ht : Trimmed t) (hr : AllBlank r) : trim (l ++ t ++ r) = t := by
  by_cases hn : t = []
  · rw [hn]
    exact trim_solid hl (fun _ h => nomatch h) hr
  · have h1 : (t ++ r).dropWhile isWhitespace = t ++ r := by
      refine drop_fixed fun c hc => ht.1 c ?_
      cases t with
      | nil => exact absurd rfl hn
      | cons x t => exact hc
    unfold trim
    rw [List.append_assoc, drop_blank hl, h1, List.reverse_append, drop_blank (AllBlank.reverse hr), drop_fixed,
      List.reverse_reverse]
    intro c hc
    rw [List.head?_reverse] at hc
    exact ht.2 c hc

/-- The kind of error of a fault -/
def errorOf : Fault → ParseError
  | .empty => .emptyFlag
  | .name => .invalidNamedFlag
  | .number => .invalidHexFlag

open Classical in
/-- What a parser of one part must do with the parts that it does not accept -/
def Faults (one : Text → Except ParseError FatPointerValidationException) : Prop :=
  ∀ t e, one t = .error e → e = if t = [] then .emptyFlag else if ∃ u, t = '0' :: 'x' :: u then .invalidHexFlag else .invalidNamedFlag

theorem faults_flag : Faults parseFlag := by
  intro t e h
  unfold parseFlag at h
  split at h
  · rename_i hn
    rw [if_pos (List.isEmpty_iff.1 hn)]
    cases h; rfl
  · rename_i hn
    rw [if_neg (fun h' => hn (List.isEmpty_iff.2 h'))]
    split at h
    · rw [if_pos ⟨_, rfl⟩]
      split at h
      · cases h
      · cases h; rfl
    · rename_i hno
      rw [if_neg (fun ⟨u, hu⟩ => hno u hu)]
      split at h
      · cases h
      · cases h; rfl

theorem faults_strict : Faults parseFlagStrict := by
  intro t e h
  unfold parseFlagStrict at h
  split at h
  · rename_i hn
    rw [if_pos (List.isEmpty_iff.1 hn)]
    cases h; rfl
  · rename_i hn
    rw [if_neg (fun h' => hn (List.isEmpty_iff.2 h'))]
    split at h
    · rw [if_pos ⟨_, rfl⟩]
      cases h; rfl
    · rename_i hno
      rw [if_neg (fun ⟨u, hu⟩ => hno u hu)]
      split at h
      · cases h
      · cases h; rfl

section faults
variable {one : Text → Except ParseError FatPointerValidationException} {names : List Char → Nat → Prop}

theorem part_bad (h : Reads one names) (hf : Faults one) (p : Text) (k : Fault) :
    one (trim p) = .error (errorOf k) ↔ BadPart names p k := by
  have hno : ∀ e t, one t = .error e → ∀ n, ¬ names t n := by
    intro e t he n hn
    rw [one_ok h hn] at he
    cases he
  have hyes : ∀ t, (∀ n, ¬ names t n) → ∃ e, one t = .error e := by
    intro t hn
    cases ho : one t with
    | error e => exact ⟨e, rfl⟩
    | ok e => exact absurd ((h.iff _ _).1 ho) (hn _)
  constructor
  · intro he
    have hk := hf _ _ he
    obtain ⟨l, r, hl, hr, ht⟩ := trim_split p
    have htr := trim_trimmed p
    generalize trim p = t at he hk ht htr
    by_cases h0 : t = []
    · rw [if_pos h0] at hk
      have : k = .empty := by
        revert hk
        cases k <;> decide
      rw [this]
      refine .empty ?_
      rw [ht, h0, List.append_nil]
      exact fun c hc => (List.mem_append.1 hc).elim (hl c) (hr c)
    · rw [if_neg h0] at hk
      by_cases hx : ∃ u, t = '0' :: 'x' :: u
      · rw [if_pos hx] at hk
        have : k = .number := by
          revert hk
          cases k <;> decide
        obtain ⟨u, rfl⟩ := hx
        rw [this, ht]
        exact .number hl htr hr (hno _ _ he)
      · rw [if_neg hx] at hk
        have : k = .name := by
          revert hk
          cases k <;> decide
        rw [this, ht]
        exact .name hl htr hr h0 (fun u hu => hx ⟨u, hu⟩) (hno _ _ he)
  · intro hb
    cases hb with
    | empty hp =>
      rw [(trim_nil p).2 hp]
      obtain ⟨e, he⟩ := hyes [] (fun n hn => absurd rfl (h.solid _ _ hn).2.1)
      have := hf _ _ he
      rw [if_pos rfl] at this
      rw [he, this]; rfl
    | @number l t r hl ht hr hn =>
      rw [trim_eq hl ht hr]
      obtain ⟨e, he⟩ := hyes _ hn
      have := hf _ _ he
      rw [if_neg (List.cons_ne_nil _ _), if_pos ⟨_, rfl⟩] at this
      rw [he, this]; rfl
    | name hl ht hr h0 hx hn =>
      rw [trim_eq hl ht hr]
      obtain ⟨e, he⟩ := hyes _ hn
      have := hf _ _ he
      rw [if_neg h0, if_neg (fun ⟨u, hu⟩ => hx u hu)] at this
      rw [he, this]; rfl

theorem errorOf_surj (e : ParseError) : ∃ k, e = errorOf k := by
  cases e
  · exact ⟨.empty, rfl⟩
  · exact ⟨.name, rfl⟩
  · exact ⟨.number, rfl⟩

theorem loop_fault_sound (h : Reads one names) (hf : Faults one) : ∀ m t acc k, t.length ≤ m →
    parseLoop one acc (splitBar t) = .error (errorOf k) → FirstFault names t k := by
  intro m
  induction m with
  | zero =>
    intro t acc k hm he
    obtain rfl : t = [] := List.length_eq_zero_iff.1 (Nat.le_zero.1 hm)
    rw [show splitBar [] = [[]] from rfl, parseLoop] at he
    split at he
    · rename_i e ho
      cases he
      exact .last (fun h => nomatch h) ((part_bad h hf [] k).1 ho)
    · cases he
  | succ m ih =>
    intro t acc k hm he
    rcases bar_cases t with hb | ⟨p, u, hp, rfl⟩
    · rw [split_none hb, parseLoop] at he
      split at he
      · rename_i e ho
        cases he
        exact .last hb ((part_bad h hf t k).1 ho)
      · cases he
    · rw [split_bar u hp, parseLoop] at he
      split at he
      · rename_i e ho
        cases he
        exact .here hp ((part_bad h hf p k).1 ho)
      · rename_i f ho
        have hu : u.length ≤ m := by
          rw [List.length_append, List.length_cons] at hm
          omega
        obtain ⟨l, r, hl, hr, ht⟩ := trim_split p
        have := FirstFault.later hl ((h.iff _ _).1 ho) hr (ih u _ k hu he)
        rw [← ht] at this
        exact this

theorem loop_fault_complete (h : Reads one names) (hf : Faults one) {t k} (hu : FirstFault names t k) : ∀ acc,
    parseLoop one acc (splitBar t) = .error (errorOf k) := by
  induction hu with
  | last hp hb =>
    intro acc
    rw [split_none hp, parseLoop, (part_bad h hf _ _).2 hb]
  | here hp hb =>
    intro acc
    rw [split_bar _ hp, parseLoop, (part_bad h hf _ _).2 hb]
  | later hl ht hr _ ih =>
    intro acc
    obtain ⟨hs, _, hb⟩ := h.solid _ _ ht
    rw [split_bar _ (part_bar hl hb hr), parseLoop, trim_solid hl hs hr, one_ok h ht]
    exact ih _

theorem parse_fault (h : Reads one names) (hf : Faults one) (t : Text) (k : Fault) :
    (if (trim t).isEmpty then Except.ok empty else parseLoop one empty (splitBar t)) = .error (errorOf k) ↔
      ¬ AllBlank t ∧ FirstFault names t k := by
  by_cases hb : AllBlank t
  · rw [(trim_nil t).2 hb, List.isEmpty_nil, if_pos rfl]
    exact ⟨fun h => (nomatch h), fun h => absurd hb h.1⟩
  · rw [if_neg (fun he => hb ((trim_nil t).1 (List.isEmpty_iff.1 he)))]
    exact ⟨fun he => ⟨hb, loop_fault_sound h hf _ t _ k (Nat.le_refl _) he⟩, fun hu => loop_fault_complete h hf hu.2 _⟩

end faults

/-! ### Writing -/

theorem union_space {names : List Char → Nat → Prop} {t : List Char} {n : Nat} (h : IsUnion names t n) :
    IsUnion names (' ' :: t) n := by
  have hb : ∀ {l}, AllBlank l → AllBlank (' ' :: l) := by
    intro l hl c hc
    rcases List.mem_cons.1 hc with rfl | hc
    · unfold Blank; decide
    · exact hl c hc
  cases h with
  | last hl ht hr => exact .last (hb hl) ht hr
  | cons hl ht hr hu => exact .cons (hb hl) ht hr hu

theorem union_write {names : List Char → Nat → Prop} : ∀ (p : Text × Nat) (ps : List (Text × Nat)),
    (∀ x ∈ p :: ps, names x.1 x.2) →
    IsUnion names (writeParts true ((p :: ps).map Prod.fst)) ((p :: ps).foldr (fun x n => x.2 ||| n) 0)
  | p, [], h => by
    have := IsUnion.last (one := names) (l := []) (r := []) (fun _ h => nomatch h) (h p List.mem_cons_self) (fun _ h => nomatch h)
    rw [List.nil_append, List.append_nil] at this
    show IsUnion names ([] ++ p.1 ++ []) (p.2 ||| 0)
    rwa [List.nil_append, List.append_nil, Nat.or_zero]
  | p, q :: ps, h => by
    have ih := union_space (union_write q ps fun x hx => h x (List.mem_cons_of_mem _ hx))
    have := IsUnion.cons (one := names) (l := []) (r := [' ']) (fun _ h => nomatch h) (h p List.mem_cons_self)
      (fun c hc => by rw [List.mem_singleton.1 hc]; unfold Blank; decide) ih
    have ht : writeParts true ((p :: q :: ps).map Prod.fst) =
        [] ++ p.1 ++ [' '] ++ '|' :: (' ' :: writeParts true ((q :: ps).map Prod.fst)) := by
      show [] ++ p.1 ++ (" | ".toList ++ q.1 ++ writeParts false (ps.map Prod.fst)) =
        [] ++ p.1 ++ [' '] ++ '|' :: (' ' :: ([] ++ q.1 ++ writeParts false (ps.map Prod.fst)))
      rw [show " | ".toList = [' ', '|', ' '] from rfl]
      simp
    rw [ht]
    exact this

theorem digitChar_isDigit : ∀ d, d < 16 → lowerDigits[d]? = some (digitChar d) := by decide
theorem digitCharUpper_isDigit : ∀ d, d < 16 → upperDigits[d]? = some (digitCharUpper d) := by decide

theorem isHex_digits (f : Nat → Char) (hf : ∀ d, d < 16 → IsDigit (f d) d) : ∀ fuel n, n < 16 ^ fuel → 0 < fuel →
    IsHex (((digitsRev 16 fuel n).reverse).map f) n
  | 0, _, _, h => absurd h (Nat.lt_irrefl 0)
  | fuel + 1, n, hn, _ => by
    rw [digitsRev]
    split
    · rename_i h
      exact .one (hf n h)
    · rename_i h
      have h16 : n / 16 < 16 ^ fuel := by
        rw [Nat.pow_succ, Nat.mul_comm] at hn
        exact Nat.div_lt_of_lt_mul hn
      have hfuel : 0 < fuel := by
        rcases fuel with _ | fuel
        · simp at hn; omega
        · exact Nat.succ_pos _
      have ih := isHex_digits f hf fuel (n / 16) h16 hfuel
      have := IsHex.more ih (hf (n % 16) (Nat.mod_lt _ (by decide)))
      rw [List.reverse_cons, List.map_append]
      have hv : n / 16 * 16 + n % 16 = n := by omega
      rw [hv] at this
      exact this

/-- The parts that the writer writes, with their bits -/
def writtenNames (e : FatPointerValidationException) : List (Text × Nat) :=
  (if e.bits.getLsbD 0 then [(Problem.offsetNotZero.name.toList, 1)] else []) ++
  (if e.bits.getLsbD 1 then [(Problem.beyondHeap.name.toList, 2)] else [])

theorem iterNames_text (e : FatPointerValidationException) :
    (iterLoop e FLAGS e).1.map (fun f => f.1.toList) = (writtenNames e).map Prod.fst := by
  rw [(iterLoop_eq e).1]
  unfold writtenNames
  cases e.bits.getLsbD 0 <;> cases e.bits.getLsbD 1 <;> rfl

theorem writtenNames_problem (e : FatPointerValidationException) : ∀ x ∈ writtenNames e, NamesProblem x.1 x.2 := by
  intro x hx
  unfold writtenNames at hx
  rcases List.mem_append.1 hx with hx | hx
  · split at hx
    · rw [List.mem_singleton.1 hx]; exact .name .offsetNotZero
    · cases hx
  · split at hx
    · rw [List.mem_singleton.1 hx]; exact .name .beyondHeap
    · cases hx

theorem or_foldr (l : List (Text × Nat)) (k : Nat) :
    l.foldr (fun (x : Text × Nat) n => x.2 ||| n) k = l.foldr (fun x n => x.2 ||| n) 0 ||| k := by
  induction l with
  | nil => rw [List.foldr_nil, List.foldr_nil, Nat.zero_or]
  | cons x l ih => rw [List.foldr_cons, List.foldr_cons, ih, Nat.or_assoc]

theorem writtenNames_bits (e : FatPointerValidationException) (i : Nat) :
    ((writtenNames e).foldr (fun (x : Text × Nat) n => x.2 ||| n) 0).testBit i = (e.bits.getLsbD i && decide (i < 2)) := by
  unfold writtenNames
  rcases i with _ | _ | i
  · cases e.bits.getLsbD 0 <;> cases e.bits.getLsbD 1 <;> decide
  · cases e.bits.getLsbD 0 <;> cases e.bits.getLsbD (0 + 1) <;> decide
  · have hlt : ((if e.bits.getLsbD 0 then [(Problem.offsetNotZero.name.toList, 1)] else []) ++
        (if e.bits.getLsbD 1 then [(Problem.beyondHeap.name.toList, 2)] else [])).foldr
          (fun (x : Text × Nat) n => x.2 ||| n) 0 < 2 ^ 2 := by
      cases e.bits.getLsbD 0 <;> cases e.bits.getLsbD 1 <;> decide
    rw [Nat.testBit_lt_two_pow (Nat.lt_of_lt_of_le hlt (Nat.pow_le_pow_right (n := 2) (by decide) (Nat.le_add_left 2 i)))]
    have : ¬ i + 1 + 1 < 2 := by omega
    rw [decide_eq_false this, Bool.and_false]

theorem describes_write {names : List Char → Nat → Prop} (ps : List (Text × Nat)) (h : ∀ x ∈ ps, names x.1 x.2) :
    Describes names (writeParts true (ps.map Prod.fst)) (ps.foldr (fun x n => x.2 ||| n) 0) := by
  cases ps with
  | nil => exact .inl ⟨fun _ h => (nomatch h), rfl⟩
  | cons p ps => exact .inr (union_write p ps h)

theorem strict_describes (e : FatPointerValidationException) :
    Describes NamesProblem (toWriterStrict e) (fromBitsTruncate e.bits).bits.toNat := by
  have h := describes_write (writtenNames e) (writtenNames_problem e)
  rw [← iterNames_text] at h
  have hv : (writtenNames e).foldr (fun x n => x.2 ||| n) 0 = (fromBitsTruncate e.bits).bits.toNat := by
    refine Nat.eq_of_testBit_eq fun i => ?_
    rw [writtenNames_bits]
    exact (truncate_bit e.bits i).symm
  rw [hv] at h
  exact h

theorem writer_describes (e : FatPointerValidationException) : Describes NamesBits (toWriter e) e.bits.toNat := by
  have hr := (iterLoop_eq e).2
  have hn : ∀ x ∈ writtenNames e, NamesBits x.1 x.2 := by
    intro x hx
    have h := writtenNames_problem e x hx
    generalize x.1 = t, x.2 = n at h
    cases h with
    | name q => exact .name q
  unfold toWriter
  dsimp only
  rw [iterNames_text]
  generalize (iterLoop e FLAGS e).2 = rest at hr
  by_cases h0 : rest.bits = 0#64
  · rw [h0]
    have h := describes_write _ hn
    have hv : (writtenNames e).foldr (fun x n => x.2 ||| n) 0 = e.bits.toNat := by
      refine Nat.eq_of_testBit_eq fun i => ?_
      rw [writtenNames_bits]
      have := hr i
      rw [h0] at this
      by_cases hi : i < 2
      · simp [hi, BitVec.getLsbD]
      · have h2 : 2 ≤ i := by omega
        simp only [BitVec.getLsbD_zero, h2, decide_true, Bool.and_true] at this
        rw [← this, Bool.false_and]
        exact this
    rw [hv] at h
    show Describes NamesBits (writeParts true ((writtenNames e).map Prod.fst ++ [])) _
    rw [List.append_nil]
    exact h
  · have hb : (rest.bits != 0#64) = true := bne_iff_ne.2 h0
    rw [if_pos hb]
    have hlt : rest.bits.toNat < 2 ^ 64 := rest.bits.isLt
    have hx : NamesBits ("0x".toList ++ fmtHexDigits rest.bits.toNat) rest.bits.toNat :=
      .hex (isHex_digits digitChar (fun d hd => .inl (digitChar_isDigit d hd)) 32 _ (Nat.lt_trans hlt (by decide)) (by decide)) hlt
    have h := describes_write (writtenNames e ++ [("0x".toList ++ fmtHexDigits rest.bits.toNat, rest.bits.toNat)]) (by
      intro x hx'
      rcases List.mem_append.1 hx' with hx' | hx'
      · exact hn x hx'
      · rw [List.mem_singleton.1 hx']; exact hx)
    have hv : (writtenNames e ++ [("0x".toList ++ fmtHexDigits rest.bits.toNat, rest.bits.toNat)]).foldr
        (fun x n => x.2 ||| n) 0 = e.bits.toNat := by
      rw [List.foldr_append, or_foldr]
      show _ ||| (rest.bits.toNat ||| 0) = _
      rw [Nat.or_zero]
      refine Nat.eq_of_testBit_eq fun i => ?_
      rw [Nat.testBit_or, writtenNames_bits]
      have := hr i
      unfold BitVec.getLsbD at this ⊢
      rw [this]
      by_cases hi : i < 2
      · have : ¬ 2 ≤ i := by omega
        simp [hi, this]
      · have h2 : 2 ≤ i := by omega
        simp [hi, h2]
    rw [hv, List.map_append] at h
    exact h

end ZkEvm.FlagTextLemmas
