import Verif.Lemmas.FlagText
import Verif.Lemmas.Display
import Verif.Props.Exceptions
/-! C124: texts of validation results. Grammar in `Verif/Spec/FlagText.lean`. -/
namespace ZkEvm.Props
open Spec FlagTextLemmas ExceptionLemmas FatPointerValidationException

/-! ## C124 -/

private theorem truncate_mod (e : FatPointerValidationException) : (fromBitsTruncate e.bits).bits.toNat = e.bits.toNat % 4 := by
  refine Nat.eq_of_testBit_eq fun i => ?_
  rw [show (4 : Nat) = 2 ^ 2 from rfl, Nat.testBit_mod_two_pow, Bool.and_comm]
  exact truncate_bit e.bits i

/-- C124: the parsers accept exactly the texts of the grammar, and return the set of bits that the text describes; the
truncating one drops what is not declared, the strict one accepts names only. No text describes two sets. -/
theorem C124_read (t : List Char) (e : FatPointerValidationException) :
    (fromStr t = .ok e ↔ Describes NamesBits t e.bits.toNat) ∧
    (fromStrTruncate t = .ok e ↔ ∃ n, Describes NamesBits t n ∧ e.bits.toNat = n % 4) ∧
    (fromStrStrict t = .ok e ↔ Describes NamesProblem t e.bits.toNat) ∧
    (∀ n m, Describes NamesBits t n → Describes NamesBits t m → n = m) ∧
    (∀ n, Describes NamesBits t n → n < 2 ^ 64) ∧ (∀ n, Describes NamesProblem t n → n < 4) := by
  have hlt : ∀ n, Describes NamesBits t n → n < 2 ^ 64 := by
    rintro n (⟨_, h⟩ | h)
    · rw [h]; decide
    · exact union_lt reads_flag h
  have hof : ∀ n, Describes NamesBits t n → fromStr t = .ok ⟨BitVec.ofNat 64 n⟩ := by
    intro n h
    refine (parse_iff reads_flag t _).2 ?_
    rw [of_nat (hlt n h)]
    exact h
  refine ⟨parse_iff reads_flag t e, ?_, parse_iff reads_strict t e, fun n m hn hm => ?_, hlt, ?_⟩
  · unfold fromStrTruncate
    constructor
    · intro h
      split at h
      · rename_i f hf
        cases h
        exact ⟨_, (parse_iff reads_flag t f).1 hf, truncate_mod f⟩
      · cases h
    · rintro ⟨n, hn, he⟩
      rw [hof n hn]
      refine congrArg Except.ok (eq_of_toNat ?_)
      show (fromBitsTruncate (FatPointerValidationException.mk (BitVec.ofNat 64 n)).bits).bits.toNat = _
      rw [truncate_mod, of_nat (hlt n hn), he]
  · have h := (hof n hn).symm.trans (hof m hm)
    have h' : BitVec.ofNat 64 n = BitVec.ofNat 64 m := congrArg FatPointerValidationException.bits (Except.ok.inj h)
    have h'' := congrArg BitVec.toNat h'
    rwa [BitVec.toNat_ofNat, BitVec.toNat_ofNat, Nat.mod_eq_of_lt (hlt n hn), Nat.mod_eq_of_lt (hlt m hm)] at h''
  · rintro n (⟨_, h⟩ | h)
    · rw [h]; decide
    · have one : ∀ {t n}, NamesProblem t n → n < 2 ^ 2 := by
        rintro _ _ ⟨q⟩
        cases q <;> decide
      show n < 2 ^ 2
      clear hlt hof
      induction h with
      | last _ ht _ => exact one ht
      | cons _ ht _ _ ih => exact Nat.or_lt_two_pow (one ht) ih

-- A text with white space, a repeated name and a number is accepted; one with an empty part or an overflow is not.
example : fromStr " DEREF_BEYOND_HEAP_RANGE|0x1F |\tDEREF_BEYOND_HEAP_RANGE ".toList = .ok ⟨31⟩ ∧
    fromStrTruncate "0x1F".toList = .ok ⟨3⟩ ∧ fromStrStrict "0x1F".toList = .error .invalidHexFlag ∧
    fromStr "0x1||0x2".toList = .error .emptyFlag ∧ fromStr "0x10000000000000000".toList = .error .invalidHexFlag ∧
    fromStr "deref_beyond_heap_range".toList = .error .invalidNamedFlag := by
  refine ⟨?_, ?_, ?_, ?_, ?_, ?_⟩ <;> rfl

/-- C124: every other text is refused, with an error that says what is wrong with the first part that cannot be read. -/
theorem C124_refused (t : List Char) (k : Fault) (error : ParseError)
    (hk : error = match k with | .empty => .emptyFlag | .name => .invalidNamedFlag | .number => .invalidHexFlag) :
    (fromStr t = .error error ↔ ¬ AllBlank t ∧ FirstFault NamesBits t k) ∧
    (fromStrTruncate t = .error error ↔ ¬ AllBlank t ∧ FirstFault NamesBits t k) ∧
    (fromStrStrict t = .error error ↔ ¬ AllBlank t ∧ FirstFault NamesProblem t k) := by
  have hk' : error = errorOf k := by
    rw [hk]
    cases k <;> rfl
  rw [hk']
  refine ⟨parse_fault reads_flag faults_flag t k, ?_, parse_fault reads_strict faults_strict t k⟩
  rw [← parse_fault reads_flag faults_flag t k]
  show _ ↔ fromStr t = _
  unfold fromStrTruncate
  cases fromStr t with
  | ok e => exact ⟨fun h => (nomatch h), fun h => (nomatch h)⟩
  | error e => exact ⟨fun h => by cases h; rfl, fun h => by cases h; rfl⟩

-- The first part that cannot be read decides, here a misspelt name before an empty part.
example : FirstFault NamesBits " 0x1 | offset || 0y".toList .name ∧
    fromStr " 0x1 | offset || 0y".toList = .error .invalidNamedFlag :=
  ⟨((C124_refused _ .name _ rfl).1.1 rfl).2, rfl⟩

/-- C124: what is written can be read back: by the matching parser, for all values, also with undeclared bits; the strict and
truncating writers lose only those. So different values have different texts. -/
theorem C124_roundtrip (e f : FatPointerValidationException) :
    fromStr (toWriter e) = .ok e ∧
    fromStrTruncate (toWriterTruncate e) = .ok (fromBitsTruncate e.bits) ∧
    fromStrStrict (toWriterStrict e) = .ok (fromBitsTruncate e.bits) ∧
    fromStrStrict (toWriterTruncate e) = .ok (fromBitsTruncate e.bits) ∧
    (toWriter e = toWriter f ↔ e = f) ∧
    (toWriterStrict e = toWriterStrict f ↔ e.bits.toNat % 4 = f.bits.toNat % 4) := by
  have hw : ∀ e, fromStr (toWriter e) = .ok e := fun e => (parse_iff reads_flag _ _).2 (writer_describes e)
  have hs : ∀ e, fromStrStrict (toWriterStrict e) = .ok (fromBitsTruncate e.bits) :=
    fun e => (parse_iff reads_strict _ _).2 (strict_describes e)
  have hidem : fromBitsTruncate (fromBitsTruncate e.bits).bits = fromBitsTruncate e.bits :=
    eq_of_toNat (by rw [truncate_mod, truncate_mod]; omega)
  have hstrict : toWriterStrict e = toWriterTruncate e := by
    have h0 : (iterLoop (fromBitsTruncate e.bits) FLAGS (fromBitsTruncate e.bits)).2.bits = 0#64 := by
      refine BitVec.eq_of_getLsbD_eq fun i _ => ?_
      rw [(iterLoop_eq _).2, truncate_bit, BitVec.getLsbD_zero]
      by_cases hi : i < 2
      · have : ¬ 2 ≤ i := by omega
        simp [this]
      · simp [hi]
    have hn : writtenNames (fromBitsTruncate e.bits) = writtenNames e := by
      unfold writtenNames
      rw [truncate_bit, truncate_bit]
      simp
    unfold toWriterTruncate toWriter toWriterStrict iterNames
    dsimp only
    rw [iterNames_text, iterNames_text, h0, hn]
    show _ = writeParts true (_ ++ [])
    rw [List.append_nil]
  refine ⟨hw e, ?_, hs e, by rw [← hstrict]; exact hs e, ⟨fun h => ?_, fun h => by rw [h]⟩, ⟨fun h => ?_, fun h => ?_⟩⟩
  · unfold fromStrTruncate toWriterTruncate
    rw [hw]
    exact congrArg Except.ok hidem
  · have := hw f
    rw [← h, hw e] at this
    exact Except.ok.inj this
  · have h' := hs f
    rw [← h, hs e] at h'
    rw [← truncate_mod, ← truncate_mod, Except.ok.inj h']
  · have ht : fromBitsTruncate e.bits = fromBitsTruncate f.bits := eq_of_toNat (by rw [truncate_mod, truncate_mod, h])
    have hn : writtenNames e = writtenNames f := by
      have hb : ∀ i, i < 2 → e.bits.getLsbD i = f.bits.getLsbD i := by
        intro i hi
        have : (fromBitsTruncate e.bits).bits.getLsbD i = (fromBitsTruncate f.bits).bits.getLsbD i := by rw [ht]
        rw [truncate_bit, truncate_bit, decide_eq_true hi, Bool.and_true, Bool.and_true] at this
        exact this
      unfold writtenNames
      rw [hb 0 (by decide), hb 1 (by decide)]
    unfold toWriterStrict iterNames
    rw [iterNames_text, iterNames_text, hn]

example : toWriter ⟨0x1f⟩ = "OFFSET_IS_NOT_ZERO_WHEN_EXPECTED | DEREF_BEYOND_HEAP_RANGE | 0x1c".toList ∧
    toWriterStrict ⟨0x1e⟩ = "DEREF_BEYOND_HEAP_RANGE".toList ∧ toWriter ⟨0x20⟩ = "0x20".toList := by decide +kernel

/-- C124: the text of a validation result is the same with all writers, is empty exactly for valid pointers and otherwise
consists of the names of the pointer's problems; every parser reads the result back from it. -/
theorem C124_validate (p : FatPointer) (fresh : Bool) :
    (toWriter (p.validate fresh) = [] ↔ ∀ q : Problem, ¬ q.of p fresh) ∧
    (∀ q : Problem, toWriter (p.validate fresh) = q.name.toList ↔ ∀ q' : Problem, q'.of p fresh ↔ q' = q) ∧
    (toWriter (p.validate fresh) = Problem.offsetNotZero.name.toList ++ " | ".toList ++ Problem.beyondHeap.name.toList ↔
      ∀ q : Problem, q.of p fresh) ∧
    toWriterStrict (p.validate fresh) = toWriter (p.validate fresh) ∧
    toWriterTruncate (p.validate fresh) = toWriter (p.validate fresh) ∧
    fromStr (toWriter (p.validate fresh)) = .ok (p.validate fresh) ∧
    fromStrStrict (toWriter (p.validate fresh)) = .ok (p.validate fresh) ∧
    fromStrTruncate (toWriter (p.validate fresh)) = .ok (p.validate fresh) := by
  have hbits := (C101_validate p fresh).1
  generalize p.validate fresh = e at hbits
  have hb : ∀ q : Problem, e.bits.getLsbD q.bit = true ↔ q.of p fresh := by
    intro q
    refine (hbits q.bit).trans ⟨?_, fun h => ⟨q, rfl, h⟩⟩
    rintro ⟨q', h, h'⟩
    have : q' = q := by
      revert h
      cases q <;> cases q' <;> decide
    rwa [← this]
  have h0 : e.bits.getLsbD 0 = true ↔ Problem.of p fresh .offsetNotZero := hb .offsetNotZero
  have h1 : e.bits.getLsbD 1 = true ↔ Problem.of p fresh .beyondHeap := hb .beyondHeap
  have hhigh : ∀ i, 2 ≤ i → e.bits.getLsbD i = false := by
    intro i hi
    refine eq_false_of_ne_true fun h => ?_
    obtain ⟨q, hq, _⟩ := (hbits i).1 h
    have : q.bit < 2 := by cases q <;> decide
    omega
  have ht : fromBitsTruncate e.bits = e := ext_bits fun i => by
    rw [truncate_bit]
    by_cases hi : i < 2
    · simp [hi]
    · rw [hhigh i (by omega)]; rfl
  have hrest : (iterLoop e FLAGS e).2.bits = 0#64 := by
    refine BitVec.eq_of_getLsbD_eq fun i _ => ?_
    rw [(iterLoop_eq _).2, BitVec.getLsbD_zero]
    by_cases hi : i < 2
    · have : ¬ 2 ≤ i := by omega
      simp [this]
    · rw [hhigh i (by omega)]; rfl
  have hw : toWriter e = writeParts true ((writtenNames e).map Prod.fst) := by
    unfold toWriter
    dsimp only
    rw [iterNames_text, hrest]
    show writeParts true (_ ++ []) = _
    rw [List.append_nil]
  have hstr : toWriterStrict e = toWriter e := by
    rw [hw]
    unfold toWriterStrict iterNames
    rw [iterNames_text]
  have htr : toWriterTruncate e = toWriter e := by
    unfold toWriterTruncate
    rw [ht]
  have hall : ∀ P : Problem → Prop, (∀ q, P q) ↔ P .offsetNotZero ∧ P .beyondHeap := by
    intro P
    refine ⟨fun h => ⟨h _, h _⟩, fun h q => ?_⟩
    cases q
    · exact h.1
    · exact h.2
  have rt := C124_roundtrip e e
  rw [htr, hstr, ht] at rt
  refine ⟨?_, fun q => ?_, ?_, hstr, htr, rt.1, rt.2.2.1, rt.2.1⟩
  · rw [hall, ← h0, ← h1, hw]
    unfold writtenNames
    cases e.bits.getLsbD 0 <;> cases e.bits.getLsbD 1 <;> decide
  · rw [hall, ← h0, ← h1, hw]
    unfold writtenNames
    cases q <;> cases e.bits.getLsbD 0 <;> cases e.bits.getLsbD 1 <;> decide
  · rw [hall, ← h0, ← h1, hw]
    unfold writtenNames
    cases e.bits.getLsbD 0 <;> cases e.bits.getLsbD 1 <;> decide

example : toWriter (FatPointer.validate ⟨1, 0, 0xffffffff, 1⟩ true) =
    "OFFSET_IS_NOT_ZERO_WHEN_EXPECTED | DEREF_BEYOND_HEAP_RANGE".toList ∧
    toWriter (FatPointer.validate ⟨1, 0, 0xffffffff, 1⟩ false) = "DEREF_BEYOND_HEAP_RANGE".toList := by decide +kernel

/-- C124: the formatting of a value in base 2, 8 or 16 is a numeral of its bits. -/
theorem C124_bases (e : FatPointerValidationException) :
    readNumber 2 e.fmtBinary = e.bits.toNat ∧ readNumber 8 e.fmtOctal = e.bits.toNat ∧
    IsHex e.fmtLowerHex e.bits.toNat ∧ IsHex e.fmtUpperHex e.bits.toNat ∧
    (∀ c ∈ e.fmtLowerHex, c ∈ lowerDigits) ∧ (∀ c ∈ e.fmtUpperHex, c ∈ upperDigits) ∧
    fromStr ("0x".toList ++ e.fmtLowerHex) = .ok e ∧ fromStr ("0x".toList ++ e.fmtUpperHex) = .ok e := by
  have hlt : e.bits.toNat < 2 ^ 64 := e.bits.isLt
  have hl : IsHex e.fmtLowerHex e.bits.toNat :=
    isHex_digits digitChar (fun d hd => .inl (digitChar_isDigit d hd)) 32 _ (Nat.lt_trans hlt (by decide)) (by decide)
  have hu : IsHex e.fmtUpperHex e.bits.toNat :=
    isHex_digits digitCharUpper (fun d hd => .inr (digitCharUpper_isDigit d hd)) 32 _ (Nat.lt_trans hlt (by decide)) (by decide)
  have hread : ∀ t, IsHex t e.bits.toNat → fromStr ("0x".toList ++ t) = .ok e := by
    intro t h
    refine (parse_iff reads_flag _ _).2 (.inr ?_)
    have := IsUnion.last (one := NamesBits) (l := []) (r := []) (fun _ h => nomatch h) (.hex h hlt) (fun _ h => nomatch h)
    rw [List.nil_append, List.append_nil] at this
    exact this
  refine ⟨?_, ?_, hl, hu, fun c hc => ?_, fun c hc => ?_, hread _ hl, hread _ hu⟩
  · unfold fmtBinary
    rw [Display.readNumber_map (by decide) _ (Display.digitsRev_lt (by decide) _ _),
      Display.valueRev_digitsRev (by decide) _ _ hlt]
  · unfold fmtOctal
    rw [Display.readNumber_map (by decide) _ (Display.digitsRev_lt (by decide) _ _),
      Display.valueRev_digitsRev (by decide) _ _ (Nat.lt_trans hlt (by decide))]
  · obtain ⟨d, hd, rfl⟩ := List.mem_map.1 hc
    exact List.mem_of_getElem? (digitChar_isDigit d (Display.digitsRev_lt (by decide) _ _ d (List.mem_reverse.1 hd)))
  · obtain ⟨d, hd, rfl⟩ := List.mem_map.1 hc
    exact List.mem_of_getElem? (digitCharUpper_isDigit d (Display.digitsRev_lt (by decide) _ _ d (List.mem_reverse.1 hd)))

example : fmtBinary ⟨6⟩ = "110".toList ∧ fmtOctal ⟨64⟩ = "100".toList ∧ fmtUpperHex ⟨0xab⟩ = "AB".toList ∧
    fmtLowerHex ⟨0⟩ = "0".toList := by decide +kernel

end ZkEvm.Props
