import Verif.Lemmas.LookupMap
import Verif.Lemmas.Meaning
import Verif.Spec.Declared
import Verif.Spec.Target
/-!
# Properties of the opcode table: C16–C25

`Spec.entry` and `Spec.WellFormed` (`Verif/Spec/Isa.lean`) are the independent description of the
instruction set; `Spec.SameMeaning` (`Verif/Spec/Meaning.lean`) is equality up to spelling.
-/
namespace ZkEvm.Props
open Spec Numbering Tables

/-! ## C16 -/

/-- C16: the default table exists, has 2048 entries, and the entry at each number is the one given by the
closed formula. -/
theorem C16_table_numbering :
    ∃ t, OPCODES_TABLE = .ok t ∧ t.length = 2048 ∧ ∀ n, n < 2048 → t[n]? = some (Spec.entry n) :=
  ⟨fullTable, OPCODES_TABLE_eq, length_fullTable, fun _ h => fullTable_get h⟩

/-- C16: the numbers 0..1092 are assigned to pairwise distinct variants, of which only number 0 is the
invalid one; all numbers from 1093 on are the invalid one. -/
theorem C16_assigned_distinct :
    (∀ m n, m < 1093 → n < 1093 → Spec.entry m = Spec.entry n → m = n) ∧
    (∀ n, Spec.entry n = Spec.invalidVariant ↔ n = 0 ∨ 1093 ≤ n) := by
  refine ⟨fun m n hm hn h => entry_injective hm hn h, fun n => ⟨fun h => ?_, ?_⟩⟩
  · by_cases hn : n < 1093
    · exact .inl (entry_injective hn (by decide) (h.trans (by rfl : Spec.invalidVariant = Spec.entry 0)))
    · exact .inr (by omega)
  · rintro (rfl | h)
    · rfl
    · exact entry_unassigned h

-- number 100 is `Sub` from a stack push/pop source, destination `RegOnly`... spelled out:
example : Spec.entry 100 =
    ⟨.sub .sub, .full .useStackWithPushPop, .full .useStackWithOffset, ⟨true, true⟩⟩ := by decide
example : Spec.entry 1090 =
    ⟨.uma .auxHeapRead, .regOrImm .useImm16Only, .regOnly, ⟨true, false⟩⟩ := by decide

/-! ## C17 -/

/-- C17: version 0 and version 1 of the table, at every number: below 1085 the entries have the same meaning
(and are equal outside the heap accesses 1075..1082); 1085..1092 are unassigned in version 0. -/
theorem C17_v0_vs_v1 :
    ∃ t0 t1, synthesizeOpcodeDecodingTables 11 ⟨0⟩ = .ok t0 ∧ OPCODES_TABLE = .ok t1 ∧
      t0.length = 2048 ∧ t1.length = 2048 ∧
      (∀ n, n < 1085 → ∃ a b, t0[n]? = some a ∧ t1[n]? = some b ∧ SameMeaning a b ∧
        (n < 1075 ∨ 1083 ≤ n → a = b) ∧
        (1075 ≤ n ∧ n < 1083 → a.src0OperandType = .regOnly ∧
          b.src0OperandType = .regOrImm .useRegOnly)) ∧
      (∀ n, 1085 ≤ n → n < 2048 → t0[n]? = some Spec.invalidVariant) := by
  have h0 : synthesizeOpcodeDecodingTables 11 ⟨0⟩ = .ok ((List.range 2048).map entryV0) := by
    rw [synthesize_eq 11 (by decide) ⟨0⟩ tableV0 loop_v0 tableV0_zero (by rw [length_tableV0]; decide), length_tableV0,
      tableV0_def]
    exact congrArg Except.ok (pad_eq 1085 963 entryV0 fun i hi => entryV0_unassigned hi)
  have hall : ((List.range 1085).all fun n =>
      (!(decide (n < 1075) || decide (1083 ≤ n)) || decide (entryV0 n = entry n)) &&
      (!(decide (1075 ≤ n) && decide (n < 1083)) ||
        (decide ((entryV0 n).src0OperandType = .regOnly) &&
          decide ((entry n).src0OperandType = .regOrImm .useRegOnly)))) = true := by decide +kernel
  refine ⟨_, fullTable, h0, OPCODES_TABLE_eq, by simp only [List.length_map, List.length_range],
    length_fullTable, ?_, ?_⟩
  · intro n hn
    refine ⟨entryV0 n, entry n, map_range_get 2048 entryV0 n (by omega), fullTable_get (by omega), ?_, ?_, ?_⟩
    · rw [← semKey_eq_iff]
      exact (keys_agree hn).symm
    · intro h
      have := List.all_eq_true.1 hall n (List.mem_range.2 hn)
      simp only [Bool.and_eq_true, Bool.or_eq_true, Bool.not_eq_true', decide_eq_true_eq] at this
      rcases this.1 with h' | h'
      · simp only [Bool.or_eq_false_iff, decide_eq_false_iff_not] at h'
        omega
      · exact h'
    · intro h
      have := List.all_eq_true.1 hall n (List.mem_range.2 hn)
      simp only [Bool.and_eq_true, Bool.or_eq_true, Bool.not_eq_true', decide_eq_true_eq] at this
      rcases this.2 with h' | h'
      · simp only [Bool.and_eq_false_iff, decide_eq_false_iff_not] at h'
        omega
      · exact h'
  · intro n h1 h2
    rw [map_range_get 2048 entryV0 n h2]
    exact congrArg some (entryV0_unassigned h1)

-- the renamed range is not empty, and the two spellings do differ there
example : entryV0 1075 ≠ entry 1075 ∧ SameMeaning (entryV0 1075) (entry 1075) :=
  ⟨by decide, (semKey_eq_iff _ _).1 (by decide)⟩

/-! ## C18 -/

/-- The list with which a table of version `v` starts -/
private theorem loop_any (v : ISAVersion) :
    synthesizeLoop v [] allIsaVersions = .ok (if v.num = 0 then tableV0 else tableV1) := by
  rcases v with ⟨n⟩
  by_cases h : n = 0
  · subst h; exact loop_v0
  · rw [if_neg h]; exact loop_ge1 (Nat.pos_of_ne_zero h)

private theorem synth_any (bits : Nat) (v : ISAVersion) (target : Target) :
    synthesizeOpcodeDecodingTables bits v target = usizeOneShl bits target >>= fun n =>
      if n * target.variantSize < 2 ^ (target.usizeBits - 1) then
        if (if v.num = 0 then 1085 else 1093) ≤ n then
          .ok ((List.range n).map (if v.num = 0 then entryV0 else entry))
        else .error .assertFailed
      else .error .capacityOverflow := by
  have hz : (if v.num = 0 then tableV0 else tableV1)[0]? = some invalidVariant := by
    by_cases h : v.num = 0
    · rw [if_pos h]; exact tableV0_zero
    · rw [if_neg h]; exact tableV1_zero
  rw [synthesize_gen bits v target _ (loop_any v) hz]
  congr 1
  funext n
  unfold padded
  by_cases h : v.num = 0
  · simp only [if_pos h, length_tableV0]
    by_cases hb : 1085 ≤ n
    · rw [if_pos hb, if_pos hb, tableV0_def, pad_eq 1085 _ entryV0 fun i hi => entryV0_unassigned hi,
        show 1085 + (n - 1085) = n by omega]
    · rw [if_neg hb, if_neg hb]
  · simp only [if_neg h, length_tableV1]
    by_cases hb : 1093 ≤ n
    · rw [if_pos hb, if_pos hb, tableV1_def, pad_eq 1093 _ entry fun i hi => entry_unassigned hi,
        show 1093 + (n - 1093) = n by omega]
    · rw [if_neg hb, if_neg hb]

private theorem pow_bound (bits k : Nat) (h1 : 1024 < k) (h2 : k ≤ 2048) : k ≤ 2 ^ bits ↔ 11 ≤ bits := by
  constructor
  · intro h
    rcases Nat.lt_or_ge bits 11 with hb | hb
    · have := Nat.pow_le_pow_right (show 2 > 0 by decide) (show bits ≤ 10 by omega)
      omega
    · exact hb
  · intro h
    have := Nat.pow_le_pow_right (show 2 > 0 by decide) h
    omega

private theorem oneShl_ok (bits : Nat) (target : Target) (h : effectiveWidth target bits < target.usizeBits) :
    usizeOneShl bits target = .ok (2 ^ effectiveWidth target bits) := by
  unfold effectiveWidth at h ⊢
  unfold usizeOneShl
  cases hb : target.build with
  | debug => rw [hb] at h; exact if_pos h
  | release => rfl

private theorem oneShl_err (bits : Nat) (target : Target) (hp : 0 < target.usizeBits)
    (h : target.usizeBits ≤ effectiveWidth target bits) :
    target.build = .debug ∧ usizeOneShl bits target = .error .arithOverflow := by
  unfold effectiveWidth at h
  unfold usizeOneShl
  cases hb : target.build with
  | debug => rw [hb] at h; exact ⟨rfl, if_neg (Nat.not_lt.2 h)⟩
  | release => rw [hb] at h; exact absurd (Nat.mod_lt bits hp) (Nat.not_lt.2 h)

private theorem fits_iff (target : Target) (bits : Nat) :
    TableFits target bits ↔ 2 ^ bits * target.variantSize < 2 ^ (target.usizeBits - 1) := by
  unfold TableFits
  have := Nat.two_pow_pos (target.usizeBits - 1)
  omega

/-- C18: the outcome of the builder for every width, version and target (debug or release build, width of `usize`,
size of a variant). In a debug build a width of at least that of `usize` overflows the shift; a table larger than
`isize::MAX` bytes overflows the capacity; a width below 11 fails the size assertion; everything else succeeds. -/
theorem C18_width (bits : Nat) (v : ISAVersion) (target : Target) (hp : 0 < target.usizeBits) :
    ((∃ t, synthesizeOpcodeDecodingTables bits v target = .ok t) ↔
      11 ≤ effectiveWidth target bits ∧ effectiveWidth target bits < target.usizeBits ∧
      TableFits target (effectiveWidth target bits)) ∧
    (synthesizeOpcodeDecodingTables bits v target = .error .arithOverflow ↔
      target.build = .debug ∧ target.usizeBits ≤ bits) ∧
    (synthesizeOpcodeDecodingTables bits v target = .error .capacityOverflow ↔
      effectiveWidth target bits < target.usizeBits ∧ ¬ TableFits target (effectiveWidth target bits)) ∧
    (synthesizeOpcodeDecodingTables bits v target = .error .assertFailed ↔
      effectiveWidth target bits < target.usizeBits ∧ TableFits target (effectiveWidth target bits) ∧
      effectiveWidth target bits < 11) := by
  rw [synth_any]
  have hb := pow_bound (effectiveWidth target bits) (if v.num = 0 then 1085 else 1093) (by split <;> decide)
    (by split <;> decide)
  have hdbg : target.build = .debug → effectiveWidth target bits = bits := fun h => by unfold effectiveWidth; rw [h]
  rcases Nat.lt_or_ge (effectiveWidth target bits) target.usizeBits with h | h
  · rw [oneShl_ok bits target h]
    simp only [bind, Except.bind]
    rw [fits_iff]
    generalize effectiveWidth target bits = w at *
    have hno : ¬ (target.build = .debug ∧ target.usizeBits ≤ bits) := by
      rintro ⟨h1, h2⟩
      have := hdbg h1
      omega
    by_cases hf : 2 ^ w * target.variantSize < 2 ^ (target.usizeBits - 1)
    · rw [if_pos hf]
      by_cases hl : (if v.num = 0 then 1085 else 1093) ≤ 2 ^ w
      · rw [if_pos hl]
        have := hb.1 hl
        exact ⟨⟨fun _ => ⟨this, h, hf⟩, fun _ => ⟨_, rfl⟩⟩, ⟨fun h => (nomatch h), fun h => absurd h hno⟩,
          ⟨fun h => (nomatch h), fun h => absurd hf h.2⟩, ⟨fun h => (nomatch h), fun h => absurd h.2.2 (by omega)⟩⟩
      · rw [if_neg hl]
        have : ¬ 11 ≤ w := fun h => hl (hb.2 h)
        exact ⟨⟨fun h => (nomatch h.choose_spec), fun h => absurd h.1 this⟩, ⟨fun h => (nomatch h), fun h => absurd h hno⟩,
          ⟨fun h => (nomatch h), fun h => absurd hf h.2⟩, ⟨fun _ => ⟨h, hf, by omega⟩, fun _ => rfl⟩⟩
    · rw [if_neg hf]
      exact ⟨⟨fun h => (nomatch h.choose_spec), fun h => absurd h.2.2 hf⟩, ⟨fun h => (nomatch h), fun h => absurd h hno⟩,
        ⟨fun _ => ⟨h, hf⟩, fun _ => rfl⟩, ⟨fun h => (nomatch h), fun h => absurd h.2.1 hf⟩⟩
  · obtain ⟨h1, h2⟩ := oneShl_err bits target hp h
    rw [h2]
    have h3 := hdbg h1
    have hno : ¬ effectiveWidth target bits < target.usizeBits := by omega
    exact ⟨⟨fun h => (nomatch h.choose_spec), fun h => absurd h.2.1 hno⟩, ⟨fun _ => ⟨h1, by omega⟩, fun _ => rfl⟩,
      ⟨fun h => (nomatch h), fun h => absurd h.1 hno⟩, ⟨fun h => (nomatch h), fun h => absurd h.1 hno⟩⟩

/-- C18: on a 64-bit debug build with 8-byte variants the builder succeeds exactly for widths 11..59; widths below
fail the size assertion, widths 60..63 overflow the capacity and widths from 64 on overflow the shift. -/
theorem C18_default (bits : Nat) (v : ISAVersion) :
    ((∃ t, synthesizeOpcodeDecodingTables bits v = .ok t) ↔ 11 ≤ bits ∧ bits < 60) ∧
    (bits < 11 → synthesizeOpcodeDecodingTables bits v = .error .assertFailed) ∧
    (60 ≤ bits ∧ bits < 64 → synthesizeOpcodeDecodingTables bits v = .error .capacityOverflow) ∧
    (64 ≤ bits → synthesizeOpcodeDecodingTables bits v = .error .arithOverflow) := by
  obtain ⟨h1, h2, h3, h4⟩ := C18_width bits v .debug (by decide)
  have hw : effectiveWidth .debug bits = bits := rfl
  have hu : Target.debug.usizeBits = 64 := rfl
  have hfit : TableFits .debug bits ↔ bits < 60 := by
    rw [fits_iff]
    show 2 ^ bits * 8 < 2 ^ 63 ↔ _
    constructor
    · intro h
      rcases Nat.lt_or_ge bits 60 with hb | hb
      · exact hb
      · have := Nat.pow_le_pow_right (show 2 > 0 by decide) hb
        omega
    · intro h
      have := Nat.pow_le_pow_right (show 2 > 0 by decide) (show bits ≤ 59 by omega)
      omega
  rw [hw, hfit] at h1 h3 h4
  rw [hu] at h1 h2 h3 h4
  refine ⟨h1.trans ⟨fun h => ⟨h.1, h.2.2⟩, fun h => ⟨h.1, by omega, h.2⟩⟩, fun h => h4.2 ⟨by omega, by omega, h⟩,
    fun h => h3.2 ⟨h.2, by omega⟩, fun h => h2.2 ⟨rfl, h⟩⟩

/-- C18: the numbering does not depend on the width or target: a table of width `w` has `2 ^ w` entries, and the
entry at each number is the one of the closed formula for the version, `Invalid` beyond the assigned ones. -/
theorem C18_shape (bits : Nat) (v : ISAVersion) (target : Target) (t : List OpcodeVariant)
    (h : synthesizeOpcodeDecodingTables bits v target = .ok t) :
    t.length = 2 ^ effectiveWidth target bits ∧
    ∀ n, n < 2 ^ effectiveWidth target bits →
      t[n]? = some (if v.num = 0 then Spec.entryV0 n else Spec.entry n) := by
  rw [synth_any] at h
  cases hs : usizeOneShl bits target with
  | error e => rw [hs] at h; cases h
  | ok k =>
    have hk : k = 2 ^ effectiveWidth target bits := by
      unfold usizeOneShl at hs
      unfold effectiveWidth
      cases hb : target.build with
      | debug =>
        rw [hb] at hs
        dsimp only at hs
        by_cases hlt : bits < target.usizeBits
        · rw [if_pos hlt] at hs; exact (Except.ok.inj hs).symm
        · rw [if_neg hlt] at hs; cases hs
      | release => rw [hb] at hs; exact (Except.ok.inj hs).symm
    rw [hs] at h
    simp only [bind, Except.bind] at h
    rw [← hk]
    by_cases h1 : k * target.variantSize < 2 ^ (target.usizeBits - 1)
    · rw [if_pos h1] at h
      by_cases h2 : (if v.num = 0 then 1085 else 1093) ≤ k
      · rw [if_pos h2] at h
        cases h
        refine ⟨by simp, fun n hn => ?_⟩
        rw [map_range_get _ _ _ hn]
        split <;> rfl
      · rw [if_neg h2] at h; cases h
    · rw [if_neg h1] at h; cases h

/-- C18: the 11-bit table is the same on every target on which it fits (a variant would need more than a mebibyte not
to fit on a 32-bit one). -/
theorem C18_targets (target : Target) (hw : 11 < target.usizeBits) (hf : TableFits target 11) :
    synthesizeOpcodeDecodingTables 11 ⟨1⟩ target = OPCODES_TABLE := by
  have he : effectiveWidth target 11 = 11 := by
    unfold effectiveWidth
    cases target.build with
    | debug => rfl
    | release => exact Nat.mod_eq_of_lt hw
  obtain ⟨t, ht⟩ := (C18_width 11 ⟨1⟩ target (by omega)).1.2 (by rw [he]; exact ⟨by decide, hw, hf⟩)
  obtain ⟨h1, h2⟩ := C18_shape 11 ⟨1⟩ target t ht
  obtain ⟨t', ht', h1', h2'⟩ := C16_table_numbering
  rw [he] at h1 h2
  suffices h : t = t' by rw [ht, ht', h]
  apply List.ext_getElem?
  intro i
  by_cases hi : i < 2048
  · rw [h2 i hi, h2' i hi, if_neg (by decide)]
  · rw [List.getElem?_eq_none (by omega), List.getElem?_eq_none (by omega)]

example : TableFits ⟨.release, 32, 12⟩ 11 := by unfold TableFits; decide

/-- C18 (finding), builds without overflow checks: the width is reduced modulo the width of `usize`, so too large
widths do not fail but give the table of the reduced width. -/
theorem C18_release (bits : Nat) (v : ISAVersion) (target : Target) (hr : target.build = .release)
    (hp : 0 < target.usizeBits) :
    synthesizeOpcodeDecodingTables bits v target =
      synthesizeOpcodeDecodingTables (bits % target.usizeBits) v { target with build := .debug } := by
  rw [synth_any, synth_any]
  have : usizeOneShl bits target = usizeOneShl (bits % target.usizeBits) { target with build := .debug } := by
    unfold usizeOneShl
    rw [hr]
    dsimp only
    rw [if_pos (Nat.mod_lt _ hp)]
  rw [this]

-- width 75 silently gives the 2048-entry table
example : ∃ t, synthesizeOpcodeDecodingTables 75 ⟨1⟩ .release = .ok t ∧ t.length = 2048 := by
  rw [C18_release 75 ⟨1⟩ .release rfl (by decide)]
  obtain ⟨t, ht⟩ := (C18_default 11 ⟨1⟩).1.2 (by decide)
  exact ⟨t, ht, (C18_shape 11 ⟨1⟩ .debug t ht).1⟩

-- the hypothesis of `C18_shape` is met for example at width 16
example : ∃ t, synthesizeOpcodeDecodingTables 16 ⟨1⟩ = .ok t ∧ t[1092]? = some (Spec.entry 1092) := by
  obtain ⟨t, ht⟩ := (C18_default 16 ⟨1⟩).1.2 (by decide)
  exact ⟨t, ht, (C18_shape 16 ⟨1⟩ .debug t ht).2 1092 (by decide)⟩

-- the default table exists on a 32-bit target with 12-byte variants too, a table of 28 bits does not
example : (∃ t, synthesizeOpcodeDecodingTables 11 ⟨1⟩ ⟨.release, 32, 12⟩ = .ok t) ∧
    synthesizeOpcodeDecodingTables 28 ⟨1⟩ ⟨.release, 32, 12⟩ = .error .capacityOverflow :=
  ⟨(C18_width 11 ⟨1⟩ ⟨.release, 32, 12⟩ (by decide)).1.2 (by unfold TableFits; decide),
    (C18_width 28 ⟨1⟩ ⟨.release, 32, 12⟩ (by decide)).2.2.1.2 (by unfold TableFits; decide)⟩

/-! ## C19 -/

/-- C19, for an arbitrary table: the map-building loop succeeds iff only the invalid variant occurs more than
once, and then the map is defined exactly on the variants of the table and gives the least index. -/
theorem C19_loop_any_table (table : List OpcodeVariant) :
    ((∃ m, lookupMapLoop table [] 0 table = .ok m) ↔
      ∀ (i j : Nat) v, i < j → table[i]? = some v → table[j]? = some v → v = INVALID_OPCODE_VARIANT) ∧
    (∀ m, lookupMapLoop table [] 0 table = .ok m →
      ∀ v i, m.get v = some i ↔ IsFirstIndex table v i) := by
  have key : ∀ m, lookupMapLoop table [] 0 table = .ok m →
      ∀ (i j : Nat) v, i < j → table[i]? = some v → table[j]? = some v → v = INVALID_OPCODE_VARIANT :=
    fun m hm i j v hij h1 h2 => LookupMap.loop_ok_dup table table [] [] m (List.nil_append _).symm
      LookupMap.inv_nil hm i j v (Nat.zero_le _) hij h1 h2
  refine ⟨⟨fun ⟨m, hm⟩ => key m hm, fun h => ?_⟩, fun m hm => ?_⟩
  · obtain ⟨m, h1, _⟩ := LookupMap.loop_spec table table [] [] (List.nil_append _).symm LookupMap.inv_nil
      (fun i j v _ hij h1 h2 => h i j v hij h1 h2)
    exact ⟨m, h1⟩
  · obtain ⟨m', h1, h2⟩ := LookupMap.loop_spec table table [] [] (List.nil_append _).symm LookupMap.inv_nil
      (fun i j v _ hij h1 h2 => key m hm i j v hij h1 h2)
    have : m = m' := by
      have h1' : lookupMapLoop table [] 0 table = .ok m' := h1
      rw [hm] at h1'
      exact Except.ok.inj h1'
    subst this
    exact h2

-- a table with a repeated valid variant makes the loop panic
example : ¬ ∃ m, lookupMapLoop [OpcodeVariant.default, OpcodeVariant.default] [] 0
    [OpcodeVariant.default, OpcodeVariant.default] = .ok m := by
  rw [(C19_loop_any_table _).1]
  intro h
  exact absurd (h 0 1 OpcodeVariant.default (by decide) rfl rfl) (by decide)

private theorem monotonic_of {t : List OpcodeVariant} {m : IndexMap} (h : OPCODES_TABLE = .ok t)
    (hl : lookupMapLoop t [] 0 t = .ok m) :
    OPCODE_TO_MONOTONIC_INDEX_NUMBER_MAP = .ok (m.map fun p => (p.1, VariantMonotonicNumber.mk p.2)) := by
  unfold OPCODE_TO_MONOTONIC_INDEX_NUMBER_MAP
  rw [h]
  have := LookupMap.monotonic_eq t t [] 0
  rw [hl] at this
  exact this

private theorem lookup_wrapped (m : IndexMap) (v : OpcodeVariant) :
    List.lookup v (m.map fun p => (p.1, VariantMonotonicNumber.mk p.2))
      = (m.get v).map VariantMonotonicNumber.mk := by
  unfold IndexMap.get
  induction m with
  | nil => rfl
  | cons p m ih =>
    rw [List.map_cons, List.lookup_cons, List.lookup_cons]
    cases v == p.1
    · exact ih
    · rfl

/-- C19: both lookup maps of the default table initialise; each is defined exactly on the variants that occur
in the table and returns the least index; they agree. -/
theorem C19_lookup_maps :
    ∃ t m mm, OPCODES_TABLE = .ok t ∧ OPCODE_TO_CANONICAL_INDEX_LOOKUP_MAP = .ok m ∧
      OPCODE_TO_MONOTONIC_INDEX_NUMBER_MAP = .ok mm ∧
      (∀ v i, m.get v = some i ↔ IsFirstIndex t v i) ∧
      (∀ v, m.get v = none ↔ v ∉ t) ∧
      (∀ v, List.lookup v mm = (m.get v).map VariantMonotonicNumber.fromUsize) := by
  obtain ⟨m, h1, h2⟩ := LookupMap.loop_spec fullTable fullTable [] [] (List.nil_append _).symm
    LookupMap.inv_nil (fun i j v _ hij h1 h2 => LookupMap.fullTable_dup i j v hij h1 h2)
  exact ⟨fullTable, m, _, OPCODES_TABLE_eq, LookupMap.canonical_of OPCODES_TABLE_eq h1,
    monotonic_of OPCODES_TABLE_eq h1, h2, h2.none_iff, lookup_wrapped m⟩

/-- C19: the lookup map inverts the table on the assigned numbers, and apart from `Invalid` no variant occurs
twice in the table. -/
theorem C19_inverse :
    ∃ t m, OPCODES_TABLE = .ok t ∧ OPCODE_TO_CANONICAL_INDEX_LOOKUP_MAP = .ok m ∧
      (∀ (n : Nat) v, n < 1093 → t[n]? = some v → m.get v = some n) ∧
      (∀ (n : Nat) v, 1093 ≤ n → t[n]? = some v → m.get v = some 0) ∧
      (∀ v n, m.get v = some n → n < 1093 ∧ t[n]? = some v) ∧
      (∀ (i j : Nat) v, i ≠ j → t[i]? = some v → t[j]? = some v → v = Spec.invalidVariant) := by
  obtain ⟨m, h1, h2⟩ := LookupMap.canonical_get
  have hlt : ∀ (n : Nat) v, fullTable[n]? = some v → n < 2048 := by
    intro n v hv
    rcases Nat.lt_or_ge n 2048 with h | h
    · exact h
    · rw [List.getElem?_eq_none (by rw [length_fullTable]; exact h)] at hv; cases hv
  refine ⟨fullTable, m, OPCODES_TABLE_eq, h1, ?_, ?_, ?_, ?_⟩
  · intro n v hn hv
    rw [fullTable_get (by omega)] at hv
    cases hv
    rw [h2, if_pos (wf_entry hn), number_entry hn]
  · intro n v hn hv
    rw [fullTable_get (hlt n v hv)] at hv
    cases hv
    rw [entry_unassigned hn, h2]
    rfl
  · intro v n hv
    rw [h2] at hv
    by_cases h : WellFormed v = true
    · rw [if_pos h] at hv
      cases hv
      obtain ⟨hn, he⟩ := entry_number v h
      exact ⟨hn, by rw [fullTable_get (Nat.lt_trans hn (by decide)), he]⟩
    · rw [if_neg h] at hv; cases hv
  · intro i j v hij hi hj
    rcases Nat.lt_or_gt_of_ne hij with h | h
    · exact LookupMap.fullTable_dup i j v h hi hj
    · exact LookupMap.fullTable_dup j i v h hj hi

/-! ## C20 -/

/-- C20: a variant occurs in the default table iff it is well formed. -/
theorem C20_wellformed (v : OpcodeVariant) :
    ∃ t, OPCODES_TABLE = .ok t ∧ (v ∈ t ↔ WellFormed v = true) :=
  ⟨fullTable, OPCODES_TABLE_eq, mem_fullTable v⟩

/-- C20: well-formedness is what the opcode itself declares: the source and destination operands are of the
kind of the first declared input/output operand, the destination is not an immediate or a code page, and
flags beyond the declared number are off. -/
theorem C20_declared (v : OpcodeVariant) :
    ∃ ins outs nf, v.opcode.inputOperands ⟨1⟩ = .ok ins ∧ v.opcode.outputOperands ⟨1⟩ = .ok outs ∧
      declaredFlags v.opcode ⟨1⟩ = some nf ∧
      (WellFormed v = true ↔
        ofKind (firstOrRegister ins) v.src0OperandType ∧
        ofKind (firstOrRegister outs) v.dst0OperandType ∧
        (∀ f, v.dst0OperandType = .full f → f ≠ .useImm16Only ∧ f ≠ .useCodePage) ∧
        (nf < 2 → v.flags.f1 = false) ∧ (nf < 1 → v.flags.f0 = false)) := by
  have h := Enum.forall_variant (p := fun v =>
    match v.opcode.inputOperands ⟨1⟩, v.opcode.outputOperands ⟨1⟩, declaredFlags v.opcode ⟨1⟩ with
    | .ok ins, .ok outs, some nf =>
      WellFormed v == decide (ofKind (firstOrRegister ins) v.src0OperandType ∧
        ofKind (firstOrRegister outs) v.dst0OperandType ∧
        (v.dst0OperandType ≠ .full .useImm16Only ∧ v.dst0OperandType ≠ .full .useCodePage) ∧
        (nf < 2 → v.flags.f1 = false) ∧ (nf < 1 → v.flags.f0 = false))
    | _, _, _ => false) (by decide +kernel) v
  revert h
  cases hi : v.opcode.inputOperands ⟨1⟩ with
  | error e => intro h; cases h
  | ok ins =>
  cases ho : v.opcode.outputOperands ⟨1⟩ with
  | error e => intro h; cases h
  | ok outs =>
  cases hf : declaredFlags v.opcode ⟨1⟩ with
  | none => intro h; cases h
  | some nf =>
  intro h
  refine ⟨ins, outs, nf, rfl, rfl, rfl, ?_⟩
  have hd : (∀ f, v.dst0OperandType = .full f → f ≠ .useImm16Only ∧ f ≠ .useCodePage) ↔
      (v.dst0OperandType ≠ .full .useImm16Only ∧ v.dst0OperandType ≠ .full .useCodePage) := by
    constructor
    · intro h; exact ⟨fun h' => (h _ h').1 rfl, fun h' => (h _ h').2 rfl⟩
    · rintro ⟨h1, h2⟩ f hf; exact ⟨fun h' => h1 (h' ▸ hf), fun h' => h2 (h' ▸ hf)⟩
  rw [hd]
  have h' := LawfulBEq.eq_of_beq h
  rw [h', decide_eq_true_iff]

-- both sides occur: `Add reg, stack` is well formed, `Jump` with a memory destination is not
example : WellFormed ⟨.add .add, .full .useCodePage, .full .useAbsoluteOnStack, ⟨true, false⟩⟩ = true ∧
    WellFormed ⟨.jump .mk, .full .useRegOnly, .full .useRegOnly, ⟨false, false⟩⟩ = false := by decide

/-! ## C21 -/

/-- C21: merging panics exactly if some old entry has no equivalent among the new ones. -/
theorem C21_merge_panics_iff (old new : List OpcodeVariant) :
    Panics (findNewOpcodes old new) ↔ ∃ o ∈ old, ∀ n ∈ new, ¬ SameMeaning n o := by
  by_cases h : ∀ o ∈ old, ∃ n ∈ new, semKey n = semKey o
  · rw [Merge.findNewOpcodes_ok h]
    refine ⟨fun hp => absurd hp (not_panics_ok _), ?_⟩
    rintro ⟨o, ho, hn⟩
    obtain ⟨n, hnm, hk⟩ := h o ho
    exact absurd ((semKey_eq_iff _ _).1 hk) (hn n hnm)
  · rw [Merge.findNewOpcodes_panic h]
    refine ⟨fun _ => ?_, fun _ => panics_error _⟩
    simp only [Classical.not_forall, not_exists, not_and] at h
    obtain ⟨o, ho, hn⟩ := h
    exact ⟨o, ho, fun n hnm hs => hn n hnm ((semKey_eq_iff _ _).2 hs)⟩

/-- C21: when merging succeeds, the old list keeps its length, every old number keeps its meaning (an entry
either stays or becomes one of the new entries with the same meaning), and the appended part is exactly the
new entries without an old equivalent, in their order. -/
theorem C21_merge (old new kept diff : List OpcodeVariant) (h : findNewOpcodes old new = .ok (kept, diff)) :
    kept.length = old.length ∧
    (∀ (i : Nat) o, old[i]? = some o → ∃ o', kept[i]? = some o' ∧ SameMeaning o' o ∧ (o' = o ∨ o' ∈ new)) ∧
    diff.Sublist new ∧
    (∀ n, n ∈ diff ↔ n ∈ new ∧ ∀ o ∈ old, ¬ SameMeaning n o) ∧
    (∀ f : OpcodeVariant → Bool, (∀ n, f n = true ↔ ∀ o ∈ old, ¬ SameMeaning n o) → diff = new.filter f) := by
  by_cases hs : ∀ o ∈ old, ∃ n ∈ new, semKey n = semKey o
  · rw [Merge.findNewOpcodes_ok hs] at h
    have h1 : (findNewLoop old new).1 = kept := congrArg Prod.fst (Except.ok.inj h)
    have h2 : (findNewLoop old new).2 = diff := congrArg Prod.snd (Except.ok.inj h)
    rw [Merge.findNewLoop_diff] at h2
    have hpred : ∀ n, (!old.any fun o => semanticallyEqual n o) = true ↔ ∀ o ∈ old, ¬ SameMeaning n o := by
      intro n
      simp only [Bool.not_eq_true', List.any_eq_false]
      exact forall_congr' fun o => imp_congr_right fun _ => not_congr (semanticallyEqual_iff_sameMeaning n o)
    refine ⟨?_, ?_, ?_, ?_, ?_⟩
    · rw [← h1]
      simpa using congrArg List.length (Merge.findNewLoop_keys old new)
    · intro i o ho
      obtain ⟨o', ho', hk, hc⟩ := Merge.findNewLoop_get old new i o ho
      exact ⟨o', by rw [← h1]; exact ho', (semKey_eq_iff _ _).1 hk, hc⟩
    · rw [← h2]; exact List.filter_sublist
    · intro n
      rw [← h2, List.mem_filter, hpred]
    · intro f hf
      rw [← h2]
      congr 1
      funext n
      rw [Bool.eq_iff_iff, hpred, hf]
  · rw [Merge.findNewOpcodes_panic hs] at h
    cases h

/-- C21: if no two entries of the old list, and no two of the new list, have the same meaning, then after the
merge every old entry is replaced by the (unique) new entry of its meaning, and the combined list contains
each meaning of the new list exactly once. -/
theorem C21_merge_distinct (old new kept diff : List OpcodeVariant)
    (h : findNewOpcodes old new = .ok (kept, diff))
    (ho : old.Pairwise fun a b => ¬ SameMeaning a b) (hn : new.Pairwise fun a b => ¬ SameMeaning a b) :
    (kept ++ diff).Pairwise (fun a b => ¬ SameMeaning a b) ∧ (∀ v, v ∈ kept ++ diff ↔ v ∈ new) := by
  have hs : ∀ o ∈ old, ∃ n ∈ new, semKey n = semKey o := by
    by_cases hs : ∀ o ∈ old, ∃ n ∈ new, semKey n = semKey o
    · exact hs
    · rw [Merge.findNewOpcodes_panic hs] at h; cases h
  have hpw : ∀ l : List OpcodeVariant, l.Pairwise (fun a b => ¬ SameMeaning a b) ↔ (l.map semKey).Nodup := by
    intro l
    rw [List.nodup_iff_pairwise_ne, List.pairwise_map]
    constructor
    · exact List.Pairwise.imp fun hab hk => hab ((semKey_eq_iff _ _).1 hk)
    · exact List.Pairwise.imp fun hab hk => hab ((semKey_eq_iff _ _).2 hk)
  obtain ⟨_, hget, hsub, hmem, _⟩ := C21_merge old new kept diff h
  rw [Merge.findNewOpcodes_ok hs] at h
  have h1 : (findNewLoop old new).1 = kept := congrArg Prod.fst (Except.ok.inj h)
  rw [hpw] at ho hn
  have hkept : kept.map semKey = old.map semKey := by rw [← h1, Merge.findNewLoop_keys]
  have hk2 : kept = old.map fun o => new.foldl (fun x n => if semKey n = semKey x then n else x) o := by
    rw [← h1, Merge.findNewLoop_fst_nodup old new ho]
  refine ⟨?_, ?_⟩
  · rw [hpw, List.map_append, hkept, List.nodup_append]
    refine ⟨ho, hn.sublist (hsub.map semKey), ?_⟩
    intro a ha b hb hab
    subst hab
    obtain ⟨o, hoo, rfl⟩ := List.mem_map.1 ha
    obtain ⟨n, hnn, hnk⟩ := List.mem_map.1 hb
    exact ((hmem n).1 hnn).2 o hoo ((semKey_eq_iff _ _).1 hnk)
  · intro v
    rw [List.mem_append]
    constructor
    · rintro (hv | hv)
      · rw [hk2] at hv
        obtain ⟨o, hoo, rfl⟩ := List.mem_map.1 hv
        obtain ⟨n, hnn, hnk⟩ := hs o hoo
        rw [Merge.foldl_replace_nodup new hn o n hnn hnk]
        exact hnn
      · exact ((hmem v).1 hv).1
    · intro hv
      by_cases hex : ∃ o ∈ old, semKey v = semKey o
      · obtain ⟨o, hoo, hk⟩ := hex
        left
        rw [hk2]
        exact List.mem_map.2 ⟨o, hoo, Merge.foldl_replace_nodup new hn o v hv hk⟩
      · right
        refine (hmem v).2 ⟨hv, fun o hoo hsm => hex ⟨o, hoo, (semKey_eq_iff _ _).2 hsm⟩⟩

-- a merge that renames one old entry and appends one new one
example : findNewOpcodes
    [⟨.uma .heapRead, .regOnly, .regOnly, ⟨false, false⟩⟩]
    [⟨.uma .heapRead, .regOrImm .useRegOnly, .regOnly, ⟨false, false⟩⟩,
     ⟨.uma .heapRead, .regOrImm .useImm16Only, .regOnly, ⟨false, false⟩⟩]
    = .ok ([⟨.uma .heapRead, .regOrImm .useRegOnly, .regOnly, ⟨false, false⟩⟩],
      [⟨.uma .heapRead, .regOrImm .useImm16Only, .regOnly, ⟨false, false⟩⟩]) := by decide
-- a merge that panics
example : Panics (findNewOpcodes [OpcodeVariant.default] []) := ⟨_, rfl⟩

/-! ## C22 -/

/-- C22: `semantically_equal` decides "same opcode, destination, flags, and same source up to the two spellings
of a register". -/
theorem C22_semantic_equality (a b : OpcodeVariant) :
    semanticallyEqual a b = true ↔ SameMeaning a b := semanticallyEqual_iff_sameMeaning a b

/-- C22: it is an equivalence relation. -/
theorem C22_equivalence :
    (∀ a, semanticallyEqual a a = true) ∧
    (∀ a b, semanticallyEqual a b = semanticallyEqual b a) ∧
    (∀ a b c, semanticallyEqual a b = true → semanticallyEqual b c = true → semanticallyEqual a c = true) := by
  refine ⟨fun a => by rw [semanticallyEqual_iff], fun a b => ?_, fun a b c => ?_⟩
  · rw [Bool.eq_iff_iff, semanticallyEqual_iff, semanticallyEqual_iff]; exact eq_comm
  · simp only [semanticallyEqual_iff]; exact Eq.trans

/-- C22: semantically equal variants have the same price, flags, restrictions, operand order and bitmask
(whatever the version, including when the bitmask function panics). -/
theorem C22_same_behaviour (a b : OpcodeVariant) (h : semanticallyEqual a b = true) :
    a.ergsPrice = b.ergsPrice ∧ a.flags = b.flags ∧ a.requiresKernelMode = b.requiresKernelMode ∧
    a.canBeUsedInStaticContext = b.canBeUsedInStaticContext ∧ a.isExplicitPanic = b.isExplicitPanic ∧
    a.swapOperands = b.swapOperands ∧
    ∀ version, opcodeAsIntegerBitmask a version = opcodeAsIntegerBitmask b version := by
  obtain ⟨h1, h2, h3, h4⟩ := (semanticallyEqual_iff_sameMeaning a b).1 h
  have hv : a.src0OperandType.variantIdx = b.src0OperandType.variantIdx := by
    have hm : ∀ o : Operand, o.variantIdx = (sourceMeaning o).variantIdx := by
      intro o
      rcases o with _ | f | f
      · rfl
      · cases f <;> rfl
      · rfl
    rw [hm a.src0OperandType, hm b.src0OperandType, h4]
  rcases a with ⟨ao, as, ad, af⟩
  rcases b with ⟨bo, bs, bd, bf⟩
  dsimp only at h1 h2 h3 hv
  subst h1 h2 h3
  refine ⟨rfl, rfl, rfl, rfl, rfl, rfl, fun version => ?_⟩
  unfold opcodeAsIntegerBitmask
  dsimp only
  rw [hv]
  rfl

-- two different variants that are semantically equal, and two that are not
example : semanticallyEqual (entryV0 1080) (entry 1080) = true ∧ entryV0 1080 ≠ entry 1080 := by decide
example : semanticallyEqual (entry 1075) (entry 1085) = false := by decide

/-! ## C23 -/

private theorem legacy_v0 :
    collect (legacyVariantsOfOpcode ⟨0⟩) (allOpcodesList.zip allOpcodePrototypes) = .ok tableV0 := by
  decide +kernel
private theorem legacy_v1 :
    collect (legacyVariantsOfOpcode ⟨1⟩) (allOpcodesList.zip allOpcodePrototypes) = .error .unreachable := by
  decide +kernel

private theorem legacyLoop_v0 : legacyLoop ⟨0⟩ [] allIsaVersions = .ok tableV0 := by
  unfold allIsaVersions legacyLoop
  rw [if_neg (by decide), allOpcodes_ok]
  simp only [bind, Except.bind, legacy_v0, density_v0, List.nil_append, length_tableV0]
  unfold legacyLoop
  rw [if_pos (by decide)]
  rfl

private theorem legacyLoop_gen {v : ISAVersion} (hv : 1 ≤ v.num) (T : List OpcodeVariant)
    (h0 : collect (legacyVariantsOfOpcode ⟨0⟩) (allOpcodesList.zip allOpcodePrototypes) = .ok T)
    (d0 : computeEncodingDensity ⟨0⟩ = .ok T.length) :
    legacyLoop v [] allIsaVersions = .error .unreachable := by
  unfold allIsaVersions legacyLoop
  rw [if_neg (by simp [ISAVersion.le]), allOpcodes_ok]
  simp only [bind, Except.bind, h0, d0, List.nil_append, beq_self_eq_true,
    show rassert true = .ok () from rfl]
  unfold legacyLoop
  rw [if_neg (by simp [ISAVersion.le, hv]), allOpcodes_ok]
  simp only [bind, Except.bind, legacy_v1]

private theorem legacyLoop_ge1 {v : ISAVersion} (hv : 1 ≤ v.num) :
    legacyLoop v [] allIsaVersions = .error .unreachable :=
  legacyLoop_gen hv tableV0 legacy_v0 (by rw [density_v0, length_tableV0])

/-- C23: at version 0 the legacy builder and the current builder do the same for every width (including
panics) and target; at every later version the legacy builder panics for every width and target. -/
theorem C23_legacy (bits : Nat) (target : Target) :
    synthesizeOpcodeDecodingTablesLegacy bits ⟨0⟩ target = synthesizeOpcodeDecodingTables bits ⟨0⟩ target ∧
    ∀ v : ISAVersion, 1 ≤ v.num → Panics (synthesizeOpcodeDecodingTablesLegacy bits v target) := by
  constructor
  · unfold synthesizeOpcodeDecodingTablesLegacy synthesizeOpcodeDecodingTables
    rw [legacyLoop_v0, loop_v0]
  · intro v hv
    unfold synthesizeOpcodeDecodingTablesLegacy
    rw [legacyLoop_ge1 hv, allOpcodes_ok]
    simp only [bind, Except.bind, checkNames_ok]
    cases usizeOneShl bits target with
    | error e => exact ⟨_, rfl⟩
    | ok n =>
      dsimp only
      cases vecWithCapacity n target with
      | error e => exact ⟨_, rfl⟩
      | ok u => exact ⟨_, rfl⟩

-- the version-0 table of the legacy builder exists at width 11
example : ∃ t, synthesizeOpcodeDecodingTablesLegacy 11 ⟨0⟩ = .ok t := by
  rw [(C23_legacy 11 .debug).1]; exact (C18_default 11 ⟨0⟩).1.2 (by decide)

/-! ## C24 -/

/-- C24: for versions above 1 the size functions panic, while the table builder returns the version-1 table and
the flag count is that of version 1. -/
theorem C24_unsupported_versions (v : ISAVersion) (hv : 2 ≤ v.num) :
    Panics (maxNumVariantsForVersion v) ∧
    Panics (totalDescriptionBitsForVersion v) ∧ Panics (totalDescriptionBitsRoundedForVersion v) ∧
    Panics (totalOpcodeDescriptionAndAuxBitsForVersion v) ∧
    Panics (computeDecodingFormat v) ∧ Panics (computeEncodingDensity v) ∧
    (∀ o, Panics (opcodeAsIntegerBitmask o v)) ∧ maxNumFlagsForVersion v = .ok 2 ∧
    ∀ bits target, synthesizeOpcodeDecodingTables bits v target = synthesizeOpcodeDecodingTables bits ⟨1⟩ target := by
  obtain ⟨n, rfl⟩ : ∃ n, v = ⟨n + 2⟩ := ⟨v.num - 2, by rcases v with ⟨k⟩; simp at hv ⊢; omega⟩
  have h1 : maxNumVariantsForVersion ⟨n + 2⟩ = .error .unimplemented := rfl
  refine ⟨⟨_, h1⟩, ⟨.unimplemented, ?_⟩, ⟨.unimplemented, ?_⟩, ⟨.unimplemented, ?_⟩, ⟨.unimplemented, ?_⟩,
    ⟨.unimplemented, ?_⟩, fun o => ⟨.unimplemented, ?_⟩, ?_, fun bits target => ?_⟩
  · unfold totalDescriptionBitsForVersion; rw [h1]; rfl
  · unfold totalDescriptionBitsRoundedForVersion; rw [h1]; rfl
  · unfold totalOpcodeDescriptionAndAuxBitsForVersion totalDescriptionBitsRoundedForVersion; rw [h1]; rfl
  · unfold computeDecodingFormat; rw [allOpcodes_ok, h1]; rfl
  · unfold computeEncodingDensity; rw [allOpcodes_ok]; simp only [bind, Except.bind, checkNames_ok]; rfl
  · unfold opcodeAsIntegerBitmask; rw [h1]; rfl
  · have hf : (allIsaVersions.filter fun el => el.le ⟨n + 2⟩) = allIsaVersions.filter fun el => el.le ⟨1⟩ := by
      simp [allIsaVersions, ISAVersion.le]
    have h2 : maxNumFlagsForVersion ⟨n + 2⟩ = maxNumFlagsForVersion ⟨1⟩ := by
      unfold maxNumFlagsForVersion
      rw [hf]
    rw [h2]
    decide +kernel
  · rw [synth_any, synth_any]; simp

-- such versions exist, and for them the table builder does succeed
example : (2 : Nat) ≤ (ISAVersion.mk 7).num ∧ ∃ t, synthesizeOpcodeDecodingTables 11 ⟨7⟩ = .ok t :=
  ⟨by decide, (C18_default 11 ⟨7⟩).1.2 (by decide)⟩

/-! ## C25 -/

/-- C25: for both versions, the density computed from operand counts equals the number of enumerated variants,
and that is the number of assigned opcode numbers: an entry of the table (of any admissible width) at a
positive number is `Invalid` iff the number is not below the density. -/
theorem C25_density (v : ISAVersion) (hv : v.num ≤ 1) :
    ∃ l d, allVariantsInVersion v = .ok l ∧ computeEncodingDensity v = .ok d ∧ d = l.length ∧
      d = (if v.num = 0 then 1085 else 1093) ∧
      ∀ bits target t, synthesizeOpcodeDecodingTables bits v target = .ok t →
        ∀ n, 0 < n → n < t.length → (t[n]? = some Spec.invalidVariant ↔ d ≤ n) := by
  rcases v with ⟨n⟩
  have : n = 0 ∨ n = 1 := by simp at hv; omega
  rcases this with rfl | rfl
  · refine ⟨tableV0, 1085, allVariants_v0, density_v0, length_tableV0.symm, rfl, ?_⟩
    intro bits target t ht n hn0 hn
    rw [(C18_shape bits _ target t ht).2 n (by rw [← (C18_shape bits _ target t ht).1]; exact hn), if_pos rfl, Option.some.injEq]
    constructor
    · intro h
      rcases Nat.lt_or_ge n 1085 with h' | h'
      · exact absurd (entryV0_injective h' (by decide) (h.trans (by rfl : Spec.invalidVariant = entryV0 0)))
          (by omega)
      · exact h'
    · exact fun h => entryV0_unassigned h
  · refine ⟨enumV1, 1093, allVariants_v1, density_v1, ?_, rfl, ?_⟩
    · rw [enumV1_def, List.length_append, List.length_map, List.length_range]
      decide
    intro bits target t ht n hn0 hn
    rw [(C18_shape bits _ target t ht).2 n (by rw [← (C18_shape bits _ target t ht).1]; exact hn), if_neg (by decide), Option.some.injEq, C16_assigned_distinct.2]
    omega

-- both hypotheses are satisfiable
example : (ISAVersion.mk 1).num ≤ 1 := by decide

end ZkEvm.Props
