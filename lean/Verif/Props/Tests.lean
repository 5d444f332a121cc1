import Verif.Lemmas.Tests
import Verif.Props.Table
import Verif.Props.Bitmask
import Verif.Props.Coding
/-!
# The crate's own unit tests, for every input: C97

The unit tests (`Verif/Model/Tests.lean`) look at one width, two variants and one word. Here what they check holds for
every width and target, every variant and every word.
-/
namespace ZkEvm.Props
open Spec Numbering Tables

/-- C97: the version check of the tests passes at exactly the widths and targets the table builder accepts, and otherwise
panics as the builder does. What it reports as new is exactly the variants of version 1 that no variant of version 0 has
the meaning of, and there are eight of them. -/
theorem C97_version_check (bits : Nat) (target : Target) (hp : 0 < target.usizeBits) :
    (∀ t, synthesizeOpcodeDecodingTables bits ⟨1⟩ target = .ok t → ∃ diff v0 v1,
      Tests.calculator bits target = .ok diff ∧
      allVariantsInVersion ⟨0⟩ = .ok v0 ∧ allVariantsInVersion ⟨1⟩ = .ok v1 ∧
      (∀ n, n ∈ diff ↔ n ∈ v1 ∧ ∀ o ∈ v0, ¬ SameMeaning n o) ∧ diff.length = 8 ∧
      diff = (t.drop 1085).take 8) ∧
    (∀ e, Tests.calculator bits target = .error e ↔
      synthesizeOpcodeDecodingTables bits ⟨1⟩ target = .error e) := by
  have key : ∀ t, synthesizeOpcodeDecodingTables bits ⟨1⟩ target = .ok t →
      Tests.calculator bits target = .ok ((List.range 8).map fun k => entry (1085 + k)) ∧
      11 ≤ effectiveWidth target bits := by
    intro t ht
    have w1 := (C18_width bits ⟨1⟩ target hp).1.1 ⟨t, ht⟩
    obtain ⟨t0, ht0⟩ := (C18_width bits ⟨0⟩ target hp).1.2 w1
    obtain ⟨s0, g0⟩ := C18_shape bits ⟨0⟩ target t0 ht0
    obtain ⟨s1, g1⟩ := C18_shape bits ⟨1⟩ target t ht
    have hpow : 2 ^ 11 ≤ 2 ^ effectiveWidth target bits := Nat.pow_le_pow_right (by decide) w1.1
    refine ⟨?_, w1.1⟩
    refine Tests.calculator_ok bits target tableV0 enumV1 t0 t _ _ 1085 1093 allVariants_v0 allVariants_v1
      ((C23_legacy bits target).1.trans ht0) ht0 ht density_v0 density_v1 findNew_v1 length_tableV0 (by decide)
      (by omega) (by omega) ?_ ?_ ?_
    · intro n hn
      rw [g0 n (by omega), if_pos rfl, tableV0_def, map_range_get 1085 entryV0 n hn]
    · intro n a b hn ha hb
      rw [g0 n (by omega), if_pos rfl] at ha
      rw [g1 n (by omega), if_neg (by decide)] at hb
      rw [semanticallyEqual_iff, ← Option.some.inj ha, ← Option.some.inj hb]
      exact (keys_agree hn).symm
    · intro n h1 h2
      refine ⟨invalidVariant, ?_, by decide⟩
      rw [g0 n (by omega), if_pos rfl, entryV0_unassigned h1]
  refine ⟨fun t ht => ?_, fun e => ?_⟩
  · obtain ⟨hc, hw⟩ := key t ht
    refine ⟨_, tableV0, enumV1, hc, allVariants_v0, allVariants_v1,
      (C21_merge _ _ _ _ findNew_v1).2.2.2.1, by simp only [List.length_map, List.length_range], ?_⟩
    obtain ⟨s1, g1⟩ := C18_shape bits ⟨1⟩ target t ht
    have hpow : 2 ^ 11 ≤ 2 ^ effectiveWidth target bits := Nat.pow_le_pow_right (by decide) hw
    apply List.ext_getElem?
    intro i
    by_cases hi : i < 8
    · rw [map_range_get 8 _ i hi, List.getElem?_take_of_lt hi, List.getElem?_drop, g1 _ (by omega),
        if_neg (by decide)]
    · rw [List.getElem?_eq_none (by simp only [List.length_map, List.length_range]; omega),
        List.getElem?_eq_none (by rw [List.length_take]; omega)]
  · cases ht : synthesizeOpcodeDecodingTables bits ⟨1⟩ target with
    | ok t =>
      rw [(key t ht).1]
      constructor <;> intro h <;> cases h
    | error e' =>
      have h0 : synthesizeOpcodeDecodingTables bits ⟨0⟩ target = .error e' := by
        have a := C18_width bits ⟨0⟩ target hp
        have b := C18_width bits ⟨1⟩ target hp
        have hb : effectiveWidth target bits < target.usizeBits ∨
            (target.build = .debug ∧ target.usizeBits ≤ bits) := by
          rcases target with ⟨build, w, s⟩
          cases build
          · by_cases h : bits < w
            · exact .inl h
            · exact .inr ⟨rfl, Nat.le_of_not_lt h⟩
          · exact .inl (Nat.mod_lt _ hp)
        rw [ht] at b
        rcases hb with hb | hb
        · by_cases hf : TableFits target (effectiveWidth target bits)
          · by_cases h11 : 11 ≤ effectiveWidth target bits
            · obtain ⟨t, h'⟩ := b.1.2 ⟨h11, hb, hf⟩
              cases h'
            · rw [b.2.2.2.2 ⟨hb, hf, by omega⟩]
              exact a.2.2.2.2 ⟨hb, hf, by omega⟩
          · rw [b.2.2.1.2 ⟨hb, hf⟩]
            exact a.2.2.1.2 ⟨hb, hf⟩
        · rw [b.2.1.2 hb]
          exact a.2.1.2 hb
      rw [Tests.calculator_error bits target tableV0 enumV1 e' allVariants_v0 allVariants_v1
        ((C23_legacy bits target).1.trans h0)]

/-- C97: the check at the width of the test passes; one bit less and it panics. -/
example : (∃ diff, Tests.calculator 11 = .ok diff ∧ diff.length = 8) ∧
    Tests.calculator 10 = .error .assertFailed := by
  constructor
  · obtain ⟨t, ht⟩ := (C18_default 11 ⟨1⟩).1.2 (by decide)
    obtain ⟨d, _, _, h, _, _, _, hl, _⟩ := (C97_version_check 11 .debug (by decide)).1 t ht
    exact ⟨d, h, hl⟩
  · exact ((C97_version_check 10 .debug (by decide)).2 _).2 ((C18_default 10 ⟨1⟩).2.1 (by decide))

/-- C97: run on any functions in place of the crate's, the version check passes exactly if none of them panics on what
they are asked, the legacy table starts with the version-0 variants in order and is the current one, every assigned
version-0 number has the same meaning in both versions, and every number assigned in version 1 only is invalid in
version 0. It reports what the merge reports. -/
theorem C97_version_check_of (f : Tests.Functions) (bits : Nat) (diff : List OpcodeVariant) :
    Tests.calculatorOf f bits = .ok diff ↔ ∃ v0 v1 t0 t1 n0 n1 kept,
      f.allVariantsInVersion ⟨0⟩ = .ok v0 ∧ f.allVariantsInVersion ⟨1⟩ = .ok v1 ∧
      f.synthesizeOpcodeDecodingTablesLegacy bits ⟨0⟩ = .ok t0 ∧
      f.synthesizeOpcodeDecodingTables bits ⟨0⟩ = .ok t0 ∧ f.synthesizeOpcodeDecodingTables bits ⟨1⟩ = .ok t1 ∧
      f.computeEncodingDensity ⟨0⟩ = .ok n0 ∧ f.computeEncodingDensity ⟨1⟩ = .ok n1 ∧
      f.findNewOpcodes v0 v1 = .ok (kept, diff) ∧
      v0 <+: t0 ∧ n0 ≤ n1 ∧
      (∀ i, i < n0 → ∃ a b, t0[i]? = some a ∧ t1[i]? = some b ∧ SameMeaning a b) ∧
      (∀ i, n0 ≤ i → i < n1 → ∃ v, t0[i]? = some v ∧ isInvalid v.opcode = true) := by
  have inv : ∀ v : OpcodeVariant, v.isExplicitPanic = isInvalid v.opcode := by
    intro v; unfold OpcodeVariant.isExplicitPanic isInvalid; rfl
  unfold Tests.calculatorOf
  simp only [Tests.bind_ok_iff, Tests.rassert_iff, Tests.sliceTo_iff, beq_iff_eq, decide_eq_true_eq]
  constructor
  · rintro ⟨v0, h0, v1, h1, legacy, hl, start, ⟨hs1, rfl⟩, _, hs2, t0, ht0, n0, hn0, _, rfl, ⟨kept, d⟩, hf, t1, ht1, n1,
      hn1, a, ⟨ha, rfl⟩, b, ⟨hb, rfl⟩, _, hp, _, hle, _, hq, hd⟩
    cases hd
    refine ⟨v0, v1, legacy, t1, n0, n1, kept, h0, h1, hl, ht0, ht1, hn0, hn1, hf, ?_, hle, ?_, ?_⟩
    · rw [← hs2]; exact List.take_prefix _ _
    · intro i hi
      refine ⟨legacy[i]'(by omega), t1[i]'(by omega), List.getElem?_eq_getElem _, List.getElem?_eq_getElem _, ?_⟩
      rw [← semanticallyEqual_iff_sameMeaning]
      refine (Tests.assertPairs_iff _).1 hp (_, _) (List.mem_of_getElem? (i := i) ?_)
      rw [List.getElem?_zip_eq_some, List.getElem?_take_of_lt hi, List.getElem?_take_of_lt hi]
      exact ⟨List.getElem?_eq_getElem _, List.getElem?_eq_getElem _⟩
    · intro i h1 h2
      obtain ⟨v, hv, hx⟩ := (Tests.assertPanics_iff _ _ _).1 hq i h1 (by omega)
      exact ⟨v, hv, inv v ▸ hx⟩
  · rintro ⟨v0, v1, t0, t1, n0, n1, kept, h0, h1, hl, ht0, ht1, hn0, hn1, hf, hpre, hle, hsame, hinv⟩
    have l0 : n0 ≤ t0.length ∧ n0 ≤ t1.length := by
      cases n0 with
      | zero => exact ⟨Nat.zero_le _, Nat.zero_le _⟩
      | succ k =>
        obtain ⟨a, b, ha, hb, _⟩ := hsame k (Nat.lt_succ_self _)
        exact ⟨(List.getElem?_eq_some_iff.1 ha).1, (List.getElem?_eq_some_iff.1 hb).1⟩
    refine ⟨v0, h0, v1, h1, t0, hl, v0, ⟨hpre.length_le, List.prefix_iff_eq_take.1 hpre⟩, (), rfl, t0, ht0, n0, hn0, (),
      rfl, (kept, diff), hf, t1, ht1, n1, hn1, _, ⟨l0.1, rfl⟩, _, ⟨l0.2, rfl⟩, (), ?_, (), hle, (), ?_, rfl⟩
    · rw [Tests.assertPairs_iff]
      rintro ⟨a, b⟩ hp
      obtain ⟨i, hi⟩ := List.getElem?_of_mem hp
      rw [List.getElem?_zip_eq_some] at hi
      have hlt : i < n0 := by
        have := (List.getElem?_eq_some_iff.1 hi.1).1
        rw [List.length_take] at this
        omega
      rw [List.getElem?_take_of_lt hlt, List.getElem?_take_of_lt hlt] at hi
      obtain ⟨a', b', ha, hb, hm⟩ := hsame i hlt
      rw [hi.1] at ha
      rw [hi.2] at hb
      cases ha
      cases hb
      exact (semanticallyEqual_iff_sameMeaning a b).2 hm
    · rw [Tests.assertPanics_iff]
      intro i h1 h2
      obtain ⟨v, hv, hx⟩ := hinv i h1 (by omega)
      exact ⟨v, hv, (inv v).trans hx⟩

/-- C97: the check rejects functions whose legacy table is a different one, and accepts an instruction set that only
consists of the invalid instruction. -/
example (v : OpcodeVariant) :
    (∃ diff, Tests.calculatorOf ⟨fun _ => .ok [invalidVariant], fun _ _ => .ok [invalidVariant],
      fun _ _ => .ok [invalidVariant], fun _ => .ok 1, fun a b => .ok (a, b)⟩ 0 = .ok diff) ∧
    ¬ ∃ diff, Tests.calculatorOf ⟨fun _ => .ok [invalidVariant], fun _ _ => .ok [invalidVariant, v],
      fun _ _ => .ok [invalidVariant], fun _ => .ok 1, fun a b => .ok (a, b)⟩ 0 = .ok diff := by
  constructor
  · refine ⟨_, (C97_version_check_of _ _ _).2 ⟨_, _, _, _, _, _, _, rfl, rfl, rfl, rfl, rfl, rfl, rfl, rfl,
      List.prefix_refl _, Nat.le_refl _, ?_, ?_⟩⟩
    · intro i hi
      cases i with
      | zero => exact ⟨_, _, rfl, rfl, rfl, rfl, rfl, rfl⟩
      | succ k => omega
    · intro i h1 h2
      omega
  · rintro ⟨diff, h⟩
    obtain ⟨_, _, t0, _, _, _, _, _, _, hl, hn, _⟩ := (C97_version_check_of _ _ _).1 h
    rw [← Except.ok.inj hl] at hn
    cases hn

/-- C97: looking up a variant as the tests do works for exactly the variants in the table, and gives the first number of
the variant and its own properties mask. -/
theorem C97_look_up (v : OpcodeVariant) : ∃ t, OPCODES_TABLE = .ok t ∧
    (∀ i m, Tests.lookUp v = .ok (i, m) ↔ IsFirstIndex t v i ∧ opcodeAsIntegerBitmask v ⟨1⟩ = .ok m) ∧
    ((∃ r, Tests.lookUp v = .ok r) ↔ v ∈ t) ∧
    (v ∉ t → Tests.lookUp v = .error .expectFailed) := by
  obtain ⟨t, m, _, ht, hm, _, h1, h2, _⟩ := C19_lookup_maps
  obtain ⟨t', masks, ht', hmasks, _, h3, _⟩ := C28_mask_table
  obtain ⟨t'', ht'', hlen, _⟩ := C16_table_numbering
  rw [ht] at ht' ht''
  cases ht'
  cases ht''
  have none_case : m.get v = none → Tests.lookUp v = .error .expectFailed := by
    intro h
    unfold Tests.lookUp
    rw [hm]
    simp only [bind, Except.bind, IndexMap.getOrPanic, h]
  have some_case : ∀ i, m.get v = some i →
      ∃ x, Tests.lookUp v = .ok (i, x) ∧ opcodeAsIntegerBitmask v ⟨1⟩ = .ok x := by
    intro i h
    have hi := (h1 v i).1 h
    have hv : t[i]? = some v := hi.1
    have hlt : i < 2048 := by
      have := (List.getElem?_eq_some_iff.1 hv).1
      omega
    obtain ⟨w, x, hw, hx, hmask, _⟩ := h3 i hlt
    rw [hv] at hw
    cases hw
    refine ⟨x, ?_, hmask⟩
    unfold Tests.lookUp
    rw [hm, hmasks]
    simp only [bind, Except.bind, IndexMap.getOrPanic, h, index, hx]
  refine ⟨t, ht, ?_, ?_, fun h => none_case ((h2 v).2 h)⟩
  · intro i x
    rw [← h1]
    cases hg : m.get v with
    | none =>
      rw [none_case hg]
      constructor
      · intro h; cases h
      · rintro ⟨h, _⟩; cases h
    | some j =>
      obtain ⟨y, hy, hb⟩ := some_case j hg
      rw [hy, hb]
      constructor
      · intro h; cases h; exact ⟨rfl, rfl⟩
      · rintro ⟨h, h'⟩; cases h; cases h'; rfl
  · constructor
    · rintro ⟨r, hr⟩
      by_cases h : v ∈ t
      · exact h
      · rw [none_case ((h2 v).2 h)] at hr
        cases hr
    · intro h
      cases hg : m.get v with
      | none => exact absurd h ((h2 v).1 hg)
      | some j =>
        obtain ⟨y, hy, _⟩ := some_case j hg
        exact ⟨_, hy⟩

/-- C97: the variant of `check_serialize` is found, one with an illegal flag is not. -/
example : (∃ r, Tests.lookUp ⟨.log .precompileCall, .regOnly, .regOnly, ⟨false, false⟩⟩ = .ok r) ∧
    Tests.lookUp ⟨.log .precompileCall, .regOnly, .regOnly, ⟨false, true⟩⟩ = .error .expectFailed := by
  constructor
  · obtain ⟨t, ht, _, h, _⟩ := C97_look_up ⟨.log .precompileCall, .regOnly, .regOnly, ⟨false, false⟩⟩
    rw [OPCODES_TABLE_eq] at ht
    cases ht
    exact h.2 ((mem_fullTable _).2 (by decide))
  · obtain ⟨t, ht, _, _, h⟩ := C97_look_up ⟨.log .precompileCall, .regOnly, .regOnly, ⟨false, true⟩⟩
    rw [OPCODES_TABLE_eq] at ht
    cases ht
    exact h fun hm => absurd ((mem_fullTable _).1 hm) (by decide)

/-- C97: decoding a word as the tests do never panics and gives the variant the production parser gives. -/
theorem C97_decode (raw : BitVec 64) : ∃ o n,
    Production.parse raw = .ok (o, n) ∧ Tests.decodeFromRaw raw = .ok o.variant := by
  obtain ⟨t, o, ht, hparse, hv, _⟩ := C01_decode_production raw
  refine ⟨o, _, hparse, ?_⟩
  have hb : (raw &&& ((1 <<< OPCODES_TABLE_WIDTH) - 1)).toNat = bits raw 0 11 := by
    rw [bits, Nat.pow_zero, Nat.div_one]
    exact Coding.mask_low raw _ 11 (by decide)
  unfold Tests.decodeFromRaw
  rw [ht]
  simp only [bind, Except.bind, hb, index, hv]

/-- C97: every word decodes in the test, also one whose number is unassigned. -/
example : (∃ v, Tests.decodeFromRaw 0x000300000004001d = .ok v) ∧
    Tests.decodeFromRaw 0x7ff = .ok Spec.invalidVariant := by
  refine ⟨let ⟨o, _, _, h⟩ := C97_decode _; ⟨o.variant, h⟩, ?_⟩
  obtain ⟨t, o, _, hp, _, hv, _⟩ := C01_decode_production 0x7ff
  obtain ⟨o', n, hp', h⟩ := C97_decode 0x7ff
  rw [hp] at hp'
  cases hp'
  rw [h, hv]
  decide

/-- C97: the two tests that print a part of the version-0 table print the entries numbered 0 to 19, and the entries
numbered 40 to 59, each beside its own mask. -/
theorem C97_printed : ∃ t first pairs, synthesizeOpcodeDecodingTables 11 ⟨0⟩ = .ok t ∧
    Tests.synthesizeTable = .ok first ∧ first.length = 20 ∧ (∀ k, k < 20 → first[k]? = t[k]?) ∧
    Tests.synthesizeBitEncodingTable = .ok pairs ∧ pairs.length = 20 ∧
    ∀ k, k < 20 → ∃ v m, pairs[k]? = some (v, m) ∧ t[40 + k]? = some v ∧ opcodeAsIntegerBitmask v ⟨0⟩ = .ok m := by
  obtain ⟨t, ht⟩ := (C18_default 11 ⟨0⟩).1.2 (by decide)
  have hlen : t.length = 2 ^ 11 := (C18_shape 11 ⟨0⟩ .debug t ht).1
  refine ⟨t, t.take 20, ((t.zip (t.map Bitmask.maskOf)).drop 40).take 20, ht, ?_, ?_, ?_, ?_, ?_, ?_⟩
  · unfold Tests.synthesizeTable
    rw [ht]
    simp only [bind, Except.bind]
    exact Tests.sliceTo_ok t 20 (by omega)
  · rw [List.length_take]; omega
  · intro k hk
    exact List.getElem?_take_of_lt hk
  · unfold Tests.synthesizeBitEncodingTable
    rw [ht]
    simp only [bind, Except.bind]
    rw [Bitmask.decomposition_eq t (by decide)]
  · rw [List.length_take, List.length_drop, List.length_zip, List.length_map]; omega
  · intro k hk
    obtain ⟨v, hv⟩ : ∃ v, t[40 + k]? = some v := ⟨_, List.getElem?_eq_getElem (by omega)⟩
    refine ⟨v, Bitmask.maskOf v, ?_, hv, Bitmask.bitmask_eq v (by decide)⟩
    rw [List.getElem?_take_of_lt hk, List.getElem?_drop, List.getElem?_zip_eq_some]
    exact ⟨hv, by rw [List.getElem?_map, hv]; rfl⟩

/-- C97: the first entry printed is the invalid instruction. -/
example : ∃ first, Tests.synthesizeTable = .ok first ∧ first[0]? = some Spec.invalidVariant := by
  obtain ⟨t, first, _, ht, h, _, hk, _⟩ := C97_printed
  refine ⟨first, h, ?_⟩
  rw [hk 0 (by decide), (C18_shape 11 ⟨0⟩ .debug t ht).2 0 (by decide), if_pos rfl]
  decide

/-- C97: all unit tests of the crate pass. -/
theorem C97_tests_pass : Tests.all.length = 8 ∧ ∀ r ∈ Tests.all, r = .ok () := by
  refine ⟨rfl, ?_⟩
  obtain ⟨t0, ht0⟩ := (C18_default 11 ⟨0⟩).1.2 (by decide)
  obtain ⟨t1, ht1⟩ := (C18_default 11 ⟨1⟩).1.2 (by decide)
  have hlen := (C18_shape 11 ⟨0⟩ .debug t0 ht0).1
  have look : ∀ v, WellFormed v = true → ∃ r, Tests.lookUp v = .ok r := by
    intro v hv
    obtain ⟨t, ht, _, h, _⟩ := C97_look_up v
    rw [OPCODES_TABLE_eq] at ht
    cases ht
    exact h.2 ((mem_fullTable v).2 hv)
  intro r hr
  simp only [Tests.all, List.mem_cons, List.not_mem_nil, or_false] at hr
  rcases hr with hr | hr | hr | hr | hr | hr | hr | hr
  · rw [hr, density_v0, density_v1]; exact rfl
  · rw [hr]; decide +kernel
  · rw [hr]
    unfold Tests.synthesizeTable
    rw [ht0]
    simp only [bind, Except.bind]
    rw [Tests.sliceTo_ok t0 20 (by rw [hlen, show effectiveWidth .debug 11 = 11 from rfl]; omega)]
    rfl
  · rw [hr]
    unfold Tests.synthesizeBitEncodingTable
    rw [ht0]
    simp only [bind, Except.bind]
    rw [Bitmask.decomposition_eq t0 (by decide)]
    rfl
  · rw [hr]
    obtain ⟨x, hx⟩ := look ⟨.add .add, .full .useImm16Only, .full .useRegOnly, ⟨false, false⟩⟩ (by decide)
    rw [hx]; rfl
  · rw [hr]
    obtain ⟨x, hx⟩ := look ⟨.log .precompileCall, .regOnly, .regOnly, ⟨false, false⟩⟩ (by decide)
    rw [hx]; rfl
  · rw [hr]
    obtain ⟨o, _, _, h⟩ := C97_decode 0x000300000004001d
    rw [h]; rfl
  · rw [hr]
    obtain ⟨d, _, _, h, _⟩ := (C97_version_check 11 .debug (by decide)).1 t1 ht1
    rw [h]; rfl

end ZkEvm.Props
