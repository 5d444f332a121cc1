import Verif.Props.Table
import Verif.Props.Program
import Verif.Props.Bitmask
import Verif.Props.Predicates
import Verif.Props.Published
import Verif.Props.Display
/-! C123: exactly which calls panic. -/
namespace ZkEvm.Props
open Spec

private theorem no_panic {α : Type} {r : Res α} {a : α} (h : r = .ok a) : ¬ Panics r := by
  rintro ⟨e, he⟩
  rw [h] at he
  cases he

private theorem no_panic_ex {α : Type} {r : Res α} (h : ∃ a, r = .ok a) : ¬ Panics r := by
  obtain ⟨a, h⟩ := h
  exact no_panic h

private theorem by_version {α : Type} (f : ISAVersion → Res α) (v : ISAVersion) (h : v.num ≤ 1 → ∃ a, f v = .ok a)
    (h' : 2 ≤ v.num → Panics (f v)) : Panics (f v) ↔ 2 ≤ v.num := by
  refine ⟨fun hp => Nat.le_of_not_lt fun hlt => no_panic_ex (h (by omega)) hp, h'⟩

/-- C123: what never panics: first use of any table, map or constant; decoding any word; the constant encodings in any build;
fetching with the second half of any program counter; what opcodes say about their outputs, and the number of flags, in any
version. -/
theorem C123_never :
    (¬ Panics OPCODES_TABLE ∧ ¬ Panics OPCODES_PROPS_INTEGER_BITMASKS ∧ ¬ Panics OPCODE_TO_CANONICAL_INDEX_LOOKUP_MAP ∧
      ¬ Panics OPCODE_TO_MONOTONIC_INDEX_NUMBER_MAP ∧ ¬ Panics NOP_OPCODE_VARIANT ∧ ¬ Panics NOP_BITSPREAD_U64 ∧
      ¬ Panics PANIC_OPCODE_VARIANT ∧ ¬ Panics PANIC_BITSPREAD_U64 ∧ ¬ Panics OPCODES_PRICES ∧ ¬ Panics OPCODE_PROTOTYPES) ∧
    (∀ w, ¬ Panics (Production.parse w)) ∧ (∀ w, ¬ Panics (Testing.parse w)) ∧
    (∀ b, ¬ Panics (Production.nopEncoding b) ∧ ¬ Panics (Production.exceptionRevertEncoding b) ∧
      ¬ Panics (Testing.nopEncoding b) ∧ ¬ Panics (Testing.exceptionRevertEncoding b)) ∧
    (∀ v pc, ¬ Panics (Production.integerRepresentationFromU256 v (Production.splitPc pc).2)) ∧
    (∀ v pc, ¬ Panics (Testing.integerRepresentationFromU256 v (Testing.splitPc pc).2)) ∧
    (∀ (o : Opcode) version, ¬ Panics (o.outputOperands version) ∧ ¬ Panics (o.canWriteDst0IntoMemory version)) ∧
    ∀ version, ¬ Panics (maxNumFlagsForVersion version) := by
  obtain ⟨t, m, mm, h1, h2, h3, _⟩ := C19_lookup_maps
  obtain ⟨_, nop, pan, w, w', _, h4, h5, _, _, _, _, h6, _, h7, _⟩ := C29_constants
  obtain ⟨_, _, _, _, ⟨_, _, h8, _⟩⟩ := C73_prototypes
  refine ⟨⟨no_panic h1, no_panic Bitmask.masks_eq, no_panic h2, no_panic h3, no_panic h4, no_panic h6, no_panic h5,
    no_panic h7, no_panic PriceLemmas.prices_eq, no_panic h8⟩, fun w => ?_, fun w => ?_, fun b => ⟨?_, ?_, ?_, ?_⟩, fun v pc => ?_,
    fun v pc => ?_, fun o version => ⟨(C31_predicates o version).2.2.2.2, ?_⟩, fun version => ?_⟩
  · obtain ⟨_, _, _, h, _⟩ := C01_decode_production w
    exact no_panic h
  · obtain ⟨_, _, _, h, _⟩ := C01_decode_testing w
    exact no_panic h
  · obtain ⟨_, _, _, h, _⟩ := (C11_mask_encoding_production b (DecodedOpcode.default 16)).2
    exact no_panic h
  · obtain ⟨_, _, _, h, _⟩ := (C11_mask_encoding_production b (DecodedOpcode.default 16)).1
    exact no_panic h
  · obtain ⟨_, _, _, h, _⟩ := (C11_mask_encoding_testing b (DecodedOpcode.default 32)).2
    exact no_panic h
  · obtain ⟨_, _, _, h, _⟩ := (C11_mask_encoding_testing b (DecodedOpcode.default 32)).1
    exact no_panic h
  · have hlt : (Production.splitPc pc).2.toNat < 4 := by
      show (pc &&& 0b11#16).toNat < 4
      rw [BitVec.toNat_and]
      exact Nat.lt_of_le_of_lt Nat.and_le_right (by decide)
    obtain ⟨x, h, _⟩ := (C10_fetch v).1 _ hlt
    exact no_panic h
  · have hlt : (Testing.splitPc pc).2.toNat < 2 := by
      show (pc &&& 0b1#32).toNat < 2
      rw [BitVec.toNat_and]
      exact Nat.lt_of_le_of_lt Nat.and_le_right (by decide)
    obtain ⟨x, h, _⟩ := (C10_fetch v).2.2.1 _ hlt
    exact no_panic h
  · cases h : o.outputOperands version with
    | ok outs => exact no_panic ((C31_predicates o version).2.1 outs h)
    | error e => exact absurd ⟨e, h⟩ (C31_predicates o version).2.2.2.2
  · rcases version with ⟨_ | _ | n⟩
    · exact no_panic (a := 2) (by decide +kernel)
    · exact no_panic (a := 2) (by decide +kernel)
    · exact no_panic (C24_unsupported_versions ⟨n + 2⟩ (by simp)).2.2.2.2.2.2.2.1

/-- C123: exactly when the functions that take an instruction, a word or an index panic. -/
theorem C123_instructions (b : Build) :
    (∀ o, Panics (Production.encodeAsInteger b o) ↔ WellFormed o.variant = false ∨ (b = .debug ∧ ¬ RegistersOk o)) ∧
    (∀ o, Panics (Testing.encodeAsInteger b o) ↔ WellFormed o.variant = false ∨ (b = .debug ∧ ¬ RegistersOk o)) ∧
    (∀ o, Panics (Production.encodeAsBytes b o) ↔ WellFormed o.variant = false ∨ (b = .debug ∧ ¬ RegistersOk o)) ∧
    (∀ o, Panics (Testing.encodeAsBytes b o) ↔ WellFormed o.variant = false ∨ (b = .debug ∧ ¬ RegistersOk o)) ∧
    (∀ low high, Panics (mergeU4 b low high) ↔ b = .debug ∧ (16 ≤ low.toNat ∨ 16 ≤ high.toNat)) ∧
    (∀ v i, Panics (Production.integerRepresentationFromU256 v i) ↔ 4 ≤ i.toNat) ∧
    (∀ v i, Panics (Testing.integerRepresentationFromU256 v i) ↔ 2 ≤ i.toNat) ∧
    (∀ i, Panics (Condition.materializeVariant i) ↔ 8 ≤ i) ∧
    ∀ (proto : Opcode) idx version, Panics (proto.materializeSubvariantFromPrototype idx version) ↔ familySize proto ≤ idx := by
  refine ⟨(C07_encode_panics_iff b).1, (C07_encode_panics_iff b).2, fun o => ?_, fun o => ?_, fun l h => ?_, fun v i => ?_,
    fun v i => ?_, fun i => ?_, fun p i v => ?_⟩
  · rw [← (C07_encode_panics_iff b).1 o]
    unfold Production.encodeAsBytes
    cases Production.encodeAsInteger b o with
    | ok w => exact iff_of_false (fun ⟨e, h⟩ => by cases h) (fun ⟨e, h⟩ => by cases h)
    | error e => exact ⟨fun _ => ⟨e, rfl⟩, fun _ => ⟨e, rfl⟩⟩
  · rw [← (C07_encode_panics_iff b).2 o]
    unfold Testing.encodeAsBytes
    cases Testing.encodeAsInteger b o with
    | ok w => exact iff_of_false (fun ⟨e, h⟩ => by cases h) (fun ⟨e, h⟩ => by cases h)
    | error e => exact ⟨fun _ => ⟨e, rfl⟩, fun _ => ⟨e, rfl⟩⟩
  · cases b with
    | debug => exact (C59_nibbles.2.2.1 l h).trans ⟨fun h => ⟨rfl, h⟩, fun h => h.2⟩
    | release =>
      obtain ⟨x, hx, _⟩ := C59_nibbles.2.2.2 l h
      exact ⟨fun hp => absurd hp (no_panic hx), fun hp => nomatch hp.1⟩
  · refine ⟨fun hp => Nat.le_of_not_lt fun hlt => ?_, (C10_fetch v).2.1 i⟩
    obtain ⟨x, h, _⟩ := (C10_fetch v).1 i hlt
    exact no_panic h hp
  · refine ⟨fun hp => Nat.le_of_not_lt fun hlt => ?_, (C10_fetch v).2.2.2 i⟩
    obtain ⟨x, h, _⟩ := (C10_fetch v).2.2.1 i hlt
    exact no_panic h hp
  · refine ⟨fun hp => Nat.le_of_not_lt fun hlt => ?_, C36_condition.2.2.1 i⟩
    obtain ⟨x, h, _⟩ := C36_condition.2.1 i hlt
    exact no_panic h hp
  · refine ⟨fun hp => Nat.le_of_not_lt fun hlt => ?_, (C30_index p i v).2⟩
    obtain ⟨x, h, _⟩ := (C30_index p i v).1 hlt
    exact no_panic h hp

/-- C123: exactly when the functions of a version panic. Versions above 1 are unknown to all but the builders of tables, the
number of flags and most opcodes. -/
theorem C123_versions (v : ISAVersion) :
    (Panics (maxNumVariantsForVersion v) ↔ 2 ≤ v.num) ∧ (Panics (totalDescriptionBitsForVersion v) ↔ 2 ≤ v.num) ∧
    (Panics (totalDescriptionBitsRoundedForVersion v) ↔ 2 ≤ v.num) ∧
    (Panics (totalOpcodeDescriptionAndAuxBitsForVersion v) ↔ 2 ≤ v.num) ∧ (Panics (computeEncodingDensity v) ↔ 2 ≤ v.num) ∧
    (Panics (computeDecodingFormatText v) ↔ 2 ≤ v.num) ∧ (∀ o, Panics (opcodeAsIntegerBitmask o v) ↔ 2 ≤ v.num) ∧
    (∀ l, Panics (synthesizeBitDecompositionTable l v) ↔ 2 ≤ v.num ∧ l ≠ []) ∧
    (∀ o, Panics (familyData o v) ↔ 2 ≤ v.num) ∧ (∀ o, Panics (familyMaxIdx o v) ↔ 2 ≤ v.num ∧ familyNumber o = 15) ∧
    (∀ o, Panics (familyMaxIdxForVersion o v) ↔ 2 ≤ v.num ∧ familyNumber o = 15) ∧
    (∀ o : Opcode, Panics (o.inputOperands v) ↔ 2 ≤ v.num ∧ familyNumber o = 15) ∧
    (∀ o : Opcode, Panics (o.canHaveSrc0FromMem v) ↔ 2 ≤ v.num ∧ familyNumber o = 15) ∧
    (∀ bits target, 0 < target.usizeBits → (Panics (synthesizeOpcodeDecodingTables bits v target) ↔
      ¬ (11 ≤ effectiveWidth target bits ∧ effectiveWidth target bits < target.usizeBits ∧
        TableFits target (effectiveWidth target bits)))) ∧
    ∀ bits target, 0 < target.usizeBits → (Panics (synthesizeOpcodeDecodingTablesLegacy bits v target) ↔
      1 ≤ v.num ∨ ¬ (11 ≤ effectiveWidth target bits ∧ effectiveWidth target bits < target.usizeBits ∧
        TableFits target (effectiveWidth target bits))) := by
  have hu := C24_unsupported_versions v
  have hk := fun h => C71_aux_bits INVALID_OPCODE_VARIANT v h
  have table : ∀ bits v target, 0 < target.usizeBits → (Panics (synthesizeOpcodeDecodingTables bits v target) ↔
      ¬ (11 ≤ effectiveWidth target bits ∧ effectiveWidth target bits < target.usizeBits ∧
        TableFits target (effectiveWidth target bits))) := by
    intro bits v target hp
    rw [← (C18_width bits v target hp).1]
    constructor
    · exact fun h h' => no_panic_ex h' h
    · intro h
      cases hr : synthesizeOpcodeDecodingTables bits v target with
      | ok t => exact absurd ⟨t, hr⟩ h
      | error e => exact ⟨e, rfl⟩
  refine ⟨by_version _ v ?_ fun h => (hu h).1, by_version _ v ?_ fun h => (hu h).2.1, by_version _ v ?_ fun h => (hu h).2.2.1,
    by_version _ v ?_ fun h => (hu h).2.2.2.1, by_version _ v ?_ fun h => (hu h).2.2.2.2.2.1,
    by_version _ v (fun h => ⟨_, (C67_format v).1 h⟩) (C67_format v).2, fun o => by_version (opcodeAsIntegerBitmask o) v ?_ fun h => (hu h).2.2.2.2.2.2.1 o,
    fun l => ?_, fun o => by_version (familyData o) v ?_ (C81_data o v).2, fun o => ?_, fun o => ?_,
    fun o => (C31_predicates o v).2.2.1, fun o => (C31_predicates o v).2.2.2.1, fun bits target hp => table bits v target hp,
    fun bits target hp => ?_⟩
  · intro h
    obtain ⟨n, hn, _⟩ := C35_bits_suffice v h
    exact ⟨n, hn⟩
  · intro h
    obtain ⟨_, d, _, _, _, h1, _⟩ := hk h
    exact ⟨d, h1⟩
  · intro h
    obtain ⟨_, _, d, _, _, _, h1, _⟩ := hk h
    exact ⟨d, h1⟩
  · intro h
    obtain ⟨_, _, _, d, _, _, _, h1, _⟩ := hk h
    exact ⟨d, h1⟩
  · intro h
    obtain ⟨_, d, _, h1, _⟩ := C25_density v h
    exact ⟨d, h1⟩
  · intro h
    obtain ⟨w, h1, _⟩ := C26_layout o v h
    exact ⟨w, h1⟩
  · constructor
    · intro hp
      have h2 : 2 ≤ v.num := Nat.le_of_not_lt fun hlt => by
        obtain ⟨m, h1, _⟩ := (C72_decomposition l v).1 (by omega)
        exact no_panic h1 hp
      exact ⟨h2, ((C72_decomposition l v).2 h2).1 hp⟩
    · exact fun h => ((C72_decomposition l v).2 h.1).2 h.2
  · intro h
    obtain ⟨l, h1, _⟩ := (C81_data o v).1 h
    exact ⟨l, h1⟩
  · rcases v with ⟨_ | _ | n⟩
    · refine ⟨fun hp => ?_, fun h => absurd h.1 (by simp)⟩
      cases o <;> exact absurd hp (no_panic rfl)
    · refine ⟨fun hp => ?_, fun h => absurd h.1 (by simp)⟩
      cases o <;> exact absurd hp (no_panic rfl)
    · cases o
      case uma o => exact ⟨fun _ => ⟨by simp, by cases o <;> rfl⟩, fun _ => ⟨_, rfl⟩⟩
      all_goals exact ⟨fun hp => absurd hp (no_panic rfl), fun h => nomatch h.2⟩
  · constructor
    · intro hp
      by_cases h : v.num ≤ 1 ∨ familyNumber o ≠ 15
      · exact absurd hp (no_panic ((C35_for_version o v).1 h))
      · omega
    · exact fun h => (C35_for_version o v).2 h.1 h.2
  · by_cases hv : 1 ≤ v.num
    · exact ⟨fun _ => .inl hv, fun _ => (C23_legacy bits target).2 v hv⟩
    · obtain rfl : v = ⟨0⟩ := by
        cases v
        dsimp only at hv
        rw [show _ = 0 from Nat.eq_zero_of_not_pos hv]
      rw [(C23_legacy bits target).1, table bits ⟨0⟩ target hp]
      exact ⟨.inr, fun h => h.resolve_left hv⟩

example : Panics (familyMaxIdx (.uma .heapRead) ⟨2⟩) ∧ ¬ Panics (familyMaxIdx (.log .event) ⟨2⟩) ∧
    Panics (Condition.materializeVariant 8) ∧ Panics (mergeU4 .debug 16 0) ∧ ¬ Panics (mergeU4 .release 16 0) ∧
    ¬ Panics (synthesizeOpcodeDecodingTables 12 ⟨1⟩) ∧ Panics (synthesizeOpcodeDecodingTables 10 ⟨1⟩) := by
  refine ⟨((C123_versions ⟨2⟩).2.2.2.2.2.2.2.2.2.1 _).2 ⟨by decide, rfl⟩, no_panic rfl, ⟨_, rfl⟩, ⟨_, rfl⟩, no_panic rfl, ?_, ?_⟩
  · rw [(C123_versions ⟨1⟩).2.2.2.2.2.2.2.2.2.2.2.2.2.1 12 .debug (by decide)]
    unfold TableFits
    decide
  · rw [(C123_versions ⟨1⟩).2.2.2.2.2.2.2.2.2.2.2.2.2.1 10 .debug (by decide)]
    unfold TableFits
    decide

end ZkEvm.Props
