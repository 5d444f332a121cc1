import Verif.Spec.Builds
import Verif.Props.Coding
import Verif.Props.Table
import Verif.Props.Program
import Verif.Props.Prices
import Verif.Props.PriceParams
/-! C122: release builds do what debug builds did. -/
namespace ZkEvm.Props
open Spec PriceGenerator

private theorem res_cases {α : Type} (r : Res α) : (∃ a, r = .ok a) ∨ ∃ e, r = .error e := by
  cases r with
  | ok a => exact .inl ⟨a, rfl⟩
  | error e => exact .inr ⟨e, rfl⟩

private theorem not_both {α : Type} {r : Res α} {a : α} (h : r = .ok a) : ¬ Panics r := by
  rintro ⟨e, he⟩
  rw [h] at he
  cases he

private theorem encodable_production {o : DecodedOpcode 16} {w : BitVec 64} (h : Production.encodeAsInteger .debug o = .ok w) :
    Encodable o := by
  have hn := fun hp => not_both h (((C07_encode_panics_iff .debug).1 o).2 hp)
  refine ⟨?_, Classical.byContradiction fun h2 => hn (.inr ⟨rfl, h2⟩)⟩
  cases hw : WellFormed o.variant
  · exact absurd (.inl hw) hn
  · rfl

private theorem encodable_testing {o : DecodedOpcode 32} {w : BitVec 128} (h : Testing.encodeAsInteger .debug o = .ok w) :
    Encodable o := by
  have hn := fun hp => not_both h (((C07_encode_panics_iff .debug).2 o).2 hp)
  refine ⟨?_, Classical.byContradiction fun h2 => hn (.inr ⟨rfl, h2⟩)⟩
  cases hw : WellFormed o.variant
  · exact absurd (.inl hw) hn
  · rfl

private theorem any_build_production {o : DecodedOpcode 16} (hE : Encodable o) (b b' : Build) {w : BitVec 64}
    (h : Production.encodeAsInteger b o = .ok w) : Production.encodeAsInteger b' o = .ok w := by
  obtain ⟨_, w0, n, _, h0, hp, _⟩ := C02_roundtrip_production b o hE
  rw [h] at h0
  obtain rfl := Except.ok.inj h0
  obtain ⟨w1, h1, e1⟩ := C04_decode_encode_production b w o _ hp
  rw [h] at h1
  obtain rfl := Except.ok.inj h1
  obtain ⟨w2, h2, e2⟩ := C04_decode_encode_production b' w o _ hp
  rw [h2, e2.2.2.2.2 (e1.2.2.2.1 rfl)]

private theorem any_build_testing {o : DecodedOpcode 32} (hE : Encodable o) (b b' : Build) {w : BitVec 128}
    (h : Testing.encodeAsInteger b o = .ok w) : Testing.encodeAsInteger b' o = .ok w := by
  obtain ⟨_, w0, n, _, h0, hp, _⟩ := C03_roundtrip_testing b o hE
  rw [h] at h0
  obtain rfl := Except.ok.inj h0
  obtain ⟨w1, h1, e1⟩ := C05_decode_encode_testing b w o _ hp
  rw [h] at h1
  obtain rfl := Except.ok.inj h1
  obtain ⟨w2, h2, e2⟩ := C05_decode_encode_testing b' w o _ hp
  rw [h2, e2.2.2.2.2.2 (e1.2.2.2.2.1 rfl)]

private theorem integer_production (o : DecodedOpcode 16) : CarriesOver fun b => Production.encodeAsInteger b o :=
  fun _ h => any_build_production (encodable_production h) _ _ h

private theorem integer_testing (o : DecodedOpcode 32) : CarriesOver fun b => Testing.encodeAsInteger b o :=
  fun _ h => any_build_testing (encodable_testing h) _ _ h

private theorem bytes_production {o : DecodedOpcode 16} {b : Build} {bs : List Byte} (h : Production.encodeAsBytes b o = .ok bs) :
    ∃ w, Production.encodeAsInteger b o = .ok w ∧ bs = toBeBytes 8 w := by
  unfold Production.encodeAsBytes at h
  cases hw : Production.encodeAsInteger b o with
  | error e => rw [hw] at h; cases h
  | ok w => rw [hw] at h; exact ⟨w, rfl, (Except.ok.inj h).symm⟩

private theorem bytes_testing {o : DecodedOpcode 32} {b : Build} {bs : List Byte} (h : Testing.encodeAsBytes b o = .ok bs) :
    ∃ w, Testing.encodeAsInteger b o = .ok w ∧ bs = toBeBytes 16 w := by
  unfold Testing.encodeAsBytes at h
  cases hw : Testing.encodeAsInteger b o with
  | error e => rw [hw] at h; cases h
  | ok w => rw [hw] at h; exact ⟨w, rfl, (Except.ok.inj h).symm⟩

private theorem bytes_over_production (o : DecodedOpcode 16) : CarriesOver fun b => Production.encodeAsBytes b o := by
  intro bs h
  obtain ⟨w, hw, rfl⟩ := bytes_production h
  show Production.encodeAsBytes .release o = _
  unfold Production.encodeAsBytes
  rw [show Production.encodeAsInteger .release o = .ok w from integer_production o w hw]
  rfl

private theorem bytes_over_testing (o : DecodedOpcode 32) : CarriesOver fun b => Testing.encodeAsBytes b o := by
  intro bs h
  obtain ⟨w, hw, rfl⟩ := bytes_testing h
  show Testing.encodeAsBytes .release o = _
  unfold Testing.encodeAsBytes
  rw [show Testing.encodeAsInteger .release o = .ok w from integer_testing o w hw]
  rfl

private theorem bind_over {α β : Type} (r : Res α) (g : Build → α → Res β) (h : ∀ a, CarriesOver fun b => g b a) :
    CarriesOver fun b => r >>= g b := by
  intro x hx
  cases r with
  | error e => cases hx
  | ok a => exact h a x hx

private theorem table_over (bits : Nat) (v : ISAVersion) (target : Target) (hp : 0 < target.usizeBits) :
    CarriesOver fun b => synthesizeOpcodeDecodingTables bits v { target with build := b } := by
  intro t h
  have hlt : bits < target.usizeBits := by
    refine Nat.lt_of_not_le fun hle => ?_
    have := (C18_width bits v { target with build := .debug } hp).2.1.2 ⟨rfl, hle⟩
    exact not_both h ⟨_, this⟩
  show synthesizeOpcodeDecodingTables bits v { target with build := .release } = _
  rw [C18_release bits v { target with build := .release } rfl hp]
  dsimp only
  rw [Nat.mod_eq_of_lt hlt]
  exact h

/-- C122: whatever a function that contains arithmetic or debug assertions returns in a debug build, it returns in a release
build: encoding instructions, the constant encodings, merging registers, building the tables for any target, and
computing and writing prices. -/
theorem C122_carries_over :
    (∀ o, CarriesOver fun b => Production.encodeAsInteger b o) ∧ (∀ o, CarriesOver fun b => Testing.encodeAsInteger b o) ∧
    (∀ o, CarriesOver fun b => Production.encodeAsBytes b o) ∧ (∀ o, CarriesOver fun b => Testing.encodeAsBytes b o) ∧
    (CarriesOver fun b => Production.nopEncoding b) ∧ (CarriesOver fun b => Testing.nopEncoding b) ∧
    (CarriesOver fun b => Production.exceptionRevertEncoding b) ∧ (CarriesOver fun b => Testing.exceptionRevertEncoding b) ∧
    (∀ low high, CarriesOver fun b => mergeU4 b low high) ∧
    (∀ (bits : Nat) (v : ISAVersion) (target : Target), 0 < target.usizeBits →
      (CarriesOver fun b => synthesizeOpcodeDecodingTables bits v { target with build := b }) ∧
      CarriesOver fun b => synthesizeOpcodeDecodingTablesLegacy bits v { target with build := b }) ∧
    (∀ x y : BitVec 32, CarriesOver fun b => ceilDiv x.toNat y.toNat b) ∧
    ∀ p, CarriesOver fun b => fileContent b p := by
  refine ⟨integer_production, integer_testing, bytes_over_production, bytes_over_testing, ?_, ?_, ?_, ?_, ?_, ?_, ?_,
    fun p text h => C88_release p text h⟩
  · exact bind_over _ _ fun v => integer_production _
  · exact bind_over _ _ fun v => integer_testing _
  · exact bind_over _ _ fun v => integer_production _
  · exact bind_over _ _ fun v => integer_testing _
  · intro l h x hx
    have hn : ¬ (16 ≤ l.toNat ∨ 16 ≤ h.toNat) := fun hp => not_both hx ((C59_nibbles.2.2.1 l h).2 hp)
    obtain ⟨y, hy, hv, _⟩ := C59_nibbles.2.1 .debug l h (by omega) (by omega)
    obtain ⟨z, hz, hv', _⟩ := C59_nibbles.2.1 .release l h (by omega) (by omega)
    have hx' : mergeU4 .debug l h = .ok x := hx
    rw [hx'] at hy
    obtain rfl := Except.ok.inj hy
    rw [show x = z from BitVec.eq_of_toNat_eq (hv.trans hv'.symm)]
    exact hz
  · intro bits v target hp
    refine ⟨table_over bits v target hp, fun t h => ?_⟩
    by_cases hv : 1 ≤ v.num
    · exact absurd ((C23_legacy bits { target with build := .debug }).2 v hv) (not_both h)
    · obtain rfl : v = ⟨0⟩ := by
        cases v
        dsimp only at hv
        rw [show _ = 0 from Nat.eq_zero_of_not_pos hv]
      show synthesizeOpcodeDecodingTablesLegacy bits ⟨0⟩ { target with build := .release } = _
      rw [(C23_legacy bits { target with build := .release }).1]
      refine table_over bits ⟨0⟩ target hp t ?_
      show synthesizeOpcodeDecodingTables bits ⟨0⟩ { target with build := .debug } = _
      rw [← (C23_legacy bits { target with build := .debug }).1]
      exact h
  · intro x y q h
    have h' : ceilDiv x.toNat y.toNat .debug = .ok q := h
    show ceilDiv x.toNat y.toNat .release = .ok q
    unfold ceilDiv addU32 at h' ⊢
    dsimp only at h' ⊢
    by_cases h1 : x.toNat + y.toNat < 2 ^ 32
    · rw [if_pos h1] at h'
      rw [Nat.mod_eq_of_lt h1]
      by_cases h2 : 1 ≤ x.toNat + y.toNat
      · have e : (x.toNat + y.toNat + 2 ^ 32 - 1) % 2 ^ 32 = x.toNat + y.toNat - 1 := by omega
        simp only [subU32, bind, Except.bind, if_pos h2, e] at h' ⊢
        exact h'
      · simp only [subU32, bind, Except.bind, if_neg h2] at h'
        cases h'
    · rw [if_neg h1] at h'
      cases h'

/-- C122: exactly where a debug build panics and a release build returns. For instructions: a register index above 15. -/
theorem C122_differences :
    (∀ o, OnlyDebugPanics (fun b => Production.encodeAsInteger b o) ↔ WellFormed o.variant = true ∧ ¬ RegistersOk o) ∧
    (∀ o, OnlyDebugPanics (fun b => Testing.encodeAsInteger b o) ↔ WellFormed o.variant = true ∧ ¬ RegistersOk o) ∧
    (∀ low high, OnlyDebugPanics (fun b => mergeU4 b low high) ↔ 16 ≤ low.toNat ∨ 16 ≤ high.toNat) ∧
    (∀ (bits : Nat) (v : ISAVersion) (target : Target), 0 < target.usizeBits →
      (OnlyDebugPanics (fun b => synthesizeOpcodeDecodingTables bits v { target with build := b }) ↔
        target.usizeBits ≤ bits ∧ 11 ≤ bits % target.usizeBits ∧ TableFits target (bits % target.usizeBits))) ∧
    ∀ x y : BitVec 32, OnlyDebugPanics (fun b => ceilDiv x.toNat y.toNat b) ↔ y.toNat ≠ 0 ∧ 2 ^ 32 ≤ x.toNat + y.toNat := by
  refine ⟨fun o => ?_, fun o => ?_, fun l h => ?_, fun bits v target hp => ?_, fun x y => ?_⟩
  · have hd := (C07_encode_panics_iff .debug).1 o
    have hr := (C07_encode_panics_iff .release).1 o
    constructor
    · rintro ⟨h1, _, h2⟩
      have hw : WellFormed o.variant = true := by
        cases hw : WellFormed o.variant
        · exact absurd (hr.2 (.inl hw)) (not_both h2)
        · rfl
      refine ⟨hw, fun h3 => ?_⟩
      rcases hd.1 h1 with h4 | h4
      · rw [hw] at h4; cases h4
      · exact h4.2 h3
    · rintro ⟨hw, h2⟩
      refine ⟨hd.2 (.inr ⟨rfl, h2⟩), ?_⟩
      rcases res_cases (Production.encodeAsInteger .release o) with h | h
      · exact h
      · rcases hr.1 h with h4 | h4
        · rw [hw] at h4; cases h4
        · cases h4.1
  · have hd := (C07_encode_panics_iff .debug).2 o
    have hr := (C07_encode_panics_iff .release).2 o
    constructor
    · rintro ⟨h1, _, h2⟩
      have hw : WellFormed o.variant = true := by
        cases hw : WellFormed o.variant
        · exact absurd (hr.2 (.inl hw)) (not_both h2)
        · rfl
      refine ⟨hw, fun h3 => ?_⟩
      rcases hd.1 h1 with h4 | h4
      · rw [hw] at h4; cases h4
      · exact h4.2 h3
    · rintro ⟨hw, h2⟩
      refine ⟨hd.2 (.inr ⟨rfl, h2⟩), ?_⟩
      rcases res_cases (Testing.encodeAsInteger .release o) with h | h
      · exact h
      · rcases hr.1 h with h4 | h4
        · rw [hw] at h4; cases h4
        · cases h4.1
  · obtain ⟨x, hx, _⟩ := C59_nibbles.2.2.2 l h
    exact ⟨fun ⟨h1, _⟩ => (C59_nibbles.2.2.1 l h).1 h1, fun h1 => ⟨(C59_nibbles.2.2.1 l h).2 h1, x, hx⟩⟩
  · have hr := (C18_width bits v { target with build := .release } hp).1
    have hd := C18_width bits v { target with build := .debug } hp
    have hm := Nat.mod_lt bits hp
    unfold effectiveWidth at hr hd
    dsimp only at hr hd
    constructor
    · rintro ⟨⟨e, he⟩, h2⟩
      obtain ⟨r1, _, r3⟩ := hr.1 h2
      refine ⟨Nat.le_of_not_lt fun hlt => ?_, r1, r3⟩
      rw [Nat.mod_eq_of_lt hlt] at r1 r3
      obtain ⟨t, ht⟩ := hd.1.2 ⟨r1, hlt, r3⟩
      exact not_both ht ⟨e, he⟩
    · rintro ⟨h1, h2, h3⟩
      exact ⟨⟨_, hd.2.1.2 ⟨rfl, h1⟩⟩, hr.2 ⟨h2, hm, h3⟩⟩
  · have hd := (C41_ceil_div x y).2
    have hr := (C41_ceil_div_release x y).1
    constructor
    · rintro ⟨h1, _, h2⟩
      have hy : y.toNat ≠ 0 := fun h => not_both h2 (hr.2 h)
      exact ⟨hy, (hd.1 h1).resolve_left hy⟩
    · rintro ⟨h1, h2⟩
      exact ⟨hd.2 (.inr h2), (res_cases _).resolve_right fun h => h1 (hr.1 h)⟩

private theorem assembled_iff {α : Type} (f : Build → α → Res (List Byte)) (Ok : α → Prop)
    (h1 : ∀ o bs, f .debug o = .ok bs → f .release o = .ok bs ∧ Ok o) (h2 : ∀ o bs, f .release o = .ok bs → Ok o → f .debug o = .ok bs)
    (prog : List α) : ∀ code, Assembled (f .debug) prog code ↔ Assembled (f .release) prog code ∧ ∀ o ∈ prog, Ok o := by
  induction prog with
  | nil =>
    intro code
    constructor
    · intro h
      cases h
      exact ⟨.nil, nofun⟩
    · rintro ⟨h, _⟩
      cases h
      exact .nil
  | cons o prog ih =>
    intro code
    constructor
    · intro h
      cases h with
      | cons ho hp =>
        have := h1 _ _ ho
        have hi := (ih _).1 hp
        refine ⟨.cons this.1 hi.1, fun x hx => ?_⟩
        rcases List.mem_cons.1 hx with rfl | hx
        · exact this.2
        · exact hi.2 x hx
    · rintro ⟨h, hok⟩
      cases h with
      | cons ho hp =>
        exact .cons (h2 _ _ ho (hok _ (List.mem_cons_self ..))) ((ih _).2 ⟨hp, fun x hx => hok x (List.mem_cons_of_mem _ hx)⟩)

/-- C122: programs of any length. A debug build assembles exactly what a release build assembles from registers below 16. -/
theorem C122_programs :
    (∀ prog code, Assembled (Production.encodeAsBytes .debug) prog code ↔
      Assembled (Production.encodeAsBytes .release) prog code ∧ ∀ o ∈ prog, RegistersOk o) ∧
    ∀ prog code, Assembled (Testing.encodeAsBytes .debug) prog code ↔
      Assembled (Testing.encodeAsBytes .release) prog code ∧ ∀ o ∈ prog, RegistersOk o := by
  constructor
  · refine fun prog => assembled_iff Production.encodeAsBytes RegistersOk (fun o bs h => ?_) (fun o bs h hr => ?_) prog
    · obtain ⟨w, hw, _⟩ := bytes_production h
      exact ⟨bytes_over_production o bs h, (encodable_production hw).2⟩
    · obtain ⟨w, hw, rfl⟩ := bytes_production h
      have hE : Encodable o := ⟨by
        cases h' : WellFormed o.variant
        · exact absurd (((C07_encode_panics_iff .release).1 o).2 (.inl h')) (not_both hw)
        · rfl, hr⟩
      unfold Production.encodeAsBytes
      rw [any_build_production hE .release .debug hw]
      rfl
  · refine fun prog => assembled_iff Testing.encodeAsBytes RegistersOk (fun o bs h => ?_) (fun o bs h hr => ?_) prog
    · obtain ⟨w, hw, _⟩ := bytes_testing h
      exact ⟨bytes_over_testing o bs h, (encodable_testing hw).2⟩
    · obtain ⟨w, hw, rfl⟩ := bytes_testing h
      have hE : Encodable o := ⟨by
        cases h' : WellFormed o.variant
        · exact absurd (((C07_encode_panics_iff .release).2 o).2 (.inl h')) (not_both hw)
        · rfl, hr⟩
      unfold Testing.encodeAsBytes
      rw [any_build_testing hE .release .debug hw]
      rfl

/-! An instruction that only a release build encodes, one that both do, and a table of width 75 that only a release build on
64 bits builds. -/
private def addTo (r : Byte) : DecodedOpcode 16 :=
  ⟨⟨.add .add, .full .useRegOnly, .full .useRegOnly, ⟨false, false⟩⟩, .always, 1, 2, r, 0, 0, 0⟩
example : OnlyDebugPanics (fun b => Production.encodeAsInteger b (addTo 16)) ∧
    (∃ w, Production.encodeAsInteger .debug (addTo 15) = .ok w) ∧ (∃ x, mergeU4 .debug 3 4 = .ok x) ∧
    (∃ t, synthesizeOpcodeDecodingTables 11 ⟨1⟩ { Target.debug with build := .debug } = .ok t) ∧
    (OnlyDebugPanics fun b => synthesizeOpcodeDecodingTables 75 ⟨1⟩ { Target.debug with build := b }) ∧
    (∃ q, ceilDiv 7 2 .debug = .ok q) ∧ ∃ code, Assembled (Production.encodeAsBytes .debug) [addTo 15, addTo 0] code := by
  refine ⟨(C122_differences.1 _).2 (by decide), ?_, ⟨_, rfl⟩, ?_, ?_, ⟨_, rfl⟩, ?_⟩
  · obtain ⟨_, w, _, _, h, _⟩ := C02_roundtrip_production .debug (addTo 15) (by decide)
    exact ⟨w, h⟩
  · exact (C18_width 11 ⟨1⟩ Target.debug (by decide)).1.2 (by unfold TableFits; decide)
  · exact (C122_differences.2.2.2.1 75 ⟨1⟩ Target.debug (by decide)).2 (by unfold TableFits; decide)
  · obtain ⟨code, h, _⟩ := (C09_assembles .debug).1 [addTo 15, addTo 0] (by decide)
    exact ⟨code, h⟩

end ZkEvm.Props
