import Verif.Lemmas.Words
/-!
# Properties of instruction encoding and decoding: C01–C08, C11–C15, C17 (words)

`Spec.bits x pos len` is the number in `len` bits of `x` from position `pos` on; `Spec.Encodable` says that
an instruction exists (well-formed variant, registers below 16). See `Verif/Spec/Words.lean`.
-/
namespace ZkEvm.Props
open Spec Numbering Tables Coding Words Pack

/-- An example instruction used for non-vacuity: `Sub.LT r3, r14 → r7` with a code-page source, both flags. -/
private def sample16 : DecodedOpcode 16 :=
  { variant := ⟨.sub .sub, .full .useCodePage, .full .useStackWithOffset, ⟨true, true⟩⟩
    condition := .lt, src0RegIdx := 3, src1RegIdx := 14, dst0RegIdx := 7, dst1RegIdx := 0
    imm0 := 0xbeef, imm1 := 0x1234 }
private def sample32 : DecodedOpcode 32 :=
  { variant := ⟨.uma .heapWrite, .regOrImm .useImm16Only, .regOnly, ⟨true, false⟩⟩
    condition := .ne, src0RegIdx := 1, src1RegIdx := 2, dst0RegIdx := 15, dst1RegIdx := 0
    imm0 := 0xdeadbeef, imm1 := 0x12345678 }

example : Encodable sample16 ∧ Encodable sample32 := by decide

/-! ## C01 -/

/-- C01, production: every 64-bit word decodes, and every field comes from a fixed bit range. -/
theorem C01_decode_production (w : BitVec 64) : ∃ t o,
    OPCODES_TABLE = .ok t ∧ Production.parse w = .ok (o, .fromUsize (bits w 0 11)) ∧
    t[bits w 0 11]? = some o.variant ∧ o.variant = entry (bits w 0 11) ∧
    [.always, .gt, .lt, .eq, .ge, .le, .ne, .gtOrLt][bits w 13 3]? = some o.condition ∧
    o.src0RegIdx.toNat = bits w 16 4 ∧ o.src1RegIdx.toNat = bits w 20 4 ∧
    o.dst0RegIdx.toNat = bits w 24 4 ∧ o.dst1RegIdx.toNat = bits w 28 4 ∧
    o.imm0.toNat = bits w 32 16 ∧ o.imm1.toNat = bits w 48 16 := by
  obtain ⟨o, h, hv, hc, h1, h2, h3, h4, h5, h6⟩ := prod_parse w
  have hb : bits w 0 11 = w.toNat % 2 ^ 11 := by unfold bits; omega
  refine ⟨fullTable, o, OPCODES_TABLE_eq, by rw [hb]; exact h, ?_, by rw [hb, hv], ?_, h1, h2, h3, h4, h5, h6⟩
  · rw [hb, hv, fullTable_get (Nat.mod_lt _ (by decide))]
  · rw [bits, ← hc]; cases o.condition <;> rfl

/-- C01, testing: every 128-bit word decodes, and every field comes from a fixed bit range. -/
theorem C01_decode_testing (w : BitVec 128) : ∃ t o,
    OPCODES_TABLE = .ok t ∧ Testing.parse w = .ok (o, .fromUsize (bits w 0 11)) ∧
    t[bits w 0 11]? = some o.variant ∧ o.variant = entry (bits w 0 11) ∧
    [.always, .gt, .lt, .eq, .ge, .le, .ne, .gtOrLt][bits w 13 3]? = some o.condition ∧
    o.src0RegIdx.toNat = bits w 16 4 ∧ o.src1RegIdx.toNat = bits w 20 4 ∧
    o.dst0RegIdx.toNat = bits w 24 4 ∧ o.dst1RegIdx.toNat = bits w 28 4 ∧
    o.imm0.toNat = bits w 32 32 ∧ o.imm1.toNat = bits w 64 32 := by
  obtain ⟨o, h, hv, hc, h1, h2, h3, h4, h5, h6⟩ := test_parse w
  have hb : bits w 0 11 = w.toNat % 2 ^ 11 := by unfold bits; omega
  refine ⟨fullTable, o, OPCODES_TABLE_eq, by rw [hb]; exact h, ?_, by rw [hb, hv], ?_, h1, h2, h3, h4, h5, h6⟩
  · rw [hb, hv, fullTable_get (Nat.mod_lt _ (by decide))]
  · rw [bits, ← hc]; cases o.condition <;> rfl

-- the fields of one word, by number
example : let w : BitVec 64 := 0x1234beef0_7e3_40a8#64
    bits w 0 11 = 168 ∧ bits w 13 3 = 2 ∧ bits w 32 16 = 0xbeef := by decide

/-! ## C02, C03 -/

/-- C02: encoding any existing instruction succeeds, and decoding the word gives the instruction back, with
the number under which the variant stands in the table. -/
theorem C02_roundtrip_production (b : Build) (o : DecodedOpcode 16) (h : Encodable o) :
    ∃ t w n, OPCODES_TABLE = .ok t ∧ Production.encodeAsInteger b o = .ok w ∧
      Production.parse w = .ok (o, .fromUsize n) ∧ t[n]? = some o.variant := by
  obtain ⟨hwf, h1, h2, h3, h4⟩ := h
  obtain ⟨w, hw⟩ := prod_encode_exists b o hwf (.inr ⟨h1, h2, h3, h4⟩)
  obtain ⟨sb, db, o', hs, hd, _, hp, hv, hc, hi0, hi1, p1, p2, p3, p4⟩ := prod_decode_encoded hw
  obtain ⟨s1, s2⟩ := merged_nibbles hs h1 h2
  obtain ⟨d1, d2⟩ := merged_nibbles hd h3 h4
  have heq : o' = o := decoded_ext hv (by rw [hc]) (by rw [p1, s1]) (by rw [p2, s2]) (by rw [p3, d1])
    (by rw [p4, d2]) (by rw [hi0]) (by rw [hi1])
  rw [heq] at hp
  obtain ⟨hn, he⟩ := entry_number o.variant hwf
  have hn' : number o.variant < 1093 := hn
  exact ⟨fullTable, w, number o.variant, OPCODES_TABLE_eq, hw, hp,
    by rw [fullTable_get (by omega), he]⟩

/-- C03: the same in testing mode. -/
theorem C03_roundtrip_testing (b : Build) (o : DecodedOpcode 32) (h : Encodable o) :
    ∃ t w n, OPCODES_TABLE = .ok t ∧ Testing.encodeAsInteger b o = .ok w ∧
      Testing.parse w = .ok (o, .fromUsize n) ∧ t[n]? = some o.variant := by
  obtain ⟨hwf, h1, h2, h3, h4⟩ := h
  obtain ⟨w, hw⟩ := test_encode_exists b o hwf (.inr ⟨h1, h2, h3, h4⟩)
  obtain ⟨sb, db, o', hs, hd, _, hp, hv, hc, hi0, hi1, p1, p2, p3, p4⟩ := test_decode_encoded hw
  obtain ⟨s1, s2⟩ := merged_nibbles hs h1 h2
  obtain ⟨d1, d2⟩ := merged_nibbles hd h3 h4
  have heq : o' = o := decoded_ext hv (by rw [hc]) (by rw [p1, s1]) (by rw [p2, s2]) (by rw [p3, d1])
    (by rw [p4, d2]) (by rw [hi0]) (by rw [hi1])
  rw [heq] at hp
  obtain ⟨hn, he⟩ := entry_number o.variant hwf
  have hn' : number o.variant < 1093 := hn
  exact ⟨fullTable, w, number o.variant, OPCODES_TABLE_eq, hw, hp,
    by rw [fullTable_get (by omega), he]⟩

example : ∃ w n, Production.encodeAsInteger .debug sample16 = .ok w ∧
    Production.parse w = .ok (sample16, n) := by
  obtain ⟨_, w, n, _, h1, h2, _⟩ := C02_roundtrip_production .debug sample16 (by decide)
  exact ⟨w, _, h1, h2⟩
example : ∃ w n, Testing.encodeAsInteger .release sample32 = .ok w ∧
    Testing.parse w = .ok (sample32, n) := by
  obtain ⟨_, w, n, _, h1, h2, _⟩ := C03_roundtrip_testing .release sample32 (by decide)
  exact ⟨w, _, h1, h2⟩

/-! ## C04, C05 -/

/-- C04: re-encoding a decoded production word never panics; the result has the gap bits 11, 12 cleared, an
unassigned opcode number replaced by 0, and every other bit unchanged; so it is the original word iff bits 11
and 12 were zero and the number is assigned. -/
theorem C04_decode_encode_production (b : Build) (w : BitVec 64) (o : DecodedOpcode 16)
    (n : VariantMonotonicNumber) (h : Production.parse w = .ok (o, n)) :
    ∃ w', Production.encodeAsInteger b o = .ok w' ∧
      bits w' 0 11 = (if bits w 0 11 < 1093 then bits w 0 11 else 0) ∧
      bits w' 11 2 = 0 ∧ bits w' 13 51 = bits w 13 51 ∧
      (w' = w ↔ bits w 11 2 = 0 ∧ bits w 0 11 < 1093) := by
  obtain ⟨w', hw'⟩ := prod_reencode_exists b h
  have hnat := prod_reencode h hw'
  rw [number_entry_any] at hnat
  have hwl := w.isLt
  clear h
  have e0 : bits w 0 11 = w.toNat % 2 ^ 11 := by unfold bits; rw [Nat.pow_zero, Nat.div_one]
  rw [e0]
  refine ⟨w', hw', ?_, ?_, ?_, ?_⟩
  · unfold bits; rw [hnat]; split <;> omega
  · unfold bits; rw [hnat]; split <;> omega
  · unfold bits; rw [hnat]; split <;> omega
  · rw [← BitVec.toNat_inj, hnat]
    unfold bits
    split <;> omega

/-- C04: a word with an unused bit set decodes, and encodes to the word without it. -/
example : ∃ o n w', Production.parse 0x0000000100000801#64 = .ok (o, n) ∧
    Production.encodeAsInteger .debug o = .ok w' ∧ w' ≠ 0x0000000100000801#64 ∧ bits w' 11 2 = 0 := by
  obtain ⟨_, o, _, hp, _⟩ := C01_decode_production 0x0000000100000801#64
  obtain ⟨w', hw, _, h0, _, hiff⟩ := C04_decode_encode_production .debug _ _ _ hp
  exact ⟨o, _, w', hp, hw, fun e => absurd (hiff.1 e).1 (by decide), h0⟩

/-- C05: the same in testing mode, where in addition bits 96..127 are dropped. -/
theorem C05_decode_encode_testing (b : Build) (w : BitVec 128) (o : DecodedOpcode 32)
    (n : VariantMonotonicNumber) (h : Testing.parse w = .ok (o, n)) :
    ∃ w', Testing.encodeAsInteger b o = .ok w' ∧
      bits w' 0 11 = (if bits w 0 11 < 1093 then bits w 0 11 else 0) ∧
      bits w' 11 2 = 0 ∧ bits w' 13 83 = bits w 13 83 ∧ bits w' 96 32 = 0 ∧
      (w' = w ↔ bits w 11 2 = 0 ∧ bits w 96 32 = 0 ∧ bits w 0 11 < 1093) := by
  obtain ⟨w', hw'⟩ := test_reencode_exists b h
  have hnat := test_reencode h hw'
  rw [number_entry_any] at hnat
  have hwl := w.isLt
  clear h
  have e0 : bits w 0 11 = w.toNat % 2 ^ 11 := by unfold bits; rw [Nat.pow_zero, Nat.div_one]
  rw [e0]
  refine ⟨w', hw', ?_, ?_, ?_, ?_, ?_⟩
  · unfold bits; rw [hnat]; split <;> omega
  · unfold bits; rw [hnat]; split <;> omega
  · unfold bits; rw [hnat]; split <;> omega
  · unfold bits; rw [hnat]; split <;> omega
  · rw [← BitVec.toNat_inj, hnat]
    unfold bits
    split <;> omega

-- words on both sides of the equivalences exist
example : (bits (0x0800#64) 11 2 ≠ 0) ∧ (bits (0x7ff#64) 0 11 = 2047) ∧
    (bits (0x1234567800004010#64) 11 2 = 0 ∧ bits (0x1234567800004010#64) 0 11 < 1093) := by decide
example : ∃ o n, Production.parse 0x0800#64 = .ok (o, n) := by
  obtain ⟨_, o, _, h, _⟩ := C01_decode_production 0x0800#64; exact ⟨o, _, h⟩
example : ∃ o n, Testing.parse (1#128 <<< 100) = .ok (o, n) := by
  obtain ⟨_, o, _, h, _⟩ := C01_decode_testing (1#128 <<< 100); exact ⟨o, _, h⟩

/-! ## C06 -/

private theorem and_mask_zero {W : Nat} (v m : BitVec W) (hm : ∀ i, i < W → m.getLsbD i = (i == 11 || i == 12))
    (hW : 12 < W) :
    (v &&& m) = 0#W ↔ v.getLsbD 11 = false ∧ v.getLsbD 12 = false := by
  constructor
  · intro h
    have h11 := congrArg (fun x => x.getLsbD 11) h
    have h12 := congrArg (fun x => x.getLsbD 12) h
    simp only [BitVec.getLsbD_and, BitVec.getLsbD_zero, hm 11 (by omega), hm 12 (by omega)] at h11 h12
    simpa using And.intro h11 h12
  · rintro ⟨h11, h12⟩
    apply BitVec.eq_of_getLsbD_eq
    intro i hi
    rw [BitVec.getLsbD_and, BitVec.getLsbD_zero, hm i hi]
    by_cases h1 : i = 11
    · subst h1; simp [h11]
    · by_cases h2 : i = 12
      · subst h2; simp [h12]
      · simp [h1, h2]

/-- C06: in both modes the canonicality check looks at exactly bits 11 and 12. -/
theorem C06_canonical_iff :
    (∀ w : BitVec 64, Production.isCanonicalEncoding w = true ↔ w.getLsbD 11 = false ∧ w.getLsbD 12 = false) ∧
    (∀ w : BitVec 128, Testing.isCanonicalEncoding w = true ↔
      w.getLsbD 11 = false ∧ w.getLsbD 12 = false) := by
  constructor
  · intro w
    unfold Production.isCanonicalEncoding
    rw [beq_iff_eq]
    exact and_mask_zero w _ (by decide) (by decide)
  · intro w
    unfold Testing.isCanonicalEncoding
    rw [beq_iff_eq]
    exact and_mask_zero w _ (by decide) (by decide)

private theorem gap_of_bits {W : Nat} (w : BitVec W) (h : bits w 11 2 = 0) :
    w.getLsbD 11 = false ∧ w.getLsbD 12 = false := by
  unfold bits at h
  rw [getLsbD_eq, getLsbD_eq]
  constructor
  · rw [decide_eq_false_iff_not]; omega
  · rw [decide_eq_false_iff_not]; omega

/-- C06: every word produced by serialisation, in either mode and build, is canonical (even with over-wide
register indices in release builds). -/
theorem C06_encoded_canonical (b : Build) :
    (∀ o w, Production.encodeAsInteger b o = .ok w → Production.isCanonicalEncoding w = true) ∧
    (∀ o w, Testing.encodeAsInteger b o = .ok w → Testing.isCanonicalEncoding w = true) := by
  constructor
  · intro o w h
    rw [C06_canonical_iff.1]
    apply gap_of_bits
    obtain ⟨sb, db, _, _, _, hf, hnat⟩ := prod_encode_word h
    exact (prod_word_fields hf hnat).2.1
  · intro o w h
    rw [C06_canonical_iff.2]
    apply gap_of_bits
    obtain ⟨sb, db, _, _, _, hf, hnat⟩ := test_encode_word h
    exact (test_word_fields hf hnat).2.1

/-- C06, finding: canonical does not mean "survives decode-encode". -/
theorem C06_canonical_not_roundtrip :
    ∃ w o n, Production.isCanonicalEncoding w = true ∧ Production.parse w = .ok (o, n) ∧
      Production.encodeAsInteger .debug o ≠ .ok w := by
  obtain ⟨_, o, _, hp, _⟩ := C01_decode_production 2000#64
  refine ⟨2000#64, o, _, by decide, hp, ?_⟩
  obtain ⟨w', hw', _, _, _, hiff⟩ := C04_decode_encode_production .debug 2000#64 o _ hp
  rw [hw']
  intro heq
  exact absurd (hiff.1 (Except.ok.inj heq)).2 (by decide)

example : Production.isCanonicalEncoding 0x7ff#64 = true ∧ Production.isCanonicalEncoding 0x800#64 = false := by
  decide

/-! ## C07 -/

private theorem merge_panics_iff (b : Build) (l h : Byte) :
    Panics (mergeU4 b l h) ↔ b = .debug ∧ ¬ (l.toNat < 16 ∧ h.toNat < 16) := by
  cases b with
  | release => rw [merge_release]; simp [not_panics_ok]
  | debug =>
    by_cases hp : l.toNat < 16 ∧ h.toNat < 16
    · rw [merge_ok _ _ _ hp.1 hp.2]
      exact ⟨fun h => absurd h (not_panics_ok _), fun h => absurd hp h.2⟩
    · rw [merge_debug_panic _ _ hp]
      exact ⟨fun _ => ⟨rfl, hp⟩, fun _ => panics_error _⟩

/-- C07: serialisation panics iff the variant does not exist or, with debug assertions, a register index is
16 or more. -/
theorem C07_encode_panics_iff (b : Build) :
    (∀ o, Panics (Production.encodeAsInteger b o) ↔
      WellFormed o.variant = false ∨ (b = .debug ∧ ¬ RegistersOk o)) ∧
    (∀ o, Panics (Testing.encodeAsInteger b o) ↔
      WellFormed o.variant = false ∨ (b = .debug ∧ ¬ RegistersOk o)) := by
  have key : ∀ {w W : Nat} (o : DecodedOpcode w) (f : Byte → Byte → BitVec W),
      Panics (match mergeU4 b o.src0RegIdx o.src1RegIdx with
        | .error e => .error e
        | .ok sb => match mergeU4 b o.dst0RegIdx o.dst1RegIdx with
          | .error e => .error e
          | .ok db => .ok (f sb db)) ↔ b = .debug ∧ ¬ RegistersOk o := by
    intro w W o f
    have hs := merge_panics_iff b o.src0RegIdx o.src1RegIdx
    have hd := merge_panics_iff b o.dst0RegIdx o.dst1RegIdx
    unfold RegistersOk
    cases hsm : mergeU4 b o.src0RegIdx o.src1RegIdx with
    | error e =>
      have := hs.1 (by rw [hsm]; exact panics_error e)
      exact ⟨fun _ => ⟨this.1, fun hr => this.2 ⟨hr.1, hr.2.1⟩⟩, fun _ => panics_error e⟩
    | ok sb =>
      have hns : ¬ (b = .debug ∧ ¬ (o.src0RegIdx.toNat < 16 ∧ o.src1RegIdx.toNat < 16)) := by
        rw [← hs, hsm]; exact not_panics_ok sb
      cases hdm : mergeU4 b o.dst0RegIdx o.dst1RegIdx with
      | error e =>
        have := hd.1 (by rw [hdm]; exact panics_error e)
        exact ⟨fun _ => ⟨this.1, fun hr => this.2 ⟨hr.2.2.1, hr.2.2.2⟩⟩, fun _ => panics_error e⟩
      | ok db =>
        have hnd : ¬ (b = .debug ∧ ¬ (o.dst0RegIdx.toNat < 16 ∧ o.dst1RegIdx.toNat < 16)) := by
          rw [← hd, hdm]; exact not_panics_ok db
        refine ⟨fun h => absurd h (not_panics_ok _), ?_⟩
        rintro ⟨rfl, hr⟩
        exfalso
        apply hr
        have h1 := Classical.not_not.1 fun h => hns ⟨rfl, h⟩
        have h2 := Classical.not_not.1 fun h => hnd ⟨rfl, h⟩
        exact ⟨h1.1, h1.2, h2.1, h2.2⟩
  constructor
  · intro o
    cases hwf : WellFormed o.variant with
    | false => rw [prod_encode_panic b o hwf]; simp [panics_error]
    | true =>
      rw [prod_encode b o hwf]
      refine Iff.trans (key o (fun sb db => BitVec.ofNat 64 (prodNat (number o.variant)
        o.condition.variantIndex sb.toNat db.toNat o.imm0.toNat o.imm1.toNat))) ?_
      simp
  · intro o
    cases hwf : WellFormed o.variant with
    | false => rw [test_encode_panic b o hwf]; simp [panics_error]
    | true =>
      rw [test_encode b o hwf]
      refine Iff.trans (key o (fun sb db => BitVec.ofNat 128 (testNat (number o.variant)
        o.condition.variantIndex sb.toNat db.toNat o.imm0.toNat o.imm1.toNat))) ?_
      simp

example : Panics (Production.encodeAsInteger .debug { sample16 with src1RegIdx := 16 }) :=
  ((C07_encode_panics_iff .debug).1 _).2 (.inr ⟨rfl, by decide⟩)
example : ¬ Panics (Production.encodeAsInteger .release { sample16 with src1RegIdx := 16 }) := by
  rw [(C07_encode_panics_iff .release).1]; decide

/-! ## C08 -/

/-- C08: distinct existing instructions have distinct integer encodings, in each mode (even across builds). -/
theorem C08_injective (b b' : Build) :
    (∀ (o o' : DecodedOpcode 16) (w : BitVec 64), Encodable o → Encodable o' →
      Production.encodeAsInteger b o = .ok w → Production.encodeAsInteger b' o' = .ok w → o = o') ∧
    (∀ (o o' : DecodedOpcode 32) (w : BitVec 128), Encodable o → Encodable o' →
      Testing.encodeAsInteger b o = .ok w → Testing.encodeAsInteger b' o' = .ok w → o = o') := by
  constructor
  · intro o o' w h h' he he'
    obtain ⟨_, w1, n, _, e1, p1, _⟩ := C02_roundtrip_production b o h
    obtain ⟨_, w2, n', _, e2, p2, _⟩ := C02_roundtrip_production b' o' h'
    rw [he] at e1; cases e1
    rw [he'] at e2; cases e2
    rw [p1] at p2
    exact (Prod.mk.inj (Except.ok.inj p2)).1
  · intro o o' w h h' he he'
    obtain ⟨_, w1, n, _, e1, p1, _⟩ := C03_roundtrip_testing b o h
    obtain ⟨_, w2, n', _, e2, p2, _⟩ := C03_roundtrip_testing b' o' h'
    rw [he] at e1; cases e1
    rw [he'] at e2; cases e2
    rw [p1] at p2
    exact (Prod.mk.inj (Except.ok.inj p2)).1

private theorem bytes_of {W n : Nat} {r : Res (BitVec W)} {bs : List Byte}
    (h : (do Except.ok (toBeBytes n (← r)) : Res (List Byte)) = .ok bs) :
    ∃ w, r = .ok w ∧ toBeBytes n w = bs := by
  cases r with
  | error e => cases h
  | ok w => exact ⟨w, rfl, Except.ok.inj h⟩

/-- C08: the same for the byte encodings, which have 8 and 16 bytes and are big-endian. -/
theorem C08_injective_bytes (b b' : Build) :
    (∀ (o o' : DecodedOpcode 16) (bs : List Byte), Encodable o → Encodable o' →
      Production.encodeAsBytes b o = .ok bs → Production.encodeAsBytes b' o' = .ok bs → o = o') ∧
    (∀ (o o' : DecodedOpcode 32) (bs : List Byte), Encodable o → Encodable o' →
      Testing.encodeAsBytes b o = .ok bs → Testing.encodeAsBytes b' o' = .ok bs → o = o') := by
  constructor
  · intro o o' bs h h' he he'
    obtain ⟨w, hw, hb⟩ := bytes_of he
    obtain ⟨w', hw', hb'⟩ := bytes_of he'
    have := toBeBytes_inj 8 w w' (hb.trans hb'.symm)
    subst this
    exact (C08_injective b b').1 o o' w h h' hw hw'
  · intro o o' bs h h' he he'
    obtain ⟨w, hw, hb⟩ := bytes_of he
    obtain ⟨w', hw', hb'⟩ := bytes_of he'
    have := toBeBytes_inj 16 w w' (hb.trans hb'.symm)
    subst this
    exact (C08_injective b b').2 o o' w h h' hw hw'

/-- C08: the byte encoding is the integer encoding written big-endian. -/
theorem C08_bytes_big_endian (b : Build) :
    (∀ o bs, Production.encodeAsBytes b o = .ok bs →
      ∃ w, Production.encodeAsInteger b o = .ok w ∧ bs.length = 8 ∧ beNat bs = w.toNat) ∧
    (∀ o bs, Testing.encodeAsBytes b o = .ok bs →
      ∃ w, Testing.encodeAsInteger b o = .ok w ∧ bs.length = 16 ∧ beNat bs = w.toNat) := by
  constructor
  · intro o bs h
    obtain ⟨w, hw, hb⟩ := bytes_of h
    refine ⟨w, hw, by rw [← hb, toBeBytes_length], ?_⟩
    rw [← hb, beNat_toBeBytes, Nat.mod_eq_of_lt w.isLt]
  · intro o bs h
    obtain ⟨w, hw, hb⟩ := bytes_of h
    refine ⟨w, hw, by rw [← hb, toBeBytes_length], ?_⟩
    rw [← hb, beNat_toBeBytes, Nat.mod_eq_of_lt w.isLt]

example : Encodable sample16 ∧ Encodable { sample16 with imm1 := 7 } ∧
    sample16 ≠ { sample16 with imm1 := 7 } := by decide

/-! ## C12 -/

/-- C12: a word decodes to an explicit panic iff its opcode number is 0 or unassigned; then the variant is
`Invalid` and costs `u32::MAX` ergs. Both modes. -/
theorem C12_explicit_panic :
    (∀ (w : BitVec 64) o n, Production.parse w = .ok (o, n) →
      (o.variant.isExplicitPanic = true ↔ bits w 0 11 = 0 ∨ 1093 ≤ bits w 0 11) ∧
      (o.variant.isExplicitPanic = true →
        o.variant = Spec.invalidVariant ∧ o.variant.ergsPrice = 2 ^ 32 - 1)) ∧
    (∀ (w : BitVec 128) o n, Testing.parse w = .ok (o, n) →
      (o.variant.isExplicitPanic = true ↔ bits w 0 11 = 0 ∨ 1093 ≤ bits w 0 11) ∧
      (o.variant.isExplicitPanic = true →
        o.variant = Spec.invalidVariant ∧ o.variant.ergsPrice = 2 ^ 32 - 1)) := by
  have hall : ((List.range 1093).all fun n => (entry n).isExplicitPanic == decide (n = 0)) = true := by
    decide +kernel
  have key : ∀ n, ((entry n).isExplicitPanic = true ↔ n = 0 ∨ 1093 ≤ n) ∧
      ((entry n).isExplicitPanic = true → entry n = invalidVariant ∧ (entry n).ergsPrice = 2 ^ 32 - 1) := by
    intro n
    by_cases hn : n < 1093
    · have := LawfulBEq.eq_of_beq (List.all_eq_true.1 hall n (List.mem_range.2 hn))
      rw [this, decide_eq_true_iff]
      refine ⟨by omega, ?_⟩
      rintro rfl
      exact ⟨rfl, by decide⟩
    · rw [entry_unassigned (Nat.le_of_not_lt hn)]
      refine ⟨?_, fun _ => ⟨rfl, by decide⟩⟩
      simp [OpcodeVariant.isExplicitPanic, invalidVariant]
      omega
  constructor
  · intro w o n h
    obtain ⟨o', hp, hv, _⟩ := prod_parse w
    rw [hp] at h
    have ho : o' = o := (Prod.mk.inj (Except.ok.inj h)).1
    subst ho
    rw [hv, show bits w 0 11 = w.toNat % 2 ^ 11 by unfold bits; omega]
    exact key _
  · intro w o n h
    obtain ⟨o', hp, hv, _⟩ := test_parse w
    rw [hp] at h
    have ho : o' = o := (Prod.mk.inj (Except.ok.inj h)).1
    subst ho
    rw [hv, show bits w 0 11 = w.toNat % 2 ^ 11 by unfold bits; omega]
    exact key _

/-- C12: the all-zero word, i.e. missing code, is an explicit panic in both modes. -/
theorem C12_zero_word :
    (∃ o n, Production.parse 0#64 = .ok (o, n) ∧ o.variant.isExplicitPanic = true) ∧
    (∃ o n, Testing.parse 0#128 = .ok (o, n) ∧ o.variant.isExplicitPanic = true) := by
  obtain ⟨_, o, _, h, _⟩ := C01_decode_production 0#64
  obtain ⟨_, o', _, h', _⟩ := C01_decode_testing 0#128
  exact ⟨⟨o, _, h, (C12_explicit_panic.1 _ o _ h).1.2 (.inl (by decide))⟩,
    ⟨o', _, h', (C12_explicit_panic.2 _ o' _ h').1.2 (.inl (by decide))⟩⟩

/-! ## C13 -/

/-- C13: in a release build, encoding with arbitrary register bytes succeeds, and variant, condition and
immediates decode unchanged. Registers that are in range decode unchanged provided their byte-mate is
in range too. In general src0 (dst0) decodes to its low four bits, and src1 (dst1) to its low four bits or-ed with
the excess bits of src0 (dst0). Production mode. -/
theorem C13_release_wide_registers_production (o : DecodedOpcode 16) (h : WellFormed o.variant = true) :
    ∃ w o' n, Production.encodeAsInteger .release o = .ok w ∧ Production.parse w = .ok (o', n) ∧
      o'.variant = o.variant ∧ o'.condition = o.condition ∧ o'.imm0 = o.imm0 ∧ o'.imm1 = o.imm1 ∧
      (o.src0RegIdx.toNat < 16 → o.src1RegIdx.toNat < 16 →
        o'.src0RegIdx = o.src0RegIdx ∧ o'.src1RegIdx = o.src1RegIdx) ∧
      (o.dst0RegIdx.toNat < 16 → o.dst1RegIdx.toNat < 16 →
        o'.dst0RegIdx = o.dst0RegIdx ∧ o'.dst1RegIdx = o.dst1RegIdx) ∧
      o'.src0RegIdx.toNat = o.src0RegIdx.toNat % 16 ∧
      o'.src1RegIdx.toNat = (o.src1RegIdx.toNat % 16 ||| o.src0RegIdx.toNat / 16) ∧
      o'.dst0RegIdx.toNat = o.dst0RegIdx.toNat % 16 ∧
      o'.dst1RegIdx.toNat = (o.dst1RegIdx.toNat % 16 ||| o.dst0RegIdx.toNat / 16) := by
  obtain ⟨w, hw⟩ := prod_encode_exists .release o h (.inl rfl)
  obtain ⟨sb, db, o', hs, hd, _, hp, hv, hc, hi0, hi1, p1, p2, p3, p4⟩ := prod_decode_encoded hw
  refine ⟨w, o', _, hw, hp, hv, hc, hi0, hi1, fun h1 h2 => ?_, fun h3 h4 => ?_,
    p1.trans (merged_wide hs).1, p2.trans (merged_wide hs).2, p3.trans (merged_wide hd).1, p4.trans (merged_wide hd).2⟩
  · obtain ⟨s1, s2⟩ := merged_nibbles hs h1 h2
    exact ⟨BitVec.eq_of_toNat_eq (by rw [p1, s1]), BitVec.eq_of_toNat_eq (by rw [p2, s2])⟩
  · obtain ⟨d1, d2⟩ := merged_nibbles hd h3 h4
    exact ⟨BitVec.eq_of_toNat_eq (by rw [p3, d1]), BitVec.eq_of_toNat_eq (by rw [p4, d2])⟩

/-- C13: in a release build register 17 as first source is encoded as register 1, and spoils the second source. -/
example : ∃ w o' n, Production.encodeAsInteger .release ⟨⟨.add .add, .full .useRegOnly, .full .useRegOnly, ⟨true, false⟩⟩,
      .always, 17, 2, 3, 4, 5, 6⟩ = .ok w ∧ Production.parse w = .ok (o', n) ∧ o'.src0RegIdx.toNat = 1 ∧
    o'.src1RegIdx.toNat = 3 := by
  obtain ⟨w, o', n, h1, h2, _, _, _, _, _, _, h3, h4, _⟩ := C13_release_wide_registers_production
    ⟨⟨.add .add, .full .useRegOnly, .full .useRegOnly, ⟨true, false⟩⟩, .always, 17, 2, 3, 4, 5, 6⟩ (by decide)
  exact ⟨w, o', n, h1, h2, h3, h4⟩

/-- C13, testing mode. -/
theorem C13_release_wide_registers_testing (o : DecodedOpcode 32) (h : WellFormed o.variant = true) :
    ∃ w o' n, Testing.encodeAsInteger .release o = .ok w ∧ Testing.parse w = .ok (o', n) ∧
      o'.variant = o.variant ∧ o'.condition = o.condition ∧ o'.imm0 = o.imm0 ∧ o'.imm1 = o.imm1 ∧
      (o.src0RegIdx.toNat < 16 → o.src1RegIdx.toNat < 16 →
        o'.src0RegIdx = o.src0RegIdx ∧ o'.src1RegIdx = o.src1RegIdx) ∧
      (o.dst0RegIdx.toNat < 16 → o.dst1RegIdx.toNat < 16 →
        o'.dst0RegIdx = o.dst0RegIdx ∧ o'.dst1RegIdx = o.dst1RegIdx) ∧
      o'.src0RegIdx.toNat = o.src0RegIdx.toNat % 16 ∧
      o'.src1RegIdx.toNat = (o.src1RegIdx.toNat % 16 ||| o.src0RegIdx.toNat / 16) ∧
      o'.dst0RegIdx.toNat = o.dst0RegIdx.toNat % 16 ∧
      o'.dst1RegIdx.toNat = (o.dst1RegIdx.toNat % 16 ||| o.dst0RegIdx.toNat / 16) := by
  obtain ⟨w, hw⟩ := test_encode_exists .release o h (.inl rfl)
  obtain ⟨sb, db, o', hs, hd, _, hp, hv, hc, hi0, hi1, p1, p2, p3, p4⟩ := test_decode_encoded hw
  refine ⟨w, o', _, hw, hp, hv, hc, hi0, hi1, fun h1 h2 => ?_, fun h3 h4 => ?_,
    p1.trans (merged_wide hs).1, p2.trans (merged_wide hs).2, p3.trans (merged_wide hd).1, p4.trans (merged_wide hd).2⟩
  · obtain ⟨s1, s2⟩ := merged_nibbles hs h1 h2
    exact ⟨BitVec.eq_of_toNat_eq (by rw [p1, s1]), BitVec.eq_of_toNat_eq (by rw [p2, s2])⟩
  · obtain ⟨d1, d2⟩ := merged_nibbles hd h3 h4
    exact ⟨BitVec.eq_of_toNat_eq (by rw [p3, d1]), BitVec.eq_of_toNat_eq (by rw [p4, d2])⟩

/-- C13: in a release build register 17 as first source is encoded as register 1, and spoils the second source. -/
example : ∃ w o' n, Testing.encodeAsInteger .release ⟨⟨.add .add, .full .useRegOnly, .full .useRegOnly, ⟨true, false⟩⟩,
      .always, 17, 2, 3, 4, 5, 6⟩ = .ok w ∧ Testing.parse w = .ok (o', n) ∧ o'.src0RegIdx.toNat = 1 ∧
    o'.src1RegIdx.toNat = 3 := by
  obtain ⟨w, o', n, h1, h2, _, _, _, _, _, _, h3, h4, _⟩ := C13_release_wide_registers_testing
    ⟨⟨.add .add, .full .useRegOnly, .full .useRegOnly, ⟨true, false⟩⟩, .always, 17, 2, 3, 4, 5, 6⟩ (by decide)
  exact ⟨w, o', n, h1, h2, h3, h4⟩

private theorem agreeOutside_of {W : Nat} (x y : BitVec W) (lo hi : Nat)
    (h1 : bits x 0 lo = bits y 0 lo) (h2 : bits x hi W = bits y hi W) : AgreeOutside x y lo hi := by
  intro i hi'
  rcases hi' with hi' | hi'
  · exact getLsbD_of_bits x y 0 lo i (by omega) (by omega) h1
  · by_cases hw : i < hi + W
    · exact getLsbD_of_bits x y hi W i hi' hw h2
    · rw [BitVec.getLsbD_of_ge x i (by omega), BitVec.getLsbD_of_ge y i (by omega)]

/-- C13: whatever the source register indices are, they influence only bits 16..23 of the word, and the
destination register indices only bits 24..31. Both modes, both builds. -/
theorem C13_register_bits_confined (b : Build) :
    (∀ (o : DecodedOpcode 16) (s0 s1 : Byte) w w', Production.encodeAsInteger b o = .ok w →
      Production.encodeAsInteger b { o with src0RegIdx := s0, src1RegIdx := s1 } = .ok w' →
      AgreeOutside w w' 16 24) ∧
    (∀ (o : DecodedOpcode 16) (d0 d1 : Byte) w w', Production.encodeAsInteger b o = .ok w →
      Production.encodeAsInteger b { o with dst0RegIdx := d0, dst1RegIdx := d1 } = .ok w' →
      AgreeOutside w w' 24 32) ∧
    (∀ (o : DecodedOpcode 32) (s0 s1 : Byte) w w', Testing.encodeAsInteger b o = .ok w →
      Testing.encodeAsInteger b { o with src0RegIdx := s0, src1RegIdx := s1 } = .ok w' →
      AgreeOutside w w' 16 24) ∧
    (∀ (o : DecodedOpcode 32) (d0 d1 : Byte) w w', Testing.encodeAsInteger b o = .ok w →
      Testing.encodeAsInteger b { o with dst0RegIdx := d0, dst1RegIdx := d1 } = .ok w' →
      AgreeOutside w w' 24 32) := by
  refine ⟨?_, ?_, ?_, ?_⟩
  · intro o s0 s1 w w' h h'
    obtain ⟨sb, db, _, hd, _, hf, hnat⟩ := prod_encode_word h
    obtain ⟨sb', db', _, hd', _, hf', hnat'⟩ := prod_encode_word h'
    dsimp only at hd' hf' hnat'
    rw [hd] at hd'; cases hd'
    apply agreeOutside_of
    · rw [bits, bits, Nat.pow_zero, Nat.div_one, Nat.div_one, hnat, hnat']
      exact (pack_mod (a := (_ :: _ :: _ :: [])) ⟨hf.1, hf.2.1, hf.2.2.1, trivial⟩).trans
        (pack_mod (a := (_ :: _ :: _ :: [])) ⟨hf.1, hf.2.1, hf.2.2.1, trivial⟩).symm
    · rw [bits, bits, hnat, hnat']
      exact congrArg (· % _) ((pack_div (a := (_ :: _ :: _ :: _ :: []))
        ⟨hf.1, hf.2.1, hf.2.2.1, hf.2.2.2.1, trivial⟩).trans (pack_div (a := (_ :: _ :: _ :: _ :: []))
        ⟨hf.1, hf.2.1, hf.2.2.1, hf'.2.2.2.1, trivial⟩).symm)
  · intro o d0 d1 w w' h h'
    obtain ⟨sb, db, hs, _, _, hf, hnat⟩ := prod_encode_word h
    obtain ⟨sb', db', hs', _, _, hf', hnat'⟩ := prod_encode_word h'
    dsimp only at hs' hf' hnat'
    rw [hs] at hs'; cases hs'
    apply agreeOutside_of
    · rw [bits, bits, Nat.pow_zero, Nat.div_one, Nat.div_one, hnat, hnat']
      exact (pack_mod (a := (_ :: _ :: _ :: _ :: [])) ⟨hf.1, hf.2.1, hf.2.2.1, hf.2.2.2.1, trivial⟩).trans
        (pack_mod (a := (_ :: _ :: _ :: _ :: [])) ⟨hf.1, hf.2.1, hf.2.2.1, hf.2.2.2.1, trivial⟩).symm
    · rw [bits, bits, hnat, hnat']
      exact congrArg (· % _) ((pack_div (a := (_ :: _ :: _ :: _ :: _ :: []))
        ⟨hf.1, hf.2.1, hf.2.2.1, hf.2.2.2.1, hf.2.2.2.2.1, trivial⟩).trans
        (pack_div (a := (_ :: _ :: _ :: _ :: _ :: []))
        ⟨hf.1, hf.2.1, hf.2.2.1, hf.2.2.2.1, hf'.2.2.2.2.1, trivial⟩).symm)
  · intro o s0 s1 w w' h h'
    obtain ⟨sb, db, _, hd, _, hf, hnat⟩ := test_encode_word h
    obtain ⟨sb', db', _, hd', _, hf', hnat'⟩ := test_encode_word h'
    dsimp only at hd' hf' hnat'
    rw [hd] at hd'; cases hd'
    apply agreeOutside_of
    · rw [bits, bits, Nat.pow_zero, Nat.div_one, Nat.div_one, hnat, hnat']
      exact (pack_mod (a := (_ :: _ :: _ :: [])) ⟨hf.1, hf.2.1, hf.2.2.1, trivial⟩).trans
        (pack_mod (a := (_ :: _ :: _ :: [])) ⟨hf.1, hf.2.1, hf.2.2.1, trivial⟩).symm
    · rw [bits, bits, hnat, hnat']
      exact congrArg (· % _) ((pack_div (a := (_ :: _ :: _ :: _ :: []))
        ⟨hf.1, hf.2.1, hf.2.2.1, hf.2.2.2.1, trivial⟩).trans (pack_div (a := (_ :: _ :: _ :: _ :: []))
        ⟨hf.1, hf.2.1, hf.2.2.1, hf'.2.2.2.1, trivial⟩).symm)
  · intro o d0 d1 w w' h h'
    obtain ⟨sb, db, hs, _, _, hf, hnat⟩ := test_encode_word h
    obtain ⟨sb', db', hs', _, _, hf', hnat'⟩ := test_encode_word h'
    dsimp only at hs' hf' hnat'
    rw [hs] at hs'; cases hs'
    apply agreeOutside_of
    · rw [bits, bits, Nat.pow_zero, Nat.div_one, Nat.div_one, hnat, hnat']
      exact (pack_mod (a := (_ :: _ :: _ :: _ :: [])) ⟨hf.1, hf.2.1, hf.2.2.1, hf.2.2.2.1, trivial⟩).trans
        (pack_mod (a := (_ :: _ :: _ :: _ :: [])) ⟨hf.1, hf.2.1, hf.2.2.1, hf.2.2.2.1, trivial⟩).symm
    · rw [bits, bits, hnat, hnat']
      exact congrArg (· % _) ((pack_div (a := (_ :: _ :: _ :: _ :: _ :: []))
        ⟨hf.1, hf.2.1, hf.2.2.1, hf.2.2.2.1, hf.2.2.2.2.1, trivial⟩).trans
        (pack_div (a := (_ :: _ :: _ :: _ :: _ :: []))
        ⟨hf.1, hf.2.1, hf.2.2.1, hf.2.2.2.1, hf'.2.2.2.2.1, trivial⟩).symm)

-- an instruction with over-wide registers meets the hypothesis
example : WellFormed ({ sample16 with src0RegIdx := 0xff, dst1RegIdx := 0x80 } : DecodedOpcode 16).variant
    = true := by decide

/-! ## C14 -/

/-- C14: words of the two modes with equal low 32 bits decode to the same variant, condition, registers and
number. -/
theorem C14_modes_agree_decode (w : BitVec 64) (w' : BitVec 128) (h : bits w 0 32 = bits w' 0 32)
    (o : DecodedOpcode 16) (o' : DecodedOpcode 32) (n n' : VariantMonotonicNumber)
    (hp : Production.parse w = .ok (o, n)) (hp' : Testing.parse w' = .ok (o', n')) :
    o.variant = o'.variant ∧ o.condition = o'.condition ∧ o.src0RegIdx = o'.src0RegIdx ∧
    o.src1RegIdx = o'.src1RegIdx ∧ o.dst0RegIdx = o'.dst0RegIdx ∧ o.dst1RegIdx = o'.dst1RegIdx ∧ n = n' := by
  obtain ⟨a, ha, hv, hc, p1, p2, p3, p4, _, _⟩ := prod_parse w
  obtain ⟨a', ha', hv', hc', p1', p2', p3', p4', _, _⟩ := test_parse w'
  rw [ha] at hp; cases hp
  rw [ha'] at hp'; cases hp'
  unfold bits at h
  have hnum : w.toNat % 2 ^ 11 = w'.toNat % 2 ^ 11 := by omega
  refine ⟨by rw [hv, hv', hnum], condition_inj (by rw [hc, hc']; omega),
    BitVec.eq_of_toNat_eq (by rw [p1, p1']; omega), BitVec.eq_of_toNat_eq (by rw [p2, p2']; omega),
    BitVec.eq_of_toNat_eq (by rw [p3, p3']; omega), BitVec.eq_of_toNat_eq (by rw [p4, p4']; omega), ?_⟩
  rw [hnum]

/-- C14: words of the two modes with the same low half and different immediates. -/
example : ∃ o n o' n', Production.parse 0x1234000100010401#64 = .ok (o, n) ∧
    Testing.parse 0x00000000000000070000000000010401#128 = .ok (o', n') ∧ o.variant = o'.variant ∧ n = n' := by
  obtain ⟨_, o, _, hp, _⟩ := C01_decode_production 0x1234000100010401#64
  obtain ⟨_, o', _, hp', _⟩ := C01_decode_testing 0x00000000000000070000000000010401#128
  have h := C14_modes_agree_decode _ _ (by decide) _ _ _ _ hp hp'
  exact ⟨o, _, o', _, hp, hp', h.1, h.2.2.2.2.2.2⟩

/-- C14: instructions with the same variant, condition and registers have encodings with equal low 32 bits in
the two modes; and one is encodable iff the other is. -/
theorem C14_modes_agree_encode (b : Build) (o : DecodedOpcode 16) (o' : DecodedOpcode 32)
    (hv : o.variant = o'.variant) (hc : o.condition = o'.condition)
    (h1 : o.src0RegIdx = o'.src0RegIdx) (h2 : o.src1RegIdx = o'.src1RegIdx)
    (h3 : o.dst0RegIdx = o'.dst0RegIdx) (h4 : o.dst1RegIdx = o'.dst1RegIdx) :
    (Panics (Production.encodeAsInteger b o) ↔ Panics (Testing.encodeAsInteger b o')) ∧
    ∀ w w', Production.encodeAsInteger b o = .ok w → Testing.encodeAsInteger b o' = .ok w' →
      bits w 0 32 = bits w' 0 32 := by
  constructor
  · rw [(C07_encode_panics_iff b).1, (C07_encode_panics_iff b).2]
    unfold RegistersOk
    rw [hv, h1, h2, h3, h4]
  · intro w w' h h'
    obtain ⟨sb, db, hs, hd, _, hf, hnat⟩ := prod_encode_word h
    obtain ⟨sb', db', hs', hd', _, hf', hnat'⟩ := test_encode_word h'
    rw [h1, h2, hs'] at hs; cases hs
    rw [h3, h4, hd'] at hd; cases hd
    rw [hv, hc] at hnat hf
    rw [bits, bits, Nat.pow_zero, Nat.div_one, Nat.div_one, hnat, hnat']
    exact (pack_mod (a := (_ :: _ :: _ :: _ :: _ :: []))
        ⟨hf.1, hf.2.1, hf.2.2.1, hf.2.2.2.1, hf.2.2.2.2.1, trivial⟩).trans
        (pack_mod (a := (_ :: _ :: _ :: _ :: _ :: []))
        ⟨hf.1, hf.2.1, hf.2.2.1, hf.2.2.2.1, hf.2.2.2.2.1, trivial⟩).symm

example : bits (0xabcdef01_23456789#64) 0 32 = bits (0x1_23456789#128) 0 32 := by decide

/-! ## C15 -/

/-- C15 (finding): the default instruction cannot be serialised, in any mode or build, because the default
variant is not in the table. -/
theorem C15_default_not_encodable (b : Build) :
    Panics (Production.encodeAsInteger b (DecodedOpcode.default 16)) ∧
    Panics (Testing.encodeAsInteger b (DecodedOpcode.default 32)) ∧
    (∀ t, OPCODES_TABLE = .ok t → OpcodeVariant.default ∉ t) := by
  refine ⟨((C07_encode_panics_iff b).1 _).2 (.inl (by decide)),
    ((C07_encode_panics_iff b).2 _).2 (.inl (by decide)), fun t ht => ?_⟩
  rw [OPCODES_TABLE_eq] at ht
  cases ht
  rw [mem_fullTable]
  decide

/-- C15: the encodable no-op differs from the default only in the spelling of its operands. -/
theorem C15_encodable_nop (b : Build) :
    ∃ w, Production.encodeAsInteger b { DecodedOpcode.default 16 with variant :=
      { OpcodeVariant.default with src0OperandType := .full .useRegOnly,
                                   dst0OperandType := .full .useRegOnly } } = .ok w ∧ w.toNat = 1 := by
  obtain ⟨w, hw⟩ := prod_encode_exists b { DecodedOpcode.default 16 with variant :=
      { OpcodeVariant.default with src0OperandType := .full .useRegOnly,
                                   dst0OperandType := .full .useRegOnly } } (by decide) (.inr (by decide))
  obtain ⟨sb, db, hs, hd, _, hf, hnat⟩ := prod_encode_word hw
  rw [merge_ok _ _ _ (by decide) (by decide)] at hs hd
  cases hs; cases hd
  exact ⟨w, hw, hnat.trans (by decide)⟩

/-! ## C17, for words -/

/-- C17: every production word (and every testing word) whose number is assigned in ISA version 0 decodes, with
the current table, to a variant with the meaning the version-0 table gives to that number. -/
theorem C17_old_words_keep_meaning (t0 : List OpcodeVariant)
    (h0 : synthesizeOpcodeDecodingTables 11 ⟨0⟩ = .ok t0) :
    (∀ (w : BitVec 64) o n, bits w 0 11 < 1085 → Production.parse w = .ok (o, n) →
      ∃ a, t0[bits w 0 11]? = some a ∧ SameMeaning a o.variant) ∧
    (∀ (w : BitVec 128) o n, bits w 0 11 < 1085 → Testing.parse w = .ok (o, n) →
      ∃ a, t0[bits w 0 11]? = some a ∧ SameMeaning a o.variant) := by
  have h0' : synthesizeOpcodeDecodingTables 11 ⟨0⟩ = .ok ((List.range 2048).map entryV0) := by
    rw [synthesize_eq 11 (by decide) ⟨0⟩ tableV0 loop_v0 tableV0_zero (by rw [length_tableV0]; decide), length_tableV0,
      tableV0_def]
    exact congrArg Except.ok (pad_eq 1085 963 entryV0 fun i hi => entryV0_unassigned hi)
  rw [h0] at h0'
  have ht := Except.ok.inj h0'
  have key : ∀ k, k < 1085 → ∃ a, t0[k]? = some a ∧ SameMeaning a (entry k) := by
    intro k hk
    refine ⟨entryV0 k, ?_, (semKey_eq_iff _ _).1 (keys_agree hk).symm⟩
    rw [ht]
    exact map_range_get 2048 entryV0 k (by omega)
  constructor
  · intro w o n hb h
    obtain ⟨o', hp, hv, _⟩ := prod_parse w
    rw [hp] at h; cases h
    rw [hv, show w.toNat % 2 ^ 11 = bits w 0 11 by unfold bits; omega]
    exact key _ hb
  · intro w o n hb h
    obtain ⟨o', hp, hv, _⟩ := test_parse w
    rw [hp] at h; cases h
    rw [hv, show w.toNat % 2 ^ 11 = bits w 0 11 by unfold bits; omega]
    exact key _ hb

example : bits (0x433#64) 0 11 = 1075 := by decide

end ZkEvm.Props
