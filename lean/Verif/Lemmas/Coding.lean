import Verif.Model.Decoding
import Verif.Lemmas.LookupMap
/-! Encoding and decoding as natural-number arithmetic, for both modes. -/
namespace ZkEvm
open Spec Numbering Tables

namespace Coding

/-- Or-ing a shifted value above an accumulator adds it. -/
theorem or_shift_toNat {W w : Nat} (e : BitVec W) (x : BitVec w) (s : Nat) (he : e.toNat < 2 ^ s)
    (hx : x.toNat * 2 ^ s < 2 ^ W) :
    (e ||| (x.setWidth W <<< s)).toNat = e.toNat + x.toNat * 2 ^ s := by
  have hpos : 0 < 2 ^ s := Nat.two_pow_pos s
  have hxW : x.toNat < 2 ^ W := Nat.lt_of_le_of_lt (Nat.le_mul_of_pos_right _ hpos) hx
  rw [BitVec.toNat_or, BitVec.toNat_shiftLeft, BitVec.toNat_setWidth, Nat.mod_eq_of_lt hxW,
    Nat.shiftLeft_eq, Nat.mod_eq_of_lt hx]
  have := Nat.two_pow_add_eq_or_of_lt he x.toNat
  rw [Nat.or_comm, Nat.mul_comm, ← this]
  omega

theorem or_ofNat_shift_toNat {W : Nat} (e : BitVec W) (x : Nat) (s : Nat) (he : e.toNat < 2 ^ s)
    (hx : x * 2 ^ s < 2 ^ W) :
    (e ||| (BitVec.ofNat W x <<< s)).toNat = e.toNat + x * 2 ^ s := by
  have hpos : 0 < 2 ^ s := Nat.two_pow_pos s
  have hxW : x < 2 ^ W := Nat.lt_of_le_of_lt (Nat.le_mul_of_pos_right _ hpos) hx
  rw [BitVec.toNat_or, BitVec.toNat_shiftLeft, BitVec.toNat_ofNat, Nat.mod_eq_of_lt hxW,
    Nat.shiftLeft_eq, Nat.mod_eq_of_lt hx]
  have := Nat.two_pow_add_eq_or_of_lt he x
  rw [Nat.or_comm, Nat.mul_comm, ← this]
  omega

theorem low_nibble (b : Byte) : (splitAsU4 b).1.toNat = b.toNat % 16 := by
  unfold splitAsU4
  rw [show ((1#8 <<< 4) - 1#8) = 15#8 from rfl, BitVec.toNat_and]
  exact Nat.and_two_pow_sub_one_eq_mod b.toNat 4

theorem high_nibble (b : Byte) : (splitAsU4 b).2.toNat = b.toNat / 16 := by
  unfold splitAsU4
  rw [BitVec.toNat_ushiftRight, Nat.shiftRight_eq_div_pow]

theorem merge_toNat (l h : Byte) (hl : l.toNat < 16) (hh : h.toNat < 16) :
    (l ||| (h <<< 4)).toNat = l.toNat + h.toNat * 16 := by
  have := or_shift_toNat (W := 8) l h 4 hl (by omega)
  rwa [BitVec.setWidth_eq] at this

theorem shift_field {W : Nat} (x : BitVec W) (s n : Nat) :
    ((x >>> s).setWidth n).toNat = x.toNat / 2 ^ s % 2 ^ n := by
  rw [BitVec.toNat_setWidth, BitVec.toNat_ushiftRight, Nat.shiftRight_eq_div_pow]

theorem mask_shift {W : Nat} (x m : BitVec W) (s k : Nat) (hm : m.toNat >>> s = 2 ^ k - 1) :
    ((x &&& m) >>> s).toNat = x.toNat / 2 ^ s % 2 ^ k := by
  rw [BitVec.toNat_ushiftRight, BitVec.toNat_and, Nat.shiftRight_and_distrib, hm,
    Nat.and_two_pow_sub_one_eq_mod, Nat.shiftRight_eq_div_pow]

theorem mask_low {W : Nat} (x m : BitVec W) (k : Nat) (hm : m.toNat = 2 ^ k - 1) :
    (x &&& m).toNat = x.toNat % 2 ^ k := by
  rw [BitVec.toNat_and, hm, Nat.and_two_pow_sub_one_eq_mod]

theorem materialize_ok {n : Nat} (h : n < 8) :
    ∃ c : Condition, Condition.materializeVariant n = .ok c ∧ c.variantIndex = n := by
  have : n = 0 ∨ n = 1 ∨ n = 2 ∨ n = 3 ∨ n = 4 ∨ n = 5 ∨ n = 6 ∨ n = 7 := by omega
  rcases this with rfl | rfl | rfl | rfl | rfl | rfl | rfl | rfl
  · exact ⟨.always, rfl, rfl⟩
  · exact ⟨.gt, rfl, rfl⟩
  · exact ⟨.lt, rfl, rfl⟩
  · exact ⟨.eq, rfl, rfl⟩
  · exact ⟨.ge, rfl, rfl⟩
  · exact ⟨.le, rfl, rfl⟩
  · exact ⟨.ne, rfl, rfl⟩
  · exact ⟨.gtOrLt, rfl, rfl⟩

theorem condition_inj {a b : Condition} (h : a.variantIndex = b.variantIndex) : a = b := by
  cases a <;> cases b <;> first | rfl | (exact absurd h (by decide))

theorem condition_lt (c : Condition) : c.variantIndex < 8 := by cases c <;> decide

/-- Decoded instructions are equal if their variants and all their numbers are. -/
theorem decoded_ext {w : Nat} {a b : DecodedOpcode w} (h1 : a.variant = b.variant)
    (h2 : a.condition.variantIndex = b.condition.variantIndex)
    (h3 : a.src0RegIdx.toNat = b.src0RegIdx.toNat) (h4 : a.src1RegIdx.toNat = b.src1RegIdx.toNat)
    (h5 : a.dst0RegIdx.toNat = b.dst0RegIdx.toNat) (h6 : a.dst1RegIdx.toNat = b.dst1RegIdx.toNat)
    (h7 : a.imm0.toNat = b.imm0.toNat) (h8 : a.imm1.toNat = b.imm1.toNat) : a = b := by
  rcases a with ⟨av, ac, a1, a2, a3, a4, a5, a6⟩
  rcases b with ⟨bv, bc, b1, b2, b3, b4, b5, b6⟩
  simp only at h1 h2 h3 h4 h5 h6 h7 h8
  rw [BitVec.toNat_inj] at h3 h4 h5 h6 h7 h8
  have h2' := condition_inj h2
  subst h1 h2' h3 h4 h5 h6 h7 h8
  rfl

theorem index_full {n : Nat} (h : n < 2048) : index fullTable n = .ok (entry n) := by
  unfold index; rw [fullTable_get h]

/-! ### Decoding -/

theorem prod_variant (raw : BitVec 64) : ∃ c : Condition,
    Production.variantAndConditionFromU64Word raw
      = .ok (entry (raw.toNat % 2 ^ 11), c, raw.toNat % 2 ^ 11) ∧
    c.variantIndex = raw.toNat / 2 ^ 13 % 2 ^ 3 := by
  obtain ⟨c, hc, hci⟩ := materialize_ok (n := raw.toNat / 2 ^ 13 % 2 ^ 3) (Nat.mod_lt _ (by decide))
  refine ⟨c, ?_, hci⟩
  unfold Production.variantAndConditionFromU64Word
  rw [OPCODES_TABLE_eq]
  simp only [bind, Except.bind]
  rw [mask_low raw Production.VARIANT_MASK 11 (by decide), index_full (Nat.mod_lt _ (by decide))]
  simp only []
  rw [show CONDITIONAL_BITS_SHIFT = 13 from rfl,
    mask_shift raw Production.CONDITION_MASK 13 3 (by decide), hc]

theorem test_variant (raw : BitVec 128) : ∃ c : Condition,
    Testing.variantAndConditionFromU128Word raw
      = .ok (entry (raw.toNat % 2 ^ 11), c, raw.toNat % 2 ^ 11) ∧
    c.variantIndex = raw.toNat / 2 ^ 13 % 2 ^ 3 := by
  obtain ⟨c, hc, hci⟩ := materialize_ok (n := raw.toNat / 2 ^ 13 % 2 ^ 3) (Nat.mod_lt _ (by decide))
  refine ⟨c, ?_, hci⟩
  unfold Testing.variantAndConditionFromU128Word
  rw [OPCODES_TABLE_eq]
  simp only [bind, Except.bind]
  have h1 : (raw.setWidth 64 &&& Testing.VARIANT_MASK).toNat = raw.toNat % 2 ^ 11 := by
    rw [mask_low (raw.setWidth 64) Testing.VARIANT_MASK 11 (by decide), BitVec.toNat_setWidth]
    omega
  have h2 : ((raw.setWidth 64 &&& Testing.CONDITION_MASK) >>> 13).toNat = raw.toNat / 2 ^ 13 % 2 ^ 3 := by
    rw [mask_shift (raw.setWidth 64) Testing.CONDITION_MASK 13 3 (by decide), BitVec.toNat_setWidth]
    omega
  rw [h1, index_full (Nat.mod_lt _ (by decide))]
  simp only []
  rw [show CONDITIONAL_BITS_SHIFT = 13 from rfl, h2, hc]

theorem prod_parse (raw : BitVec 64) : ∃ o : DecodedOpcode 16,
    Production.parse raw = .ok (o, ⟨raw.toNat % 2 ^ 11⟩) ∧
    o.variant = entry (raw.toNat % 2 ^ 11) ∧
    o.condition.variantIndex = raw.toNat / 2 ^ 13 % 2 ^ 3 ∧
    o.src0RegIdx.toNat = raw.toNat / 2 ^ 16 % 2 ^ 4 ∧
    o.src1RegIdx.toNat = raw.toNat / 2 ^ 20 % 2 ^ 4 ∧
    o.dst0RegIdx.toNat = raw.toNat / 2 ^ 24 % 2 ^ 4 ∧
    o.dst1RegIdx.toNat = raw.toNat / 2 ^ 28 % 2 ^ 4 ∧
    o.imm0.toNat = raw.toNat / 2 ^ 32 % 2 ^ 16 ∧
    o.imm1.toNat = raw.toNat / 2 ^ 48 % 2 ^ 16 := by
  obtain ⟨c, hv, hc⟩ := prod_variant raw
  unfold Production.parse
  rw [hv]
  refine ⟨_, rfl, rfl, hc, ?_, ?_, ?_, ?_, shift_field raw 32 16, shift_field raw 48 16⟩
  · exact (low_nibble _).trans (by rw [shift_field]; simp only [SRC_REGS_SHIFT]; omega)
  · exact (high_nibble _).trans (by rw [shift_field]; simp only [SRC_REGS_SHIFT]; omega)
  · exact (low_nibble _).trans (by rw [shift_field]; simp only [DST_REGS_SHIFT]; omega)
  · exact (high_nibble _).trans (by rw [shift_field]; simp only [DST_REGS_SHIFT]; omega)

theorem test_parse (raw : BitVec 128) : ∃ o : DecodedOpcode 32,
    Testing.parse raw = .ok (o, ⟨raw.toNat % 2 ^ 11⟩) ∧
    o.variant = entry (raw.toNat % 2 ^ 11) ∧
    o.condition.variantIndex = raw.toNat / 2 ^ 13 % 2 ^ 3 ∧
    o.src0RegIdx.toNat = raw.toNat / 2 ^ 16 % 2 ^ 4 ∧
    o.src1RegIdx.toNat = raw.toNat / 2 ^ 20 % 2 ^ 4 ∧
    o.dst0RegIdx.toNat = raw.toNat / 2 ^ 24 % 2 ^ 4 ∧
    o.dst1RegIdx.toNat = raw.toNat / 2 ^ 28 % 2 ^ 4 ∧
    o.imm0.toNat = raw.toNat / 2 ^ 32 % 2 ^ 32 ∧
    o.imm1.toNat = raw.toNat / 2 ^ 64 % 2 ^ 32 := by
  obtain ⟨c, hv, hc⟩ := test_variant raw
  unfold Testing.parse
  rw [hv]
  refine ⟨_, rfl, rfl, hc, ?_, ?_, ?_, ?_, shift_field raw 32 32, shift_field raw 64 32⟩
  · exact (low_nibble _).trans (by rw [shift_field]; simp only [SRC_REGS_SHIFT]; omega)
  · exact (high_nibble _).trans (by rw [shift_field]; simp only [SRC_REGS_SHIFT]; omega)
  · exact (low_nibble _).trans (by rw [shift_field]; simp only [DST_REGS_SHIFT]; omega)
  · exact (high_nibble _).trans (by rw [shift_field]; simp only [DST_REGS_SHIFT]; omega)

/-! ### Encoding -/

theorem bits_all : ((List.range 2048).all fun n =>
    decide (trailingZeros (nextPowerOfTwo n) ≤ OPCODES_TABLE_WIDTH)) = true := by decide +kernel

theorem bits_ok {n : Nat} (h : n < 2048) :
    decide (trailingZeros (nextPowerOfTwo n) ≤ OPCODES_TABLE_WIDTH) = true :=
  List.all_eq_true.1 bits_all n (List.mem_range.2 h)

theorem cond_bits_ok (c : Condition) :
    decide (trailingZeros (nextPowerOfTwo c.variantIndex) ≤ CONDITIONAL_BITS_WIDTH) = true := by
  cases c <;> decide +kernel

theorem merge_release (l h : Byte) : mergeU4 .release l h = .ok (l ||| (h <<< 4)) := rfl

theorem merge_ok (b : Build) (l h : Byte) (hl : l.toNat < 16) (hh : h.toNat < 16) :
    mergeU4 b l h = .ok (l ||| (h <<< 4)) := by
  cases b
  · unfold mergeU4 debugAssert
    rw [decide_eq_true (show l < 16#8 from hl), decide_eq_true (show h < 16#8 from hh)]
    rfl
  · rfl

theorem merge_debug_panic (l h : Byte) (hp : ¬ (l.toNat < 16 ∧ h.toNat < 16)) :
    mergeU4 .debug l h = .error .assertFailed := by
  unfold mergeU4 debugAssert
  by_cases hl : l.toNat < 16
  · rw [decide_eq_true (show l < 16#8 from hl),
      decide_eq_false (show ¬ h < 16#8 from fun hh => hp ⟨hl, hh⟩)]
    rfl
  · rw [decide_eq_false (show ¬ l < 16#8 from hl)]
    rfl

/-- The encoding as a number, production mode -/
def prodNat (num cond sb db i0 i1 : Nat) : Nat :=
  num + cond * 2 ^ 13 + sb * 2 ^ 16 + db * 2 ^ 24 + i0 * 2 ^ 32 + i1 * 2 ^ 48

/-- The encoding as a number, testing mode -/
def testNat (num cond sb db i0 i1 : Nat) : Nat :=
  num + cond * 2 ^ 13 + sb * 2 ^ 16 + db * 2 ^ 24 + i0 * 2 ^ 32 + i1 * 2 ^ 64

theorem prod_encode_panic (b : Build) (o : DecodedOpcode 16) (h : WellFormed o.variant = false) :
    Production.encodeAsInteger b o = .error .explicitPanic := by
  obtain ⟨m, h1, h2⟩ := LookupMap.canonical_get
  unfold Production.encodeAsInteger
  rw [h1]
  simp only [bind, Except.bind]
  rw [h2, h]
  rfl

theorem test_encode_panic (b : Build) (o : DecodedOpcode 32) (h : WellFormed o.variant = false) :
    Testing.encodeAsInteger b o = .error .explicitPanic := by
  obtain ⟨m, h1, h2⟩ := LookupMap.canonical_get
  unfold Testing.encodeAsInteger
  rw [h1]
  simp only [bind, Except.bind]
  rw [h2, h]
  rfl

theorem prod_encode (b : Build) (o : DecodedOpcode 16) (h : WellFormed o.variant = true) :
    Production.encodeAsInteger b o =
      match mergeU4 b o.src0RegIdx o.src1RegIdx with
      | .error e => .error e
      | .ok sb => match mergeU4 b o.dst0RegIdx o.dst1RegIdx with
        | .error e => .error e
        | .ok db => .ok (BitVec.ofNat 64 (prodNat (number o.variant) o.condition.variantIndex sb.toNat
            db.toNat o.imm0.toNat o.imm1.toNat)) := by
  obtain ⟨m, h1, h2⟩ := LookupMap.canonical_get
  have hn : number o.variant < 1093 := (entry_number _ h).1
  have hc := condition_lt o.condition
  unfold Production.encodeAsInteger
  rw [h1]
  simp only [bind, Except.bind]
  rw [h2, if_pos h]
  simp only []
  rw [bits_ok (by omega), cond_bits_ok]
  simp only [rassert, if_true]
  cases hs : mergeU4 b o.src0RegIdx o.src1RegIdx with
  | error e => rfl
  | ok sb =>
  cases hd : mergeU4 b o.dst0RegIdx o.dst1RegIdx with
  | error e => rfl
  | ok db =>
  simp only [Except.ok.injEq]
  apply BitVec.eq_of_toNat_eq
  have hsb := sb.isLt
  have hdb := db.isLt
  have hi0 := o.imm0.isLt
  have hi1 := o.imm1.isLt
  have e0 : (0#64 ||| BitVec.ofNat 64 (number o.variant)).toNat = number o.variant := by
    rw [BitVec.zero_or, BitVec.toNat_ofNat]; omega
  have e1 := or_ofNat_shift_toNat (0#64 ||| BitVec.ofNat 64 (number o.variant))
    o.condition.variantIndex CONDITIONAL_BITS_SHIFT (by rw [e0]; simp only [CONDITIONAL_BITS_SHIFT]; omega)
    (by simp only [CONDITIONAL_BITS_SHIFT]; omega)
  rw [e0, show CONDITIONAL_BITS_SHIFT = 13 from rfl] at e1
  have e2 := or_shift_toNat _ sb SRC_REGS_SHIFT (by rw [e1]; simp only [SRC_REGS_SHIFT]; omega)
    (by simp only [SRC_REGS_SHIFT]; omega)
  rw [e1, show SRC_REGS_SHIFT = 16 from rfl] at e2
  have e3 := or_shift_toNat _ db DST_REGS_SHIFT (by rw [e2]; simp only [DST_REGS_SHIFT]; omega)
    (by simp only [DST_REGS_SHIFT]; omega)
  rw [e2, show DST_REGS_SHIFT = 24 from rfl] at e3
  have e4 := or_shift_toNat _ o.imm0 Production.IMM0_SHIFT
    (by rw [e3]; simp only [Production.IMM0_SHIFT]; omega)
    (by simp only [Production.IMM0_SHIFT]; omega)
  rw [e3, show Production.IMM0_SHIFT = 32 from rfl] at e4
  have e5 := or_shift_toNat _ o.imm1 Production.IMM1_SHIFT
    (by rw [e4]; simp only [Production.IMM1_SHIFT]; omega)
    (by simp only [Production.IMM1_SHIFT]; omega)
  rw [e4, show Production.IMM1_SHIFT = 48 from rfl] at e5
  refine e5.trans ?_
  rw [BitVec.toNat_ofNat]
  unfold prodNat
  omega

theorem test_encode (b : Build) (o : DecodedOpcode 32) (h : WellFormed o.variant = true) :
    Testing.encodeAsInteger b o =
      match mergeU4 b o.src0RegIdx o.src1RegIdx with
      | .error e => .error e
      | .ok sb => match mergeU4 b o.dst0RegIdx o.dst1RegIdx with
        | .error e => .error e
        | .ok db => .ok (BitVec.ofNat 128 (testNat (number o.variant) o.condition.variantIndex sb.toNat
            db.toNat o.imm0.toNat o.imm1.toNat)) := by
  obtain ⟨m, h1, h2⟩ := LookupMap.canonical_get
  have hn : number o.variant < 1093 := (entry_number _ h).1
  have hc := condition_lt o.condition
  unfold Testing.encodeAsInteger
  rw [h1]
  simp only [bind, Except.bind]
  rw [h2, if_pos h]
  simp only []
  rw [bits_ok (by omega), cond_bits_ok]
  simp only [rassert, if_true]
  cases hs : mergeU4 b o.src0RegIdx o.src1RegIdx with
  | error e => rfl
  | ok sb =>
  cases hd : mergeU4 b o.dst0RegIdx o.dst1RegIdx with
  | error e => rfl
  | ok db =>
  simp only [Except.ok.injEq]
  apply BitVec.eq_of_toNat_eq
  have hsb := sb.isLt
  have hdb := db.isLt
  have hi0 := o.imm0.isLt
  have hi1 := o.imm1.isLt
  have e0 : (0#128 ||| BitVec.ofNat 128 (number o.variant)).toNat = number o.variant := by
    rw [BitVec.zero_or, BitVec.toNat_ofNat]; omega
  have e1 := or_ofNat_shift_toNat (0#128 ||| BitVec.ofNat 128 (number o.variant))
    o.condition.variantIndex CONDITIONAL_BITS_SHIFT (by rw [e0]; simp only [CONDITIONAL_BITS_SHIFT]; omega)
    (by simp only [CONDITIONAL_BITS_SHIFT]; omega)
  rw [e0, show CONDITIONAL_BITS_SHIFT = 13 from rfl] at e1
  have e2 := or_shift_toNat _ sb SRC_REGS_SHIFT (by rw [e1]; simp only [SRC_REGS_SHIFT]; omega)
    (by simp only [SRC_REGS_SHIFT]; omega)
  rw [e1, show SRC_REGS_SHIFT = 16 from rfl] at e2
  have e3 := or_shift_toNat _ db DST_REGS_SHIFT (by rw [e2]; simp only [DST_REGS_SHIFT]; omega)
    (by simp only [DST_REGS_SHIFT]; omega)
  rw [e2, show DST_REGS_SHIFT = 24 from rfl] at e3
  have e4 := or_shift_toNat _ o.imm0 Testing.IMM0_SHIFT
    (by rw [e3]; simp only [Testing.IMM0_SHIFT]; omega)
    (by simp only [Testing.IMM0_SHIFT]; omega)
  rw [e3, show Testing.IMM0_SHIFT = 32 from rfl] at e4
  have e5 := or_shift_toNat _ o.imm1 Testing.IMM1_SHIFT
    (by rw [e4]; simp only [Testing.IMM1_SHIFT]; omega)
    (by simp only [Testing.IMM1_SHIFT]; omega)
  rw [e4, show Testing.IMM1_SHIFT = 64 from rfl] at e5
  refine e5.trans ?_
  rw [BitVec.toNat_ofNat]
  unfold testNat
  omega

end Coding
end ZkEvm
