import Verif.Lemmas.Coding
import Verif.Lemmas.Meaning
import Verif.Spec.Words
import Verif.Lemmas.Pack
namespace ZkEvm
open Spec Numbering Tables Coding

namespace Words

theorem getLsbD_eq {w : Nat} (x : BitVec w) (i : Nat) : x.getLsbD i = decide (x.toNat / 2 ^ i % 2 = 1) := by
  rw [← BitVec.testBit_toNat, Nat.testBit_eq_decide_div_mod_eq]

/-- A bit inside a field is determined by the field. -/
theorem getLsbD_of_bits {w : Nat} (x y : BitVec w) (pos len i : Nat) (h1 : pos ≤ i) (h2 : i < pos + len)
    (h : bits x pos len = bits y pos len) : x.getLsbD i = y.getLsbD i := by
  have key : ∀ z : BitVec w, z.getLsbD i = (bits z pos len).testBit (i - pos) := by
    intro z
    unfold bits
    rw [Nat.testBit_mod_two_pow, ← Nat.shiftRight_eq_div_pow, Nat.testBit_shiftRight,
      ← BitVec.testBit_toNat, decide_eq_true (by omega), Bool.true_and]
    congr 1
    omega
  rw [key, key, h]

theorem beNat_toBeBytes (n : Nat) {w : Nat} (x : BitVec w) :
    beNat (toBeBytes n x) = x.toNat % 2 ^ (8 * n) := by
  induction n with
  | zero => simp [toBeBytes, beNat, Nat.mod_one]
  | succ n ih =>
    have hcons : toBeBytes (n + 1) x = x.extractLsb' (8 * n) 8 :: toBeBytes n x := by
      unfold toBeBytes
      rw [List.range_succ_eq_map, List.map_cons, List.map_map]
      congr 1
      apply List.map_congr_left
      intro i hi
      simp only [Function.comp]
      rw [show n + 1 - 1 - (i + 1) = n - 1 - i by omega]
    have hlen : (toBeBytes n x).length = n := by simp [toBeBytes]
    rw [hcons, beNat, hlen, ih, BitVec.extractLsb'_toNat, Nat.shiftRight_eq_div_pow,
      show (256 : Nat) ^ n = 2 ^ (8 * n) by rw [Nat.pow_mul]]
    rw [show 8 * (n + 1) = 8 * n + 8 by omega, Nat.pow_add, Nat.mod_mul]
    rw [Nat.mul_comm]
    omega

theorem toBeBytes_length (n : Nat) {w : Nat} (x : BitVec w) : (toBeBytes n x).length = n := by
  simp [toBeBytes]

theorem toBeBytes_inj (n : Nat) (x y : BitVec (8 * n)) (h : toBeBytes n x = toBeBytes n y) : x = y := by
  have := congrArg beNat h
  rw [beNat_toBeBytes, beNat_toBeBytes, Nat.mod_eq_of_lt x.isLt, Nat.mod_eq_of_lt y.isLt] at this
  exact BitVec.eq_of_toNat_eq this

/-! ### Words as packed fields -/

open Pack

theorem mod_field (n p k j : Nat) (h : j ≤ k) : n / 2 ^ p % 2 ^ j = n / 2 ^ p % 2 ^ k % 2 ^ j := by
  rw [Nat.mod_mod_of_dvd _ (Nat.pow_dvd_pow 2 h)]

theorem hi_field (n p k j : Nat) (h : j ≤ k) :
    n / 2 ^ (p + j) % 2 ^ (k - j) = n / 2 ^ p % 2 ^ k / 2 ^ j := by
  rw [Nat.pow_add, ← Nat.div_div_eq_div_mul]
  generalize n / 2 ^ p = m
  rw [show 2 ^ k = 2 ^ j * 2 ^ (k - j) by rw [← Nat.pow_add]; congr 1; omega, Nat.mod_mul,
    Nat.add_mul_div_left _ _ (Nat.two_pow_pos _), Nat.div_eq_of_lt (Nat.mod_lt _ (Nat.two_pow_pos _)),
    Nat.zero_add]

/-- The register byte made of two nibbles. -/
theorem merged_nibbles {b : Build} {l h x : Byte} (hm : mergeU4 b l h = .ok x) (hl : l.toNat < 16)
    (hh : h.toNat < 16) : x.toNat % 2 ^ 4 = l.toNat ∧ x.toNat / 2 ^ 4 = h.toNat := by
  rw [merge_ok b l h hl hh] at hm
  cases hm
  rw [merge_toNat _ _ hl hh]
  omega

/-- In a release build wide indices are merged too: the low nibble is that of the first index, the high nibble is
that of the second one or-ed with the excess of the first. -/
theorem merged_wide {l h x : Byte} (hm : mergeU4 .release l h = .ok x) :
    x.toNat % 2 ^ 4 = l.toNat % 16 ∧ x.toNat / 2 ^ 4 = h.toNat % 16 ||| l.toNat / 16 := by
  rw [merge_release] at hm
  cases hm
  have hl := l.isLt
  have hs : (h <<< 4).toNat = 16 * (h.toNat % 16) := by
    rw [BitVec.toNat_shiftLeft, Nat.shiftLeft_eq]; omega
  rw [BitVec.toNat_or, hs]
  constructor
  · rw [Nat.or_mod_two_pow, show 16 * (h.toNat % 16) % 2 ^ 4 = 0 by omega, Nat.or_zero]
  · rw [← Nat.shiftRight_eq_div_pow, Nat.shiftRight_or_distrib, Nat.shiftRight_eq_div_pow, Nat.shiftRight_eq_div_pow,
      show 16 * (h.toNat % 16) / 2 ^ 4 = h.toNat % 16 by omega, Nat.or_comm]

def prodFields (num cond sb db i0 i1 : Nat) : List (Nat × Nat) :=
  [(11, num), (2, 0), (3, cond), (8, sb), (8, db), (16, i0), (16, i1)]

def testFields (num cond sb db i0 i1 : Nat) : List (Nat × Nat) :=
  [(11, num), (2, 0), (3, cond), (8, sb), (8, db), (32, i0), (32, i1)]

theorem prod_encode_word {b : Build} {o : DecodedOpcode 16} {w : BitVec 64}
    (h : Production.encodeAsInteger b o = .ok w) : ∃ sb db : Byte,
      mergeU4 b o.src0RegIdx o.src1RegIdx = .ok sb ∧ mergeU4 b o.dst0RegIdx o.dst1RegIdx = .ok db ∧
      WellFormed o.variant = true ∧
      Fits (prodFields (number o.variant) o.condition.variantIndex sb.toNat db.toNat o.imm0.toNat
        o.imm1.toNat) ∧
      w.toNat = pack (prodFields (number o.variant) o.condition.variantIndex sb.toNat db.toNat o.imm0.toNat
        o.imm1.toNat) := by
  cases hwf : WellFormed o.variant with
  | false => rw [prod_encode_panic b o hwf] at h; cases h
  | true =>
    rw [prod_encode b o hwf] at h
    have hn : number o.variant < 1093 := (entry_number _ hwf).1
    have hcl := condition_lt o.condition
    split at h
    · cases h
    · rename_i sb hs
      split at h
      · cases h
      · rename_i db hd
        cases h
        have hf : Fits (prodFields (number o.variant) o.condition.variantIndex sb.toNat db.toNat
            o.imm0.toNat o.imm1.toNat) :=
          ⟨by omega, by omega, by omega, sb.isLt, db.isLt, o.imm0.isLt, o.imm1.isLt, trivial⟩
        refine ⟨sb, db, hs, hd, rfl, hf, ?_⟩
        rw [BitVec.toNat_ofNat, ← Nat.mod_eq_of_lt (pack_lt hf)]
        congr 1
        simp only [prodFields, pack, prodNat]
        omega

theorem test_encode_word {b : Build} {o : DecodedOpcode 32} {w : BitVec 128}
    (h : Testing.encodeAsInteger b o = .ok w) : ∃ sb db : Byte,
      mergeU4 b o.src0RegIdx o.src1RegIdx = .ok sb ∧ mergeU4 b o.dst0RegIdx o.dst1RegIdx = .ok db ∧
      WellFormed o.variant = true ∧
      Fits (testFields (number o.variant) o.condition.variantIndex sb.toNat db.toNat o.imm0.toNat
        o.imm1.toNat) ∧
      w.toNat = pack (testFields (number o.variant) o.condition.variantIndex sb.toNat db.toNat o.imm0.toNat
        o.imm1.toNat) := by
  cases hwf : WellFormed o.variant with
  | false => rw [test_encode_panic b o hwf] at h; cases h
  | true =>
    rw [test_encode b o hwf] at h
    have hn : number o.variant < 1093 := (entry_number _ hwf).1
    have hcl := condition_lt o.condition
    split at h
    · cases h
    · rename_i sb hs
      split at h
      · cases h
      · rename_i db hd
        cases h
        have hf : Fits (testFields (number o.variant) o.condition.variantIndex sb.toNat db.toNat
            o.imm0.toNat o.imm1.toNat) :=
          ⟨by omega, by omega, by omega, sb.isLt, db.isLt, o.imm0.isLt, o.imm1.isLt, trivial⟩
        refine ⟨sb, db, hs, hd, rfl, hf, ?_⟩
        have hlt : pack (testFields (number o.variant) o.condition.variantIndex sb.toNat db.toNat
            o.imm0.toNat o.imm1.toNat) < 2 ^ 128 :=
          Nat.lt_of_lt_of_le (pack_lt hf) (Nat.pow_le_pow_right (by decide) (by simp [testFields, width]))
        rw [BitVec.toNat_ofNat, ← Nat.mod_eq_of_lt hlt]
        congr 1
        simp only [testFields, pack, testNat]
        omega

theorem prod_encode_exists (b : Build) (o : DecodedOpcode 16) (h : WellFormed o.variant = true)
    (hb : b = .release ∨ RegistersOk o) : ∃ w, Production.encodeAsInteger b o = .ok w := by
  rw [prod_encode b o h]
  rcases hb with rfl | ⟨h1, h2, h3, h4⟩
  · rw [merge_release, merge_release]; exact ⟨_, rfl⟩
  · rw [merge_ok _ _ _ h1 h2, merge_ok _ _ _ h3 h4]; exact ⟨_, rfl⟩

theorem test_encode_exists (b : Build) (o : DecodedOpcode 32) (h : WellFormed o.variant = true)
    (hb : b = .release ∨ RegistersOk o) : ∃ w, Testing.encodeAsInteger b o = .ok w := by
  rw [test_encode b o h]
  rcases hb with rfl | ⟨h1, h2, h3, h4⟩
  · rw [merge_release, merge_release]; exact ⟨_, rfl⟩
  · rw [merge_ok _ _ _ h1 h2, merge_ok _ _ _ h3 h4]; exact ⟨_, rfl⟩

/-- The fields of a packed production word. -/
theorem prod_word_fields {n num cond sb db i0 i1 : Nat} (hf : Fits (prodFields num cond sb db i0 i1))
    (h : n = pack (prodFields num cond sb db i0 i1)) :
    n % 2 ^ 11 = num ∧ n / 2 ^ 11 % 2 ^ 2 = 0 ∧ n / 2 ^ 13 % 2 ^ 3 = cond ∧ n / 2 ^ 16 % 2 ^ 8 = sb ∧
    n / 2 ^ 24 % 2 ^ 8 = db ∧ n / 2 ^ 32 % 2 ^ 16 = i0 ∧ n / 2 ^ 48 % 2 ^ 16 = i1 := by
  subst h
  refine ⟨?_, ?_, ?_, ?_, ?_, ?_, ?_⟩
  · have := pack_field [] 11 num [(2, 0), (3, cond), (8, sb), (8, db), (16, i0), (16, i1)] hf
    rwa [show width [] = 0 from rfl, Nat.pow_zero, Nat.div_one] at this
  · exact pack_field [(11, num)] 2 0 [(3, cond), (8, sb), (8, db), (16, i0), (16, i1)] hf
  · exact pack_field [(11, num), (2, 0)] 3 cond [(8, sb), (8, db), (16, i0), (16, i1)] hf
  · exact pack_field [(11, num), (2, 0), (3, cond)] 8 sb [(8, db), (16, i0), (16, i1)] hf
  · exact pack_field [(11, num), (2, 0), (3, cond), (8, sb)] 8 db [(16, i0), (16, i1)] hf
  · exact pack_field [(11, num), (2, 0), (3, cond), (8, sb), (8, db)] 16 i0 [(16, i1)] hf
  · exact pack_field [(11, num), (2, 0), (3, cond), (8, sb), (8, db), (16, i0)] 16 i1 [] hf

theorem test_word_fields {n num cond sb db i0 i1 : Nat} (hf : Fits (testFields num cond sb db i0 i1))
    (h : n = pack (testFields num cond sb db i0 i1)) :
    n % 2 ^ 11 = num ∧ n / 2 ^ 11 % 2 ^ 2 = 0 ∧ n / 2 ^ 13 % 2 ^ 3 = cond ∧ n / 2 ^ 16 % 2 ^ 8 = sb ∧
    n / 2 ^ 24 % 2 ^ 8 = db ∧ n / 2 ^ 32 % 2 ^ 32 = i0 ∧ n / 2 ^ 64 % 2 ^ 32 = i1 := by
  subst h
  refine ⟨?_, ?_, ?_, ?_, ?_, ?_, ?_⟩
  · have := pack_field [] 11 num [(2, 0), (3, cond), (8, sb), (8, db), (32, i0), (32, i1)] hf
    rwa [show width [] = 0 from rfl, Nat.pow_zero, Nat.div_one] at this
  · exact pack_field [(11, num)] 2 0 [(3, cond), (8, sb), (8, db), (32, i0), (32, i1)] hf
  · exact pack_field [(11, num), (2, 0)] 3 cond [(8, sb), (8, db), (32, i0), (32, i1)] hf
  · exact pack_field [(11, num), (2, 0), (3, cond)] 8 sb [(8, db), (32, i0), (32, i1)] hf
  · exact pack_field [(11, num), (2, 0), (3, cond), (8, sb)] 8 db [(32, i0), (32, i1)] hf
  · exact pack_field [(11, num), (2, 0), (3, cond), (8, sb), (8, db)] 32 i0 [(32, i1)] hf
  · exact pack_field [(11, num), (2, 0), (3, cond), (8, sb), (8, db), (32, i0)] 32 i1 [] hf

/-- Decoding what was encoded, with the register bytes left as bytes. -/
theorem prod_decode_encoded {b : Build} {o : DecodedOpcode 16} {w : BitVec 64}
    (h : Production.encodeAsInteger b o = .ok w) : ∃ (sb db : Byte) (o' : DecodedOpcode 16),
      mergeU4 b o.src0RegIdx o.src1RegIdx = .ok sb ∧ mergeU4 b o.dst0RegIdx o.dst1RegIdx = .ok db ∧
      WellFormed o.variant = true ∧
      Production.parse w = .ok (o', ⟨number o.variant⟩) ∧ o'.variant = o.variant ∧
      o'.condition = o.condition ∧ o'.imm0 = o.imm0 ∧ o'.imm1 = o.imm1 ∧
      o'.src0RegIdx.toNat = sb.toNat % 2 ^ 4 ∧ o'.src1RegIdx.toNat = sb.toNat / 2 ^ 4 ∧
      o'.dst0RegIdx.toNat = db.toNat % 2 ^ 4 ∧ o'.dst1RegIdx.toNat = db.toNat / 2 ^ 4 := by
  obtain ⟨sb, db, hs, hd, hwf, hf, hnat⟩ := prod_encode_word h
  obtain ⟨f1, f2, f3, f4, f5, f6, f7⟩ := prod_word_fields hf hnat
  obtain ⟨o', hp, hv, hc, p1, p2, p3, p4, p5, p6⟩ := prod_parse w
  rw [f1] at hp hv
  rw [f3] at hc
  rw [mod_field _ 16 8 4 (by decide), f4] at p1
  have g2 := hi_field w.toNat 16 8 4 (by decide)
  have g4 := hi_field w.toNat 24 8 4 (by decide)
  rw [f4] at g2
  rw [f5] at g4
  rw [mod_field _ 24 8 4 (by decide), f5] at p3
  rw [f6] at p5
  rw [f7] at p6
  exact ⟨sb, db, o', hs, hd, hwf, hp, hv.trans (entry_number _ hwf).2, condition_inj hc,
    BitVec.eq_of_toNat_eq p5, BitVec.eq_of_toNat_eq p6, p1, p2.trans g2, p3, p4.trans g4⟩

theorem test_decode_encoded {b : Build} {o : DecodedOpcode 32} {w : BitVec 128}
    (h : Testing.encodeAsInteger b o = .ok w) : ∃ (sb db : Byte) (o' : DecodedOpcode 32),
      mergeU4 b o.src0RegIdx o.src1RegIdx = .ok sb ∧ mergeU4 b o.dst0RegIdx o.dst1RegIdx = .ok db ∧
      WellFormed o.variant = true ∧
      Testing.parse w = .ok (o', ⟨number o.variant⟩) ∧ o'.variant = o.variant ∧
      o'.condition = o.condition ∧ o'.imm0 = o.imm0 ∧ o'.imm1 = o.imm1 ∧
      o'.src0RegIdx.toNat = sb.toNat % 2 ^ 4 ∧ o'.src1RegIdx.toNat = sb.toNat / 2 ^ 4 ∧
      o'.dst0RegIdx.toNat = db.toNat % 2 ^ 4 ∧ o'.dst1RegIdx.toNat = db.toNat / 2 ^ 4 := by
  obtain ⟨sb, db, hs, hd, hwf, hf, hnat⟩ := test_encode_word h
  obtain ⟨f1, f2, f3, f4, f5, f6, f7⟩ := test_word_fields hf hnat
  obtain ⟨o', hp, hv, hc, p1, p2, p3, p4, p5, p6⟩ := test_parse w
  rw [f1] at hp hv
  rw [f3] at hc
  rw [mod_field _ 16 8 4 (by decide), f4] at p1
  have g2 := hi_field w.toNat 16 8 4 (by decide)
  have g4 := hi_field w.toNat 24 8 4 (by decide)
  rw [f4] at g2
  rw [f5] at g4
  rw [mod_field _ 24 8 4 (by decide), f5] at p3
  rw [f6] at p5
  rw [f7] at p6
  exact ⟨sb, db, o', hs, hd, hwf, hp, hv.trans (entry_number _ hwf).2, condition_inj hc,
    BitVec.eq_of_toNat_eq p5, BitVec.eq_of_toNat_eq p6, p1, p2.trans g2, p3, p4.trans g4⟩

/-- What re-encoding a decoded production word gives, in three fields. -/
theorem prod_reencode {b : Build} {w w' : BitVec 64} {o : DecodedOpcode 16} {n : VariantMonotonicNumber}
    (h : Production.parse w = .ok (o, n)) (h' : Production.encodeAsInteger b o = .ok w') :
    w'.toNat = number (entry (w.toNat % 2 ^ 11)) + w.toNat / 2 ^ 13 * 2 ^ 13 := by
  obtain ⟨o', hp, hv, hc, p1, p2, p3, p4, p5, p6⟩ := prod_parse w
  rw [hp] at h; cases h
  obtain ⟨sb, db, hs, hd, hwf, hf, hnat⟩ := prod_encode_word h'
  obtain ⟨s1, s2⟩ := merged_nibbles hs (by rw [p1]; exact Nat.mod_lt _ (by decide))
    (by rw [p2]; exact Nat.mod_lt _ (by decide))
  obtain ⟨d1, d2⟩ := merged_nibbles hd (by rw [p3]; exact Nat.mod_lt _ (by decide))
    (by rw [p4]; exact Nat.mod_lt _ (by decide))
  have g2 := hi_field w.toNat 16 8 4 (by decide)
  have g4 := hi_field w.toNat 24 8 4 (by decide)
  have g1 := mod_field w.toNat 16 8 4 (by decide)
  have g3 := mod_field w.toNat 24 8 4 (by decide)
  have hsb : sb.toNat = w.toNat / 2 ^ 16 % 2 ^ 8 := by
    rw [← Nat.div_add_mod sb.toNat (2 ^ 4), s1, s2, p1, p2,
      ← Nat.div_add_mod (w.toNat / 2 ^ 16 % 2 ^ 8) (2 ^ 4), ← g1, ← g2]
  have hdb : db.toNat = w.toNat / 2 ^ 24 % 2 ^ 8 := by
    rw [← Nat.div_add_mod db.toNat (2 ^ 4), d1, d2, p3, p4,
      ← Nat.div_add_mod (w.toNat / 2 ^ 24 % 2 ^ 8) (2 ^ 4), ← g3, ← g4]
  have hu := pack_unpack [3, 8, 8, 16, 16] 13 w.toNat
  simp only [unpack] at hu
  have hlt : w.toNat / 2 ^ 13 % 2 ^ [3, 8, 8, 16, 16].sum = w.toNat / 2 ^ 13 := by
    apply Nat.mod_eq_of_lt
    have := w.isLt
    simp only [List.sum_cons, List.sum_nil]
    omega
  rw [hlt] at hu
  rw [hnat, prodFields, hv, hc, hsb, hdb, p5, p6, pack, pack, hu]
  omega

theorem test_reencode {b : Build} {w w' : BitVec 128} {o : DecodedOpcode 32} {n : VariantMonotonicNumber}
    (h : Testing.parse w = .ok (o, n)) (h' : Testing.encodeAsInteger b o = .ok w') :
    w'.toNat = number (entry (w.toNat % 2 ^ 11)) + w.toNat / 2 ^ 13 % 2 ^ 83 * 2 ^ 13 := by
  obtain ⟨o', hp, hv, hc, p1, p2, p3, p4, p5, p6⟩ := test_parse w
  rw [hp] at h; cases h
  obtain ⟨sb, db, hs, hd, hwf, hf, hnat⟩ := test_encode_word h'
  obtain ⟨s1, s2⟩ := merged_nibbles hs (by rw [p1]; exact Nat.mod_lt _ (by decide))
    (by rw [p2]; exact Nat.mod_lt _ (by decide))
  obtain ⟨d1, d2⟩ := merged_nibbles hd (by rw [p3]; exact Nat.mod_lt _ (by decide))
    (by rw [p4]; exact Nat.mod_lt _ (by decide))
  have g2 := hi_field w.toNat 16 8 4 (by decide)
  have g4 := hi_field w.toNat 24 8 4 (by decide)
  have g1 := mod_field w.toNat 16 8 4 (by decide)
  have g3 := mod_field w.toNat 24 8 4 (by decide)
  have hsb : sb.toNat = w.toNat / 2 ^ 16 % 2 ^ 8 := by
    rw [← Nat.div_add_mod sb.toNat (2 ^ 4), s1, s2, p1, p2,
      ← Nat.div_add_mod (w.toNat / 2 ^ 16 % 2 ^ 8) (2 ^ 4), ← g1, ← g2]
  have hdb : db.toNat = w.toNat / 2 ^ 24 % 2 ^ 8 := by
    rw [← Nat.div_add_mod db.toNat (2 ^ 4), d1, d2, p3, p4,
      ← Nat.div_add_mod (w.toNat / 2 ^ 24 % 2 ^ 8) (2 ^ 4), ← g3, ← g4]
  have hu := pack_unpack [3, 8, 8, 32, 32] 13 w.toNat
  simp only [unpack] at hu
  rw [show [3, 8, 8, 32, 32].sum = 83 from rfl] at hu
  rw [hnat, testFields, hv, hc, hsb, hdb, p5, p6, pack, pack, hu]
  omega

theorem number_entry_any (n : Nat) : number (entry n) = if n < 1093 then n else 0 := by
  by_cases h : n < 1093
  · rw [if_pos h]; exact number_entry h
  · rw [if_neg h, entry_unassigned (Nat.le_of_not_lt h)]; rfl

theorem wf_entry_any (n : Nat) : WellFormed (entry n) = true := by
  by_cases h : n < 1093
  · exact wf_entry h
  · rw [entry_unassigned (Nat.le_of_not_lt h)]; rfl

/-- A decoded instruction can always be encoded again. -/
theorem prod_reencode_exists (b : Build) {w : BitVec 64} {o : DecodedOpcode 16} {n : VariantMonotonicNumber}
    (h : Production.parse w = .ok (o, n)) : ∃ w', Production.encodeAsInteger b o = .ok w' := by
  obtain ⟨o', hp, hv, hc, p1, p2, p3, p4, p5, p6⟩ := prod_parse w
  rw [hp] at h; cases h
  refine prod_encode_exists b _ (by rw [hv]; exact wf_entry_any _) (.inr ⟨?_, ?_, ?_, ?_⟩)
  · rw [p1]; exact Nat.mod_lt _ (by decide)
  · rw [p2]; exact Nat.mod_lt _ (by decide)
  · rw [p3]; exact Nat.mod_lt _ (by decide)
  · rw [p4]; exact Nat.mod_lt _ (by decide)

theorem test_reencode_exists (b : Build) {w : BitVec 128} {o : DecodedOpcode 32} {n : VariantMonotonicNumber}
    (h : Testing.parse w = .ok (o, n)) : ∃ w', Testing.encodeAsInteger b o = .ok w' := by
  obtain ⟨o', hp, hv, hc, p1, p2, p3, p4, p5, p6⟩ := test_parse w
  rw [hp] at h; cases h
  refine test_encode_exists b _ (by rw [hv]; exact wf_entry_any _) (.inr ⟨?_, ?_, ?_, ?_⟩)
  · rw [p1]; exact Nat.mod_lt _ (by decide)
  · rw [p2]; exact Nat.mod_lt _ (by decide)
  · rw [p3]; exact Nat.mod_lt _ (by decide)
  · rw [p4]; exact Nat.mod_lt _ (by decide)

end Words
end ZkEvm
