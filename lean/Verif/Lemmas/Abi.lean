import Verif.Lemmas.Coding
import Verif.Lemmas.Pack
import Verif.Model.Abi
import Verif.Model.Consts
/-! Limbs and bit fields of 256-bit words. -/
namespace ZkEvm.AbiLemmas
open Spec Pack

theorem u256_pack (v : U256) :
    u256Nat v = pack [(64, v.l0.toNat), (64, v.l1.toNat), (64, v.l2.toNat), (64, v.l3.toNat)] := by
  simp only [u256Nat, pack]; omega

theorem u256_fits (v : U256) : Fits [(64, v.l0.toNat), (64, v.l1.toNat), (64, v.l2.toNat), (64, v.l3.toNat)] :=
  ⟨v.l0.isLt, v.l1.isLt, v.l2.isLt, v.l3.isLt, trivial⟩

theorem u256_lt (v : U256) : u256Nat v < 2 ^ 256 := by
  rw [u256_pack]; exact pack_lt (u256_fits v)

theorem limb0 (v : U256) : v.l0.toNat = u256Nat v / 2 ^ 0 % 2 ^ 64 := by
  rw [u256_pack]; exact (pack_field [] 64 v.l0.toNat [(64, v.l1.toNat), (64, v.l2.toNat), (64, v.l3.toNat)] (u256_fits v)).symm
theorem limb1 (v : U256) : v.l1.toNat = u256Nat v / 2 ^ 64 % 2 ^ 64 := by
  rw [u256_pack]; exact (pack_field [(64, v.l0.toNat)] 64 v.l1.toNat [(64, v.l2.toNat), (64, v.l3.toNat)] (u256_fits v)).symm
theorem limb2 (v : U256) : v.l2.toNat = u256Nat v / 2 ^ 128 % 2 ^ 64 := by
  rw [u256_pack]; exact (pack_field [(64, v.l0.toNat), (64, v.l1.toNat)] 64 v.l2.toNat [(64, v.l3.toNat)] (u256_fits v)).symm
theorem limb3 (v : U256) : v.l3.toNat = u256Nat v / 2 ^ 192 % 2 ^ 64 := by
  rw [u256_pack]; exact (pack_field [(64, v.l0.toNat), (64, v.l1.toNat), (64, v.l2.toNat)] 64 v.l3.toNat [] (u256_fits v)).symm

theorem u256_ext {a b : U256} (h : u256Nat a = u256Nat b) : a = b := by
  have h0 := limb0 a; have h1 := limb1 a; have h2 := limb2 a; have h3 := limb3 a
  rw [h, ← limb0 b] at h0
  rw [h, ← limb1 b] at h1
  rw [h, ← limb2 b] at h2
  rw [h, ← limb3 b] at h3
  cases a; cases b
  congr 1 <;> exact BitVec.eq_of_toNat_eq ‹_›

/-- A bit field of a bit field -/
theorem field_field (x a m p n : Nat) (h : p + n ≤ m) :
    x / 2 ^ a % 2 ^ m / 2 ^ p % 2 ^ n = x / 2 ^ (a + p) % 2 ^ n := by
  obtain ⟨k, rfl⟩ := Nat.exists_eq_add_of_le h
  rw [Nat.add_assoc, Nat.pow_add 2 p, Nat.mod_mul_right_div_self, Nat.div_div_eq_div_mul, ← Nat.pow_add,
    Nat.pow_add 2 n k, Nat.mod_mul_right_mod]

theorem low32 (x : BitVec 64) : (x.setWidth 32).toNat = x.toNat / 2 ^ 0 % 2 ^ 32 := by
  rw [BitVec.toNat_setWidth, Nat.pow_zero, Nat.div_one]

theorem high32 (x : BitVec 64) : ((x >>> 32).setWidth 32).toNat = x.toNat / 2 ^ 32 % 2 ^ 32 := Coding.shift_field x 32 32

/-- Two 32-bit numbers in a limb -/
theorem pair_toNat (a b : BitVec 32) :
    (a.setWidth 64 ||| (b.setWidth 64 <<< 32) : BitVec 64).toNat = a.toNat + b.toNat * 2 ^ 32 := by
  have ha := a.isLt
  have hb := b.isLt
  have h1 : (a.setWidth 64 : BitVec 64).toNat = a.toNat := by
    rw [BitVec.toNat_setWidth]; omega
  rw [Coding.or_shift_toNat (W := 64) (a.setWidth 64) b 32 (by rw [h1]; exact ha) (by omega), h1]

theorem pair_low (a b : BitVec 32) : ((a.setWidth 64 ||| (b.setWidth 64 <<< 32) : BitVec 64).setWidth 32) = a := by
  have ha := a.isLt
  have hb := b.isLt
  apply BitVec.eq_of_toNat_eq
  rw [BitVec.toNat_setWidth, pair_toNat]; omega

theorem pair_high (a b : BitVec 32) :
    ((a.setWidth 64 ||| (b.setWidth 64 <<< 32) : BitVec 64) >>> 32).setWidth 32 = b := by
  have ha := a.isLt
  have hb := b.isLt
  apply BitVec.eq_of_toNat_eq
  rw [high32, pair_toNat]; omega

theorem pair_eta (x : BitVec 64) :
    ((x.setWidth 32).setWidth 64 ||| (((x >>> 32).setWidth 32).setWidth 64 <<< 32) : BitVec 64) = x := by
  have hx := x.isLt
  apply BitVec.eq_of_toNat_eq
  rw [pair_toNat, low32, high32]; omega

theorem le_byte (x : BitVec 32) (s : Nat) : (x.extractLsb' s 8).toNat = x.toNat / 2 ^ s % 2 ^ 8 := by
  rw [BitVec.extractLsb'_toNat, Nat.shiftRight_eq_div_pow]

/-- Byte `k` of the upper half of the top limb -/
theorem top_byte (v : U256) (s : Nat) (h : s + 8 ≤ 32) :
    (((v.l3 >>> 32).setWidth 32 : BitVec 32).extractLsb' s 8).toNat = u256Nat v / 2 ^ (224 + s) % 2 ^ 8 := by
  rw [le_byte, high32, limb3, field_field _ 192 64 32 32 (by omega), field_field _ 224 32 s 8 h]

/-- The low 128 bits are the two low limbs. -/
theorem low128 (v : U256) : ubits v 0 128 = v.l0.toNat + v.l1.toNat * 2 ^ 64 := by
  have h0 := v.l0.isLt
  have h1 := v.l1.isLt
  unfold ubits u256Nat
  omega

/-- Splitting off the lowest digit -/
theorem peel {k a b a' b' : Nat} (h : a + k * b = a' + k * b') (ha : a < k) (ha' : a' < k) : a = a' ∧ b = b' := by
  have h1 : (a + k * b) % k = (a' + k * b') % k := by rw [h]
  rw [Nat.add_mul_mod_self_left, Nat.add_mul_mod_self_left, Nat.mod_eq_of_lt ha, Nat.mod_eq_of_lt ha'] at h1
  subst h1
  exact ⟨rfl, Nat.eq_of_mul_eq_mul_left (by omega) (Nat.add_left_cancel h)⟩

end ZkEvm.AbiLemmas
