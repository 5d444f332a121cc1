import Verif.Lemmas.Machine
import Verif.Spec.EncodingMode
/-! Lemmas on arbitrary encoding modes. -/
namespace ZkEvm.EncodingModeLemmas
open Spec Program Deploy MachineLemmas

theorem beNat_inj : ∀ {a b : List Byte}, a.length = b.length → beNat a = beNat b → a = b
  | [], [], _, _ => rfl
  | x :: a, y :: b, hl, h => by
    have hl' : a.length = b.length := Nat.succ.inj hl
    have ha := beNat_lt a
    have hb := beNat_lt b
    unfold beNat at h
    rw [hl'] at ha h
    have hp : 0 < 256 ^ b.length := Nat.pow_pos (by decide)
    have e1 : x.toNat = y.toNat := by
      have h1 : (x.toNat * 256 ^ b.length + beNat a) / 256 ^ b.length = x.toNat := by
        rw [Nat.mul_comm, Nat.mul_add_div hp, Nat.div_eq_of_lt ha, Nat.add_zero]
      have h2 : (y.toNat * 256 ^ b.length + beNat b) / 256 ^ b.length = y.toNat := by
        rw [Nat.mul_comm, Nat.mul_add_div hp, Nat.div_eq_of_lt hb, Nat.add_zero]
      rw [← h1, h, h2]
    rw [e1] at h
    rw [BitVec.eq_of_toNat_eq e1, beNat_inj hl' (Nat.add_left_cancel h)]

/-- A group of `n` bytes of a byte string, as a number -/
theorem beNat_group (code : List Byte) (p a n r : Nat) :
    beNat (slice code p (a + n + r)) / 256 ^ r % 256 ^ n = beNat (slice code (p + a) n) := by
  rw [slice_add, slice_add, beNat_append, beNat_append, slice_length, slice_length]
  have h1 := beNat_lt (slice code (p + (a + n)) r)
  have h2 := beNat_lt (slice code (p + a) n)
  rw [slice_length] at h1 h2
  rw [Nat.mul_comm, Nat.mul_add_div (Nat.pow_pos (by decide)), Nat.div_eq_of_lt h1, Nat.add_zero, Nat.mul_comm,
    Nat.mul_add_mod, Nat.mod_eq_of_lt h2]

theorem group_of_word {N k j : Nat} (hN : 0 < N ∧ 32 % N = 0) (hj : j < 32 / N) {v : U256} {code : List Byte}
    (h : HoldsWord v code k) :
    u256Nat v / 256 ^ (32 - N * (j + 1)) % 256 ^ N = beNat (slice code (N * (32 / N * k + j)) N) := by
  have e : N * (32 / N) = 32 := by have := Nat.div_add_mod 32 N; omega
  have hle : N * (j + 1) ≤ 32 := by
    have := Nat.mul_le_mul_left N (Nat.succ_le_of_lt hj)
    rw [e] at this
    exact this
  unfold HoldsWord at h
  have e32 : slice code (32 * k) 32 = slice code (32 * k) (N * j + N + (32 - N * (j + 1))) := by
    congr 1
    rw [Nat.mul_succ] at hle ⊢
    omega
  rw [h, wordBytes_eq, e32, beNat_group]
  congr 2
  rw [Nat.mul_add, ← Nat.mul_assoc, e]

theorem fetch_decode {N : Nat} {E : VmEncodingMode N} {valid : E.Decoded → Prop}
    (hL : Lawful E valid) {b : Build} {prog : List E.Decoded} {code : List Byte}
    (hA : Assembled (E.encodeAsBytes b) prog code) {pc : E.pcOrImm.carrier} {o : E.Decoded} (hv : valid o)
    (ho : prog[value pc]? = some o) {v : U256} (hw : HoldsWord v code (value (E.splitPc pc).1)) :
    ∃ raw n, E.integerRepresentationFromU256 v (E.splitPc pc).2 = .ok raw ∧ E.parse raw = .ok (o, n) := by
  obtain ⟨hs, hlt⟩ := hL.split pc
  obtain ⟨raw, hraw, hb⟩ := hL.fetch v _ hlt
  obtain ⟨i, n, hi, hp, _⟩ := hL.roundtrip b o hv
  have h1 := assembled_slice N (fun o l h => E.encodeAsBytes_length b o l h) hA _ o ho
  rw [hL.bytes b o i hi] at h1
  have h2 := Except.ok.inj h1
  rw [group_of_word hL.size hlt hw, ← hs, ← h2] at hb
  have e : raw = i := hL.distinct raw i (beNat_inj (by rw [E.integerAsBytes_length, E.integerAsBytes_length]) hb)
  exact ⟨raw, n, hraw, by rw [e]; exact hp⟩

end ZkEvm.EncodingModeLemmas
