import Verif.Lemmas.Words
namespace ZkEvm.Program
open Spec Words

theorem beNat_append (a b : List Byte) : beNat (a ++ b) = beNat a * 256 ^ b.length + beNat b := by
  induction a with
  | nil => simp [beNat]
  | cons x a ih =>
    simp only [List.cons_append, beNat, List.length_append, ih, Nat.pow_add, Nat.add_mul, Nat.mul_assoc,
      Nat.add_assoc]

theorem beNat_lt (a : List Byte) : beNat a < 256 ^ a.length := by
  induction a with
  | nil => simp [beNat]
  | cons x a ih =>
    have hx := x.isLt
    have : (x.toNat + 1) * 256 ^ a.length ≤ 256 * 256 ^ a.length := Nat.mul_le_mul_right _ (by omega)
    rw [Nat.add_mul, Nat.one_mul] at this
    simp only [beNat, List.length_cons, Nat.pow_succ, Nat.mul_comm (256 ^ a.length) 256]
    omega

/-- `n` consecutive bytes of the zero-extended code, from position `p` on. -/
def slice (code : List Byte) (p n : Nat) : List Byte := (List.range n).map fun j => code.getD (p + j) 0

theorem slice_length (code : List Byte) (p n : Nat) : (slice code p n).length = n := by simp [slice]

theorem slice_add (code : List Byte) (p a b : Nat) :
    slice code p (a + b) = slice code p a ++ slice code (p + a) b := by
  unfold slice
  rw [List.range_add, List.map_append, List.map_map]
  congr 1
  apply List.map_congr_left
  intro i _
  simp only [Function.comp, Nat.add_assoc]

theorem wordBytes_eq (code : List Byte) (k : Nat) : wordBytes code k = slice code (32 * k) 32 := rfl

theorem slice_nil_of_ge (code : List Byte) (p n : Nat) (h : code.length ≤ p) : slice code p n = List.replicate n 0 := by
  unfold slice
  apply List.ext_getElem?
  intro i
  rw [List.getElem?_map, List.getElem?_replicate]
  by_cases hi : i < n
  · rw [List.getElem?_range hi, if_pos hi, Option.map_some, List.getD_eq_getElem?_getD,
      List.getElem?_eq_none (by omega)]; rfl
  · rw [List.getElem?_eq_none (by simpa using hi), if_neg hi]; rfl

theorem beNat_zeros (n : Nat) : beNat (List.replicate n 0) = 0 := by
  induction n with
  | zero => rfl
  | succ n ih => rw [List.replicate_succ, beNat, ih]; simp

/-- The slice of an assembled program at the position of an instruction is that instruction's encoding. -/
theorem assembled_slice {α : Type} {enc : α → Res (List Byte)} {prog : List α} {code : List Byte} (N : Nat)
    (hN : ∀ o bs, enc o = .ok bs → bs.length = N) (h : Assembled enc prog code) :
    ∀ (i : Nat) o, prog[i]? = some o → enc o = .ok (slice code (N * i) N) := by
  induction h with
  | nil => intro i o ho; simp at ho
  | @cons o' prog bs code hbs _ ih =>
    intro i o ho
    have hl := hN _ _ hbs
    match i with
    | 0 =>
      rw [List.getElem?_cons_zero] at ho
      cases ho
      rw [hbs]
      congr 1
      apply List.ext_getElem (by rw [slice_length, hl])
      intro j h1 h2
      simp only [slice, List.getElem_map, List.getElem_range, Nat.mul_zero, Nat.zero_add]
      rw [List.getD_eq_getElem?_getD, List.getElem?_append_left h1, List.getElem?_eq_getElem h1]
      rfl
    | i + 1 =>
      rw [List.getElem?_cons_succ] at ho
      rw [ih i o ho]
      congr 1
      unfold slice
      apply List.map_congr_left
      intro j _
      rw [List.getD_eq_getElem?_getD, List.getD_eq_getElem?_getD, List.getElem?_append_right (by rw [hl, Nat.mul_succ]; omega)]
      rw [hl, Nat.mul_succ, show N * i + N + j - N = N * i + j by omega]

theorem assembled_length {α : Type} {enc : α → Res (List Byte)} {prog : List α} {code : List Byte} (N : Nat)
    (hN : ∀ o bs, enc o = .ok bs → bs.length = N) (h : Assembled enc prog code) :
    code.length = N * prog.length := by
  induction h with
  | nil => rfl
  | @cons o prog bs code hbs _ ih =>
    rw [List.length_append, hN _ _ hbs, ih, List.length_cons, Nat.mul_succ, Nat.add_comm]

theorem limbs_unique {a0 a1 a2 a3 b0 b1 b2 b3 : Nat} (h0 : a0 < 2 ^ 64) (h1 : a1 < 2 ^ 64) (h2 : a2 < 2 ^ 64)
    (k0 : b0 < 2 ^ 64) (k1 : b1 < 2 ^ 64) (k2 : b2 < 2 ^ 64)
    (h : a0 + a1 * 2 ^ 64 + a2 * 2 ^ 128 + a3 * 2 ^ 192 = b0 + b1 * 2 ^ 64 + b2 * 2 ^ 128 + b3 * 2 ^ 192) :
    a0 = b0 ∧ a1 = b1 ∧ a2 = b2 ∧ a3 = b3 := by
  have e0 : a0 = b0 := by omega
  subst e0
  have e1 : a1 = b1 := by omega
  subst e1
  have e2 : a2 = b2 := by omega
  subst e2
  refine ⟨rfl, rfl, rfl, by omega⟩

/-- The limbs of a word of the code. -/
theorem holds_limbs {v : U256} {code : List Byte} {k : Nat} (h : HoldsWord v code k) :
    v.l3.toNat = beNat (slice code (8 * (4 * k)) 8) ∧ v.l2.toNat = beNat (slice code (8 * (4 * k + 1)) 8) ∧
    v.l1.toNat = beNat (slice code (8 * (4 * k + 2)) 8) ∧ v.l0.toNat = beNat (slice code (8 * (4 * k + 3)) 8) := by
  unfold HoldsWord at h
  rw [wordBytes_eq, show (32 : Nat) = 8 + (8 + (8 + 8)) from rfl, slice_add, slice_add, slice_add,
    beNat_append, beNat_append, beNat_append] at h
  simp only [List.length_append, slice_length] at h
  rw [show (8 + (8 + (8 + 8))) * k = 8 * (4 * k) by omega, show 8 * (4 * k) + 8 + 8 = 8 * (4 * k + 2) by omega,
    show 8 * (4 * k) + 8 = 8 * (4 * k + 1) by omega, show 8 * (4 * k + 2) + 8 = 8 * (4 * k + 3) by omega] at h
  have b1 := beNat_lt (slice code (8 * (4 * k + 1)) 8)
  have b2 := beNat_lt (slice code (8 * (4 * k + 2)) 8)
  have b3 := beNat_lt (slice code (8 * (4 * k + 3)) 8)
  rw [slice_length] at b1 b2 b3
  unfold u256Nat at h
  have := limbs_unique (a0 := v.l0.toNat) (a1 := v.l1.toNat) (a2 := v.l2.toNat) (a3 := v.l3.toNat)
    (b0 := beNat (slice code (8 * (4 * k + 3)) 8)) (b1 := beNat (slice code (8 * (4 * k + 2)) 8))
    (b2 := beNat (slice code (8 * (4 * k + 1)) 8)) (b3 := beNat (slice code (8 * (4 * k)) 8))
    v.l0.isLt v.l1.isLt v.l2.isLt b3 b2 b1 (h.trans (by omega))
  exact ⟨this.2.2.2, this.2.2.1, this.2.1, this.1⟩

end ZkEvm.Program
