import Verif.Spec.Disassembly
import Verif.Lemmas.Deploy
import Verif.Lemmas.EncodingMode
namespace ZkEvm.DisassemblyLemmas
open Spec Words Program Deploy

theorem piece_lt (N : Nat) (words : List (Vector Byte 32)) (i : Nat) : beNat (piece N words i) < 2 ^ (8 * N) := by
  have h := beNat_lt (piece N words i)
  have hl : (piece N words i).length ≤ N := List.length_take_le ..
  have : 256 ^ (piece N words i).length ≤ 256 ^ N := Nat.pow_le_pow_right (by decide) hl
  rw [show (256 : Nat) = 2 ^ 8 from rfl, ← Nat.pow_mul, ← Nat.pow_mul] at this
  rw [show (256 : Nat) = 2 ^ 8 from rfl, ← Nat.pow_mul] at h
  exact Nat.lt_of_lt_of_le h this

/-- A slice inside the code is a part of it. -/
theorem slice_take (code : List Byte) (p n : Nat) (h : p + n ≤ code.length) : slice code p n = (code.drop p).take n := by
  apply List.ext_getElem (by rw [slice_length, List.length_take, List.length_drop]; omega)
  intro j h1 h2
  rw [slice_length] at h1
  simp only [slice, List.getElem_map, List.getElem_range, List.getElem_take, List.getElem_drop]
  rw [List.getD_eq_getElem?_getD, List.getElem?_eq_getElem (by omega)]
  rfl

theorem piece_slice {N : Nat} {words : List (Vector Byte 32)} {i n : Nat} (hn : N * n = 32 * words.length) (h : i < n) :
    piece N words i = slice (words.flatMap Vector.toList) (N * i) N := by
  refine (slice_take _ _ _ ?_).symm
  rw [flat_length, ← hn]
  have : N * (i + 1) ≤ N * n := Nat.mul_le_mul_left N h
  rw [Nat.mul_succ] at this
  exact this

section
variable {w k N : Nat} {parse : BitVec k → Res (DecodedOpcode w × VariantMonotonicNumber)}

theorem disassembly_exists (hk : k = 8 * N) (c : Nat) (hc : N * c = 32) (hp : ∀ raw, ∃ o n, parse raw = .ok (o, n))
    (words : List (Vector Byte 32)) : ∃ prog, Disassembled N parse words prog := by
  refine ⟨(List.range (c * words.length)).map fun i => (hp (BitVec.ofNat k (beNat (piece N words i)))).choose, ?_, ?_⟩
  · rw [List.length_map, List.length_range, ← Nat.mul_assoc, hc]
  · intro i o ho
    rw [List.getElem?_map] at ho
    by_cases hi : i < c * words.length
    · rw [List.getElem?_range hi] at ho
      obtain rfl := Option.some.inj ho
      obtain ⟨n, hn⟩ := (hp (BitVec.ofNat k (beNat (piece N words i)))).choose_spec
      refine ⟨_, n, ?_, hn⟩
      rw [BitVec.toNat_ofNat, hk]
      exact Nat.mod_eq_of_lt (piece_lt N words i)
    · rw [List.getElem?_eq_none (by rw [List.length_range]; omega)] at ho
      cases ho

theorem disassembly_unique (hN : 0 < N) {words : List (Vector Byte 32)} {prog prog' : List (DecodedOpcode w)}
    (h : Disassembled N parse words prog) (h' : Disassembled N parse words prog') : prog = prog' := by
  have hl : prog.length = prog'.length := Nat.eq_of_mul_eq_mul_left hN (h.1.trans h'.1.symm)
  apply List.ext_getElem hl
  intro i h1 h2
  obtain ⟨raw, n, e, p⟩ := h.2 i _ (List.getElem?_eq_getElem h1)
  obtain ⟨raw', n', e', p'⟩ := h'.2 i _ (List.getElem?_eq_getElem h2)
  obtain rfl : raw = raw' := BitVec.eq_of_toNat_eq (e.trans e'.symm)
  exact congrArg Prod.fst (Except.ok.inj (p.symm.trans p'))

end

/-- Code is the same if its pieces are. -/
theorem slices_ext {N n : Nat} {a b : List Byte} (ha : a.length = N * n) (hb : b.length = N * n)
    (h : ∀ i, i < n → slice a (N * i) N = slice b (N * i) N) : a = b := by
  apply List.ext_getElem (ha.trans hb.symm)
  intro j h1 h2
  have hj : j < N * n := ha ▸ h1
  have hN : 0 < N := by
    rcases Nat.eq_zero_or_pos N with h0 | h0
    · rw [h0, Nat.zero_mul] at hj; omega
    · exact h0
  have hi : j / N < n := Nat.div_lt_of_lt_mul hj
  have hs := congrArg (fun l => l[j % N]?) (h (j / N) hi)
  have hm := Nat.mod_lt j hN
  simp only [slice, List.getElem?_map, List.getElem?_range hm, Option.map_some, Nat.div_add_mod] at hs
  rw [List.getD_eq_getElem?_getD, List.getD_eq_getElem?_getD, List.getElem?_eq_getElem h1, List.getElem?_eq_getElem h2] at hs
  exact Option.some.inj hs

/-- The first piece of a code can be any number, the others staying what they are. -/
theorem replace_first {N k : Nat} (hN : N ≤ 32) (hk : k = 8 * N) (w0 : Vector Byte 32) (rest : List (Vector Byte 32))
    (x : BitVec k) : ∃ w1, beNat (piece N (w1 :: rest) 0) = x.toNat ∧
      ∀ i, 0 < i → piece N (w1 :: rest) i = piece N (w0 :: rest) i := by
  have hl : (toBeBytes N x ++ w0.toList.drop N).length = 32 := by
    rw [List.length_append, toBeBytes_length, List.length_drop, Vector.length_toList]; omega
  refine ⟨⟨(toBeBytes N x ++ w0.toList.drop N).toArray, by rw [List.size_toArray, hl]⟩, ?_, fun i hi => ?_⟩
  · unfold piece
    rw [Nat.mul_zero, List.drop_zero, List.flatMap_cons]
    show beNat (((toBeBytes N x ++ w0.toList.drop N) ++ _).take N) = _
    rw [List.append_assoc, List.take_left' (toBeBytes_length N x), beNat_toBeBytes]
    subst hk
    exact Nat.mod_eq_of_lt x.isLt
  · unfold piece
    rw [List.flatMap_cons, List.flatMap_cons]
    show (((toBeBytes N x ++ w0.toList.drop N) ++ _).drop (N * i)).take N = _
    obtain ⟨j, rfl⟩ : ∃ j, i = j + 1 := ⟨i - 1, by omega⟩
    rw [Nat.mul_succ, Nat.add_comm, ← List.drop_drop, ← List.drop_drop, List.append_assoc,
      List.drop_left' (toBeBytes_length N x)]
    congr 2
    exact (List.drop_append_of_le_length (by rw [Vector.length_toList]; exact hN)).symm

end ZkEvm.DisassemblyLemmas
