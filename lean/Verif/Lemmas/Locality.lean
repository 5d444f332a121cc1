import Verif.Lemmas.Disassembly
import Verif.Lemmas.Machine
/-! Lemmas on what a run reads of the code. -/
namespace ZkEvm.LocalityLemmas
open Spec Words Program Deploy MachineLemmas DisassemblyLemmas

/-- Reading a code with zeros after its end -/
theorem piece_padded {N c : Nat} (hc : N * c = 32) (words : List (Vector Byte 32)) (i : Nat) :
    beNat (slice (words.flatMap Vector.toList) (N * i) N) = beNat (piece N words i) := by
  have hn : N * (c * words.length) = 32 * words.length := by rw [← Nat.mul_assoc, hc]
  by_cases h : i < c * words.length
  · rw [piece_slice hn h]
  · have hl : (words.flatMap Vector.toList).length ≤ N * i := by
      rw [flat_length, ← hn]
      exact Nat.mul_le_mul_left N (by omega)
    rw [slice_nil_of_ge _ _ _ hl, beNat_zeros]
    unfold piece
    rw [List.drop_eq_nil_of_le hl, List.take_nil]
    rfl

theorem holds_flat {v : U256} {words : List (Vector Byte 32)} {k : Nat} (h : HoldsPageWord v words k) :
    HoldsWord v (words.flatMap Vector.toList) k := by
  unfold HoldsPageWord at h
  rw [pageWord_eq] at h
  exact h

/-- Code in front of a code -/
theorem piece_after {N c : Nat} (hc : N * c = 32) (before words : List (Vector Byte 32)) (i : Nat) :
    piece N (before ++ words) (i + c * before.length) = piece N words i := by
  unfold piece
  rw [List.flatMap_append, show N * (i + c * before.length) = (before.flatMap Vector.toList).length + N * i by
    rw [flat_length, Nat.mul_add, ← Nat.mul_assoc, hc, Nat.add_comm], List.drop_append]
  rw [List.drop_eq_nil_of_le (by omega), List.nil_append, Nat.add_sub_cancel_left]

/-- Code behind a code -/
theorem piece_before {N c : Nat} (hc : N * c = 32) (words after : List (Vector Byte 32)) (i : Nat)
    (hi : i < c * words.length) : piece N (words ++ after) i = piece N words i := by
  have h : N * (i + 1) ≤ N * (c * words.length) := Nat.mul_le_mul_left N hi
  rw [← Nat.mul_assoc, hc, ← flat_length, Nat.mul_succ] at h
  unfold piece
  rw [List.flatMap_append, List.drop_append_of_le_length (by omega), List.take_append_of_le_length (by
    rw [List.length_drop]; omega)]

theorem executeDecoded_congr {State Contract Contract' : Type} {w : Nat} {M : Machine w State Contract}
    {M' : Machine w State Contract'} (h : M'.execute = M.execute) (s : State)
    (d : DecodedOpcode w × VariantMonotonicNumber) : executeDecoded M' s d = executeDecoded M s d := by
  unfold executeDecoded
  rw [h]

theorem cycle_bind {State Contract : Type} {w n : Nat} {M : Machine w State Contract} {s : State} {r : Res (BitVec n)}
    {parse : BitVec n → Res (DecodedOpcode w × VariantMonotonicNumber)} {raw : BitVec n} (h : r = .ok raw) :
    (do let raw ← r
        executeDecoded M s (← parse raw) : Res State) = (parse raw >>= fun d => executeDecoded M s d) := by
  rw [h]
  rfl

/-- Two machines that do the same in every state that the first one reaches -/
theorem cycles_congr {State : Type} {cycle cycle' : State → Res State} : ∀ (n : Nat) (s : State),
    (∀ k t, k < n → cycles cycle k s = .ok t → cycle' t = cycle t) → cycles cycle' n s = cycles cycle n s
  | 0, _, _ => rfl
  | n + 1, s, h => by
    show (cycle' s >>= fun t => cycles cycle' n t) = (cycle s >>= fun t => cycles cycle n t)
    rw [h 0 s (by omega) rfl]
    cases hs : cycle s with
    | error e => rfl
    | ok t =>
      refine cycles_congr n t fun k u hk hu => h (k + 1) u (by omega) ?_
      show (cycle s >>= fun t => cycles cycle k t) = _
      rw [hs]
      exact hu

end ZkEvm.LocalityLemmas
