import Verif.Lemmas.Deploy
import Verif.Lemmas.Bitmask
import Verif.Lemmas.Prices
import Verif.Spec.Machine
/-! Lemmas on machines: one cycle on words is one step on instructions. -/
namespace ZkEvm.MachineLemmas
open Spec Tables Bitmask Program Deploy PriceLemmas

theorem assembled_append {α : Type} {enc : α → Res (List Byte)} {p q : List α} {c d : List Byte}
    (hp : Assembled enc p c) (hq : Assembled enc q d) : Assembled enc (p ++ q) (c ++ d) := by
  induction hp with
  | nil => exact hq
  | cons h _ ih => rw [List.append_assoc]; exact .cons h ih

theorem assembled_zeros {α : Type} {enc : α → Res (List Byte)} {z : α} {n : Nat}
    (hz : enc z = .ok (List.replicate n 0)) (k : Nat) :
    Assembled enc (List.replicate k z) (List.replicate (k * n) 0) := by
  induction k with
  | zero => rw [Nat.zero_mul]; exact .nil
  | succ k ih =>
    rw [List.replicate_succ, Nat.succ_mul, Nat.add_comm, ← List.replicate_append_replicate]
    exact .cons hz ih

/-- A word of the code is a word of the code followed by zeros. -/
theorem holds_pad {v : U256} {code : List Byte} {k : Nat} (h : HoldsWord v code k) (n : Nat) :
    HoldsWord v (code ++ List.replicate n 0) k := by
  unfold HoldsWord at h ⊢
  rw [wordBytes_eq] at h ⊢
  rw [slice_pad, h]

/-- The program followed by as many all-zero instructions as needed to reach position `i` -/
theorem at_extended {w : Nat} (prog : List (DecodedOpcode w)) (i : Nat) :
    (prog ++ List.replicate (i + 1 - prog.length) (zeroInstruction w))[i]? = some (instructionAt prog i) := by
  unfold instructionAt
  by_cases h : i < prog.length
  · rw [List.getElem?_append_left h, List.getElem?_eq_getElem h]; rfl
  · rw [List.getElem?_append_right (by omega), List.getElem?_replicate, if_pos (by omega),
      List.getElem?_eq_none (by omega)]
    rfl

theorem masks_get {n : Nat} (h : n < 2048) : (fullTable.map maskOf)[n]? = some (maskOf (entry n)) := by
  rw [List.getElem?_map, fullTable_get h]; rfl

theorem prices_at {n : Nat} (h : n < 2048) :
    (fullTable.map OpcodeVariant.ergsPrice)[n]? = some (priceOf (entry n).opcode) := prices_get prices_eq h

theorem mask_unique {mask : OpcodeVariant → BitVec 64} (h : MasksOk mask) (v : OpcodeVariant) : maskOf v = mask v :=
  eq_of_bits fun i hi => (mask_bit v hi).trans (h v i hi).symm

theorem index_some {α : Type} {l : List α} {i : Nat} {a : α} (h : l[i]? = some a) : index l i = .ok a := by
  unfold index; rw [h]

/-- The two table lookups -/
theorem executeDecoded_eq {State Contract : Type} {w : Nat} (M : Machine w State Contract) (s : State)
    {mask : OpcodeVariant → BitVec 64} (h : MasksOk mask) {o : DecodedOpcode w} {n : Nat} (hn : n < 2048)
    (hv : o.variant = entry n) :
    executeDecoded M s (o, ⟨n⟩) = .ok (M.execute s o (priceOf o.variant.opcode) (mask o.variant)) := by
  refine bind_eq prices_eq (bind_eq (index_some (prices_at hn)) (bind_eq masks_eq (bind_eq (index_some (masks_get hn)) ?_)))
  rw [mask_unique h, hv]
  rfl

theorem cycle_eq {State Contract : Type} {w n : Nat} {M : Machine w State Contract} {s t : State} {r : Res (BitVec n)}
    {parse : BitVec n → Res (DecodedOpcode w × VariantMonotonicNumber)} {raw : BitVec n} {d} (h1 : r = .ok raw)
    (h2 : parse raw = .ok d) (h3 : executeDecoded M s d = .ok t) :
    (do let raw ← r
        executeDecoded M s (← parse raw) : Res State) = .ok t := bind_eq h1 (bind_eq h2 h3)

theorem same_result {α β : Type} {r : Res (α × β)} {a a' : α} {b b' : β} (h : r = .ok (a, b)) (h' : r = .ok (a', b')) :
    a = a' ∧ b = b' := by
  rw [h] at h'
  exact Prod.mk.inj (Except.ok.inj h')

theorem cycles_eq {State : Type} {cycle : State → Res State} {step : State → State} (h : ∀ s, cycle s = .ok (step s))
    (run : Nat → State → State) (h0 : ∀ s, run 0 s = s) (h1 : ∀ n s, run (n + 1) s = run n (step s)) :
    ∀ n s, cycles cycle n s = .ok (run n s) := by
  intro n
  induction n with
  | zero => intro s; rw [h0]; rfl
  | succ n ih =>
    intro s
    show (cycle s >>= fun t => cycles cycle n t) = _
    rw [h s, h1]
    exact ih _

theorem cycles_preserve {State World : Type} {cycle : State → Res State} {R : State → Prop} {world : State → World}
    (h : ∀ s, ∃ t, cycle s = .ok t ∧ (R s → world t = world s)) : ∀ n s, ∃ s', cycles cycle n s = .ok s' ∧
      ((∀ k t, k < n → cycles cycle k s = .ok t → R t) → world s' = world s) := by
  intro n
  induction n with
  | zero => intro s; exact ⟨s, rfl, fun _ => rfl⟩
  | succ n ih =>
    intro s
    obtain ⟨t, ht, hw⟩ := h s
    obtain ⟨s', hs, hp⟩ := ih t
    have key : ∀ k, cycles cycle (k + 1) s = cycles cycle k t := fun k => by
      show (cycle s >>= fun t => cycles cycle k t) = _
      rw [ht]; rfl
    refine ⟨s', (key n).trans hs, fun hall => ?_⟩
    rw [hp fun k u hk hu => hall (k + 1) u (by omega) ((key k).trans hu)]
    exact hw (hall 0 s (by omega) rfl)

end ZkEvm.MachineLemmas
