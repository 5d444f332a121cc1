import Verif.Lemmas.Coding
import Verif.Lemmas.Enum
import Verif.Spec.History
/-! Lemmas on prices and on what is bought with them. -/
namespace ZkEvm.PriceLemmas
open Spec Tables

theorem price_all : Enum.opcodes.all (fun o => decide (o.ergsPrice = priceOf o)) = true := by decide +kernel
theorem price_eq (o : Opcode) : o.ergsPrice = priceOf o := of_decide_eq_true (Enum.forall_opcode price_all o)

theorem price_ge_all : Enum.opcodes.all (fun o => decide (5 ≤ priceOf o ∧ priceOf o ≤ 2 ^ 32 - 1)) = true := by
  decide +kernel
theorem price_ge (o : Opcode) : 5 ≤ priceOf o ∧ priceOf o ≤ 2 ^ 32 - 1 :=
  of_decide_eq_true (Enum.forall_opcode price_ge_all o)

theorem intoArray_map {α β : Type} (n : Nat) (l : List α) (f : α → β) (h : l.length = n) :
    intoArray n (l.map f) = .ok (l.map f) := by
  unfold intoArray; rw [List.length_map, if_pos h]

theorem prices_gen (t : List OpcodeVariant) (ht : OPCODES_TABLE = .ok t) (hl : t.length = 2048) :
    OPCODES_PRICES = .ok (t.map OpcodeVariant.ergsPrice) := by
  unfold OPCODES_PRICES
  rw [ht]
  exact intoArray_map 2048 t _ hl

theorem prices_eq : OPCODES_PRICES = .ok (fullTable.map OpcodeVariant.ergsPrice) :=
  prices_gen fullTable OPCODES_TABLE_eq length_fullTable

theorem prices_get {prices : List Nat} (h : OPCODES_PRICES = .ok prices) {n : Nat} (hn : n < 2048) :
    prices[n]? = some (priceOf (entry n).opcode) := by
  rw [prices_eq] at h
  injection h with h
  rw [← h, List.getElem?_map, fullTable_get hn, Option.map_some, ← price_eq]
  rfl

private theorem opcode_of {w n : Nat} {r : Res (DecodedOpcode w × VariantMonotonicNumber)} {o : DecodedOpcode w} {k}
    (h : r = .ok (o, k)) (hv : o.variant = entry n) :
    (r.toOption.map fun (decoded, _) => decoded.variant.opcode) = some (entry n).opcode := by
  subst h
  exact congrArg (fun v : OpcodeVariant => some v.opcode) hv

private theorem opcodeOf_production (w : BitVec 64) :
    opcodeOf .production w = some (entry (w.toNat % 2048)).opcode := by
  obtain ⟨o, h, hv, _⟩ := Coding.prod_parse w
  have h11 : w.toNat % 2 ^ 11 = w.toNat % 2048 := rfl
  rw [h11] at hv
  unfold opcodeOf
  exact opcode_of h hv

private theorem opcodeOf_testing (w : BitVec 128) :
    opcodeOf .testing w = some (entry (w.toNat % 2048)).opcode := by
  obtain ⟨o, h, hv, _⟩ := Coding.test_parse w
  have h11 : w.toNat % 2 ^ 11 = w.toNat % 2048 := rfl
  rw [h11] at hv
  unfold opcodeOf
  exact opcode_of h hv

theorem opcodeOf_eq : (m : Mode) → (w : BitVec m.bits) → opcodeOf m w = some (entry (w.toNat % 2048)).opcode
  | .production => opcodeOf_production
  | .testing => opcodeOf_testing

/-- Price of the instruction of a word -/
def wordPrice {n : Nat} (w : BitVec n) : Nat := priceOf (entry (w.toNat % 2048)).opcode

theorem executes_sum {prices : List Nat} (hp : OPCODES_PRICES = .ok prices) {n e e' : Nat} {ws : List (BitVec n)}
    (h : Executes prices e ws e') : (ws.map wordPrice).sum + e' = e := by
  induction h with
  | stop e => simp
  | @step w ws p e e' hw hle _ ih =>
    have : p = wordPrice w := by
      have := prices_get hp (n := w.toNat % 2048) (Nat.mod_lt _ (by decide))
      rw [this] at hw
      exact (Option.some.inj hw).symm
    rw [List.map_cons, List.sum_cons, ← this]
    omega

/-- Every word satisfying `q` costs `c` at least, so does their count times `c`. -/
theorem count_le_sum {n : Nat} (q : BitVec n → Bool) (f : BitVec n → Nat) (c : Nat) (h : ∀ w, q w = true → c ≤ f w)
    (ws : List (BitVec n)) : c * ws.countP q ≤ (ws.map f).sum := by
  induction ws with
  | nil => simp
  | cons w ws ih =>
    rw [List.map_cons, List.sum_cons, List.countP_cons]
    by_cases hq : q w = true
    · have := h w hq
      rw [if_pos hq, Nat.mul_add]
      omega
    · rw [if_neg hq, Nat.add_zero]
      omega

theorem executes_replicate {prices : List Nat} {m : Nat} {w : BitVec m} {p : Nat}
    (hw : prices[w.toNat % 2048]? = some p) (n r : Nat) :
    Executes prices (n * p + r) (List.replicate n w) r := by
  induction n with
  | zero => rw [Nat.zero_mul, Nat.zero_add]; exact .stop r
  | succ n ih =>
    rw [List.replicate_succ]
    refine .step hw (by rw [Nat.succ_mul]; omega) ?_
    have : (n + 1) * p + r - p = n * p + r := by rw [Nat.succ_mul]; omega
    rw [this]
    exact ih

/-! ### Call stacks -/

def total (s : List Frame) : Nat := (s.map (·.ergs)).sum
def paidFrames (s : List Frame) : Nat := s.countP (·.paid)

theorem length_frames (s : List Frame) : s.length = paidFrames s + unpaidFrames s := by
  have := List.length_eq_countP_add_countP (l := s) (fun f : Frame => f.paid)
  rw [this]
  unfold paidFrames unpaidFrames
  congr 1
  refine congrArg (fun p => List.countP p s) ?_
  funext f
  cases f.paid <;> rfl

theorem total_cons (f : Frame) (s : List Frame) : total (f :: s) = f.ergs + total s := rfl
theorem paid_cons (f : Frame) (s : List Frame) : paidFrames (f :: s) = paidFrames s + (if f.paid then 1 else 0) :=
  List.countP_cons

theorem call_price {o : Opcode} (h : IsCall o) : 25 ≤ priceOf o := by
  rcases h with ⟨x, rfl⟩ | ⟨x, rfl⟩ <;> simp [priceOf]

theorem call_invariant {prices : List Nat} {m : Mode} (hp : OPCODES_PRICES = .ok prices) {e k : Nat} {s : List Frame}
    (h : CallHistory m prices e k s) : total s + 25 * paidFrames s ≤ e ∧ unpaidFrames s ≤ 1 + k := by
  induction h with
  | start => exact ⟨by simp [total, paidFrames], by simp [unpaidFrames]⟩
  | @step s t _ hs hu ih =>
    refine ⟨?_, hu⟩
    obtain ⟨ih, _⟩ := ih
    cases hs with
    | spend hn =>
      rw [total_cons, paid_cons] at ih ⊢
      dsimp only at ih ⊢
      omega
    | @call f s w o p passed ho hc hw hle =>
      have h25 : 25 ≤ p := by
        have h1 := prices_get hp (n := w.toNat % 2048) (Nat.mod_lt _ (by decide))
        rw [h1] at hw
        rw [opcodeOf_eq] at ho
        rw [← Option.some.inj hw, Option.some.inj ho]
        exact call_price hc
      rw [total_cons, paid_cons] at ih
      rw [total_cons, paid_cons, total_cons, paid_cons]
      dsimp only at ih ⊢
      rw [if_pos rfl]
      omega
    | pushUnpaid hle =>
      rw [total_cons, paid_cons] at ih
      rw [total_cons, paid_cons, total_cons, paid_cons]
      dsimp only at ih ⊢
      rw [show (if false = true then 1 else 0) = 0 from rfl]
      omega
    | ret hle =>
      rw [total_cons, paid_cons, total_cons, paid_cons] at ih
      rw [total_cons, paid_cons]
      dsimp only at ih ⊢
      omega

/-! ### Rounded-up division -/

theorem isCeilDiv_unique {a b q r : Nat} (hq : IsCeilDiv a b q) (hr : IsCeilDiv a b r) : q = r :=
  Nat.le_antisymm (hq.2 r hr.1) (hr.2 q hq.1)

theorem isCeilDiv_div (a b : Nat) (hb : 0 < b) : IsCeilDiv a b ((a + b - 1) / b) := by
  constructor
  · have h1 := Nat.div_add_mod (a + b - 1) b
    have h2 := Nat.mod_lt (a + b - 1) hb
    omega
  · intro k hk
    apply Nat.le_of_lt_succ
    rw [Nat.div_lt_iff_lt_mul hb, Nat.mul_comm, Nat.mul_succ]
    omega

end ZkEvm.PriceLemmas
