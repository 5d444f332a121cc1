import Verif.Model.Display
import Verif.Spec.Text
import Verif.Lemmas.Enum
/-! Lemmas about texts: splitting at a separator, digits. -/
namespace ZkEvm.Display
open ZkEvm.Spec

theorem split_sep {c : Char} : ∀ {a a' b b' : List Char}, c ∉ a → c ∉ a' → a ++ c :: b = a' ++ c :: b' →
    a = a' ∧ b = b'
  | [], [], _, _, _, _, h => ⟨rfl, (List.cons.inj h).2⟩
  | [], x :: _, _, _, _, ha', h => by
    have := (List.cons.inj h).1
    exact absurd (this ▸ List.mem_cons_self) ha'
  | x :: _, [], _, _, ha, _, h => by
    have := (List.cons.inj h).1
    exact absurd (this ▸ List.mem_cons_self) ha
  | x :: a, x' :: a', b, b', ha, ha', h => by
    have h' := List.cons.inj h
    have r := split_sep (fun hm => ha (List.mem_cons_of_mem _ hm)) (fun hm => ha' (List.mem_cons_of_mem _ hm)) h'.2
    exact ⟨by rw [h'.1, r.1], r.2⟩

/-- Cancel a common prefix and split at a separator. -/
theorem split_line {c : Char} {p a a' b b' : List Char} (ha : c ∉ a) (ha' : c ∉ a')
    (h : p ++ a ++ [c] ++ b = p ++ a' ++ [c] ++ b') : a = a' ∧ b = b' := by
  refine split_sep ha ha' (List.append_cancel_left (as := p) ?_)
  simpa [List.append_assoc] using h

/-! ### Digits -/

theorem digitValue_digitChar : ∀ d, d < 16 → digitValue (digitChar d) = d := by decide
theorem digitChar_plain : ∀ d, d < 16 → digitChar d ≠ '\n' ∧ digitChar d ≠ ',' := by decide

/-- Value of digits, least significant first -/
def valueRev (base : Nat) : List Nat → Nat
  | [] => 0
  | d :: ds => d + base * valueRev base ds

theorem valueRev_digitsRev {base : Nat} (hb : 1 < base) : ∀ fuel n, n < base ^ fuel →
    valueRev base (digitsRev base fuel n) = n
  | 0, n, h => by rw [Nat.pow_zero] at h; simp [digitsRev, valueRev]; omega
  | fuel + 1, n, h => by
    unfold digitsRev
    split
    · simp [valueRev]
    · rw [valueRev, valueRev_digitsRev hb fuel (n / base) ?_, Nat.mod_add_div]
      rw [Nat.pow_succ, Nat.mul_comm] at h
      exact Nat.div_lt_of_lt_mul h

theorem digitsRev_lt {base : Nat} (hb : 1 < base) : ∀ fuel n, ∀ d ∈ digitsRev base fuel n, d < base
  | 0, _, d, h => by simp [digitsRev] at h
  | fuel + 1, n, d, h => by
    unfold digitsRev at h
    split at h
    · simp at h; omega
    · rcases List.mem_cons.1 h with h | h
      · rw [h]; exact Nat.mod_lt _ (by omega)
      · exact digitsRev_lt hb fuel _ d h

theorem digitsRev_length {base : Nat} (hb : 1 < base) : ∀ fuel k n, n < base ^ k → 0 < k → k ≤ fuel →
    (digitsRev base fuel n).length ≤ k
  | 0, k, n, _, h0, hk => by omega
  | fuel + 1, k, n, h, h0, hk => by
    unfold digitsRev
    split
    · exact h0
    · rename_i hn
      rw [List.length_cons]
      rcases k with _ | _ | k
      · omega
      · simp at h; omega
      · rw [Nat.pow_succ, Nat.mul_comm] at h
        have := digitsRev_length hb fuel (k + 1) (n / base) (Nat.div_lt_of_lt_mul h) (by omega) (by omega)
        omega

theorem readNumber_append (base : Nat) (s : List Char) (c : Char) :
    readNumber base (s ++ [c]) = readNumber base s * base + digitValue c := by
  unfold readNumber
  rw [List.foldl_append]; rfl

theorem readNumber_map {base : Nat} (hb : base ≤ 16) : ∀ ds : List Nat, (∀ d ∈ ds, d < base) →
    readNumber base (ds.reverse.map digitChar) = valueRev base ds
  | [], _ => rfl
  | d :: ds, h => by
    rw [List.reverse_cons, List.map_append, List.map_cons, List.map_nil, readNumber_append,
      readNumber_map hb ds (fun x hx => h x (List.mem_cons_of_mem _ hx)),
      digitValue_digitChar d (Nat.lt_of_lt_of_le (h d List.mem_cons_self) hb), valueRev, Nat.mul_comm, Nat.add_comm]

theorem readNumber_fmtDec {n : Nat} (h : n < 10 ^ 39) : readNumber 10 (fmtDec n) = n := by
  unfold fmtDec
  rw [readNumber_map (by decide) _ (digitsRev_lt (by decide) _ _), valueRev_digitsRev (by decide) _ _ h]

theorem readNumber_fmtHexDigits {n : Nat} (h : n < 16 ^ 32) : readNumber 16 (fmtHexDigits n) = n := by
  unfold fmtHexDigits
  rw [readNumber_map (by decide) _ (digitsRev_lt (by decide) _ _), valueRev_digitsRev (by decide) _ _ h]

theorem readNumber_zeros (base k : Nat) (s : List Char) :
    readNumber base (List.replicate k '0' ++ s) = readNumber base s := by
  unfold readNumber
  rw [List.foldl_append]
  congr 1
  induction k with
  | zero => rfl
  | succ k ih =>
    rw [List.replicate_succ, List.foldl_cons, show (0 * base + digitValue '0') = 0 by
      rw [Nat.zero_mul]; decide]
    exact ih

theorem fmtDec_inj {m n : Nat} (hm : m < 10 ^ 39) (hn : n < 10 ^ 39) (h : fmtDec m = fmtDec n) : m = n := by
  rw [← readNumber_fmtDec hm, h, readNumber_fmtDec hn]

theorem fmtHex08_drop (n : Nat) (h : n < 16 ^ 32) : readNumber 16 ((fmtHex08 n).drop 2) = n := by
  unfold fmtHex08
  show readNumber 16 (List.replicate _ '0' ++ fmtHexDigits n) = n
  rw [readNumber_zeros, readNumber_fmtHexDigits h]

theorem fmtHex08_inj {m n : Nat} (hm : m < 16 ^ 32) (hn : n < 16 ^ 32) (h : fmtHex08 m = fmtHex08 n) : m = n := by
  rw [← fmtHex08_drop m hm, h, fmtHex08_drop n hn]

theorem fmtDec_plain (n : Nat) : '\n' ∉ fmtDec n ∧ ',' ∉ fmtDec n := by
  unfold fmtDec
  constructor <;>
  · intro h
    rw [List.mem_map] at h
    obtain ⟨d, hd, e⟩ := h
    have := digitsRev_lt (base := 10) (by decide) _ _ d (List.mem_reverse.1 hd)
    have := digitChar_plain d (by omega)
    rw [e] at this
    simp at this

theorem fmtHex08_plain (n : Nat) : '\n' ∉ fmtHex08 n := by
  unfold fmtHex08 fmtHexDigits
  intro h
  rw [List.mem_append, List.mem_append] at h
  rcases h with (h | h) | h
  · revert h; decide
  · have := List.eq_of_mem_replicate h
    revert this; decide
  · rw [List.mem_map] at h
    obtain ⟨d, hd, e⟩ := h
    have := digitsRev_lt (base := 16) (by decide) _ _ d (List.mem_reverse.1 hd)
    have := digitChar_plain d (by omega)
    rw [e] at this
    simp at this

/-! ### Names -/

theorem opcode_plain (o : Opcode) : '\n' ∉ o.debug := by
  have h := Enum.forall_opcode (p := fun o => !o.debug.contains '\n') (by decide +kernel) o
  simpa using h

theorem opcode_inj {a b : Opcode} (h : a.debug = b.debug) : a = b := by
  have h' := Enum.forall_opcode (p := fun a => Enum.opcodes.all fun b => a.debug != b.debug || a == b)
    (by decide +kernel) a
  have := List.all_eq_true.1 h' b (Enum.mem_opcodes b)
  simpa [h] using this

theorem operand_plain (o : Operand) : '\n' ∉ o.debug := by
  rcases o with _ | o | o <;> (try cases o) <;> decide

theorem operand_inj {a b : Operand} (h : a.debug = b.debug) : a = b := by
  have h' : (Enum.operands.all fun a => Enum.operands.all fun b => a.debug != b.debug || a == b) = true := by
    decide +kernel
  have := List.all_eq_true.1 (List.all_eq_true.1 h' a (Enum.mem_operands a)) b (Enum.mem_operands b)
  simpa [h] using this

theorem condition_plain (c : Condition) : '\n' ∉ c.debug := by
  cases c <;> decide

theorem condition_inj {a b : Condition} (h : a.debug = b.debug) : a = b := by
  revert h; cases a <;> cases b <;> decide

theorem bool_plain (b : Bool) : '\n' ∉ fmtBool b ∧ '|' ∉ fmtBool b := by cases b <;> decide

theorem bool_inj {a b : Bool} (h : fmtBool a = fmtBool b) : a = b := by
  revert h; cases a <;> cases b <;> decide

/-- Cancel a common prefix. -/
theorem cancel {p a b : List Char} (h : p ++ a = p ++ b) : a = b := List.append_cancel_left h

theorem flags_line {a b : Flags}
    (h : "Non-exclusive flags: ".toList ++ fmtBool a.f0 ++ ['|'] ++ fmtBool a.f1 =
      "Non-exclusive flags: ".toList ++ fmtBool b.f0 ++ ['|'] ++ fmtBool b.f1) : a = b := by
  have := split_line (bool_plain a.f0).2 (bool_plain b.f0).2 h
  rcases a with ⟨a0, a1⟩
  rcases b with ⟨b0, b1⟩
  have h0 := bool_inj this.1
  have h1 := bool_inj this.2
  dsimp only at h0 h1
  rw [h0, h1]

/-- The first line determines what follows it; the last line of a variant's text may be followed by more lines. -/
theorem variant_then {a b : OpcodeVariant} {r r' : List Char}
    (h : a.display ++ ['\n'] ++ r = b.display ++ ['\n'] ++ r') : a = b ∧ r = r' := by
  unfold OpcodeVariant.display at h
  simp only [List.append_assoc] at h
  have h1 := split_sep (opcode_plain _) (opcode_plain _) (cancel h)
  have h2 := split_sep (operand_plain _) (operand_plain _) (cancel h1.2)
  have h3 := split_sep (operand_plain _) (operand_plain _) (cancel h2.2)
  have h4 := split_sep (bool_plain _).2 (bool_plain _).2 (cancel h3.2)
  have h5 := split_sep (bool_plain _).1 (bool_plain _).1 h4.2
  refine ⟨?_, h5.2⟩
  rcases a with ⟨ao, as, ad, ⟨a0, a1⟩⟩
  rcases b with ⟨bo, bs, bd, ⟨b0, b1⟩⟩
  have e1 := opcode_inj h1.1
  have e2 := operand_inj h2.1
  have e3 := operand_inj h3.1
  have e4 := bool_inj h4.1
  have e5 := bool_inj h5.1
  dsimp only at e1 e2 e3 e4 e5
  subst e1 e2 e3 e4 e5
  rfl

end ZkEvm.Display
