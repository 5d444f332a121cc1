import Verif.Model.Order
import Verif.Lemmas.Enum
/-! Derived comparison is comparison of a natural number, the mixed-radix key of a variant. -/
namespace ZkEvm.Order

def opcodeKey (o : Opcode) : Nat := o.variantIdx * 10 + o.materializeSubvariantIdx

/-- Position of an operand in derived order -/
def operandKey : Operand → Nat
  | .regOnly => 0
  | .regOrImm .useRegOnly => 1
  | .regOrImm .useImm16Only => 2
  | .full f => 3 + f.variantIndex

def flagsKey (f : Flags) : Nat := 2 * f.f0.toNat + f.f1.toNat

def key (v : OpcodeVariant) : Nat :=
  ((opcodeKey v.opcode * 9 + operandKey v.src0OperandType) * 9 + operandKey v.dst0OperandType) * 4 + flagsKey v.flags

theorem opcode_cmp (a b : Opcode) : a.cmp b = compare (opcodeKey a) (opcodeKey b) := by
  have h' := Enum.forall_opcode (p := fun a => Enum.opcodes.all fun b => a.cmp b == compare (opcodeKey a) (opcodeKey b))
    (by decide +kernel) a
  simpa using List.all_eq_true.1 h' b (Enum.mem_opcodes b)

theorem subvariant_lt (o : Opcode) : o.materializeSubvariantIdx < 10 := by
  have h := Enum.forall_opcode (p := fun o => decide (o.materializeSubvariantIdx < 10)) (by decide +kernel) o
  simpa using h

theorem operand_cmp (a b : Operand) : a.cmp b = compare (operandKey a) (operandKey b) := by
  have h : (Enum.operands.all fun a => Enum.operands.all fun b =>
      a.cmp b == compare (operandKey a) (operandKey b)) = true := by decide +kernel
  simpa using List.all_eq_true.1 (List.all_eq_true.1 h a (Enum.mem_operands a)) b (Enum.mem_operands b)

theorem operandKey_lt (o : Operand) : operandKey o < 9 := by
  rcases o with _ | f | f <;> (try cases f) <;> decide

theorem operandKey_inj {a b : Operand} (h : operandKey a = operandKey b) : a = b := by
  rcases a with _ | f | f <;> rcases b with _ | g | g <;> (try cases f) <;> (try cases g) <;> revert h <;> decide

theorem opcodeKey_inj {a b : Opcode} (h : opcodeKey a = opcodeKey b) : a = b := by
  have h' := Enum.forall_opcode (p := fun a => Enum.opcodes.all fun b => opcodeKey a != opcodeKey b || a == b)
    (by decide +kernel) a
  simpa [h] using List.all_eq_true.1 h' b (Enum.mem_opcodes b)

theorem flags_cmp (a b : Flags) : a.cmp b = compare (flagsKey a) (flagsKey b) := by
  rcases a with ⟨a0, a1⟩; rcases b with ⟨b0, b1⟩
  cases a0 <;> cases a1 <;> cases b0 <;> cases b1 <;> rfl

theorem flagsKey_lt (f : Flags) : flagsKey f < 4 := by
  rcases f with ⟨a, b⟩; cases a <;> cases b <;> decide

theorem flagsKey_inj {a b : Flags} (h : flagsKey a = flagsKey b) : a = b := by
  rcases a with ⟨a0, a1⟩; rcases b with ⟨b0, b1⟩
  revert h
  cases a0 <;> cases a1 <;> cases b0 <;> cases b1 <;> decide

theorem then_compare {N a b c d : Nat} (hc : c < N) (hd : d < N) :
    (compare a b).then (compare c d) = compare (a * N + c) (b * N + d) := by
  rcases Nat.lt_trichotomy a b with h | h | h
  · rw [Nat.compare_eq_lt.2 h]
    have := Nat.mul_le_mul_right N (show a + 1 ≤ b from h)
    rw [Nat.succ_mul] at this
    exact (Nat.compare_eq_lt.2 (by omega)).symm
  · subst h
    rw [Nat.compare_eq_eq.2 rfl]
    show compare c d = _
    rcases Nat.lt_trichotomy c d with h | h | h
    · rw [Nat.compare_eq_lt.2 h, Nat.compare_eq_lt.2 (by omega)]
    · rw [Nat.compare_eq_eq.2 h, Nat.compare_eq_eq.2 (by omega)]
    · rw [Nat.compare_eq_gt.2 h, Nat.compare_eq_gt.2 (by omega)]
  · rw [Nat.compare_eq_gt.2 h]
    have := Nat.mul_le_mul_right N (show b + 1 ≤ a from h)
    rw [Nat.succ_mul] at this
    exact (Nat.compare_eq_gt.2 (by omega)).symm

theorem variant_cmp (a b : OpcodeVariant) : a.cmp b = compare (key a) (key b) := by
  unfold OpcodeVariant.cmp key
  rw [opcode_cmp, operand_cmp, operand_cmp, flags_cmp, ← Ordering.then_assoc, ← Ordering.then_assoc,
    then_compare (operandKey_lt _) (operandKey_lt _), then_compare (operandKey_lt _) (operandKey_lt _),
    then_compare (flagsKey_lt _) (flagsKey_lt _)]

theorem key_inj {a b : OpcodeVariant} (h : key a = key b) : a = b := by
  unfold key at h
  have h1 := flagsKey_lt a.flags
  have h2 := flagsKey_lt b.flags
  have h3 := operandKey_lt a.src0OperandType
  have h4 := operandKey_lt b.src0OperandType
  have h5 := operandKey_lt a.dst0OperandType
  have h6 := operandKey_lt b.dst0OperandType
  rcases a with ⟨ao, as, ad, af⟩
  rcases b with ⟨bo, bs, bd, bf⟩
  dsimp only at *
  rw [opcodeKey_inj (show opcodeKey ao = opcodeKey bo by omega), operandKey_inj (show operandKey as = operandKey bs by omega),
    operandKey_inj (show operandKey ad = operandKey bd by omega), flagsKey_inj (show flagsKey af = flagsKey bf by omega)]

end ZkEvm.Order
