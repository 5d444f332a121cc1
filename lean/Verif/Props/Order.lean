import Verif.Lemmas.Order
import Verif.Lemmas.OrderTable
/-! Property C68: the derived order on instruction variants. -/
namespace ZkEvm.Props
open ZkEvm.Spec ZkEvm.Order ZkEvm.Tables

private theorem total_of_key {α : Type} {cmp : α → α → Ordering} {key : α → Nat}
    (hc : ∀ a b, cmp a b = compare (key a) (key b)) (hi : ∀ {a b}, key a = key b → a = b) (a b c : α) :
    (cmp a b = .eq ↔ a = b) ∧ cmp b a = (cmp a b).swap ∧
    (cmp a b ≠ .gt → cmp b c ≠ .gt → cmp a c ≠ .gt) ∧ (cmp a b = .lt → cmp b c ≠ .gt → cmp a c = .lt) := by
  simp only [hc]
  refine ⟨?_, ?_, ?_, ?_⟩
  · rw [Nat.compare_eq_eq]
    exact ⟨hi, fun h => by rw [h]⟩
  · exact (Nat.compare_swap _ _).symm
  · simp only [ne_eq, Nat.compare_eq_gt]; omega
  · simp only [ne_eq, Nat.compare_eq_gt, Nat.compare_eq_lt]; omega

/-- C68: variants are totally ordered by derived comparison, and only equal values compare as
equal, so they can be used as keys of ordered maps. -/
theorem C68_total (a b c : OpcodeVariant) :
    (a.cmp b = .eq ↔ a = b) ∧ b.cmp a = (a.cmp b).swap ∧
    (a.cmp b ≠ .gt → b.cmp c ≠ .gt → a.cmp c ≠ .gt) ∧
    (a.cmp b = .lt → b.cmp c ≠ .gt → a.cmp c = .lt) :=
  total_of_key variant_cmp key_inj a b c

/-- C68: and so are the parts of a variant. -/
theorem C68_parts_total :
    (∀ a b c : Opcode, (a.cmp b = .eq ↔ a = b) ∧ b.cmp a = (a.cmp b).swap ∧
      (a.cmp b ≠ .gt → b.cmp c ≠ .gt → a.cmp c ≠ .gt) ∧ (a.cmp b = .lt → b.cmp c ≠ .gt → a.cmp c = .lt)) ∧
    (∀ a b c : Operand, (a.cmp b = .eq ↔ a = b) ∧ b.cmp a = (a.cmp b).swap ∧
      (a.cmp b ≠ .gt → b.cmp c ≠ .gt → a.cmp c ≠ .gt) ∧ (a.cmp b = .lt → b.cmp c ≠ .gt → a.cmp c = .lt)) ∧
    (∀ a b c : Condition, (a.cmp b = .eq ↔ a = b) ∧ b.cmp a = (a.cmp b).swap ∧
      (a.cmp b ≠ .gt → b.cmp c ≠ .gt → a.cmp c ≠ .gt) ∧ (a.cmp b = .lt → b.cmp c ≠ .gt → a.cmp c = .lt)) ∧
    (∀ a b c : Flags, (a.cmp b = .eq ↔ a = b) ∧ b.cmp a = (a.cmp b).swap ∧
      (a.cmp b ≠ .gt → b.cmp c ≠ .gt → a.cmp c ≠ .gt) ∧ (a.cmp b = .lt → b.cmp c ≠ .gt → a.cmp c = .lt)) :=
  ⟨total_of_key opcode_cmp opcodeKey_inj, total_of_key operand_cmp operandKey_inj,
    total_of_key (key := fun c : Condition => c.ctorIdx) (fun _ _ => rfl)
      (fun {a b} h => by revert h; cases a <;> cases b <;> decide),
    total_of_key (key := fun f : Flags => 2 * f.f0.toNat + f.f1.toNat)
      (fun ⟨a, b⟩ ⟨c, d⟩ => by cases a <;> cases b <;> cases c <;> cases d <;> rfl)
      (fun {a b} h => by revert h; obtain ⟨a, a'⟩ := a; obtain ⟨b, b'⟩ := b; revert a a' b b'; decide)⟩

/-- C68: opcodes are ordered by logical opcode index and then by sub-variant index, the numbers that
`variant_idx` and `materialize_subvariant_idx` report; conditions and addressing modes by their index. -/
theorem C68_index (a b : Opcode) :
    a.cmp b = (compare a.variantIdx b.variantIdx).then (compare a.materializeSubvariantIdx b.materializeSubvariantIdx) ∧
    (∀ c d : Condition, c.cmp d = compare c.variantIndex d.variantIndex) ∧
    (∀ c d : ImmMemHandlerFlags, c.cmp d = compare c.variantIndex d.variantIndex) ∧
    (∀ c d : RegOrImmFlags, c.cmp d = compare c.variantIndex d.variantIndex) := by
  refine ⟨?_, ?_, ?_, ?_⟩
  · rw [opcode_cmp, opcodeKey, opcodeKey, then_compare (subvariant_lt a) (subvariant_lt b)]
  · intro c d; cases c <;> cases d <;> rfl
  · intro c d; cases c <;> cases d <;> rfl
  · intro c d; cases c <;> cases d <;> rfl

/-- C68: within one logical opcode the version-0 numbers (below 1085) follow the derived order. -/
theorem C68_family_sorted :
    ∃ t, OPCODES_TABLE = .ok t ∧ ∀ (m n : Nat) a b, m < n → n < 1085 → t[m]? = some a → t[n]? = some b →
      a.opcode.variantIdx = b.opcode.variantIdx → a.cmp b = .lt := by
  refine ⟨_, OPCODES_TABLE_eq, ?_⟩
  intro m n a b hmn hn ha hb hf
  rw [fullTable_get (by omega)] at ha hb
  cases ha; cases hb
  have := mono_of_step (fun n => familyRank (entry n).opcode.variantIdx * 51840 + key (entry n)) 1085 rank_step
    (n - m - 1) m (by omega)
  rw [show m + (n - m - 1) + 1 = n by omega] at this
  rw [hf] at this
  rw [variant_cmp]
  exact Nat.compare_eq_lt.2 (by omega)

/-- C68 (finding): the table as a whole is not sorted by the derived order, so sorting variants does not give the
opcode numbers: binary operations (319) are numbered before shifts (463) and contexts (1040) but compare after them,
and the version-1 heap accesses with an immediate (1085) compare before fat-pointer reads (1083). -/
theorem C68_table_not_sorted :
    ∃ t, OPCODES_TABLE = .ok t ∧
      (∃ a b c, t[319]? = some a ∧ t[463]? = some b ∧ t[1040]? = some c ∧ c.cmp b = .lt ∧ b.cmp a = .lt) ∧
      (∃ a b, t[1083]? = some a ∧ t[1085]? = some b ∧ b.cmp a = .lt) := by
  refine ⟨_, OPCODES_TABLE_eq, ⟨_, _, _, fullTable_get (by decide), fullTable_get (by decide), fullTable_get (by decide),
    ?_, ?_⟩, ⟨_, _, fullTable_get (by decide), fullTable_get (by decide), ?_⟩⟩ <;> decide +kernel

example : OpcodeVariant.cmp ⟨.sub .sub, .full .useRegOnly, .full .useRegOnly, ⟨false, true⟩⟩
    ⟨.sub .sub, .full .useRegOnly, .full .useRegOnly, ⟨true, false⟩⟩ = .lt := by decide

end ZkEvm.Props
