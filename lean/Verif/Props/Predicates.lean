import Verif.Lemmas.Bitmask
import Verif.Lemmas.Words
import Verif.Lemmas.Meaning
import Verif.Spec.Declared
/-!
# Predicates on opcodes: C30–C35

`Verif/Spec/Facts.lean` has the independent tables: `familyNumber`, `subNumber`, `familySize`, `kernelOnly`,
`changesState`.
-/
namespace ZkEvm.Props
open Spec Tables Bitmask

/-! ## C30 -/

/-- C30: from any prototype of its family, an opcode is materialised from its own sub-variant index, whatever the
version. -/
theorem C30_roundtrip (o proto : Opcode) (version : ISAVersion) (h : familyNumber proto = familyNumber o) :
    o.materializeSubvariantIdx < familySize o ∧
    proto.materializeSubvariantFromPrototype o.materializeSubvariantIdx version = .ok o := by
  cases proto <;> cases o <;> first
    | (rename_i x y; cases y <;> exact ⟨by decide, rfl⟩)
    | (exfalso; revert h; decide)
    | (exfalso; simp [familyNumber] at h; done)

/-- C30: any other member of the family works as the prototype. -/
example : (Opcode.context .sp).materializeSubvariantFromPrototype (Opcode.context .this).materializeSubvariantIdx ⟨1⟩ =
    .ok (.context .this) := (C30_roundtrip (.context .this) (.context .sp) ⟨1⟩ (by decide)).2

/-- C30: materialising succeeds exactly for the indices below the number of sub-variants of the family, with an
opcode of that family and that index; every other index panics. -/
theorem C30_index (proto : Opcode) (idx : Nat) (version : ISAVersion) :
    (idx < familySize proto → ∃ o, proto.materializeSubvariantFromPrototype idx version = .ok o ∧
      familyNumber o = familyNumber proto ∧ o.materializeSubvariantIdx = idx) ∧
    (familySize proto ≤ idx → Panics (proto.materializeSubvariantFromPrototype idx version)) := by
  have hlt : ∀ n, n < 10 → ∃ (k : Nat), k = n ∧ (n = 0 ∨ n = 1 ∨ n = 2 ∨ n = 3 ∨ n = 4 ∨ n = 5 ∨ n = 6 ∨
    n = 7 ∨ n = 8 ∨ n = 9) := fun n h => ⟨n, rfl, by omega⟩
  constructor
  · intro h
    have h10 : idx < 10 := by cases proto <;> simp only [familySize] at h <;> omega
    obtain ⟨_, _, hk⟩ := hlt idx h10
    rcases hk with rfl | rfl | rfl | rfl | rfl | rfl | rfl | rfl | rfl | rfl <;> cases proto <;>
      first
        | exact ⟨_, rfl, rfl, rfl⟩
        | (exfalso; revert h; simp [familySize]; done)
  · intro h
    refine ⟨.expectFailed, ?_⟩
    rcases idx with _ | _ | _ | _ | _ | _ | _ | _ | _ | _ | n <;> cases proto <;>
      first
        | rfl
        | (exfalso; revert h; simp [familySize]; done)

example : (Opcode.ptr .add).materializeSubvariantFromPrototype 3 ⟨1⟩ = .ok (.ptr .shrink) ∧
    Panics ((Opcode.ptr .add).materializeSubvariantFromPrototype 4 ⟨1⟩) := ⟨rfl, _, rfl⟩

/-! ## C31 -/

/-- C31: the declared inputs and outputs exist (inputs of UMA only up to version 1), and the two addressing
predicates hold iff the first declared operand is of the kind with all addressing modes, whatever the version. -/
theorem C31_predicates (o : Opcode) (version : ISAVersion) :
    (∀ ins, o.inputOperands version = .ok ins → o.canHaveSrc0FromMem version = .ok (firstIsFull ins)) ∧
    (∀ outs, o.outputOperands version = .ok outs → o.canWriteDst0IntoMemory version = .ok (firstIsFull outs)) ∧
    (Panics (o.inputOperands version) ↔ 2 ≤ version.num ∧ familyNumber o = 15) ∧
    (Panics (o.canHaveSrc0FromMem version) ↔ 2 ≤ version.num ∧ familyNumber o = 15) ∧
    ¬ Panics (o.outputOperands version) := by
  rcases version with ⟨_ | _ | n⟩ <;> cases o <;> rename_i x <;> cases x <;>
    exact ⟨fun _ h => (by first | (cases h; done) | (cases h; rfl)), fun _ h => (by cases h; rfl),
      by first
        | exact ⟨fun h => (not_panics_ok _ h).elim, fun h => absurd h (by simp [familyNumber])⟩
        | exact ⟨fun _ => ⟨by simp, rfl⟩, fun _ => ⟨_, rfl⟩⟩,
      by first
        | exact ⟨fun h => (not_panics_ok _ h).elim, fun h => absurd h (by simp [familyNumber])⟩
        | exact ⟨fun _ => ⟨by simp, rfl⟩, fun _ => ⟨_, rfl⟩⟩,
      not_panics_ok _⟩

/-- C31: which opcodes those are (the shapes of `Verif/Spec/Isa.lean`), for the supported versions. -/
theorem C31_which (o : Opcode) (version : ISAVersion) (h : version.num ≤ 1) :
    (o.canHaveSrc0FromMem version = .ok true ↔ ∃ d n, shape o = (.any, d, n)) ∧
    (o.canWriteDst0IntoMemory version = .ok true ↔ ∃ s n, shape o = (s, .memory, n)) := by
  rcases version with ⟨_ | _ | n⟩
  case succ.succ => simp at h
  all_goals
    cases o <;> rename_i x <;> cases x <;>
    exact ⟨by first
        | exact ⟨fun _ => ⟨_, _, rfl⟩, fun _ => rfl⟩
        | exact ⟨fun h => (by cases h), fun ⟨_, _, h⟩ => (by simp [shape] at h)⟩,
      by first
        | exact ⟨fun _ => ⟨_, _, rfl⟩, fun _ => rfl⟩
        | exact ⟨fun h => (by cases h), fun ⟨_, _, h⟩ => (by simp [shape] at h)⟩⟩

/-- C31: multiplication reads and writes memory, a far call does neither. -/
example : (Opcode.mul .mk).canHaveSrc0FromMem ⟨1⟩ = .ok true ∧ (Opcode.mul .mk).canWriteDst0IntoMemory ⟨0⟩ = .ok true ∧
    (Opcode.farCall .normal).canHaveSrc0FromMem ⟨1⟩ ≠ .ok true := by
  refine ⟨(C31_which _ ⟨1⟩ (by decide)).1.2 ⟨_, _, rfl⟩, (C31_which _ ⟨0⟩ (by decide)).2.2 ⟨_, _, rfl⟩, fun h => ?_⟩
  obtain ⟨d, n, e⟩ := (C31_which (.farCall .normal) ⟨1⟩ (by decide)).1.1 h
  cases e

/-- C31: in the table, a memory operand occurs only where the predicate allows it. -/
theorem C31_table (t : List OpcodeVariant) (ht : OPCODES_TABLE = .ok t) (v : OpcodeVariant) (hv : v ∈ t) :
    (usesMemory v.src0OperandType = true → v.opcode.canHaveSrc0FromMem ⟨1⟩ = .ok true) ∧
    (usesMemory v.dst0OperandType = true → v.opcode.canWriteDst0IntoMemory ⟨1⟩ = .ok true) ∧
    (∀ f, v.dst0OperandType ≠ .regOrImm f) ∧
    (∀ f, v.src0OperandType = .regOrImm f → ∃ u, v.opcode = .uma u ∧ u ≠ .fatPointerRead) := by
  rw [OPCODES_TABLE_eq] at ht
  cases ht
  rw [mem_fullTable] at hv
  rcases v with ⟨o, s, d, f⟩
  have hall : (Enum.opcodes.all fun o => Enum.operands.all fun s => Enum.operands.all fun d =>
      !(srcOk (shape o).1 s && dstOk (shape o).2.1 d) ||
      ((!usesMemory s || decide (o.canHaveSrc0FromMem ⟨1⟩ = .ok true)) &&
       (!usesMemory d || decide (o.canWriteDst0IntoMemory ⟨1⟩ = .ok true)) &&
       (match d with | .regOrImm _ => false | _ => true) &&
       (match s with
         | .regOrImm _ => (match o with | .uma .fatPointerRead => false | .uma _ => true | _ => false)
         | _ => true))) = true := by decide +kernel
  have := List.all_eq_true.1 (List.all_eq_true.1 (List.all_eq_true.1 hall o (Enum.mem_opcodes o)) s
    (Enum.mem_operands s)) d (Enum.mem_operands d)
  simp only [WellFormed, Bool.and_eq_true] at hv
  rw [hv.1.1, hv.1.2] at this
  simp only [Bool.and_self, Bool.not_true, Bool.false_or, Bool.and_eq_true, Bool.or_eq_true, Bool.not_eq_true',
    decide_eq_true_eq] at this
  obtain ⟨⟨⟨h1, h2⟩, h3⟩, h4⟩ := this
  refine ⟨fun h => ?_, fun h => ?_, ?_, ?_⟩
  · rcases h1 with h1 | h1
    · dsimp only at h; rw [h] at h1; cases h1
    · exact h1
  · rcases h2 with h2 | h2
    · dsimp only at h; rw [h] at h2; cases h2
    · exact h2
  · rintro g rfl
    cases h3
  · rintro g hg
    dsimp only at hg
    subst hg
    rcases o with o | o | o | o | o | o | o | o | o | o | o | o | o | o | o | o
    case uma =>
      refine ⟨o, rfl, ?_⟩
      rintro rfl
      cases h4
    all_goals cases h4

/-- C31: an addition of a stack value into the stack is in the table. -/
example : (Opcode.add .add).canHaveSrc0FromMem ⟨1⟩ = .ok true ∧ (Opcode.add .add).canWriteDst0IntoMemory ⟨1⟩ = .ok true :=
  have h := C31_table Tables.fullTable Tables.OPCODES_TABLE_eq
    ⟨.add .add, .full .useAbsoluteOnStack, .full .useStackWithPushPop, ⟨true, false⟩⟩
    ((Tables.mem_fullTable _).2 (by decide))
  ⟨h.1 (by decide), h.2.1 (by decide)⟩

/-- C31: register-or-immediate operands are declared only as the first input of heap accesses (not of the fat
pointer read), and only from version 1 on. -/
theorem C31_regOrImm (o : Opcode) (version : ISAVersion) (f : RegOrImmFlags) :
    (∀ ins, o.inputOperands version = .ok ins → .regOrImm f ∈ ins →
      version.num = 1 ∧ ∃ u, o = .uma u ∧ u ≠ .fatPointerRead) ∧
    (∀ outs, o.outputOperands version = .ok outs → .regOrImm f ∉ outs) := by
  rcases version with ⟨_ | _ | n⟩ <;> cases o <;> rename_i x <;> cases x <;>
    refine ⟨fun _ h hm => ?_, fun _ h hm => ?_⟩ <;> cases h <;>
    first
      | exact ⟨rfl, _, rfl, by decide⟩
      | (simp at hm; done)

/-- C31: the declared lists themselves. In the supported versions an opcode declares exactly as many inputs and outputs as
its instruction has; only the first can be something else than a plain register, and that one is written in register
mode, with the kind the table varies. -/
theorem C31_lists (o : Opcode) (version : ISAVersion) (h : version.num ≤ 1) :
    o.inputOperands version = .ok (operandList (declaredSource version (shape o).1) (inputCount o)) ∧
    o.outputOperands version = .ok (operandList (declaredDestination (shape o).2.1) (outputCount o)) := by
  rcases version with ⟨_ | _ | n⟩
  case succ.succ => simp at h
  all_goals cases o <;> rename_i x <;> cases x <;> exact ⟨rfl, rfl⟩

example : operandList (declaredDestination (shape (.mul .mk)).2.1) (outputCount (.mul .mk)) =
      [.full .useRegOnly, .regOnly] ∧
    operandList (declaredSource ⟨1⟩ (shape (.uma .heapWrite)).1) (inputCount (.uma .heapWrite)) =
      [.regOrImm .useRegOnly, .regOnly] := ⟨rfl, rfl⟩

example : (Opcode.uma .heapRead).inputOperands ⟨1⟩ = .ok [.regOrImm .useRegOnly] ∧
    (Opcode.uma .heapRead).inputOperands ⟨0⟩ = .ok [.regOnly] ∧
    (Opcode.sub .sub).canHaveSrc0FromMem ⟨1⟩ = .ok true ∧
    (Opcode.log .event).canHaveSrc0FromMem ⟨1⟩ = .ok false := ⟨rfl, rfl, rfl, rfl⟩

/-! ## C32 -/

/-- C32: the privileged opcodes and the opcodes forbidden in static context are exactly the listed ones. -/
theorem C32_sets (v : OpcodeVariant) :
    (v.requiresKernelMode = true ↔
      v.opcode ∈ [Opcode.context .setContextU128, .context .setErgsPerPubdataByte, .context .incrementTxNumber,
        .log .toL1Message, .log .event, .log .precompileCall, .farCall .mimic]) ∧
    (v.canBeUsedInStaticContext = false ↔
      v.opcode ∈ [Opcode.context .setContextU128, .context .setErgsPerPubdataByte, .context .incrementTxNumber,
        .log .storageWrite, .log .toL1Message, .log .event]) := by
  have := Enum.forall_opcode (p := fun o => decide ((o.requiresKernelMode = true ↔
      o ∈ [Opcode.context .setContextU128, .context .setErgsPerPubdataByte, .context .incrementTxNumber,
        .log .toL1Message, .log .event, .log .precompileCall, .farCall .mimic]) ∧
    (o.canBeUsedInStaticContext = false ↔
      o ∈ [Opcode.context .setContextU128, .context .setErgsPerPubdataByte, .context .incrementTxNumber,
        .log .storageWrite, .log .toL1Message, .log .event]))) (by decide +kernel) v.opcode
  exact of_decide_eq_true this

/-- C32: for every word, the mask found under its opcode number has the kernel bit (48) set iff the decoded
instruction is privileged, and the static bit (49) iff it does not change state. -/
theorem C32_words :
    ∃ masks, OPCODES_PROPS_INTEGER_BITMASKS = .ok masks ∧
    (∀ w : BitVec 64, ∃ o num m, Production.parse w = .ok (o, num) ∧ masks[num.intoUsize]? = some m ∧
      m.getLsbD 48 = kernelOnly o.variant.opcode ∧ m.getLsbD 49 = !changesState o.variant.opcode ∧
      o.variant.requiresKernelMode = kernelOnly o.variant.opcode ∧
      o.variant.canBeUsedInStaticContext = !changesState o.variant.opcode) ∧
    (∀ w : BitVec 128, ∃ o num m, Testing.parse w = .ok (o, num) ∧ masks[num.intoUsize]? = some m ∧
      m.getLsbD 48 = kernelOnly o.variant.opcode ∧ m.getLsbD 49 = !changesState o.variant.opcode ∧
      o.variant.requiresKernelMode = kernelOnly o.variant.opcode ∧
      o.variant.canBeUsedInStaticContext = !changesState o.variant.opcode) := by
  have key : ∀ n, n < 2048 → (fullTable.map maskOf)[n]? = some (maskOf (entry n)) := by
    intro n hn
    rw [List.getElem?_map, fullTable_get hn]; rfl
  have k48 : ∀ v, (maskOf v).getLsbD 48 = kernelOnly v.opcode := fun v => by
    rw [mask_bit v (by decide)]; rfl
  have k49 : ∀ v, (maskOf v).getLsbD 49 = !changesState v.opcode := fun v => by
    rw [mask_bit v (by decide)]; rfl
  refine ⟨_, masks_eq, fun w => ?_, fun w => ?_⟩
  · obtain ⟨o, h, hv, -⟩ := Coding.prod_parse w
    obtain ⟨-, -, f3, f4, -⟩ := facts o.variant.opcode
    refine ⟨o, _, maskOf (entry (w.toNat % 2 ^ 11)), h, key _ (Nat.mod_lt _ (by decide)), ?_, ?_, f3, f4⟩
    · rw [← hv]; exact k48 _
    · rw [← hv]; exact k49 _
  · obtain ⟨o, h, hv, -⟩ := Coding.test_parse w
    obtain ⟨-, -, f3, f4, -⟩ := facts o.variant.opcode
    refine ⟨o, _, maskOf (entry (w.toNat % 2 ^ 11)), h, key _ (Nat.mod_lt _ (by decide)), ?_, ?_, f3, f4⟩
    · rw [← hv]; exact k48 _
    · rw [← hv]; exact k49 _

example : kernelOnly (.farCall .mimic) = true ∧ changesState (.farCall .mimic) = false ∧
    kernelOnly (.log .storageWrite) = false ∧ changesState (.log .storageWrite) = true := by decide

/-! ## C33 -/

/-- C33: operands are swapped exactly by `Sub`, `Div`, `Shift` on flag 1 and `Ptr` on flag 0. -/
theorem C33_swap (v : OpcodeVariant) : v.swapOperands = true ↔
    (v.flags.f1 = true ∧ ((∃ o, v.opcode = .sub o) ∨ (∃ o, v.opcode = .div o) ∨ ∃ o, v.opcode = .shift o)) ∨
    (v.flags.f0 = true ∧ ∃ o, v.opcode = .ptr o) := by
  rcases v with ⟨o, s, d, ⟨f0, f1⟩⟩
  cases o <;> rename_i x <;> simp [OpcodeVariant.swapOperands, Flags.get, SWAP_OPERANDS_FLAG_IDX_FOR_ARITH_OPCODES,
    SWAP_OPERANDS_FLAG_IDX_FOR_PTR_OPCODE]
  all_goals exact fun _ => ⟨x, trivial⟩

/-- C33: hence never in a decoded instruction of another family, and always on a declared flag. -/
theorem C33_decoded :
    (∀ w : BitVec 64, ∃ o num, Production.parse w = .ok (o, num) ∧
      (o.variant.swapOperands = true → familyNumber o.variant.opcode ∈ [3, 5, 8, 10])) ∧
    (∀ w : BitVec 128, ∃ o num, Testing.parse w = .ok (o, num) ∧
      (o.variant.swapOperands = true → familyNumber o.variant.opcode ∈ [3, 5, 8, 10])) := by
  have key : ∀ v : OpcodeVariant, v.swapOperands = true → familyNumber v.opcode ∈ [3, 5, 8, 10] := by
    intro v h
    rcases v with ⟨o, s, d, f⟩
    cases o <;> first
      | (exfalso; simp [OpcodeVariant.swapOperands] at h; done)
      | simp [familyNumber]
  exact ⟨fun w => by obtain ⟨o, h, -⟩ := Coding.prod_parse w; exact ⟨o, _, h, key _⟩,
    fun w => by obtain ⟨o, h, -⟩ := Coding.test_parse w; exact ⟨o, _, h, key _⟩⟩

/-- C33: for each of these families, both settings of the swap flag exist in the table, with and without the
other flag: a table variant stays in the table when its swap flag is inverted, and inverting it inverts the
swap. -/
theorem C33_both_settings (t : List OpcodeVariant) (ht : OPCODES_TABLE = .ok t) (v : OpcodeVariant) (hv : v ∈ t) :
    (((∃ o, v.opcode = .sub o) ∨ (∃ o, v.opcode = .div o) ∨ ∃ o, v.opcode = .shift o) →
      { v with flags := ⟨v.flags.f0, !v.flags.f1⟩ } ∈ t ∧
      ({ v with flags := ⟨v.flags.f0, !v.flags.f1⟩ } : OpcodeVariant).swapOperands = !v.swapOperands) ∧
    ((∃ o, v.opcode = .ptr o) → { v with flags := ⟨!v.flags.f0, v.flags.f1⟩ } ∈ t ∧
      ({ v with flags := ⟨!v.flags.f0, v.flags.f1⟩ } : OpcodeVariant).swapOperands = !v.swapOperands) := by
  rw [OPCODES_TABLE_eq] at ht
  cases ht
  rw [mem_fullTable] at hv
  rcases v with ⟨o, s, d, ⟨f0, f1⟩⟩
  constructor
  · rintro (⟨x, rfl⟩ | ⟨x, rfl⟩ | ⟨x, rfl⟩) <;>
      (rw [mem_fullTable]; refine ⟨?_, rfl⟩; simpa [WellFormed, shape, flagsOk] using hv)
  · rintro ⟨x, rfl⟩
    rw [mem_fullTable]
    refine ⟨?_, rfl⟩
    simpa [WellFormed, shape, flagsOk] using hv

example : (⟨.sub .sub, .full .useCodePage, .full .useRegOnly, ⟨false, true⟩⟩ : OpcodeVariant).swapOperands = true ∧
    (⟨.add .add, .full .useCodePage, .full .useRegOnly, ⟨true, false⟩⟩ : OpcodeVariant).swapOperands = false :=
  ⟨rfl, rfl⟩

/-! ## C34 (finding) -/

/-- What a user expects of `variants_for_version`: it lists the variants introduced up to that version. -/
def ListsAvailable (α : Type) [OpcodeVariantProps α] : Prop :=
  ∀ (version : ISAVersion) (a : α), a ∈ OpcodeVariantProps.variantsForVersion α version ↔
    (OpcodeVariantProps.minimalVersion a).num ≤ version.num

/-- What happens for a family: all sub-variants exist since version 0, and `variants_for_version` lists all of
them for version 0 and none for any later version. `variants_added_in_version` is right. -/
def ListsOnlyV0 (α : Type) [OpcodeVariantProps α] : Prop :=
  (∀ a : α, a ∈ OpcodeVariantProps.allVariants (α := α) ∧ (OpcodeVariantProps.minimalVersion a).num = 0) ∧
  (∀ a : α, a ∈ OpcodeVariantProps.variantsForVersion α ⟨0⟩) ∧
  (∀ version, 1 ≤ version.num → OpcodeVariantProps.variantsForVersion α version = []) ∧
  (∀ (version : ISAVersion) (a : α), a ∈ OpcodeVariantProps.variantsAddedInVersion α version ↔ version.num = 0)

/-- C34, for any family: the filter keeps a variant iff the *requested* version is at most the one that
introduced it (the comparison is the wrong way round). -/
theorem C34_filter (α : Type) [OpcodeVariantProps α] (version : ISAVersion) (a : α) :
    a ∈ OpcodeVariantProps.variantsForVersion α version ↔
      a ∈ OpcodeVariantProps.allVariants (α := α) ∧
        version.num ≤ (OpcodeVariantProps.minimalVersion a).num := by
  unfold OpcodeVariantProps.variantsForVersion OpcodeVariantProps.isAvailableForVersion ISAVersion.le
  rw [List.mem_filter, decide_eq_true_eq]

private theorem lists_of {α : Type} [OpcodeVariantProps α]
    (h : ∀ a : α, a ∈ OpcodeVariantProps.allVariants (α := α) ∧ OpcodeVariantProps.minimalVersion a = ⟨0⟩) :
    ListsOnlyV0 α := by
  refine ⟨fun a => ⟨(h a).1, by rw [(h a).2]⟩, fun a => ?_, fun v hv => ?_, fun v a => ?_⟩
  · rw [C34_filter]; exact ⟨(h a).1, by simp⟩
  · rw [List.eq_nil_iff_forall_not_mem]
    intro a ha
    rw [C34_filter, (h a).2] at ha
    simp only at ha
    omega
  · unfold OpcodeVariantProps.variantsAddedInVersion OpcodeVariantProps.isAddedInVersion
    rw [List.mem_filter, (h a).2, beq_iff_eq]
    cases v
    simp only [(h a).1, true_and, ISAVersion.mk.injEq]
    exact eq_comm

/-- C34, for any family (also one with variants introduced later): `variants_added_in_version` lists exactly the
variants that version introduced, so every variant is listed for exactly one version. -/
theorem C34_added (α : Type) [OpcodeVariantProps α] (version : ISAVersion) (a : α) :
    a ∈ OpcodeVariantProps.variantsAddedInVersion α version ↔
      a ∈ OpcodeVariantProps.allVariants (α := α) ∧ (OpcodeVariantProps.minimalVersion a).num = version.num := by
  unfold OpcodeVariantProps.variantsAddedInVersion OpcodeVariantProps.isAddedInVersion
  rw [List.mem_filter, beq_iff_eq]
  exact and_congr_right fun _ => ⟨fun h => by rw [h], fun h => congrArg ISAVersion.mk h⟩

/-- C34: all sixteen families behave that way. -/
theorem C34_all_families :
    ListsOnlyV0 InvalidOpcode ∧ ListsOnlyV0 NopOpcode ∧ ListsOnlyV0 AddOpcode
    ∧ ListsOnlyV0 SubOpcode ∧ ListsOnlyV0 MulOpcode ∧ ListsOnlyV0 DivOpcode
    ∧ ListsOnlyV0 JumpOpcode ∧ ListsOnlyV0 ContextOpcode ∧ ListsOnlyV0 ShiftOpcode
    ∧ ListsOnlyV0 BinopOpcode ∧ ListsOnlyV0 PtrOpcode ∧ ListsOnlyV0 NearCallOpcode
    ∧ ListsOnlyV0 LogOpcode ∧ ListsOnlyV0 FarCallOpcode ∧ ListsOnlyV0 RetOpcode
    ∧ ListsOnlyV0 UMAOpcode := by
  refine ⟨lists_of ?_, lists_of ?_, lists_of ?_, lists_of ?_, lists_of ?_, lists_of ?_, lists_of ?_, lists_of ?_,
    lists_of ?_, lists_of ?_, lists_of ?_, lists_of ?_, lists_of ?_, lists_of ?_, lists_of ?_, lists_of ?_⟩ <;>
    (intro a; cases a <;> exact ⟨by decide, rfl⟩)

private theorem not_lists {α : Type} [OpcodeVariantProps α] (a : α) (h : ListsOnlyV0 α) : ¬ ListsAvailable α := by
  intro hl
  have := (hl ⟨1⟩ a).2 (by rw [(h.1 a).2]; exact Nat.zero_le _)
  rw [h.2.2.1 ⟨1⟩ (Nat.le_refl _)] at this
  cases this

/-- C34, the expected property is false of the code, e.g. for shifts in the default version 1. -/
theorem C34_expected_fails : ¬ ListsAvailable ShiftOpcode ∧ ¬ ListsAvailable UMAOpcode :=
  ⟨not_lists .shl (lists_of (by intro a; cases a <;> exact ⟨by decide, rfl⟩)),
   not_lists .heapRead (lists_of (by intro a; cases a <;> exact ⟨by decide, rfl⟩))⟩

example : OpcodeVariantProps.variantsForVersion ShiftOpcode DEFAULT_ISA_VERSION = [] ∧
    OpcodeVariantProps.variantsForVersion ShiftOpcode ⟨0⟩ = [.shl, .shr, .rol, .ror] := ⟨rfl, rfl⟩

/-! ## C35 (finding) -/

/-- C35: the reported maximal sub-variant index of every family except `Ptr` is the largest index of a
sub-variant. -/
theorem C35_max_index (o : Opcode) (version : ISAVersion) (h : version.num ≤ 1)
    (hp : ∀ p, o ≠ .ptr p) :
    familyMaxIdx o version = .ok (familySize o - 1) ∧
    (∀ o', familyNumber o' = familyNumber o → o'.materializeSubvariantIdx ≤ familySize o - 1) ∧
    (∃ o', familyNumber o' = familyNumber o ∧ o'.materializeSubvariantIdx = familySize o - 1) := by
  have hall := Enum.forall_opcode (p := fun o =>
    (decide (familyNumber o = 10) ||
      decide (familyMaxIdx o ⟨0⟩ = .ok (familySize o - 1) ∧ familyMaxIdx o ⟨1⟩ = .ok (familySize o - 1))) &&
    (Enum.opcodes.all fun o' => decide (familyNumber o' ≠ familyNumber o) ||
      decide (o'.materializeSubvariantIdx ≤ familySize o - 1)) &&
    (Enum.opcodes.any fun o' => decide (familyNumber o' = familyNumber o ∧
      o'.materializeSubvariantIdx = familySize o - 1))) (by decide +kernel) o
  simp only [Bool.and_eq_true] at hall
  obtain ⟨⟨h1, h2⟩, h3⟩ := hall
  refine ⟨?_, ?_, ?_⟩
  · have hne : familyNumber o ≠ 10 := by
      cases o
      case ptr p => exact absurd rfl (hp p)
      all_goals simp [familyNumber]
    simp only [hne, decide_false, Bool.false_or, decide_eq_true_eq] at h1
    rcases version with ⟨_ | _ | n⟩
    · exact h1.1
    · exact h1.2
    · simp at h
  · intro o' ho
    have := List.all_eq_true.1 h2 o' (Enum.mem_opcodes o')
    simpa [ho] using this
  · obtain ⟨o', -, ho⟩ := List.any_eq_true.1 h3
    exact ⟨o', of_decide_eq_true ho⟩

/-- C35: logs have the indices 0 to 4 and nothing else. -/
example : familyMaxIdx (.log .event) ⟨0⟩ = .ok 4 :=
  (C35_max_index (.log .event) ⟨0⟩ (by decide) (fun p h => nomatch h)).1

/-- C35, the expected property fails for `Ptr`: it reports 2 (`Pack`), and `Shrink`, which has index 3, is in the
table. The other accessor of the same family reports 3. -/
theorem C35_ptr (p : PtrOpcode) (version : ISAVersion) :
    familyMaxIdx (.ptr p) version = .ok 2 ∧ familyMaxIdxForVersion (.ptr p) version = .ok 3 ∧
    (Opcode.ptr .shrink).materializeSubvariantIdx = 3 ∧
    ∃ t v, OPCODES_TABLE = .ok t ∧ v ∈ t ∧ v.opcode = .ptr .shrink :=
  ⟨rfl, rfl, rfl, fullTable, ⟨.ptr .shrink, .full .useRegOnly, .full .useRegOnly, ⟨false, false⟩⟩,
    OPCODES_TABLE_eq, (mem_fullTable _).2 (by decide), rfl⟩

/-- C35: the other accessor, `max_variant_idx_for_version`, reports the largest index for every family, `Ptr` too, and in
every version; only `UMA` panics in the versions it does not know. -/
theorem C35_for_version (o : Opcode) (version : ISAVersion) :
    ((version.num ≤ 1 ∨ familyNumber o ≠ 15) → familyMaxIdxForVersion o version = .ok (familySize o - 1)) ∧
    (2 ≤ version.num → familyNumber o = 15 → Panics (familyMaxIdxForVersion o version)) := by
  rcases version with ⟨_ | _ | n⟩
  · refine ⟨fun _ => ?_, fun h => absurd h (by simp)⟩
    cases o <;> rename_i x <;> cases x <;> rfl
  · refine ⟨fun _ => ?_, fun h => absurd h (by simp)⟩
    cases o <;> rename_i x <;> cases x <;> rfl
  · refine ⟨fun h => ?_, fun _ h => ?_⟩
    · have hne : familyNumber o ≠ 15 := h.resolve_left (by simp)
      cases o
      case uma u => exact absurd rfl hne
      all_goals (rename_i x; cases x <;> rfl)
    · cases o
      case uma u => exact ⟨_, rfl⟩
      all_goals exact absurd h (by simp [familyNumber])

-- The largest index of a log is that of a precompile call, in versions to come too.
example : familyMaxIdxForVersion (.log .event) ⟨7⟩ = .ok 4 ∧ (Opcode.log .precompileCall).materializeSubvariantIdx = 4 :=
  ⟨(C35_for_version (.log .event) ⟨7⟩).1 (.inr (by decide)), rfl⟩

/-- C35: nevertheless the number of bits reserved for the sub-variant in the bitmask is enough for all opcodes. -/
theorem C35_bits_suffice (version : ISAVersion) (h : version.num ≤ 1) :
    ∃ n, maxNumVariantsForVersion version = .ok n ∧ ∀ o : Opcode, o.materializeSubvariantIdx < n := by
  refine ⟨10, (sizes h).variants, fun o => ?_⟩
  obtain ⟨-, f2, -, -, -, f6⟩ := facts o
  rw [f2]; exact f6

example : familyMaxIdx (.context .this) ⟨1⟩ = .ok 9 ∧ familyMaxIdx (.uma .heapRead) ⟨1⟩ = .ok 4 := ⟨rfl, rfl⟩

/-! ## C81 -/

/-- C81: `variants_data` lists the sub-variants of a family, each once and in the order of their indices, in the two known
versions; in any other version it panics. -/
theorem C81_data (o : Opcode) (version : ISAVersion) :
    (version.num ≤ 1 → ∃ l, familyData o version = .ok l ∧ l.map OpcodeVariantData.variantIdx = List.range (familySize o)) ∧
    (2 ≤ version.num → Panics (familyData o version)) := by
  rcases version with ⟨_ | _ | n⟩
  · refine ⟨fun _ => ?_, fun h => absurd h (by simp)⟩
    cases o <;> rename_i x <;> cases x <;> exact ⟨_, rfl, by decide⟩
  · refine ⟨fun _ => ?_, fun h => absurd h (by simp)⟩
    cases o <;> rename_i x <;> cases x <;> exact ⟨_, rfl, by decide⟩
  · refine ⟨fun h => absurd h (by simp), fun _ => ?_⟩
    cases o <;> exact ⟨_, rfl⟩

/-- C81: the number of immediates declared for a sub-variant is the number its operands can need, plus the immediates of
calls and returns that name code positions. The exception are heap accesses in version 1 (next theorem). -/
theorem C81_immediates (o : Opcode) (version : ISAVersion) (h : version.num ≤ 1)
    (hu : version.num = 1 → ∀ u, o = .uma u → u = .fatPointerRead) :
    ∃ l d n, familyData o version = .ok l ∧ l[o.materializeSubvariantIdx]? = some d ∧
      operandImmediates o version = some n ∧ d.numUsedImmediates = n + controlImmediates o := by
  rcases version with ⟨_ | _ | n⟩
  · cases o <;> rename_i x <;> cases x <;>
      exact ⟨_, _, _, rfl, rfl, rfl, rfl⟩
  · cases o <;> rename_i x <;> cases x <;> first
      | exact ⟨_, _, _, rfl, rfl, rfl, rfl⟩
      | (exfalso; have := hu rfl _ rfl; revert this; decide)
  · exact absurd h (by simp)

/-- C81: an addition uses two immediates. -/
example : ∃ l d, familyData (.add .add) ⟨1⟩ = .ok l ∧ l[(Opcode.add .add).materializeSubvariantIdx]? = some d ∧
    d.numUsedImmediates = 2 := by
  obtain ⟨l, d, n, h1, h2, h3, h4⟩ := C81_immediates (.add .add) ⟨1⟩ (by decide) (fun _ u h => nomatch h)
  refine ⟨l, d, h1, h2, ?_⟩
  rw [h4, ← Option.some.inj ((by decide : operandImmediates (.add .add) ⟨1⟩ = some 2).symm.trans h3)]
  rfl

/-- C81 (finding): in version 1 heap accesses take their offset from `imm_0` in half of their table entries, but still
declare that they use no immediate. -/
theorem C81_heap_offset (u : UMAOpcode) (hu : u ≠ .fatPointerRead) :
    operandImmediates (.uma u) ⟨1⟩ = some 1 ∧
    (∃ l, familyData (.uma u) ⟨1⟩ = .ok l ∧ ∀ d ∈ l, d.numUsedImmediates = 0) ∧
    ∃ t v, OPCODES_TABLE = .ok t ∧ v ∈ t ∧ v.opcode = .uma u ∧ v.src0OperandType = .regOrImm .useImm16Only := by
  refine ⟨by cases u <;> first | rfl | exact absurd rfl hu, ⟨_, rfl, by decide⟩, fullTable,
    ⟨.uma u, .regOrImm .useImm16Only, .regOnly, ⟨false, false⟩⟩, OPCODES_TABLE_eq, ?_, rfl, rfl⟩
  rw [mem_fullTable]
  cases u <;> first | decide | exact absurd rfl hu

example : operandImmediates (.add .add) ⟨1⟩ = some 2 ∧ operandImmediates (.jump .mk) ⟨0⟩ = some 1
    ∧ operandImmediates (.uma .heapRead) ⟨0⟩ = some 0 := by decide

end ZkEvm.Props
