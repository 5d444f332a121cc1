import Verif.Lemmas.Derived
import Verif.Lemmas.Order
import Verif.Props.Abi
import Verif.Props.HashTable
/-! C89–C90: derived hashing of the crate's types, derived order of the ABI types. Vocabulary in
`Verif/Spec/Derived.lean`. -/
namespace ZkEvm.Props
open Spec Derived

/-! ## C89 -/

/-- C89: for every byte order and width of `usize`, the bytes of one value are never a prefix of the bytes of another. -/
theorem C89_bytes (p : Platform) :
    PrefixFree (fun v : OpcodeVariant => p.stream v.hash) ∧ PrefixFree (fun v : Opcode => p.stream v.hash) ∧
    PrefixFree (fun v : Operand => p.stream v.hash) ∧ PrefixFree (fun v : Condition => p.stream v.hash) ∧
    PrefixFree (fun v : FatPointer => p.stream v.hash) ∧ PrefixFree (fun v : FarCallABI => p.stream v.hash) ∧
    PrefixFree (fun v : RetABI => p.stream v.hash) ∧ PrefixFree (fun v : NearCallABI => p.stream v.hash) ∧
    PrefixFree (fun v : PrecompileCallABI => p.stream v.hash) ∧
    PrefixFree (fun v : PrecompileCallInnerABI => p.stream v.hash) ∧
    PrefixFree (fun v : VmMetaParameters => p.stream v.hash) ∧
    PrefixFree (fun v : VersionedHash => p.stream (v.hash ContractCodeSha256Storage.hash)) := by
  simp only [prefixFree_iff]
  refine ⟨dec_variant p, dec_opcode p, dec_operand p, dec_condition p, dec_fatPointer p, dec_farCallABI p, dec_retABI p,
    dec_nearCallABI p, dec_precompile p, dec_precompileInner p, dec_meta p, ?_⟩
  rintro ⟨a⟩ ⟨b⟩ r s h
  obtain ⟨e, h'⟩ := dec_layout p a b r s h
  exact ⟨by rw [e], h'⟩

/-- C89: the same for the calls made to the hasher: the contract of `std::hash::Hash`. -/
theorem C89_calls :
    PrefixFree OpcodeVariant.hash ∧ PrefixFree Opcode.hash ∧ PrefixFree Operand.hash ∧ PrefixFree Condition.hash ∧
    PrefixFree FatPointer.hash ∧ PrefixFree FarCallABI.hash ∧ PrefixFree RetABI.hash ∧ PrefixFree NearCallABI.hash ∧
    PrefixFree PrecompileCallABI.hash ∧ PrefixFree PrecompileCallInnerABI.hash ∧ PrefixFree VmMetaParameters.hash ∧
    PrefixFree (fun v : VersionedHash => v.hash ContractCodeSha256Storage.hash) := by
  have h := C89_bytes ⟨8, false, by decide⟩
  simp only [prefixFree_iff] at h
  obtain ⟨h1, h2, h3, h4, h5, h6, h7, h8, h9, h10, h11, h12⟩ := h
  exact ⟨calls_of_stream _ h1, calls_of_stream _ h2, calls_of_stream _ h3, calls_of_stream _ h4, calls_of_stream _ h5,
    calls_of_stream _ h6, calls_of_stream _ h7, calls_of_stream _ h8, calls_of_stream _ h9, calls_of_stream _ h10,
    calls_of_stream _ h11, calls_of_stream _ h12⟩

/-- C89: composite keys inherit this: pairs, and lists of any length. -/
theorem C89_composite {α β : Type} (f : α → List HasherCall) (g : β → List HasherCall) (hf : PrefixFree f)
    (hg : PrefixFree g) : PrefixFree (fun v : α × β => f v.1 ++ g v.2) ∧ PrefixFree (sliceHash f) := by
  rw [prefixFree_iff] at hf hg
  constructor
  · rw [prefixFree_iff]
    rintro ⟨a1, a2⟩ ⟨b1, b2⟩ r s h
    simp only [List.append_assoc] at h
    obtain ⟨e1, h1⟩ := hf _ _ _ _ h
    obtain ⟨e2, h2⟩ := hg _ _ _ _ h1
    exact ⟨by rw [e1, e2], h2⟩
  · rw [prefixFree_iff]
    intro l m r s h
    simp only [sliceHash, List.cons_append, List.cons.injEq, HasherCall.writeUsize.injEq] at h
    exact decodes_flatMap hf h.1 h.2

/-- C89: pairs of a variant and a condition, and vectors of them. -/
example : PrefixFree (fun v : OpcodeVariant × Condition => v.1.hash ++ v.2.hash) ∧
    PrefixFree (sliceHash fun v : OpcodeVariant × Condition => v.1.hash ++ v.2.hash) :=
  have h := (C89_composite OpcodeVariant.hash Condition.hash C89_calls.1 C89_calls.2.2.2.1).1
  ⟨h, (C89_composite _ Condition.hash h C89_calls.2.2.2.1).2⟩

/-- C89: with any hasher and any implementation of maps on top of it, chained or open-addressed, the lookup maps keyed by
derived hashes find every instruction at its first number. -/
theorem C89_lookup (H : Hasher) (policy : HashTable.Policy) (tag : Nat → Nat) (groups : Nat → Nat → List (List Nat))
    (hp : VisitsAll (⟨fun v => H.value v.hash, tag, groups⟩ : HashTable.Probing OpcodeVariant)) :
    (∃ t m, OPCODES_TABLE = .ok t ∧
      HashTable.mapLoop (HashTable.chaining (fun v => H.value v.hash) policy) id id t HashTable.new 0 t = .ok m ∧
      ∀ v i, HashTable.get (fun v => H.value v.hash) m v = some i ↔ IsFirstIndex t v i) ∧
    (∃ t m, OPCODES_TABLE = .ok t ∧
      HashTable.mapLoop (HashTable.openAddressing ⟨fun v => H.value v.hash, tag, groups⟩ policy) id id t [] 0 t = .ok m ∧
      ∀ v i, HashTable.openGet ⟨fun v => H.value v.hash, tag, groups⟩ m v = some i ↔ IsFirstIndex t v i) := by
  have hm : MapContract (HashTable.chaining (fun _ => 0) fun _ _ => none :
    HashTable.MapOps OpcodeVariant VariantMonotonicNumber) := C79_map _ _
  constructor
  · obtain ⟨t, c, _, ht, hc, _, h, _⟩ := C79_statics (HashTable.chaining (fun v => H.value v.hash) policy)
      (C79_map _ _) _ hm
    exact ⟨t, c, ht, hc, h⟩
  · obtain ⟨t, c, _, ht, hc, _, h, _⟩ := C79_statics (HashTable.openAddressing _ policy) (C79_open _ hp policy) _ hm
    exact ⟨t, c, ht, hc, h⟩

/-- C89: for a hasher that throws everything away, and a probe sequence with all slots in one group. -/
example : ∃ t m, OPCODES_TABLE = .ok t ∧
    HashTable.mapLoop (HashTable.openAddressing ⟨fun _ => 0, id, fun _ n => [List.range n]⟩ (fun n _ => some n)) id id t [] 0 t
      = .ok m ∧
    ∀ v i, HashTable.openGet ⟨fun _ => 0, id, fun _ n => [List.range n]⟩ m v = some i ↔ IsFirstIndex t v i :=
  (C89_lookup ⟨Unit, (), fun _ _ => (), fun _ => 0⟩ (fun n _ => some n) id (fun _ n => [List.range n]) (fun h n i hi => by simp [hi])).2

/-- C89: the same for ISA versions, instruction numbers and variant data, in the range of their integer types. -/
theorem C89_numbers (p : Platform) :
    (∀ a b : ISAVersion, a.num < 256 → b.num < 256 → p.stream a.hash <+: p.stream b.hash → a = b) ∧
    (∀ a b : VariantMonotonicNumber, a.val < 256 ^ p.usizeBytes → b.val < 256 ^ p.usizeBytes →
      p.stream a.hash <+: p.stream b.hash → a = b) ∧
    (∀ a b : OpcodeVariantData,
      (∀ n ∈ [a.variantIdx, a.numNonExclusiveFlags, a.numUsedImmediates, b.variantIdx, b.numNonExclusiveFlags,
        b.numUsedImmediates], n < 256 ^ p.usizeBytes) →
      p.stream a.hash <+: p.stream b.hash → a = b) := by
  have size : ∀ {x y : Nat} {r s : List Byte}, x < 256 ^ p.usizeBytes → y < 256 ^ p.usizeBytes →
      p.bytes p.usizeBytes x ++ r = p.bytes p.usizeBytes y ++ s → x = y ∧ r = s := by
    intro x y r s hx hy h
    obtain ⟨h1, h2⟩ := List.append_inj h (by rw [bytes_length, bytes_length])
    exact ⟨bytes_inj p hx hy h1, h2⟩
  refine ⟨?_, ?_, ?_⟩
  · rintro ⟨a⟩ ⟨b⟩ ha hb ⟨t, h⟩
    simp only [ISAVersion.hash, stream_cons, stream_nil, List.append_nil, Platform.callBytes] at h
    have h1 := congrArg BitVec.toNat (dec_u8 p _ _ _ [] (by rw [h, List.append_nil])).1
    simp only [BitVec.toNat_ofNat] at h1
    simp only at ha hb
    rw [Nat.mod_eq_of_lt ha, Nat.mod_eq_of_lt hb] at h1
    rw [h1]
  · rintro ⟨a⟩ ⟨b⟩ ha hb ⟨t, h⟩
    simp only [VariantMonotonicNumber.hash, stream_cons, stream_nil, List.append_nil, Platform.callBytes] at h
    exact congrArg _ (size ha hb (s := []) (by rw [h, List.append_nil])).1
  · rintro ⟨a1, a2, a3⟩ ⟨b1, b2, b3⟩ hn ⟨t, h⟩
    simp only [List.mem_cons, List.not_mem_nil, or_false, forall_eq_or_imp, forall_eq] at hn
    obtain ⟨n1, n2, n3, n4, n5, n6⟩ := hn
    simp only [OpcodeVariantData.hash, stream_cons, stream_nil, List.append_nil, Platform.callBytes, List.append_assoc] at h
    obtain ⟨e1, h⟩ := size n1 n4 h
    obtain ⟨e2, h⟩ := size n2 n5 h
    have e3 := (size n3 n6 (s := []) (by rw [h, List.append_nil])).1
    rw [e1, e2, e3]

-- The versions of the crate and the largest instruction number are in range on every platform with 16-bit `usize` or more.
example (p : Platform) (h : 2 ≤ p.usizeBytes) : (⟨1⟩ : ISAVersion).num < 256 ∧ 2047 < 256 ^ p.usizeBytes :=
  ⟨by decide, Nat.lt_of_lt_of_le (by decide) (Nat.pow_le_pow_right (n := 256) (by decide) h)⟩

/-- Different families with equal payload bytes, and the unit families, are told apart: `ret.ok` and `context.this` both
have subvariant 0. -/
example : (Opcode.ret .ok).hash = [.writeIsize 14, .writeU8 0] ∧ (Opcode.context .this).hash = [.writeIsize 7, .writeU8 0] ∧
    (Opcode.add .add).hash = [.writeIsize 2] ∧ (Opcode.sub .sub).hash = [.writeIsize 3] := ⟨rfl, rfl, rfl, rfl⟩

/-! ## C90 -/

/-- C90: ABI values are compared field by field, in the order in which the structs declare them. -/
theorem C90_fields :
    (∀ a b : FatPointer, a.cmp b = lexCmp [a.offset.toNat, a.memoryPage.toNat, a.start.toNat, a.length.toNat]
      [b.offset.toNat, b.memoryPage.toNat, b.start.toNat, b.length.toNat]) ∧
    (∀ a b : FarCallABI, a.cmp b = lexCmp
      [a.memoryQuasiFatPointer.offset.toNat, a.memoryQuasiFatPointer.memoryPage.toNat, a.memoryQuasiFatPointer.start.toNat,
        a.memoryQuasiFatPointer.length.toNat, a.ergsPassed.toNat, a.shardId.toNat, a.forwardingMode.asU8.toNat,
        a.constructorCall.toNat, a.toSystem.toNat]
      [b.memoryQuasiFatPointer.offset.toNat, b.memoryQuasiFatPointer.memoryPage.toNat, b.memoryQuasiFatPointer.start.toNat,
        b.memoryQuasiFatPointer.length.toNat, b.ergsPassed.toNat, b.shardId.toNat, b.forwardingMode.asU8.toNat,
        b.constructorCall.toNat, b.toSystem.toNat]) ∧
    (∀ a b : RetABI, a.cmp b = lexCmp
      [a.memoryQuasiFatPointer.offset.toNat, a.memoryQuasiFatPointer.memoryPage.toNat, a.memoryQuasiFatPointer.start.toNat,
        a.memoryQuasiFatPointer.length.toNat, a.pageForwardingMode.asU8.toNat]
      [b.memoryQuasiFatPointer.offset.toNat, b.memoryQuasiFatPointer.memoryPage.toNat, b.memoryQuasiFatPointer.start.toNat,
        b.memoryQuasiFatPointer.length.toNat, b.pageForwardingMode.asU8.toNat]) ∧
    (∀ a b : NearCallABI, a.cmp b = lexCmp [a.ergsPassed.toNat] [b.ergsPassed.toNat]) ∧
    (∀ a b : PrecompileCallABI, a.cmp b = lexCmp
      [a.inputMemoryOffset.toNat, a.inputMemoryLength.toNat, a.outputMemoryOffset.toNat, a.outputMemoryLength.toNat,
        a.perPrecompileInterpreted.toNat]
      [b.inputMemoryOffset.toNat, b.inputMemoryLength.toNat, b.outputMemoryOffset.toNat, b.outputMemoryLength.toNat,
        b.perPrecompileInterpreted.toNat]) ∧
    (∀ a b : PrecompileCallInnerABI, a.cmp b = lexCmp
      [a.inputMemoryOffset.toNat, a.inputMemoryLength.toNat, a.outputMemoryOffset.toNat, a.outputMemoryLength.toNat,
        a.memoryPageToRead.toNat, a.memoryPageToWrite.toNat, a.precompileInterpretedData.toNat]
      [b.inputMemoryOffset.toNat, b.inputMemoryLength.toNat, b.outputMemoryOffset.toNat, b.outputMemoryLength.toNat,
        b.memoryPageToRead.toNat, b.memoryPageToWrite.toNat, b.precompileInterpretedData.toNat]) ∧
    (∀ a b : VmMetaParameters, a.cmp b = lexCmp
      [a.ergsPerPubdataByte.toNat, a.heapSize.toNat, a.auxHeapSize.toNat, a.thisShardId.toNat, a.callerShardId.toNat,
        a.codeShardId.toNat]
      [b.ergsPerPubdataByte.toNat, b.heapSize.toNat, b.auxHeapSize.toNat, b.thisShardId.toNat, b.callerShardId.toNat,
        b.codeShardId.toNat]) := by
  have far : ∀ a : FarCallForwardPageType, a.ctorIdx = a.asU8.toNat := fun a => by cases a <;> rfl
  have ret : ∀ a : RetForwardPageType, a.ctorIdx = a.asU8.toNat := fun a => by cases a <;> rfl
  refine ⟨ptr_cmp, fun a b => ?_, fun a b => ?_, fun a b => compare_last _ _, fun a b => ?_, fun a b => ?_, fun a b => ?_⟩
  · rw [FarCallABI.cmp, ptr_cmp]
    unfold FarCallForwardPageType.cmp uintCmp boolCmp
    rw [far, far, compare_last a.toSystem.toNat, compare_then, compare_then, compare_then, compare_then, then_lex]
    · rfl
    · rfl
  · rw [RetABI.cmp, ptr_cmp]
    unfold RetForwardPageType.cmp
    rw [ret, ret, compare_last a.pageForwardingMode.asU8.toNat, then_lex]
    · rfl
    · rfl
  · unfold PrecompileCallABI.cmp uintCmp
    rw [compare_last a.perPrecompileInterpreted.toNat, compare_then, compare_then, compare_then, compare_then]
  · unfold PrecompileCallInnerABI.cmp uintCmp
    rw [compare_last a.precompileInterpretedData.toNat, compare_then, compare_then, compare_then, compare_then, compare_then,
      compare_then]
  · unfold VmMetaParameters.cmp uintCmp
    rw [compare_last a.codeShardId.toNat, compare_then, compare_then, compare_then, compare_then, compare_then]

/-- C90: these are total orders that agree with equality. -/
theorem C90_total :
    TotalOrder FatPointer.cmp ∧ TotalOrder FarCallABI.cmp ∧ TotalOrder RetABI.cmp ∧ TotalOrder NearCallABI.cmp ∧
    TotalOrder PrecompileCallABI.cmp ∧ TotalOrder PrecompileCallInnerABI.cmp ∧ TotalOrder VmMetaParameters.cmp := by
  obtain ⟨h1, h2, h3, h4, h5, h6, h7⟩ := C90_fields
  have bools : ∀ {x y : Bool}, x.toNat = y.toNat → x = y := by decide
  have far : ∀ {x y : FarCallForwardPageType}, x.asU8.toNat = y.asU8.toNat → x = y := by
    intro x y; cases x <;> cases y <;> decide
  have ret : ∀ {x y : RetForwardPageType}, x.asU8.toNat = y.asU8.toNat → x = y := by
    intro x y; cases x <;> cases y <;> decide
  refine ⟨total_of_key _ h1 ?_, total_of_key _ h2 ?_, total_of_key _ h3 ?_, total_of_key _ h4 ?_, total_of_key _ h5 ?_,
    total_of_key _ h6 ?_, total_of_key _ h7 ?_⟩
  · rintro ⟨⟩ ⟨⟩ h
    simp only [List.cons.injEq, BitVec.toNat_inj, and_true] at h
    simp [h]
  · rintro ⟨⟨⟩, _⟩ ⟨⟨⟩, _⟩ h
    simp only [List.cons.injEq, BitVec.toNat_inj, and_true] at h
    obtain ⟨h1, h2, h3, h4, h5, h6, h7, h8, h9⟩ := h
    simp [h1, h2, h3, h4, h5, h6, far (BitVec.toNat_inj.2 h7), bools h8, bools h9]
  · rintro ⟨⟨⟩, _⟩ ⟨⟨⟩, _⟩ h
    simp only [List.cons.injEq, BitVec.toNat_inj, and_true] at h
    obtain ⟨h1, h2, h3, h4, h5⟩ := h
    simp [h1, h2, h3, h4, ret (BitVec.toNat_inj.2 h5)]
  · rintro ⟨⟩ ⟨⟩ h
    simp only [List.cons.injEq, BitVec.toNat_inj, and_true] at h
    simp [h]
  · rintro ⟨⟩ ⟨⟩ h
    simp only [List.cons.injEq, BitVec.toNat_inj, and_true] at h
    simp [h]
  · rintro ⟨⟩ ⟨⟩ h
    simp only [List.cons.injEq, BitVec.toNat_inj, and_true] at h
    simp [h]
  · rintro ⟨⟩ ⟨⟩ h
    simp only [List.cons.injEq, BitVec.toNat_inj, and_true] at h
    simp [h]

/-- C90: ISA versions are ordered by their number, variant data field by field; both orders are total. -/
theorem C90_versions :
    (∀ a b : ISAVersion, a.cmp b = lexCmp [a.num] [b.num]) ∧
    (∀ a b : OpcodeVariantData, a.cmp b = lexCmp [a.variantIdx, a.numNonExclusiveFlags, a.numUsedImmediates]
      [b.variantIdx, b.numNonExclusiveFlags, b.numUsedImmediates]) ∧
    TotalOrder ISAVersion.cmp ∧ TotalOrder OpcodeVariantData.cmp := by
  have h1 : ∀ a b : ISAVersion, a.cmp b = lexCmp [a.num] [b.num] := fun a b => compare_last _ _
  have h2 : ∀ a b : OpcodeVariantData, a.cmp b = lexCmp [a.variantIdx, a.numNonExclusiveFlags, a.numUsedImmediates]
      [b.variantIdx, b.numNonExclusiveFlags, b.numUsedImmediates] := by
    intro a b
    unfold OpcodeVariantData.cmp
    rw [compare_last a.numUsedImmediates, compare_then, compare_then]
  refine ⟨h1, h2, total_of_key _ h1 ?_, total_of_key _ h2 ?_⟩
  · rintro ⟨⟩ ⟨⟩ h
    simpa using h
  · rintro ⟨⟩ ⟨⟩ h
    simpa using h

example : ISAVersion.cmp ⟨0⟩ ⟨1⟩ = .lt ∧ OpcodeVariantData.cmp ⟨1, 2, 0⟩ ⟨1, 1, 5⟩ = .gt := by decide

/-- C90 (finding): the order of fat pointers is not that of their packed words, which compare the fields the other way
round. -/
theorem C90_packed :
    (∀ a b : FatPointer, compare (u256Nat a.toU256) (u256Nat b.toU256) =
      lexCmp [a.length.toNat, a.start.toNat, a.memoryPage.toNat, a.offset.toNat]
        [b.length.toNat, b.start.toNat, b.memoryPage.toNat, b.offset.toNat]) ∧
    (∃ a b : FatPointer, a.cmp b = .lt ∧ u256Nat b.toU256 < u256Nat a.toU256) := by
  constructor
  · intro a b
    have ha := a.offset.isLt
    have hb := b.offset.isLt
    have ha' := a.memoryPage.isLt
    have hb' := b.memoryPage.isLt
    have ha'' := a.start.isLt
    have hb'' := b.start.isLt
    rw [← compare_then, ← compare_then, ← compare_then, ← compare_last, ← Ordering.then_assoc, ← Ordering.then_assoc,
      Order.then_compare ha'' hb'', Order.then_compare ha' hb', Order.then_compare ha hb, (C43_layout a).1, (C43_layout b).1]
    congr 1 <;> omega
  · exact ⟨⟨0, 1, 0, 0⟩, ⟨1, 0, 0, 0⟩, by decide, by decide⟩

/-- The hypotheses of the laws are met by values that differ in the last field only. -/
example : FatPointer.cmp ⟨1, 2, 3, 4⟩ ⟨1, 2, 3, 5⟩ = .lt ∧ FatPointer.cmp ⟨1, 2, 3, 5⟩ ⟨1, 3, 0, 0⟩ = .lt ∧
    FatPointer.cmp ⟨2, 0, 0, 0⟩ ⟨1, 3, 0, 0⟩ = .gt ∧
    FarCallABI.cmp ⟨.empty, 0, 0, .useAuxHeap, false, false⟩ ⟨.empty, 0, 0, .forwardFatPointer, true, true⟩ = .gt := by decide

end ZkEvm.Props
