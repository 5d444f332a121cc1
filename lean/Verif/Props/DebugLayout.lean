import Verif.Lemmas.DebugLayout
import Verif.Props.Debug
/-! C103: `{:#?}` texts. The layout is specified in `Verif/Spec/DebugLayout.lean` in terms of the `{:?}` text (C92). -/
namespace ZkEvm.Props
open Spec Display DebugLemmas

/-! ## C103 -/

/-- C103: the `{:#?}` text of an opcode, an operand, a variant, a list of variants of any length or an instruction is its
`{:?}` text laid out, and put on one line again it is the `{:?}` text. -/
theorem C103_instructions :
    (∀ o : Opcode, o.debugPretty = layOut 0 o.debug ∧ onOneLine o.debugPretty = o.debug) ∧
    (∀ o : Operand, o.debugPretty = layOut 0 o.debug ∧ onOneLine o.debugPretty = o.debug) ∧
    (∀ v : OpcodeVariant, v.debugPretty = layOut 0 v.debug ∧ onOneLine v.debugPretty = v.debug) ∧
    (∀ vs : List OpcodeVariant,
      prettyList (vs.map OpcodeVariant.debugPretty) = layOut 0 (debugList (vs.map OpcodeVariant.debug)) ∧
      onOneLine (prettyList (vs.map OpcodeVariant.debugPretty)) = debugList (vs.map OpcodeVariant.debug)) ∧
    (∀ (w : Nat) (o : DecodedOpcode w), o.debugPretty = layOut 0 o.debug ∧ onOneLine o.debugPretty = o.debug) :=
  ⟨fun o => layOut_of (lays_opcode o), fun o => layOut_of (lays_operand o), fun v => layOut_of (lays_variant v),
    fun vs => layOut_of (lays_list_map _ _ lays_variant vs), fun _ o => layOut_of (lays_decoded o)⟩

/-- C103: the same of the ABI structs, of versioned hashes, of the numbers with a name and of variant data. -/
theorem C103_values :
    (∀ p : FatPointer, p.debugPretty = layOut 0 p.debug ∧ onOneLine p.debugPretty = p.debug) ∧
    (∀ a : FarCallABI, a.debugPretty = layOut 0 a.debug ∧ onOneLine a.debugPretty = a.debug) ∧
    (∀ a : RetABI, a.debugPretty = layOut 0 a.debug ∧ onOneLine a.debugPretty = a.debug) ∧
    (∀ a : NearCallABI, a.debugPretty = layOut 0 a.debug ∧ onOneLine a.debugPretty = a.debug) ∧
    (∀ a : PrecompileCallABI, a.debugPretty = layOut 0 a.debug ∧ onOneLine a.debugPretty = a.debug) ∧
    (∀ a : PrecompileCallInnerABI, a.debugPretty = layOut 0 a.debug ∧ onOneLine a.debugPretty = a.debug) ∧
    (∀ a : VmMetaParameters, a.debugPretty = layOut 0 a.debug ∧ onOneLine a.debugPretty = a.debug) ∧
    (∀ s : ContractCodeSha256Storage, s.debugPretty = layOut 0 s.debug ∧ onOneLine s.debugPretty = s.debug) ∧
    (∀ h : VersionedHashGeneric contractCodeSha256,
      h.debugPretty ContractCodeSha256Storage.fmtDebug = layOut 0 (h.debug ContractCodeSha256Storage.fmtDebug) ∧
      onOneLine (h.debugPretty ContractCodeSha256Storage.fmtDebug) = h.debug ContractCodeSha256Storage.fmtDebug) ∧
    (∀ v : ISAVersion, v.debugPretty = layOut 0 v.debug ∧ onOneLine v.debugPretty = v.debug) ∧
    (∀ n : VariantMonotonicNumber, n.debugPretty = layOut 0 n.debug ∧ onOneLine n.debugPretty = n.debug) ∧
    (∀ d : OpcodeVariantData, d.debugPretty = layOut 0 d.debug ∧ onOneLine d.debugPretty = d.debug) :=
  ⟨fun x => layOut_of (lays_pointer x), fun x => layOut_of (lays_farCall x), fun x => layOut_of (lays_retAbi x),
    fun x => layOut_of (lays_nearCall x), fun x => layOut_of (lays_precompile x), fun x => layOut_of (lays_precompileInner x),
    fun x => layOut_of (lays_metaParams x), fun x => layOut_of (lays_storage x), fun x => layOut_of (lays_hash x),
    fun x => layOut_of (lays_version x), fun x => layOut_of (lays_monotonic x), fun x => layOut_of (lays_data x)⟩

/-- C103: values with the same `{:#?}` text are the same. -/
theorem C103_apart :
    (∀ a b : OpcodeVariant, a.debugPretty = b.debugPretty → a = b) ∧
    (∀ as bs : List OpcodeVariant,
      prettyList (as.map OpcodeVariant.debugPretty) = prettyList (bs.map OpcodeVariant.debugPretty) → as = bs) ∧
    (∀ (w : Nat) (a b : DecodedOpcode w), w = 16 ∨ w = 32 → a.debugPretty = b.debugPretty → a = b) ∧
    (∀ a b : FatPointer, a.debugPretty = b.debugPretty → a = b) ∧
    (∀ a b : FarCallABI, a.debugPretty = b.debugPretty → a = b) ∧
    (∀ a b : RetABI, a.debugPretty = b.debugPretty → a = b) ∧
    (∀ a b : NearCallABI, a.debugPretty = b.debugPretty → a = b) ∧
    (∀ a b : PrecompileCallABI, a.debugPretty = b.debugPretty → a = b) ∧
    (∀ a b : PrecompileCallInnerABI, a.debugPretty = b.debugPretty → a = b) ∧
    (∀ a b : VmMetaParameters, a.debugPretty = b.debugPretty → a = b) ∧
    (∀ a b : VersionedHashGeneric contractCodeSha256,
      a.debugPretty ContractCodeSha256Storage.fmtDebug = b.debugPretty ContractCodeSha256Storage.fmtDebug → a = b) := by
  obtain ⟨_, _, i1, i2, i3⟩ := C103_instructions
  obtain ⟨v1, v2, v3, v4, v5, v6, v7, _, v8, _⟩ := C103_values
  obtain ⟨a1, a2, a3, a4, a5, a6, a7, a8, a9, a10, a11⟩ := C92_apart
  refine ⟨fun a b h => a1 a b ?_, fun a b h => a2 a b ?_, fun w a b hw h => a3 w a b hw ?_, fun a b h => a4 a b ?_,
    fun a b h => a5 a b ?_, fun a b h => a6 a b ?_, fun a b h => a7 a b ?_, fun a b h => a8 a b ?_, fun a b h => a9 a b ?_,
    fun a b h => a10 a b ?_, fun a b h => a11 a b ?_⟩
  · rw [← (i1 a).2, h, (i1 b).2]
  · rw [← (i2 a).2, h, (i2 b).2]
  · rw [← (i3 w a).2, h, (i3 w b).2]
  · rw [← (v1 a).2, h, (v1 b).2]
  · rw [← (v2 a).2, h, (v2 b).2]
  · rw [← (v3 a).2, h, (v3 b).2]
  · rw [← (v4 a).2, h, (v4 b).2]
  · rw [← (v5 a).2, h, (v5 b).2]
  · rw [← (v6 a).2, h, (v6 b).2]
  · rw [← (v7 a).2, h, (v7 b).2]
  · rw [← (v8 a).2, h, (v8 b).2]

-- The text of a return ABI value, with a value inside a value
example : (⟨⟨32, 2054, 0, 64⟩, .useAuxHeap⟩ : RetABI).debugPretty =
    "RetABI {\n    memory_quasi_fat_pointer: FatPointer {\n        offset: 32,\n        memory_page: 2054,\n        start: 0,\n        length: 64,\n    },\n    page_forwarding_mode: UseAuxHeap,\n}".toList := by
  decide +kernel
-- A variant, with tuples and a list in it; and the empty list
example : (⟨.log .precompileCall, .regOnly, .full .useStackWithOffset, ⟨false, true⟩⟩ : OpcodeVariant).debugPretty =
    "OpcodeVariant {\n    opcode: Log(\n        PrecompileCall,\n    ),\n    src0_operand_type: RegOnly,\n    dst0_operand_type: Full(\n        UseStackWithOffset,\n    ),\n    flags: [\n        false,\n        true,\n    ],\n}".toList := by
  decide +kernel
example : prettyList (([] : List OpcodeVariant).map OpcodeVariant.debugPretty) = "[]".toList ∧ layOut 0 "[]".toList = "[]".toList := by
  decide +kernel
-- The layout is a property of the text alone.
example : layOut 0 "A { b: [1, 2], c: D(e) }".toList = "A {\n    b: [\n        1,\n        2,\n    ],\n    c: D(\n        e,\n    ),\n}".toList ∧
    onOneLine "A {\n    b: [\n        1,\n        2,\n    ],\n    c: D(\n        e,\n    ),\n}".toList = "A { b: [1, 2], c: D(e) }".toList := by
  decide +kernel

end ZkEvm.Props
