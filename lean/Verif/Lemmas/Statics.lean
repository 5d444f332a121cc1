import Verif.Spec.Statics
import Verif.Lemmas.Lazy
import Verif.Lemmas.Bitmask
import Verif.Props.Table
import Verif.Props.Bitmask
import Verif.Props.Prices
/-! The crate's statics: values exist, initialisers compute them, no circular dereference. -/
namespace ZkEvm.Lazy
open Spec Props

/-- a rank that decreases along dereferences -/
def Static.rank : Static → Nat
  | .numLogicalOpcodes | .monotonicMap | .canonicalMap | .opcodesPrices => 1
  | .bitmasks | .nopVariant | .panicVariant => 2
  | .nopBitspread | .panicBitspread => 3
  | _ => 0

theorem values_exist : ∃ env : (c : Static) → c.Val, StaticValues env := by
  obtain ⟨t, m, mm, h1, h2, h3, _⟩ := C19_lookup_maps
  obtain ⟨_, masks, _, h4, _⟩ := C28_mask_table
  obtain ⟨_, nop, pan, w, w', _, h5, h6, _, _, _, _, h7, _, h8, _⟩ := C29_constants
  obtain ⟨prices, h9, _⟩ := C37_prices
  have h10 : ∃ ops, OPCODE_PROTOTYPES = .ok ops := ⟨allOpcodesList, rfl⟩
  obtain ⟨ops, h10⟩ := h10
  refine ⟨fun
    | .opcodesTable => t | .bitmasks => masks | .monotonicMap => mm | .canonicalMap => m
    | .nopVariant => nop | .nopBitspread => w | .panicVariant => pan | .panicBitspread => w'
    | .prototypes => ops | .numLogicalOpcodes => ops.length
    | .numInputVariants => NUM_INPUT_VARIANTS | .numOutputVariants => NUM_OUTPUT_VARIANTS
    | .opcodesPrices => prices
    | .bootloaderAddress => BOOTLOADER_FORMAL_ADDRESS
    | .deployerAddress => DEPLOYER_SYSTEM_CONTRACT_ADDRESS
    | .nonceManagerAddress => NONCE_MANAGER_SYSTEM_CONTRACT_ADDRESS
    | .knownCodeFactoryAddress => KNOWN_CODE_FACTORY_SYSTEM_CONTRACT_ADDRESS
    | .keccak256Address => KECCAK256_ROUND_FUNCTION_PRECOMPILE_FORMAL_ADDRESS
    | .sha256Address => SHA256_ROUND_FUNCTION_PRECOMPILE_FORMAL_ADDRESS
    | .ecrecoverAddress => ECRECOVER_INNER_FUNCTION_PRECOMPILE_FORMAL_ADDRESS,
    h1, h4, h3, h2, h5, h7, h6, h8, h10, ?_, rfl, rfl, h9, rfl, rfl, rfl, rfl, rfl, rfl, rfl⟩
  unfold NUM_LOGICAL_OPCODES
  rw [h10]; rfl

section
variable {env : (c : Static) → c.Val}

theorem eval_deref (c : Static) : eval env (deref c) = .ok (env c) := rfl
theorem eval_plain {α : Type} (r : Res α) : eval env (plain r) = r := rfl
theorem eval_pure {α : Type} (a : α) : eval env (pure a : Code α) = .ok a := rfl

theorem eval_bitmask (h : StaticValues env) (v : OpcodeVariant) (version : ISAVersion) :
    eval env (bitmaskCode v version) = opcodeAsIntegerBitmask v version := by
  unfold bitmaskCode opcodeAsIntegerBitmask
  rw [h.logical, h.input, h.output]
  simp only [eval_bind, eval_plain, eval_pure]
  rfl

theorem eval_bitmasksLoop (h : StaticValues env) (version : ISAVersion) (l : List OpcodeVariant) :
    eval env (bitmasksLoop version l) =
      collect (fun opcode => do .ok [← opcodeAsIntegerBitmask opcode version]) l := by
  induction l with
  | nil => rfl
  | cons v l ih =>
    unfold bitmasksLoop collect
    simp only [eval_bind, eval_pure, eval_bitmask h, ih]
    cases opcodeAsIntegerBitmask v version with
    | error e => rfl
    | ok m => rfl

theorem eval_canonicalLoop (l : List OpcodeVariant) (result : IndexMap) (idx : Nat) :
    eval env (canonicalLoop result idx l) = lookupMapLoop (env .opcodesTable) result idx l := by
  induction l generalizing result idx with
  | nil => rfl
  | cons el rest ih =>
    unfold canonicalLoop lookupMapLoop
    cases result.get el with
    | none => exact ih _ _
    | some existing =>
      simp only [eval_bind, eval_plain, ih]
      show Except.bind (Except.bind (index (env .opcodesTable) existing) _) _ = Except.bind (index (env .opcodesTable) existing) _
      cases index (env .opcodesTable) existing <;> rfl

theorem eval_monotonicLoop (l : List OpcodeVariant) (result : List (OpcodeVariant × VariantMonotonicNumber))
    (idx : Nat) :
    eval env (monotonicLoop result idx l) = monotonicMapLoop (env .opcodesTable) result idx l := by
  induction l generalizing result idx with
  | nil => rfl
  | cons el rest ih =>
    unfold monotonicLoop monotonicMapLoop
    cases List.lookup el result with
    | none => exact ih _ _
    | some existing =>
      simp only [eval_bind, eval_plain, ih]
      show Except.bind (Except.bind (index (env .opcodesTable) _) _) _ = Except.bind (index (env .opcodesTable) _) _
      cases index (env .opcodesTable) existing.intoUsize <;> rfl

theorem eval_initialiser (h : StaticValues env) (c : Static) : eval env (initialiser c) = .ok (env c) := by
  cases c with
  | opcodesTable =>
    rw [← h.table]
    unfold OPCODES_TABLE initialiser
    exact eval_plain _
  | bitmasks =>
    rw [← h.masks]
    unfold OPCODES_PROPS_INTEGER_BITMASKS
    rw [h.table]
    unfold initialiser synthesizeBitDecompositionTable
    simp only [eval_bind, eval_plain, eval_bitmasksLoop h, bind_assoc]
    rfl
  | monotonicMap =>
    rw [← h.monotonic]
    unfold OPCODE_TO_MONOTONIC_INDEX_NUMBER_MAP
    rw [h.table]
    exact eval_monotonicLoop _ _ _
  | canonicalMap =>
    rw [← h.canonical]
    unfold OPCODE_TO_CANONICAL_INDEX_LOOKUP_MAP
    rw [h.table]
    exact eval_canonicalLoop _ _ _
  | nopVariant =>
    rw [← h.nop]
    unfold NOP_OPCODE_VARIANT initialiser checkedVariant
    rw [h.canonical]
    simp only [eval_bind, eval_plain, eval_pure]
    rfl
  | nopBitspread =>
    rw [← h.nopMask]
    unfold NOP_BITSPREAD_U64 initialiser bitspread
    rw [h.canonical, h.nop, h.masks]
    simp only [eval_bind, eval_plain]
    rfl
  | panicVariant =>
    rw [← h.pan]
    unfold PANIC_OPCODE_VARIANT initialiser checkedVariant
    rw [h.canonical]
    simp only [eval_bind, eval_plain, eval_pure]
    rfl
  | panicBitspread =>
    rw [← h.panMask]
    unfold PANIC_BITSPREAD_U64 initialiser bitspread
    rw [h.canonical, h.pan, h.masks]
    simp only [eval_bind, eval_plain]
    rfl
  | prototypes => exact h.prototypes
  | numLogicalOpcodes =>
    rw [← h.logical]
    unfold NUM_LOGICAL_OPCODES
    rw [h.prototypes]
    rfl
  | numInputVariants => rw [← h.input]; rfl
  | numOutputVariants => rw [← h.output]; rfl
  | opcodesPrices =>
    rw [← h.prices]
    unfold OPCODES_PRICES
    rw [h.table]
    rfl
  | bootloaderAddress => rw [← h.bootloader]; rfl
  | deployerAddress => rw [← h.deployer]; rfl
  | nonceManagerAddress => rw [← h.nonceManager]; rfl
  | knownCodeFactoryAddress => rw [← h.knownCode]; rfl
  | keccak256Address => rw [← h.keccak]; rfl
  | sha256Address => rw [← h.sha]; rfl
  | ecrecoverAddress => rw [← h.ecrecover]; rfl

/-- a computation that only dereferences statics satisfying `P` -/
def ReadsOnly (env : (c : Static) → c.Val) (P : Static → Prop) {α : Type} (p : Code α) : Prop :=
  ∀ d ∈ reads env p, P d

theorem ReadsOnly.bind {P : Static → Prop} {α β : Type} {p : Code α} {f : α → Code β}
    (h1 : ReadsOnly env P p) (h2 : ∀ a, ReadsOnly env P (f a)) : ReadsOnly env P (p >>= f) := fun d hd =>
  match reads_bind env p f d hd with
  | .inl h => h1 d h
  | .inr ⟨a, _, h⟩ => h2 a d h

theorem ReadsOnly.plain {P : Static → Prop} {α : Type} (r : Res α) : ReadsOnly env P (plain r) :=
  fun _ h => (nomatch h)

theorem ReadsOnly.pure {P : Static → Prop} {α : Type} (a : α) : ReadsOnly env P (Pure.pure a : Code α) :=
  fun _ h => (nomatch h)

theorem ReadsOnly.deref {P : Static → Prop} (c : Static) (h : P c) : ReadsOnly env P (deref c) :=
  fun _ hd => List.mem_singleton.1 hd ▸ h

theorem reads_bitmask {P : Static → Prop} (h1 : P .numLogicalOpcodes) (h2 : P .numInputVariants)
    (h3 : P .numOutputVariants) (v : OpcodeVariant) (version : ISAVersion) :
    ReadsOnly env P (bitmaskCode v version) := by
  unfold bitmaskCode
  repeat' first
    | exact ReadsOnly.plain _
    | exact ReadsOnly.pure _
    | exact ReadsOnly.deref _ h1
    | exact ReadsOnly.deref _ h2
    | exact ReadsOnly.deref _ h3
    | refine ReadsOnly.bind ?_ fun _ => ?_

theorem reads_bitmasksLoop {P : Static → Prop} (h1 : P .numLogicalOpcodes) (h2 : P .numInputVariants)
    (h3 : P .numOutputVariants) (version : ISAVersion) (l : List OpcodeVariant) :
    ReadsOnly env P (bitmasksLoop version l) := by
  induction l with
  | nil => exact ReadsOnly.pure _
  | cons v l ih =>
    unfold bitmasksLoop
    exact ReadsOnly.bind (reads_bitmask h1 h2 h3 v version) fun _ => ReadsOnly.bind ih fun _ => ReadsOnly.pure _

theorem reads_canonicalLoop {P : Static → Prop} (h : P .opcodesTable) (l : List OpcodeVariant) (result : IndexMap)
    (idx : Nat) : ReadsOnly env P (canonicalLoop result idx l) := by
  induction l generalizing result idx with
  | nil => exact ReadsOnly.pure _
  | cons el rest ih =>
    unfold canonicalLoop
    cases result.get el with
    | none => exact ih _ _
    | some existing =>
      exact ReadsOnly.bind (ReadsOnly.deref _ h) fun _ => ReadsOnly.bind (ReadsOnly.plain _) fun _ => ih _ _

theorem reads_monotonicLoop {P : Static → Prop} (h : P .opcodesTable) (l : List OpcodeVariant)
    (result : List (OpcodeVariant × VariantMonotonicNumber)) (idx : Nat) :
    ReadsOnly env P (monotonicLoop result idx l) := by
  induction l generalizing result idx with
  | nil => exact ReadsOnly.pure _
  | cons el rest ih =>
    unfold monotonicLoop
    cases List.lookup el result with
    | none => exact ih _ _
    | some existing =>
      exact ReadsOnly.bind (ReadsOnly.deref _ h) fun _ => ReadsOnly.bind (ReadsOnly.plain _) fun _ => ih _ _

theorem reads_initialiser (c : Static) : ReadsOnly env (fun d => d.rank < c.rank) (initialiser c) := by
  cases c with
  | bitmasks =>
    exact ReadsOnly.bind (ReadsOnly.deref _ (by decide)) fun _ => ReadsOnly.bind (ReadsOnly.plain _) fun _ =>
      ReadsOnly.bind (ReadsOnly.plain _) fun _ => ReadsOnly.bind (ReadsOnly.plain _) fun _ =>
      ReadsOnly.bind (ReadsOnly.plain _) fun _ =>
      ReadsOnly.bind (reads_bitmasksLoop (by decide) (by decide) (by decide) _ _) fun _ => ReadsOnly.plain _
  | monotonicMap =>
    exact ReadsOnly.bind (ReadsOnly.deref _ (by decide)) fun _ => reads_monotonicLoop (by decide) _ _ _
  | canonicalMap =>
    exact ReadsOnly.bind (ReadsOnly.deref _ (by decide)) fun _ => reads_canonicalLoop (by decide) _ _ _
  | nopVariant | panicVariant =>
    exact ReadsOnly.bind (ReadsOnly.deref _ (by decide)) fun _ => ReadsOnly.bind (ReadsOnly.plain _) fun _ =>
      ReadsOnly.pure _
  | nopBitspread | panicBitspread =>
    exact ReadsOnly.bind (ReadsOnly.deref _ (by decide)) fun _ => ReadsOnly.bind (ReadsOnly.deref _ (by decide)) fun _ =>
      ReadsOnly.bind (ReadsOnly.plain _) fun _ => ReadsOnly.bind (ReadsOnly.deref _ (by decide)) fun _ => ReadsOnly.plain _
  | numLogicalOpcodes => exact ReadsOnly.bind (ReadsOnly.deref _ (by decide)) fun _ => ReadsOnly.pure _
  | opcodesPrices => exact ReadsOnly.bind (ReadsOnly.deref _ (by decide)) fun _ => ReadsOnly.plain _
  | opcodesTable => exact ReadsOnly.plain _
  | _ => exact ReadsOnly.plain _

end

end ZkEvm.Lazy
