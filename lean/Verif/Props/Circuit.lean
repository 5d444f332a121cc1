import Verif.Spec.Circuit
import Verif.Props.Machine
import Verif.Props.Bitmask
import Verif.Props.Table
/-!
# Machines that see masks and bit fields only: C116
-/
namespace ZkEvm.Props
open Spec Tables Bitmask Coding Words Program Deploy MachineLemmas

variable {State Contract : Type}

private theorem spreads : NOP_BITSPREAD_U64 = .ok (maskOf ⟨.nop .mk, .full .useRegOnly, .full .useRegOnly, ⟨false, false⟩⟩) ∧
    PANIC_BITSPREAD_U64 = .ok (maskOf ⟨.ret .panic, .regOnly, .regOnly, ⟨false, false⟩⟩) := by
  rw [C29_values.1, C29_values.2]
  decide

private theorem view_nop {w : Nat} (o : DecodedOpcode w) : viewOf maskOf o.maskIntoNop =
    (viewOf maskOf o).replacedBy (maskOf ⟨.nop .mk, .full .useRegOnly, .full .useRegOnly, ⟨false, false⟩⟩) := rfl

private theorem view_panic {w : Nat} (o : DecodedOpcode w) : viewOf maskOf o.maskIntoPanic =
    (viewOf maskOf o).replacedBy (maskOf ⟨.ret .panic, .regOnly, .regOnly, ⟨false, false⟩⟩) := rfl

private theorem ite_map {α β : Type} (f : α → β) (p q : Prop) [Decidable p] [Decidable q] (a b c : α) :
    (if p then f a else if q then f b else f c) = f (if p then a else if q then b else c) := by
  split
  · rfl
  · split <;> rfl

private theorem guarded_view {w : Nat} (c : NumberedChecks) (base : Nat) (o : DecodedOpcode w) (price : Nat) :
    guardedView c base (maskOf ⟨.nop .mk, .full .useRegOnly, .full .useRegOnly, ⟨false, false⟩⟩)
      (maskOf ⟨.ret .panic, .regOnly, .regOnly, ⟨false, false⟩⟩) (viewOf maskOf o) price =
    viewOf maskOf (guarded c.checks base o price (maskOf o.variant)) := by
  unfold guardedView guarded
  rw [← view_nop, ← view_panic]
  exact ite_map (viewOf maskOf) _ _ _ _ _

private theorem number_eq (c : Condition) : conditionNumber c = c.variantIndex := by cases c <;> rfl

private theorem number_inj {c d : Condition} (h : conditionNumber c = conditionNumber d) : c = d := by
  cases c <;> cases d <;> first | rfl | cases h

private theorem is_maskOf {mask : OpcodeVariant → BitVec 64} (h : MasksOk mask) : mask = maskOf :=
  funext fun v => (mask_unique h v).symm

/-- C116: masks and fields tell any two instructions that exist apart. -/
theorem C116_views {w : Nat} (mask : OpcodeVariant → BitVec 64) (hm : MasksOk mask) (o o' : DecodedOpcode w)
    (h : Encodable o) (h' : Encodable o') (hv : viewOf mask o = viewOf mask o') : o = o' := by
  obtain ⟨t, ht, _⟩ := C16_table_numbering
  obtain ⟨t1, ht1, hi⟩ := C20_wellformed o.variant
  obtain ⟨t2, ht2, hi'⟩ := C20_wellformed o'.variant
  cases Except.ok.inj (ht.symm.trans ht1)
  cases Except.ok.inj (ht.symm.trans ht2)
  have e := View.mk.inj hv
  have hvar : o.variant = o'.variant := by
    obtain ⟨x, hx, bx⟩ := C26_layout o.variant ⟨1⟩ (by decide)
    obtain ⟨y, hy, bY⟩ := C26_layout o'.variant ⟨1⟩ (by decide)
    refine C27_table_injective t ht _ _ (hi.2 h.1) (hi'.2 h'.1) ⟨1⟩ (by decide) ?_
    rw [hx, hy, eq_of_bits (a := x) (b := mask o.variant) fun i hi => (bx i hi).trans (hm _ i hi).symm,
      eq_of_bits (a := y) (b := mask o'.variant) fun i hi => (bY i hi).trans (hm _ i hi).symm, e.1]
  obtain ⟨v, c, s0, s1, d0, d1, i0, i1⟩ := o
  obtain ⟨v', c', s0', s1', d0', d1', i0', i1'⟩ := o'
  obtain ⟨_, e2, e3, e4, e5, e6, e7, e8⟩ := e
  cases hvar
  cases number_inj e2
  cases BitVec.eq_of_toNat_eq e3
  cases BitVec.eq_of_toNat_eq e4
  cases BitVec.eq_of_toNat_eq e5
  cases BitVec.eq_of_toNat_eq e6
  cases BitVec.eq_of_toNat_eq e7
  cases BitVec.eq_of_toNat_eq e8
  rfl

private theorem base_48 {base : Nat} (h : totalDescriptionBitsRoundedForVersion DEFAULT_ISA_VERSION = .ok base) :
    base = 48 := by
  have : totalDescriptionBitsRoundedForVersion DEFAULT_ISA_VERSION = .ok 48 := by decide +kernel
  rw [this] at h
  exact (Except.ok.inj h).symm

private theorem circuit_eq {w k : Nat} {split : BitVec w → BitVec w × BitVec w} {fetch : U256 → BitVec w → Res (BitVec k)}
    {contract : State → Contract} {pc : State → BitVec w} {checks : State → NumberedChecks}
    {effect : State → View → Nat → State} {base : Nat} {page : Contract → Nat → U256} {s : State} {raw : BitVec k}
    (h : fetch (page (contract s) (split (pc s)).1.toNat) (split (pc s)).2 = .ok raw) (o : DecodedOpcode w)
    (hv : o.variant = entry (bits raw 0 11)) (hf : fieldsOf w raw (maskOf o.variant) = viewOf maskOf o) :
    circuitCycle split fetch contract pc checks effect base page s =
      .ok (effect s (viewOf maskOf (guarded (checks s).checks base o (priceOf o.variant.opcode) (maskOf o.variant)))
        (priceOf o.variant.opcode)) := by
  have hn : bits raw 0 11 < 2048 := Nat.mod_lt _ (by decide)
  have h1 := prices_at hn
  have h2 := masks_get hn
  rw [← hv] at h1 h2
  refine bind_eq h (bind_eq PriceLemmas.prices_eq (bind_eq (index_some h1) (bind_eq masks_eq (bind_eq (index_some h2)
    (bind_eq spreads.1 (bind_eq spreads.2 ?_))))))
  rw [hf, guarded_view]
  rfl

private theorem cycle_production (contract : State → Contract) (pc : State → BitVec 16) (checks : State → NumberedChecks)
    (effect : State → View → Nat → State) (page : Contract → Nat → U256) (base : Nat) (s : State) :
    ∃ o, Encodable (guarded (checks s).checks 48 o (priceOf o.variant.opcode) (maskOf o.variant)) ∧
      circuitCycle Production.splitPc Production.integerRepresentationFromU256 contract pc checks effect base page s =
        .ok (effect s (viewOf maskOf (guarded (checks s).checks base o (priceOf o.variant.opcode) (maskOf o.variant)))
          (priceOf o.variant.opcode)) ∧
      ∀ effect', cycleProduction (guardedMachine contract pc (fun s => (checks s).checks) effect' base) page s =
        .ok (effect' s (guarded (checks s).checks base o (priceOf o.variant.opcode) (maskOf o.variant))
          (priceOf o.variant.opcode)) := by
  obtain ⟨raw, h1, _⟩ := (C10_fetch (page (contract s) (Production.splitPc (pc s)).1.toNat)).1
    (Production.splitPc (pc s)).2 (C10_split_pc_production.1 (pc s)).2.1
  obtain ⟨o, h, hv, hc, r1, r2, r3, r4, i0, i1⟩ := prod_parse raw
  have hv' : o.variant = entry (bits raw 0 11) := by
    rw [hv]
    unfold bits
    rw [Nat.pow_zero, Nat.div_one]
  have hf : fieldsOf 16 raw (maskOf o.variant) = viewOf maskOf o := by
    unfold fieldsOf viewOf bits
    rw [number_eq, hc, r1, r2, r3, r4, i0, i1]
  refine ⟨o, ?_, circuit_eq h1 o hv' hf, fun effect' => ?_⟩
  · obtain ⟨_, masks, o', n, price, mask, hp, hm, ho, hpr, hma, _, _, _, _, _, _, hE⟩ :=
      C84_guarded_production (checks s).checks raw 48 (by decide +kernel)
    obtain ⟨rfl, rfl⟩ := same_result ho h
    have hn : raw.toNat % 2 ^ 11 < 2048 := Nat.mod_lt _ (by decide)
    have h1 := prices_at hn
    have h2 := masks_get hn
    rw [← hv] at h1 h2
    cases Except.ok.inj (hp.symm.trans PriceLemmas.prices_eq)
    cases Except.ok.inj (hm.symm.trans masks_eq)
    cases Option.some.inj (hpr.symm.trans h1)
    cases Option.some.inj (hma.symm.trans h2)
    exact hE
  · have hn : raw.toNat % 2 ^ 11 < 2048 := Nat.mod_lt _ (by decide)
    exact cycle_eq h1 h (executeDecoded_eq _ s (fun v _ hi => mask_bit v hi) hn hv)

/-- C116, production: a circuit goes through exactly the states of the machine that decodes instructions, checks them, replaces
them by `mask_into_panic` and `mask_into_nop`, and does with each what the circuit does with its mask and fields. -/
theorem C116_circuit_production (mask : OpcodeVariant → BitVec 64) (hm : MasksOk mask) (contract : State → Contract)
    (pc : State → BitVec 16) (checks : State → NumberedChecks) (effect : State → View → Nat → State)
    (page : Contract → Nat → U256) (base : Nat)
    (hb : totalDescriptionBitsRoundedForVersion DEFAULT_ISA_VERSION = .ok base) (n : Nat) (s : State) :
    ∃ s', cycles (circuitCycle Production.splitPc Production.integerRepresentationFromU256 contract pc checks effect base page) n s
        = .ok s' ∧
      cycles (cycleProduction (guardedMachine contract pc (fun s => (checks s).checks)
        (fun s o price => effect s (viewOf mask o) price) base) page) n s = .ok s' := by
  cases is_maskOf hm
  have he : circuitCycle Production.splitPc Production.integerRepresentationFromU256 contract pc checks effect base page =
      cycleProduction (guardedMachine contract pc (fun s => (checks s).checks)
        (fun s o price => effect s (viewOf maskOf o) price) base) page := funext fun s => by
    obtain ⟨o, _, h1, h2⟩ := cycle_production contract pc checks effect page base s
    rw [h1, h2]
  rw [he]
  obtain ⟨s', h, _⟩ := C84_histories_production contract pc (fun s => (checks s).checks)
    (fun s o price => effect s (viewOf maskOf o) price) page (fun _ => ()) (fun _ => ()) (fun _ _ _ _ => rfl)
    (fun _ _ _ _ => rfl) base hb n s
  exact ⟨s', h, h⟩

/-- C116, production: whatever a guarded machine does with the instructions it decodes, there is a circuit that goes through
exactly its states on all code pages. -/
theorem C116_follows_production (contract : State → Contract) (pc : State → BitVec 16) (checks : State → NumberedChecks)
    (effect : State → DecodedOpcode 16 → Nat → State) (base : Nat)
    (hb : totalDescriptionBitsRoundedForVersion DEFAULT_ISA_VERSION = .ok base) :
    ∃ effect' : State → View → Nat → State, ∀ (page : Contract → Nat → U256) (n : Nat) (s : State), ∃ s',
      cycles (circuitCycle Production.splitPc Production.integerRepresentationFromU256 contract pc checks effect' base page) n s
        = .ok s' ∧
      cycles (cycleProduction (guardedMachine contract pc (fun s => (checks s).checks) effect base) page) n s = .ok s' := by
  classical
  cases base_48 hb
  let effect' : State → View → Nat → State := fun s v price =>
    if h : ∃ o : DecodedOpcode 16, Encodable o ∧ viewOf maskOf o = v then effect s h.choose price else s
  refine ⟨effect', fun page n s => ?_⟩
  have key : ∀ s (o : DecodedOpcode 16) price, Encodable o → effect' s (viewOf maskOf o) price = effect s o price :=
    fun s o price ho => by
      have h : ∃ o' : DecodedOpcode 16, Encodable o' ∧ viewOf maskOf o' = viewOf maskOf o := ⟨o, ho, rfl⟩
      show (if h : _ then _ else _) = _
      rw [dif_pos h, C116_views maskOf (fun v _ hi => mask_bit v hi) _ o h.choose_spec.1 ho h.choose_spec.2]
  have he : circuitCycle Production.splitPc Production.integerRepresentationFromU256 contract pc checks effect' 48 page =
      cycleProduction (guardedMachine contract pc (fun s => (checks s).checks) effect 48) page := funext fun s => by
    obtain ⟨o, hE, h1, h2⟩ := cycle_production contract pc checks effect' page 48 s
    rw [h1, h2, key _ _ _ hE]
  rw [he]
  obtain ⟨s', h, _⟩ := C84_histories_production contract pc (fun s => (checks s).checks) effect page (fun _ => ())
    (fun _ => ()) (fun _ _ _ _ => rfl) (fun _ _ _ _ => rfl) 48 hb n s
  exact ⟨s', h, h⟩

private theorem cycle_testing (contract : State → Contract) (pc : State → BitVec 32) (checks : State → NumberedChecks)
    (effect : State → View → Nat → State) (page : Contract → Nat → U256) (base : Nat) (s : State) :
    ∃ o, Encodable (guarded (checks s).checks 48 o (priceOf o.variant.opcode) (maskOf o.variant)) ∧
      circuitCycle Testing.splitPc Testing.integerRepresentationFromU256 contract pc checks effect base page s =
        .ok (effect s (viewOf maskOf (guarded (checks s).checks base o (priceOf o.variant.opcode) (maskOf o.variant)))
          (priceOf o.variant.opcode)) ∧
      ∀ effect', cycleTesting (guardedMachine contract pc (fun s => (checks s).checks) effect' base) page s =
        .ok (effect' s (guarded (checks s).checks base o (priceOf o.variant.opcode) (maskOf o.variant))
          (priceOf o.variant.opcode)) := by
  obtain ⟨raw, h1, _⟩ := (C10_fetch (page (contract s) (Testing.splitPc (pc s)).1.toNat)).2.2.1
    (Testing.splitPc (pc s)).2 (C10_split_pc_testing.1 (pc s)).2.1
  obtain ⟨o, h, hv, hc, r1, r2, r3, r4, i0, i1⟩ := test_parse raw
  have hv' : o.variant = entry (bits raw 0 11) := by
    rw [hv]
    unfold bits
    rw [Nat.pow_zero, Nat.div_one]
  have hf : fieldsOf 32 raw (maskOf o.variant) = viewOf maskOf o := by
    unfold fieldsOf viewOf bits
    rw [number_eq, hc, r1, r2, r3, r4, i0, i1]
  refine ⟨o, ?_, circuit_eq h1 o hv' hf, fun effect' => ?_⟩
  · obtain ⟨_, masks, o', n, price, mask, hp, hm, ho, hpr, hma, _, _, _, _, _, _, hE⟩ :=
      C84_guarded_testing (checks s).checks raw 48 (by decide +kernel)
    obtain ⟨rfl, rfl⟩ := same_result ho h
    have hn : raw.toNat % 2 ^ 11 < 2048 := Nat.mod_lt _ (by decide)
    have h1 := prices_at hn
    have h2 := masks_get hn
    rw [← hv] at h1 h2
    cases Except.ok.inj (hp.symm.trans PriceLemmas.prices_eq)
    cases Except.ok.inj (hm.symm.trans masks_eq)
    cases Option.some.inj (hpr.symm.trans h1)
    cases Option.some.inj (hma.symm.trans h2)
    exact hE
  · have hn : raw.toNat % 2 ^ 11 < 2048 := Nat.mod_lt _ (by decide)
    exact cycle_eq h1 h (executeDecoded_eq _ s (fun v _ hi => mask_bit v hi) hn hv)

/-- C116, testing: a circuit goes through exactly the states of the machine that decodes instructions, checks them, replaces
them by `mask_into_panic` and `mask_into_nop`, and does with each what the circuit does with its mask and fields. -/
theorem C116_circuit_testing (mask : OpcodeVariant → BitVec 64) (hm : MasksOk mask) (contract : State → Contract)
    (pc : State → BitVec 32) (checks : State → NumberedChecks) (effect : State → View → Nat → State)
    (page : Contract → Nat → U256) (base : Nat)
    (hb : totalDescriptionBitsRoundedForVersion DEFAULT_ISA_VERSION = .ok base) (n : Nat) (s : State) :
    ∃ s', cycles (circuitCycle Testing.splitPc Testing.integerRepresentationFromU256 contract pc checks effect base page) n s
        = .ok s' ∧
      cycles (cycleTesting (guardedMachine contract pc (fun s => (checks s).checks)
        (fun s o price => effect s (viewOf mask o) price) base) page) n s = .ok s' := by
  cases is_maskOf hm
  have he : circuitCycle Testing.splitPc Testing.integerRepresentationFromU256 contract pc checks effect base page =
      cycleTesting (guardedMachine contract pc (fun s => (checks s).checks)
        (fun s o price => effect s (viewOf maskOf o) price) base) page := funext fun s => by
    obtain ⟨o, _, h1, h2⟩ := cycle_testing contract pc checks effect page base s
    rw [h1, h2]
  rw [he]
  obtain ⟨s', h, _⟩ := C84_histories_testing contract pc (fun s => (checks s).checks)
    (fun s o price => effect s (viewOf maskOf o) price) page (fun _ => ()) (fun _ => ()) (fun _ _ _ _ => rfl)
    (fun _ _ _ _ => rfl) base hb n s
  exact ⟨s', h, h⟩

/-- C116, testing: whatever a guarded machine does with the instructions it decodes, there is a circuit that goes through
exactly its states on all code pages. -/
theorem C116_follows_testing (contract : State → Contract) (pc : State → BitVec 32) (checks : State → NumberedChecks)
    (effect : State → DecodedOpcode 32 → Nat → State) (base : Nat)
    (hb : totalDescriptionBitsRoundedForVersion DEFAULT_ISA_VERSION = .ok base) :
    ∃ effect' : State → View → Nat → State, ∀ (page : Contract → Nat → U256) (n : Nat) (s : State), ∃ s',
      cycles (circuitCycle Testing.splitPc Testing.integerRepresentationFromU256 contract pc checks effect' base page) n s
        = .ok s' ∧
      cycles (cycleTesting (guardedMachine contract pc (fun s => (checks s).checks) effect base) page) n s = .ok s' := by
  classical
  cases base_48 hb
  let effect' : State → View → Nat → State := fun s v price =>
    if h : ∃ o : DecodedOpcode 32, Encodable o ∧ viewOf maskOf o = v then effect s h.choose price else s
  refine ⟨effect', fun page n s => ?_⟩
  have key : ∀ s (o : DecodedOpcode 32) price, Encodable o → effect' s (viewOf maskOf o) price = effect s o price :=
    fun s o price ho => by
      have h : ∃ o' : DecodedOpcode 32, Encodable o' ∧ viewOf maskOf o' = viewOf maskOf o := ⟨o, ho, rfl⟩
      show (if h : _ then _ else _) = _
      rw [dif_pos h, C116_views maskOf (fun v _ hi => mask_bit v hi) _ o h.choose_spec.1 ho h.choose_spec.2]
  have he : circuitCycle Testing.splitPc Testing.integerRepresentationFromU256 contract pc checks effect' 48 page =
      cycleTesting (guardedMachine contract pc (fun s => (checks s).checks) effect 48) page := funext fun s => by
    obtain ⟨o, hE, h1, h2⟩ := cycle_testing contract pc checks effect' page 48 s
    rw [h1, h2, key _ _ _ hE]
  rw [he]
  obtain ⟨s', h, _⟩ := C84_histories_testing contract pc (fun s => (checks s).checks) effect page (fun _ => ())
    (fun _ => ()) (fun _ _ _ _ => rfl) (fun _ _ _ _ => rfl) 48 hb n s
  exact ⟨s', h, h⟩

/-! Cases: the mask of the crate, and a machine that counts the instructions whose mask has bit 14, the returns. -/

private theorem maskOf_ok : MasksOk maskOf := fun v _ hi => mask_bit v hi
example : MasksOk maskOf ∧ totalDescriptionBitsRoundedForVersion DEFAULT_ISA_VERSION = .ok 48 :=
  ⟨maskOf_ok, by decide +kernel⟩

private abbrev counting : Nat → View → Nat → Nat := fun s v _ => if v.mask.getLsbD 14 then s + 1 else s
private abbrev poor : Nat → NumberedChecks := fun _ => ⟨4, false, false, fun _ => true⟩

-- without ergs for any instruction, every cycle executes a panic, which is a return
example (page : Unit → Nat → U256) : ∃ s', cycles (circuitCycle Production.splitPc Production.integerRepresentationFromU256
    (fun _ => ()) (fun _ => 0) poor counting 48 page) 3 0 = .ok s' ∧
    cycles (cycleProduction (guardedMachine (fun _ => ()) (fun _ => 0) (fun s => (poor s).checks)
      (fun s o price => counting s (viewOf maskOf o) price) 48) page) 3 0 = .ok s' :=
  C116_circuit_production maskOf maskOf_ok _ _ _ _ page 48 (by decide +kernel) 3 0
example (page : Unit → Nat → U256) : ∃ s', cycles (circuitCycle Testing.splitPc Testing.integerRepresentationFromU256
    (fun _ => ()) (fun _ => 0) poor counting 48 page) 3 0 = .ok s' ∧
    cycles (cycleTesting (guardedMachine (fun _ => ()) (fun _ => 0) (fun s => (poor s).checks)
      (fun s o price => counting s (viewOf maskOf o) price) 48) page) 3 0 = .ok s' :=
  C116_circuit_testing maskOf maskOf_ok _ _ _ _ page 48 (by decide +kernel) 3 0
example : counting 0 (viewOf maskOf (DecodedOpcodeOf.maskIntoPanic (zeroInstruction 16))) 5 = 1 ∧
    counting 0 (viewOf maskOf (DecodedOpcodeOf.maskIntoNop (zeroInstruction 16))) 5 = 0 := by decide
example : ∃ effect' : Nat → View → Nat → Nat, ∀ (page : Unit → Nat → U256) (n s : Nat), ∃ s',
    cycles (circuitCycle Production.splitPc Production.integerRepresentationFromU256 (fun _ => ()) (fun _ => 0) poor effect' 48
      page) n s = .ok s' ∧
    cycles (cycleProduction (guardedMachine (fun _ => ()) (fun _ => 0) (fun s => (poor s).checks)
      (fun s o price => s + o.imm0.toNat + price) 48) page) n s = .ok s' :=
  C116_follows_production _ _ poor _ 48 (by decide +kernel)
example : ∃ effect' : Nat → View → Nat → Nat, ∀ (page : Unit → Nat → U256) (n s : Nat), ∃ s',
    cycles (circuitCycle Testing.splitPc Testing.integerRepresentationFromU256 (fun _ => ()) (fun _ => 0) poor effect' 48
      page) n s = .ok s' ∧
    cycles (cycleTesting (guardedMachine (fun _ => ()) (fun _ => 0) (fun s => (poor s).checks)
      (fun s o price => s + o.imm0.toNat + price) 48) page) n s = .ok s' :=
  C116_follows_testing _ _ poor _ 48 (by decide +kernel)
example : viewOf maskOf (zeroInstruction 16) ≠ viewOf maskOf { zeroInstruction 16 with imm1 := 1 } := fun h =>
  absurd (C116_views maskOf maskOf_ok _ _ (by decide) (by decide) h) (by decide)

end ZkEvm.Props
