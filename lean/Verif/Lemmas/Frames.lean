import Verif.Spec.Frames
import Verif.Props.Machine
/-! Lemmas on stacks of call frames. -/
namespace ZkEvm.FrameLemmas
open Spec Spec.Frames Tables PriceLemmas

/-! ### What is issued for a word -/

private theorem unify {α : Type} {r : Res α} {a b : α} (h : r = .ok a) (h' : r = .ok b) : a = b :=
  Except.ok.inj (h.symm.trans h')

/-- What a word can be replaced by -/
def Facts (f : CallFrame) (e : OpcodeVariant) (p : Nat) (v : OpcodeVariant) : Prop :=
  p = priceOf e.opcode ∧ (f.isStatic = true → changesState v.opcode = false) ∧ (f.kernel = false → kernelOnly v.opcode = false) ∧
  (v = e ∨ v.opcode = .nop .mk ∨ v.opcode = .ret .panic) ∧ (f.ergs < p → v.opcode = .ret .panic)

private theorem facts_of {w : Nat} {f : CallFrame} {holds : Condition → Bool} {base p : Nat} {mask : BitVec 64} {n : Nat}
    {o : DecodedOpcode w} (hp : p = priceOf (entry n).opcode) (hv : o.variant = entry n)
    (g1 : Allowed (f.checks holds) o p → (f.checks holds).holds o.condition = true →
      guarded (f.checks holds) base o p mask = o)
    (g2 : Allowed (f.checks holds) o p → (f.checks holds).holds o.condition = false →
      guarded (f.checks holds) base o p mask = o.maskIntoNop)
    (g3 : ¬Allowed (f.checks holds) o p → guarded (f.checks holds) base o p mask = o.maskIntoPanic)
    (g4 : (f.checks holds).isStatic = true → changesState (guarded (f.checks holds) base o p mask).variant.opcode = false)
    (g5 : (f.checks holds).kernel = false → kernelOnly (guarded (f.checks holds) base o p mask).variant.opcode = false) :
    Facts f (entry n) p (guarded (f.checks holds) base o p mask).variant := by
  refine ⟨hp, g4, g5, ?_, fun hlt => ?_⟩
  · by_cases ha : Allowed (f.checks holds) o p
    · cases hc : (f.checks holds).holds o.condition with
      | true => rw [g1 ha hc]; exact .inl hv
      | false => rw [g2 ha hc]; exact .inr (.inl rfl)
    · rw [g3 ha]; exact .inr (.inr rfl)
  · rw [g3 (fun ha => absurd ha.1 (Nat.not_le.2 hlt))]; rfl

theorem issues {m : Mode} {f : CallFrame} {w : BitVec m.bits} {p : Nat} {v : OpcodeVariant} (h : Issues m f w p v) :
    Facts f (entry (w.toNat % 2048)) p v := by
  obtain ⟨prices, masks, base, o, n, mask, holds, hp, hm, hb, hd, hpr, hmk, rfl⟩ := h
  cases m with
  | production =>
    obtain ⟨prices', masks', o', n', p', mask', hp', hm', hd', hpr', hmk', g1, g2, g3, g4, g5, _⟩ :=
      Props.C84_guarded_production (f.checks holds) w base hb
    obtain rfl := unify hp hp'
    obtain rfl := unify hm hm'
    obtain ⟨rfl, rfl⟩ := Prod.mk.inj (unify (hd : Production.parse w = _) hd')
    obtain rfl : p = p' := Option.some.inj (hpr.symm.trans hpr')
    obtain rfl : mask = mask' := Option.some.inj (hmk.symm.trans hmk')
    obtain ⟨o₂, hd₂, hv, _⟩ := Coding.prod_parse w
    obtain ⟨rfl, rfl⟩ := Prod.mk.inj (unify hd' hd₂)
    have hq := prices_get hp (n := w.toNat % 2 ^ 11) (Nat.mod_lt _ (by decide))
    exact facts_of (Option.some.inj (hpr.symm.trans hq)) hv g1 g2 g3 g4 g5
  | testing =>
    obtain ⟨prices', masks', o', n', p', mask', hp', hm', hd', hpr', hmk', g1, g2, g3, g4, g5, _⟩ :=
      Props.C84_guarded_testing (f.checks holds) w base hb
    obtain rfl := unify hp hp'
    obtain rfl := unify hm hm'
    obtain ⟨rfl, rfl⟩ := Prod.mk.inj (unify (hd : Testing.parse w = _) hd')
    obtain rfl : p = p' := Option.some.inj (hpr.symm.trans hpr')
    obtain rfl : mask = mask' := Option.some.inj (hmk.symm.trans hmk')
    obtain ⟨o₂, hd₂, hv, _⟩ := Coding.test_parse w
    obtain ⟨rfl, rfl⟩ := Prod.mk.inj (unify hd' hd₂)
    have hq := prices_get hp (n := w.toNat % 2 ^ 11) (Nat.mod_lt _ (by decide))
    exact facts_of (Option.some.inj (hpr.symm.trans hq)) hv g1 g2 g3 g4 g5

/-- The price of a word whose issued instruction is neither nop nor panic is that of the issued instruction. -/
theorem issued_price {m : Mode} {f : CallFrame} {w : BitVec m.bits} {p : Nat} {v : OpcodeVariant} (h : Issues m f w p v)
    (hn : v.opcode ≠ .nop .mk) (hr : v.opcode ≠ .ret .panic) :
    p = priceOf v.opcode ∧ v = entry (w.toNat % 2048) := by
  obtain ⟨h1, _, _, h2, _⟩ := issues h
  rcases h2 with h2 | h2 | h2
  · exact ⟨h2 ▸ h1, h2⟩
  · exact absurd h2 hn
  · exact absurd h2 hr

/-- What an instruction whose condition holds is issued as, and one that is not allowed -/
theorem issues_of (m : Mode) (f : CallFrame) (w : BitVec m.bits) :
    ((priceOf (entry (w.toNat % 2048)).opcode ≤ f.ergs ∧ isInvalid (entry (w.toNat % 2048)).opcode = false ∧
      (kernelOnly (entry (w.toNat % 2048)).opcode = true → f.kernel = true) ∧
      (f.isStatic = true → changesState (entry (w.toNat % 2048)).opcode = false)) →
      Issues m f w (priceOf (entry (w.toNat % 2048)).opcode) (entry (w.toNat % 2048))) ∧
    (¬(priceOf (entry (w.toNat % 2048)).opcode ≤ f.ergs ∧ isInvalid (entry (w.toNat % 2048)).opcode = false ∧
      (kernelOnly (entry (w.toNat % 2048)).opcode = true → f.kernel = true) ∧
      (f.isStatic = true → changesState (entry (w.toNat % 2048)).opcode = false)) → ∃ v, v.opcode = .ret .panic ∧
      Issues m f w (priceOf (entry (w.toNat % 2048)).opcode) v) := by
  have hb : totalDescriptionBitsRoundedForVersion DEFAULT_ISA_VERSION = .ok 48 := by decide +kernel
  cases m with
  | production =>
    obtain ⟨prices, masks, o, n, p, mask, hp, hm, hd, hpr, hmk, g1, g2, g3, _⟩ :=
      Props.C84_guarded_production (f.checks fun _ => true) w 48 hb
    obtain ⟨o₂, hd₂, hv, _⟩ := Coding.prod_parse w
    obtain ⟨rfl, rfl⟩ := Prod.mk.inj (unify hd hd₂)
    have hq := prices_get hp (n := w.toNat % 2 ^ 11) (Nat.mod_lt _ (by decide))
    have hpq : p = priceOf (entry (w.toNat % 2048)).opcode := Option.some.inj (hpr.symm.trans hq)
    rw [← hpq]
    refine ⟨fun ha => ⟨prices, masks, 48, o, _, mask, fun _ => true, hp, hm, hb, hd, hpr, hmk, ?_⟩, fun hlt =>
      ⟨_, ?_, prices, masks, 48, o, _, mask, fun _ => true, hp, hm, hb, hd, hpr, hmk, rfl⟩⟩
    · rw [g1 (by unfold Allowed; rw [hv]; exact ha) rfl]; exact hv
    · rw [g3 (by unfold Allowed; rw [hv]; exact hlt)]; rfl
  | testing =>
    obtain ⟨prices, masks, o, n, p, mask, hp, hm, hd, hpr, hmk, g1, g2, g3, _⟩ :=
      Props.C84_guarded_testing (f.checks fun _ => true) w 48 hb
    obtain ⟨o₂, hd₂, hv, _⟩ := Coding.test_parse w
    obtain ⟨rfl, rfl⟩ := Prod.mk.inj (unify hd hd₂)
    have hq := prices_get hp (n := w.toNat % 2 ^ 11) (Nat.mod_lt _ (by decide))
    have hpq : p = priceOf (entry (w.toNat % 2048)).opcode := Option.some.inj (hpr.symm.trans hq)
    rw [← hpq]
    refine ⟨fun ha => ⟨prices, masks, 48, o, _, mask, fun _ => true, hp, hm, hb, hd, hpr, hmk, ?_⟩, fun hlt =>
      ⟨_, ?_, prices, masks, 48, o, _, mask, fun _ => true, hp, hm, hb, hd, hpr, hmk, rfl⟩⟩
    · rw [g1 (by unfold Allowed; rw [hv]; exact ha) rfl]; exact hv
    · rw [g3 (by unfold Allowed; rw [hv]; exact hlt)]; rfl

theorem decode_entry {m : Mode} {w : BitVec m.bits} {o : DecodedOpcode (pcBits m)} {n : VariantMonotonicNumber}
    (h : decode m w = .ok (o, n)) : o.variant = entry (w.toNat % 2048) := by
  cases m with
  | production =>
    obtain ⟨o₂, hd₂, hv, _⟩ := Coding.prod_parse w
    obtain ⟨rfl, rfl⟩ := Prod.mk.inj (unify (h : Production.parse w = _) hd₂)
    exact hv
  | testing =>
    obtain ⟨o₂, hd₂, hv, _⟩ := Coding.test_parse w
    obtain ⟨rfl, rfl⟩ := Prod.mk.inj (unify (h : Testing.parse w = _) hd₂)
    exact hv

theorem price_word {m : Mode} {f : CallFrame} {w : BitVec m.bits} {p : Nat} {v : OpcodeVariant} (h : Issues m f w p v) :
    p = wordPrice w := (issues h).1

/-! ### Ergs -/

theorem total_cons (f : CallFrame) (s : List CallFrame) : totalErgs (f :: s) = f.ergs + totalErgs s := rfl
theorem total_append (s t : List CallFrame) : totalErgs (s ++ t) = totalErgs s + totalErgs t := by
  unfold totalErgs; rw [List.map_append, List.sum_append]

theorem spends_ergs {f f' : CallFrame} {e bytes : Nat} (h : Spends f e f' bytes) :
    f'.ergs + bytes * MEMORY_GROWTH_ERGS_PER_BYTE ≤ e := by
  obtain ⟨heap, aux, further, _, _, _, hle, rfl⟩ := h
  dsimp only
  omega

theorem resume_ergs (f : CallFrame) (back : Nat) (rest : List CallFrame) :
    totalErgs rest ≤ totalErgs (resume f back rest) ∧ totalErgs (resume f back rest) ≤ totalErgs rest + back := by
  cases rest with
  | nil => exact ⟨Nat.le_refl _, Nat.zero_le _⟩
  | cons g r => unfold resume; rw [total_cons, total_cons]; dsimp only; omega

theorem near_le (abi : U256) (e : Nat) : nearPassed abi e ≤ e := by
  unfold nearPassed; dsimp only; split <;> omega

theorem resume_length (f : CallFrame) (back : Nat) (rest : List CallFrame) :
    (resume f back rest).length = rest.length := by cases rest <;> rfl

def words {m : Mode} (c : Cycle m) : Nat := (c.loaded.map List.length).sum

/-- The price of a cycle -/
def cyclePrice {m : Mode} (c : Cycle m) : Nat := if c.paid then wordPrice c.word else 0

/-- One cycle: the ergs of all frames pay for it, with memory and code; every call is worth 20 ergs for its depth, and 5 ergs
for the cycle that may end it without paying. -/
theorem step_cost {m : Mode} {s t : List CallFrame} {c : Cycle m} (h : Step m s c t) :
    totalErgs t + c.grown * MEMORY_GROWTH_ERGS_PER_BYTE + words c * ERGS_PER_CODE_WORD_DECOMMITTMENT + cyclePrice c
      ≤ totalErgs s ∧
    20 * t.length + totalErgs t ≤ 20 * s.length + totalErgs s ∧
    5 + 5 * t.length + totalErgs t ≤ 5 * s.length + totalErgs s := by
  cases h with
  | @proceed f f' rest w p bytes v hi _ _ _ hle hs =>
    have h1 := spends_ergs hs
    have h2 := price_word hi
    have h3 : 5 ≤ wordPrice w := (price_ge _).1
    rw [total_cons, total_cons]
    have h4 : cyclePrice (⟨w, v, true, bytes, [], none⟩ : Cycle m) = wordPrice w := rfl
    have h5 : words (⟨w, v, true, bytes, [], none⟩ : Cycle m) = 0 := rfl
    rw [h4, h5]
    simp only [List.length_cons]
    omega
  | @nearCall f rest w p v abi hi hv hle =>
    have h2 := price_word hi
    have h6 := near_le abi (f.ergs - p)
    have h7 : p = 25 := by
      rw [(issued_price hi (by rw [hv]; intro h; cases h) (by rw [hv]; intro h; cases h)).1, hv]; rfl
    have h4 : cyclePrice (⟨w, v, true, 0, [], some (abi, f.code)⟩ : Cycle m) = wordPrice w := rfl
    have h5 : words (⟨w, v, true, 0, [], some (abi, f.code)⟩ : Cycle m) = 0 := rfl
    rw [h4, h5, total_cons, total_cons, total_cons]
    simp only [List.length_cons]
    omega
  | @farCall f f' rest w p bytes v k loaded abi dest pretended passed hi hv hle _ hc hs hf =>
    have h1 := spends_ergs hs
    have h2 := price_word hi
    have h6 : passed ≤ f'.ergs := hf.1
    have h7 : p = 182 := by
      rw [(issued_price hi (by rw [hv]; intro h; cases h) (by rw [hv]; intro h; cases h)).1, hv]; rfl
    have h4 : cyclePrice (⟨w, v, true, bytes, loaded, some (abi, dest)⟩ : Cycle m) = wordPrice w := rfl
    have h5 : words (⟨w, v, true, bytes, loaded, some (abi, dest)⟩ : Cycle m) = (loaded.map List.length).sum := rfl
    have h8 : (farCallee f v k dest pretended passed).ergs = passed := rfl
    rw [h4, h5, total_cons, total_cons, total_cons, h8]
    simp only [List.length_cons]
    omega
  | @ret f f' rest w p bytes v r hi hv _ hle hs =>
    have h1 := spends_ergs hs
    have h2 := price_word hi
    have h3 : 5 ≤ wordPrice w := (price_ge _).1
    have h4 : cyclePrice (⟨w, v, true, bytes, [], none⟩ : Cycle m) = wordPrice w := rfl
    have h5 : words (⟨w, v, true, bytes, [], none⟩ : Cycle m) = 0 := rfl
    have h6 := (resume_ergs f' f'.ergs rest).2
    rw [h4, h5, total_cons, resume_length]
    simp only [List.length_cons]
    omega
  | @panic f rest w p v hi hv =>
    have h2 := price_word hi
    have h5 : words (⟨w, v, decide (p ≤ f.ergs), 0, [], none⟩ : Cycle m) = 0 := rfl
    have h6 := (resume_ergs f 0 rest).2
    have h4 : cyclePrice (⟨w, v, decide (p ≤ f.ergs), 0, [], none⟩ : Cycle m) ≤ f.ergs := by
      unfold cyclePrice
      dsimp only
      split
      · rename_i h; rw [← h2]; exact of_decide_eq_true h
      · exact Nat.zero_le _
    rw [h5, total_cons, resume_length]
    simp only [List.length_cons]
    omega
  | @pending f rest w v hv =>
    have h4 : cyclePrice (⟨w, v, false, 0, [], none⟩ : Cycle m) = 0 := rfl
    have h5 : words (⟨w, v, false, 0, [], none⟩ : Cycle m) = 0 := rfl
    have h6 := (resume_ergs f 0 rest).2
    rw [h4, h5, total_cons, resume_length]
    simp only [List.length_cons]
    omega

theorem executes_of_sum {prices : List Nat} (hp : OPCODES_PRICES = .ok prices) {n : Nat} (ws : List (BitVec n)) :
    ∀ e, (ws.map wordPrice).sum ≤ e → Executes prices e ws (e - (ws.map wordPrice).sum) := by
  induction ws with
  | nil => intro e _; exact .stop e
  | cons w ws ih =>
    intro e h
    rw [List.map_cons, List.sum_cons] at h ⊢
    refine .step (p := wordPrice w) (prices_get hp (Nat.mod_lt _ (by decide))) (by omega) ?_
    rw [Nat.sub_add_eq]
    exact ih _ (by omega)

theorem executed_cons {m : Mode} (c : Cycle m) (cs : List (Cycle m)) :
    ((executed (c :: cs)).map wordPrice).sum = cyclePrice c + ((executed cs).map wordPrice).sum := by
  unfold executed cyclePrice
  rw [List.filter_cons]
  cases c.paid
  · simp
  · simp

theorem words_cons {m : Mode} (c : Cycle m) (cs : List (Cycle m)) :
    ((loaded (c :: cs)).map List.length).sum = words c + ((loaded cs).map List.length).sum := by
  unfold loaded words
  rw [List.flatMap_cons, List.map_append, List.sum_append]

theorem grown_cons {m : Mode} (c : Cycle m) (cs : List (Cycle m)) : grown (c :: cs) = c.grown + grown cs := rfl

/-- Any number of cycles -/
theorem during_cost {m : Mode} {k : Nat} {s t : List CallFrame} {cs : List (Cycle m)} (h : During m k s cs t) :
    totalErgs t + grown cs * MEMORY_GROWTH_ERGS_PER_BYTE
      + ((loaded cs).map List.length).sum * ERGS_PER_CODE_WORD_DECOMMITTMENT + ((executed cs).map wordPrice).sum
      ≤ totalErgs s ∧
    20 * t.length + totalErgs t ≤ 20 * s.length + totalErgs s ∧
    5 * cs.length + 5 * t.length + totalErgs t ≤ 5 * s.length + totalErgs s := by
  induction h with
  | none s =>
    simp only [grown, loaded, executed, List.map_nil, List.sum_nil, List.flatMap_nil, List.filter_nil, List.length_nil]
    omega
  | step _ hs _ ih =>
    have := step_cost hs
    rw [executed_cons, words_cons, grown_cons, Nat.add_mul, Nat.add_mul, List.length_cons]
    omega

theorem far_count {m : Mode} {k : Nat} {s t : List CallFrame} {cs : List (Cycle m)} (h : During m k s cs t) :
    (loaded cs).length ≤ farCalls m (executed cs) ∧
    cs.countP (fun c => isFarCall (some c.issued.opcode)) ≤ farCalls m (executed cs) := by
  induction h with
  | none s => exact ⟨Nat.le_refl _, Nat.le_refl _⟩
  | @step s t u c cs _ hs _ ih =>
    have key : c.loaded.length ≤ (if c.paid && isFarCall (opcodeOf m c.word) then 1 else 0) ∧
        (if isFarCall (some c.issued.opcode) then 1 else 0) ≤ (if c.paid && isFarCall (opcodeOf m c.word) then 1 else 0) := by
      cases hs with
      | @proceed f f' rest w p bytes v hi h1 h2 h3 hle hs =>
        have hn : isFarCall (some v.opcode) = false := by
          generalize v.opcode = o at h2
          cases o <;> first | rfl | exact absurd rfl (h2 _)
        dsimp only
        rw [hn]
        exact ⟨Nat.zero_le _, Nat.zero_le _⟩
      | @nearCall f rest w p v abi hi hv hle => dsimp only; rw [hv]; exact ⟨Nat.zero_le _, Nat.zero_le _⟩
      | @farCall f f' rest w p bytes v k loaded abi dest pretended passed hi hv hle hl hc hs hf =>
        have h7 := (issued_price hi (by rw [hv]; intro h; cases h) (by rw [hv]; intro h; cases h)).2
        dsimp only
        rw [opcodeOf_eq, ← h7, hv]
        exact ⟨hl, Nat.le_refl _⟩
      | @ret f f' rest w p bytes v r hi hv _ hle hs => dsimp only; rw [hv]; exact ⟨Nat.zero_le _, Nat.zero_le _⟩
      | @panic f rest w p v hi hv => dsimp only; rw [hv]; exact ⟨Nat.zero_le _, Nat.zero_le _⟩
      | @pending f rest w v hv => dsimp only; rw [hv]; exact ⟨Nat.zero_le _, Nat.zero_le _⟩
    have hex : farCalls m (executed (c :: cs)) =
        farCalls m (executed cs) + (if c.paid && isFarCall (opcodeOf m c.word) then 1 else 0) := by
      unfold farCalls executed
      rw [List.filter_cons]
      cases c.paid
      · simp
      · simp [List.countP_cons]
    rw [hex, List.countP_cons, show loaded (c :: cs) = c.loaded ++ loaded cs from List.flatMap_cons, List.length_append]
    omega

/-- An instruction that is neither nop nor panic is issued for a word that means it, and is paid for. -/
theorem step_issued {m : Mode} {s t : List CallFrame} {c : Cycle m} (h : Step m s c t) (hn : c.issued.opcode ≠ .nop .mk)
    (hr : c.issued.opcode ≠ .ret .panic) : c.paid = true ∧ opcodeOf m c.word = some c.issued.opcode := by
  have key : ∀ {f : CallFrame} {w : BitVec m.bits} {p : Nat} {v : OpcodeVariant}, Issues m f w p v → v.opcode ≠ .nop .mk →
      v.opcode ≠ .ret .panic → opcodeOf m w = some v.opcode := fun hi hn hr => by
    rw [opcodeOf_eq, ← (issued_price hi hn hr).2]
  cases h with
  | proceed hi _ _ _ _ _ => exact ⟨rfl, key hi hn hr⟩
  | nearCall abi hi hv hle => exact ⟨rfl, key hi hn hr⟩
  | farCall abi dest pretended passed hi hv hle hl hc hs hf => exact ⟨rfl, key hi hn hr⟩
  | ret hi hv _ hle hs => exact ⟨rfl, key hi hn hr⟩
  | panic hi hv => exact absurd hv hr
  | pending hv => exact absurd hv hr

theorem issued_count {m : Mode} {k : Nat} {s t : List CallFrame} {cs : List (Cycle m)} (h : During m k s cs t) (op : Opcode)
    (hn : op ≠ .nop .mk) (hr : op ≠ .ret .panic) :
    cs.countP (fun c => decide (c.issued.opcode = op)) ≤ (executed cs).countP (fun w => decide (opcodeOf m w = some op)) := by
  induction h with
  | none s => exact Nat.le_refl _
  | @step s t u c cs _ hs _ ih =>
    unfold executed at ih ⊢
    rw [List.countP_cons, List.filter_cons]
    by_cases hc : c.issued.opcode = op
    · obtain ⟨h1, h2⟩ := step_issued hs (hc ▸ hn) (hc ▸ hr)
      rw [h1, if_pos rfl, List.map_cons, List.countP_cons, h2, hc]
      simpa using ih
    · cases c.paid
      · simpa [hc] using ih
      · rw [if_pos rfl, List.map_cons, List.countP_cons]
        simp only [hc, decide_false, Bool.false_eq_true, if_false]
        omega

/-! ### Who called whom -/

/-- Two frames in which the same contract was called the same way -/
def Same (f g : CallFrame) : Prop :=
  f.this = g.this ∧ f.code = g.code ∧ f.caller = g.caller ∧ f.isStatic = g.isStatic ∧ f.isLocal = g.isLocal

theorem Same.refl (f : CallFrame) : Same f f := ⟨rfl, rfl, rfl, rfl, rfl⟩
theorem Same.trans {f g h : CallFrame} (a : Same f g) (b : Same g h) : Same f h :=
  ⟨a.1.trans b.1, a.2.1.trans b.2.1, a.2.2.1.trans b.2.2.1, a.2.2.2.1.trans b.2.2.2.1, a.2.2.2.2.trans b.2.2.2.2⟩

theorem spends_same {f f' : CallFrame} {e bytes : Nat} (h : Spends f e f' bytes) : Same f' f := by
  obtain ⟨heap, aux, further, _, _, _, _, rfl⟩ := h
  exact .refl f

/-- What a frame `a` has of the frame `b` that called it -/
def Link (a b : CallFrame) : Prop :=
  (b.isStatic = true → a.isStatic = true) ∧ (a.this = a.code ∨ a.this = b.this) ∧
  (a.caller = b.this ∨ (a.this = b.this ∧ a.caller = b.caller) ∨ b.kernel = true)

theorem link_same {a a' b b' : CallFrame} (h : Link a b) (ha : Same a' a) (hb : Same b' b) : Link a' b' := by
  obtain ⟨a1, a2, a3, a4, _⟩ := ha
  obtain ⟨b1, _, b3, b4, _⟩ := hb
  unfold Link CallFrame.kernel at *
  rw [a1, a2, a3, a4, b1, b3, b4]
  exact h

/-- A stack on top of a call that began in a frame like `root` -/
def Linked (root : CallFrame) : List CallFrame → Prop
  | [] => True
  | [b] => Same b root
  | a :: b :: r => Link a b ∧ Linked root (b :: r)

theorem linked_top {root a a' : CallFrame} {r : List CallFrame} (h : Linked root (a :: r)) (ha : Same a' a) :
    Linked root (a' :: r) := by
  cases r with
  | nil => exact ha.trans h
  | cons b r => exact ⟨link_same h.1 ha (.refl b), h.2⟩

theorem linked_resume {root a f : CallFrame} {back : Nat} {r : List CallFrame} (h : Linked root (a :: r)) :
    Linked root (resume f back r) := by
  cases r with
  | nil => exact trivial
  | cons b r => exact linked_top h.2 ⟨rfl, rfl, rfl, rfl, rfl⟩

theorem step_linked {m : Mode} {root : CallFrame} {s t : List CallFrame} {c : Cycle m} (h : Step m s c t)
    (hs : Linked root s) : Linked root t := by
  cases h with
  | proceed _ _ _ _ _ hsp => exact linked_top hs (spends_same hsp)
  | @nearCall f rest w p v abi hi hv hle =>
    exact ⟨⟨id, .inr rfl, .inr (.inl ⟨rfl, rfl⟩)⟩, linked_top hs ⟨rfl, rfl, rfl, rfl, rfl⟩⟩
  | @farCall f f' rest w p bytes v k loaded abi dest pretended passed hi hv hle hl hc hsp hf =>
    have h1 := spends_same hsp
    have h2 : Same { f' with ergs := f'.ergs - passed } f := h1
    refine ⟨link_same (b := f) ?_ (.refl _) h2, linked_top hs h2⟩
    refine ⟨fun h => ?_, ?_, ?_⟩
    · show (f.isStatic || _) = true
      rw [h]; rfl
    · cases k <;> first | exact .inl rfl | exact .inr rfl
    · cases k with
      | normal => exact .inl rfl
      | delegate => exact .inr (.inl ⟨rfl, rfl⟩)
      | mimic =>
        cases hk : f.kernel with
        | true => exact .inr (.inr rfl)
        | false =>
          have := (issues hi).2.2.1 hk
          rw [hv] at this
          exact absurd this (by decide)
  | ret _ _ _ _ hsp => exact linked_resume hs
  | panic _ _ => exact linked_resume hs
  | pending _ => exact linked_resume hs

theorem during_linked {m : Mode} {root : CallFrame} {k : Nat} {s t : List CallFrame} {cs : List (Cycle m)}
    (h : During m k s cs t) : Linked root s → Linked root t := by
  induction h with
  | none s => exact id
  | step _ hs _ ih => exact fun h => ih (step_linked hs h)

theorem linked_get {root : CallFrame} : ∀ {s : List CallFrame} {i : Nat} {a b : CallFrame}, Linked root s →
    s[i]? = some a → s[i + 1]? = some b → Link a b
  | [], i, a, b, _, ha, _ => by simp at ha
  | [x], i, a, b, _, ha, hb => by simp at hb
  | x :: y :: r, 0, a, b, h, ha, hb => by
    obtain rfl : x = a := Option.some.inj ha
    obtain rfl : y = b := Option.some.inj hb
    exact h.1
  | x :: y :: r, i + 1, a, b, h, ha, hb => linked_get (s := y :: r) (i := i) h.2 ha hb

theorem linked_static {root : CallFrame} (hr : root.isStatic = true) : ∀ {s : List CallFrame}, Linked root s →
    ∀ f ∈ s, f.isStatic = true
  | [], _, f, hf => nomatch hf
  | [x], h, f, hf => by
    obtain rfl := List.mem_singleton.1 hf
    exact h.2.2.2.1.trans hr
  | x :: y :: r, h, f, hf => by
    have ih := linked_static hr (s := y :: r) h.2
    rcases List.mem_cons.1 hf with rfl | hf
    · exact h.1.1 (ih y List.mem_cons_self)
    · exact ih f hf

theorem linked_caller {root : CallFrame} : ∀ {s : List CallFrame}, Linked root s →
    (∀ b ∈ s.tail, b.kernel = false) → ∀ a ∈ s, a.caller = root.caller ∨ ∃ b ∈ s.tail, a.caller = b.this
  | [], _, _, f, hf => nomatch hf
  | [x], h, _, f, hf => by
    obtain rfl := List.mem_singleton.1 hf
    exact .inl h.2.2.1
  | x :: y :: r, h, hk, f, hf => by
    have ih := linked_caller (s := y :: r) h.2 (fun b hb => hk b (List.mem_cons_of_mem _ hb))
    have up : ∀ {g : CallFrame}, (g.caller = root.caller ∨ ∃ b ∈ r, g.caller = b.this) →
        g.caller = root.caller ∨ ∃ b ∈ y :: r, g.caller = b.this := fun h =>
      h.imp id fun ⟨b, hb, he⟩ => ⟨b, List.mem_cons_of_mem _ hb, he⟩
    rcases List.mem_cons.1 hf with rfl | hf
    · rcases h.1.2.2 with h1 | ⟨_, h1⟩ | h1
      · exact .inr ⟨y, List.mem_cons_self, h1⟩
      · have := ih y List.mem_cons_self
        rw [← h1] at this
        exact up this
      · have := hk y List.mem_cons_self
        rw [h1] at this
        cases this
    · exact up (ih f hf)

/-- The instruction issued in a cycle, seen from the frame that runs -/
theorem step_running {m : Mode} {s t : List CallFrame} {c : Cycle m} (h : Step m s c t) : ∃ f rest, s = f :: rest ∧
    (f.isStatic = true → changesState c.issued.opcode = false) ∧ (f.kernel = false → kernelOnly c.issued.opcode = false) := by
  cases h with
  | proceed hi _ _ _ _ _ => exact ⟨_, _, rfl, (issues hi).2.1, (issues hi).2.2.1⟩
  | nearCall abi hi hv hle => exact ⟨_, _, rfl, (issues hi).2.1, (issues hi).2.2.1⟩
  | farCall abi dest pretended passed hi hv hle hl hc hs hf => exact ⟨_, _, rfl, (issues hi).2.1, (issues hi).2.2.1⟩
  | ret hi hv _ hle hs => exact ⟨_, _, rfl, (issues hi).2.1, (issues hi).2.2.1⟩
  | panic hi hv => exact ⟨_, _, rfl, (issues hi).2.1, (issues hi).2.2.1⟩
  | @pending f rest w v hv =>
    refine ⟨_, _, rfl, fun _ => ?_, fun _ => ?_⟩
    · show changesState v.opcode = false
      rw [hv]; rfl
    · show kernelOnly v.opcode = false
      rw [hv]; rfl

theorem step_kernel {m : Mode} {s t : List CallFrame} {c : Cycle m} (h : Step m s c t)
    (hk : kernelOnly c.issued.opcode = true) : ∃ f rest, s = f :: rest ∧ f.kernel = true := by
  obtain ⟨f, rest, h1, _, h2⟩ := step_running h
  refine ⟨f, rest, h1, ?_⟩
  cases hf : f.kernel with
  | true => rfl
  | false => rw [h2 hf] at hk; cases hk

theorem during_static {m : Mode} {root : CallFrame} (hr : root.isStatic = true) {k : Nat} {s t : List CallFrame}
    {cs : List (Cycle m)} (h : During m k s cs t) : Linked root s → ∀ c ∈ cs, changesState c.issued.opcode = false := by
  induction h with
  | none s => intro _ c hc; cases hc
  | @step s t u c cs _ hs _ ih =>
    intro hl c' hc'
    rcases List.mem_cons.1 hc' with rfl | hc'
    · obtain ⟨f, rest, rfl, h1, _⟩ := step_running hs
      exact h1 (linked_static hr hl f List.mem_cons_self)
    · exact ih (step_linked hs hl) c' hc'

/-! ### Locality -/

/-- The frames `rest` below a call after it: untouched while it runs; after it has ended, the first has got back some ergs. -/
inductive Above (root : CallFrame) (t rest : List CallFrame) : List CallFrame → Prop
  | running : t ≠ [] → Above root t rest (t ++ rest)
  | ended {f : CallFrame} {back : Nat} : t = [] → Same f root → Above root t rest (resume f back rest)

theorem resume_append {root : CallFrame} (f a : CallFrame) (back : Nat) (t rest : List CallFrame)
    (h : Linked root (a :: t)) (hs : Same f a) : Above root (resume f back t) rest (resume f back (t ++ rest)) := by
  cases t with
  | nil => exact .ended rfl (hs.trans h)
  | cons g r => exact .running (by intro h; cases h)

theorem step_local {m : Mode} {root : CallFrame} {t rest u : List CallFrame} {c : Cycle m} (hl : Linked root t) (ht : t ≠ [])
    (h : Step m (t ++ rest) c u) : ∃ t', Step m t c t' ∧ Above root t' rest u := by
  cases t with
  | nil => exact absurd rfl ht
  | cons f t =>
    rw [List.cons_append] at h
    cases h with
    | proceed hi h1 h2 h3 hle hs => exact ⟨_, .proceed hi h1 h2 h3 hle hs, .running (by intro h; cases h)⟩
    | nearCall abi hi hv hle => exact ⟨_, .nearCall abi hi hv hle, .running (by intro h; cases h)⟩
    | farCall abi dest pretended passed hi hv hle hl hc hs hf =>
      exact ⟨_, .farCall abi dest pretended passed hi hv hle hl hc hs hf, .running (by intro h; cases h)⟩
    | ret hi hv hr hle hs => exact ⟨_, .ret hi hv hr hle hs, resume_append _ _ _ _ _ hl (spends_same hs)⟩
    | panic hi hv => exact ⟨_, .panic hi hv, resume_append _ _ _ _ _ hl (.refl f)⟩
    | pending hv => exact ⟨_, .pending hv, resume_append _ _ _ _ _ hl (.refl f)⟩

theorem during_local' {m : Mode} {root : CallFrame} {k : Nat} {s u : List CallFrame} {cs : List (Cycle m)}
    (h : During m k s cs u) : ∀ t rest : List CallFrame, rest.length = k → t ≠ [] → s = t ++ rest → Linked root t →
    ∃ t', During m 0 t cs t' ∧ Above root t' rest u := by
  induction h with
  | none s => intro t rest _ ht hs _; subst hs; exact ⟨t, .none t, .running ht⟩
  | @step s t₁ u c cs hk hs hd ih =>
    intro t rest hr ht he hl
    subst he
    obtain ⟨t', h1, h2⟩ := step_local hl ht hs
    have ht0 : 0 < t.length := List.length_pos_iff.2 ht
    cases h2 with
    | running hne =>
      obtain ⟨t'', h3, h4⟩ := ih t' rest hr hne rfl (step_linked h1 hl)
      exact ⟨t'', .step ht0 h1 h3, h4⟩
    | ended he hsame =>
      subst he
      cases hd with
      | none => exact ⟨[], .step ht0 h1 (.none []), .ended rfl hsame⟩
      | step hk' _ _ => rw [resume_length, hr] at hk'; exact absurd hk' (Nat.lt_irrefl _)

theorem resume_prefix {f : CallFrame} {back : Nat} {t rest : List CallFrame} :
    ∃ u, resume f back (t ++ rest) = u ∧ (resume f back t ≠ [] → u = resume f back t ++ rest) := by
  cases t with
  | nil => exact ⟨_, rfl, fun h => absurd rfl h⟩
  | cons g r => exact ⟨_, rfl, fun _ => rfl⟩

theorem step_above {m : Mode} {t t' : List CallFrame} {c : Cycle m} (rest : List CallFrame) (h : Step m t c t') :
    ∃ u, Step m (t ++ rest) c u ∧ (t' ≠ [] → u = t' ++ rest) := by
  cases h with
  | proceed hi h1 h2 h3 hle hs => exact ⟨_, .proceed hi h1 h2 h3 hle hs, fun _ => rfl⟩
  | nearCall abi hi hv hle => exact ⟨_, .nearCall abi hi hv hle, fun _ => rfl⟩
  | farCall abi dest pretended passed hi hv hle hl hc hs hf =>
    exact ⟨_, .farCall abi dest pretended passed hi hv hle hl hc hs hf, fun _ => rfl⟩
  | ret hi hv hr hle hs =>
    obtain ⟨u, h1, h2⟩ := resume_prefix
    exact ⟨u, h1 ▸ .ret hi hv hr hle hs, h2⟩
  | panic hi hv =>
    obtain ⟨u, h1, h2⟩ := resume_prefix
    exact ⟨u, h1 ▸ .panic hi hv, h2⟩
  | pending hv =>
    obtain ⟨u, h1, h2⟩ := resume_prefix
    exact ⟨u, h1 ▸ .pending hv, h2⟩

theorem during_above {m : Mode} {k : Nat} {t t' : List CallFrame} {cs : List (Cycle m)} (rest : List CallFrame)
    (h : During m k t cs t') : ∃ u, During m (k + rest.length) (t ++ rest) cs u ∧ (t' ≠ [] → u = t' ++ rest) := by
  induction h with
  | none s => exact ⟨_, .none _, fun _ => rfl⟩
  | @step s t₁ u c cs hk hs hd ih =>
    obtain ⟨v, h1, h2⟩ := step_above rest hs
    have hk' : k + rest.length < (s ++ rest).length := by rw [List.length_append]; omega
    cases t₁ with
    | nil =>
      cases hd with
      | none => exact ⟨v, .step hk' h1 (.none v), fun h => absurd rfl h⟩
      | step hk _ _ => exact absurd hk (Nat.not_lt_zero _)
    | cons g r =>
      obtain ⟨u', h3, h4⟩ := ih
      rw [← h2 (by intro h; cases h)] at h3
      exact ⟨u', .step hk' h1 h3, h4⟩

theorem during_local {m : Mode} {f : CallFrame} {rest u : List CallFrame} {cs : List (Cycle m)}
    (h : During m rest.length (f :: rest) cs u) : ∃ t', During m 0 [f] cs t' ∧ Above f t' rest u :=
  during_local' h [f] rest rfl (by intro h; cases h) rfl (Same.refl f)

theorem above_ergs {f : CallFrame} {t rest u : List CallFrame} (h : Above f t rest u) : totalErgs rest ≤ totalErgs u := by
  cases h with
  | running => rw [total_append]; omega
  | ended => exact (resume_ergs _ _ _).1

/-! ### Heaps -/

theorem spends_heaps {f f' : CallFrame} {e bytes B : Nat} (h : Spends f e f' bytes) (hf : f.heap ≤ B ∧ f.auxHeap ≤ B) :
    f'.heap ≤ B + bytes ∧ f'.auxHeap ≤ B + bytes := by
  obtain ⟨heap, aux, further, _, _, _, _, rfl⟩ := h
  dsimp only
  omega

theorem resume_heaps {f : CallFrame} {back B : Nat} {rest : List CallFrame} (hf : f.heap ≤ B ∧ f.auxHeap ≤ B)
    (hr : ∀ g ∈ rest, g.heap ≤ B ∧ g.auxHeap ≤ B) : ∀ g ∈ resume f back rest, g.heap ≤ B ∧ g.auxHeap ≤ B := by
  cases rest with
  | nil => intro g hg; cases hg
  | cons a r =>
    intro g hg
    rcases List.mem_cons.1 hg with rfl | hg
    · have := hr a List.mem_cons_self
      dsimp only
      constructor <;> split <;> omega
    · exact hr g (List.mem_cons_of_mem _ hg)

theorem step_heaps {m : Mode} {s t : List CallFrame} {c : Cycle m} (h : Step m s c t) {B : Nat}
    (hB : NEW_FRAME_MEMORY_STIPEND ≤ B) (hs : ∀ f ∈ s, f.heap ≤ B ∧ f.auxHeap ≤ B) :
    ∀ f ∈ t, f.heap ≤ B + c.grown ∧ f.auxHeap ≤ B + c.grown := by
  have weak : ∀ {l : List CallFrame} {n : Nat}, (∀ f ∈ l, f.heap ≤ B ∧ f.auxHeap ≤ B) →
      ∀ f ∈ l, f.heap ≤ B + n ∧ f.auxHeap ≤ B + n := fun hl f hf => by
    have := hl f hf; omega
  cases h with
  | proceed _ _ _ _ _ hsp =>
    intro f hf
    rcases List.mem_cons.1 hf with rfl | hf
    · exact spends_heaps hsp (hs _ List.mem_cons_self)
    · exact weak (fun g hg => hs g (List.mem_cons_of_mem _ hg)) f hf
  | nearCall _ _ _ _ =>
    intro f hf
    rcases List.mem_cons.1 hf with rfl | hf
    · have h0 := hs _ List.mem_cons_self
      exact h0
    · rcases List.mem_cons.1 hf with rfl | hf
      · have h0 := hs _ List.mem_cons_self
        exact h0
      · exact hs _ (List.mem_cons_of_mem _ hf)
  | farCall _ _ _ _ _ _ _ _ _ hsp _ =>
    intro f hf
    rcases List.mem_cons.1 hf with rfl | hf
    · show NEW_FRAME_MEMORY_STIPEND ≤ _ ∧ NEW_FRAME_MEMORY_STIPEND ≤ _
      omega
    · rcases List.mem_cons.1 hf with rfl | hf
      · have h0 := spends_heaps hsp (hs _ List.mem_cons_self)
        exact h0
      · exact weak (fun g hg => hs g (List.mem_cons_of_mem _ hg)) f hf
  | ret _ _ _ _ hsp =>
    exact resume_heaps (spends_heaps hsp (hs _ List.mem_cons_self))
      (weak fun g hg => hs g (List.mem_cons_of_mem _ hg))
  | panic _ _ =>
    exact resume_heaps (hs _ List.mem_cons_self) (weak fun g hg => hs g (List.mem_cons_of_mem _ hg))
  | pending _ =>
    exact resume_heaps (hs _ List.mem_cons_self) (weak fun g hg => hs g (List.mem_cons_of_mem _ hg))

theorem during_heaps {m : Mode} {k : Nat} {s t : List CallFrame} {cs : List (Cycle m)} (h : During m k s cs t) :
    ∀ B, NEW_FRAME_MEMORY_STIPEND ≤ B → (∀ f ∈ s, f.heap ≤ B ∧ f.auxHeap ≤ B) →
    ∀ f ∈ t, f.heap ≤ B + grown cs ∧ f.auxHeap ≤ B + grown cs := by
  induction h with
  | none s => intro B _ hs; exact hs
  | step _ hst _ ih =>
    intro B hB hs
    have := ih _ (Nat.le_trans hB (Nat.le_add_right _ _)) (step_heaps hst hB hs)
    rw [grown_cons, ← Nat.add_assoc]
    exact this

end ZkEvm.FrameLemmas
