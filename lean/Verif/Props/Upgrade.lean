import Verif.Spec.Upgrade
import Verif.Props.Machine
import Verif.Props.VersionHistory
/-! C91: programs keep running the same when the instruction set is extended. Vocabulary in `Verif/Spec/Upgrade.lean`. -/
namespace ZkEvm.Props
open Spec Tables Bitmask Coding MachineLemmas

variable {State Contract : Type}

/-! ## C91 -/

private theorem same_price {a b : OpcodeVariant} (h : SameMeaning a b) : priceOf a.opcode = priceOf b.opcode := by
  rw [h.1]

private theorem same_mode {a b : Operand} (h : sourceMeaning a = sourceMeaning b) : modeNumber a = modeNumber b := by
  have key : ∀ o, modeNumber (sourceMeaning o) = modeNumber o := by
    intro o
    rcases o with _ | f | f <;> (try cases f) <;> rfl
  rw [← key a, ← key b, h]

private theorem same_mask {mask : OpcodeVariant → BitVec 64} (hm : MasksOk mask) {a b : OpcodeVariant}
    (h : SameMeaning a b) : mask a = mask b := by
  refine eq_of_bits fun i hi => ?_
  rw [hm a i hi, hm b i hi]
  unfold bitSpec
  rw [h.1, h.2.1, h.2.2.1, same_mode h.2.2.2]

private theorem run_same {w n limit : Nat} {M : Machine w State Contract} (hM : SpellingBlind M)
    {mask : OpcodeVariant → BitVec 64} (hm : MasksOk mask) {t0 t : List OpcodeVariant}
    {fetch : State → Res (BitVec n)} {parse : BitVec n → Res (DecodedOpcode w × VariantMonotonicNumber)}
    (hp : ∀ raw, ∃ o, parse raw = .ok (o, ⟨bits raw 0 11⟩))
    (hsame : ∀ i, i < limit → SameMeaning (meaningIn t i) (meaningIn t0 i)) :
    ∀ steps s, FetchesBelow limit (cycleOfVersion M mask t0 fetch parse) fetch steps s →
      cycles (cycleOfVersion M mask t fetch parse) steps s = cycles (cycleOfVersion M mask t0 fetch parse) steps s := by
  intro steps
  induction steps with
  | zero => exact fun _ _ => rfl
  | succ k ih =>
    intro s hf
    have hstep : cycleOfVersion M mask t fetch parse s = cycleOfVersion M mask t0 fetch parse s := by
      unfold cycleOfVersion
      cases hr : fetch s with
      | error e => rfl
      | ok raw =>
        obtain ⟨o, ho⟩ := hp raw
        have hlt := hf 0 s raw (Nat.succ_pos _) rfl hr
        show (parse raw >>= _) = (parse raw >>= _)
        rw [ho]
        have hs := hsame _ hlt
        show Except.ok _ = Except.ok _
        refine congrArg Except.ok ?_
        show M.execute s { o with variant := meaningIn t (bits raw 0 11) }
            (priceOf (meaningIn t (bits raw 0 11)).opcode) (mask (meaningIn t (bits raw 0 11))) =
          M.execute s { o with variant := meaningIn t0 (bits raw 0 11) }
            (priceOf (meaningIn t0 (bits raw 0 11)).opcode) (mask (meaningIn t0 (bits raw 0 11)))
        rw [same_price hs, same_mask hm hs]
        exact hM s { o with variant := meaningIn t0 (bits raw 0 11) } (meaningIn t (bits raw 0 11)) _ _ hs
    show (cycleOfVersion M mask t fetch parse s >>= fun u => cycles _ k u) =
      (cycleOfVersion M mask t0 fetch parse s >>= fun u => cycles _ k u)
    rw [hstep]
    cases hc : cycleOfVersion M mask t0 fetch parse s with
    | error e => rfl
    | ok u =>
      refine ih u fun j v raw hj hv hr => hf (j + 1) v raw (by omega) ?_ hr
      show (cycleOfVersion M mask t0 fetch parse s >>= fun u => cycles _ j u) = .ok v
      rw [hc]
      exact hv

private theorem parse_number_production (raw : BitVec 64) : ∃ o, Production.parse raw = .ok (o, ⟨bits raw 0 11⟩) := by
  obtain ⟨o, h, _⟩ := prod_parse raw
  exact ⟨o, by rw [h]; simp [bits]⟩

private theorem parse_number_testing (raw : BitVec 128) : ∃ o, Testing.parse raw = .ok (o, ⟨bits raw 0 11⟩) := by
  obtain ⟨o, h, _⟩ := test_parse raw
  exact ⟨o, by rw [h]; simp [bits]⟩

-- A machine that adds up prices and state-changing instructions, on an endless page of one word repeated: it meets the
-- hypotheses for any number of cycles.
private def counter : Machine 16 (BitVec 16 × Nat) Unit :=
  ⟨fun _ => (), fun s => s.1, fun s o price _ => (s.1 + 1, s.2 + price + if changesState o.variant.opcode then 1 else 0)⟩

private theorem counter_blind : SpellingBlind counter := fun s o v price mask h => by
  show (s.1 + 1, s.2 + price + if changesState v.opcode then 1 else 0) = _
  rw [h.1]
  rfl

private theorem counter_fetches (word : BitVec 64) (limit : Nat) (hw : bits word 0 11 < limit) (t0 : List OpcodeVariant)
    (mask : OpcodeVariant → BitVec 64) (n : Nat) (s : BitVec 16 × Nat) :
    FetchesBelow limit (cycleOfVersion counter mask t0 (fetchProduction counter fun _ _ => ⟨word, word, word, word⟩) Production.parse)
      (fetchProduction counter fun _ _ => ⟨word, word, word, word⟩) n s := by
  intro k t raw _ _ hr
  have : raw = word := by
    unfold fetchProduction Production.integerRepresentationFromU256 at hr
    repeat' split at hr
    all_goals first | exact (Except.ok.inj hr).symm | (cases hr; done)
  subst this
  exact hw

/-- C91: for every history of versions, machine and code, however long it runs: as long as the machine of an earlier
version fetches words its version knows, the machine of any later version does exactly the same. -/
theorem C91_history (earlier later : List (List OpcodeVariant)) (t0 t : List OpcodeVariant)
    (h0 : mergeHistory [] earlier = .ok t0) (h : mergeHistory [] (earlier ++ later) = .ok t)
    (mask : OpcodeVariant → BitVec 64) (hm : MasksOk mask) :
    (∀ (M : Machine 16 State Contract) (page : Contract → Nat → U256), SpellingBlind M → ∀ steps s,
      FetchesBelow t0.length (cycleOfVersion M mask t0 (fetchProduction M page) Production.parse) (fetchProduction M page)
        steps s →
      cycles (cycleOfVersion M mask t (fetchProduction M page) Production.parse) steps s =
        cycles (cycleOfVersion M mask t0 (fetchProduction M page) Production.parse) steps s) ∧
    (∀ (M : Machine 32 State Contract) (page : Contract → Nat → U256), SpellingBlind M → ∀ steps s,
      FetchesBelow t0.length (cycleOfVersion M mask t0 (fetchTesting M page) Testing.parse) (fetchTesting M page) steps s →
      cycles (cycleOfVersion M mask t (fetchTesting M page) Testing.parse) steps s =
        cycles (cycleOfVersion M mask t0 (fetchTesting M page) Testing.parse) steps s) := by
  have hsame : ∀ i, i < t0.length → SameMeaning (meaningIn t i) (meaningIn t0 i) := by
    intro i hi
    obtain ⟨t0', h0', _, hk⟩ := C77_numbers_keep_meaning earlier later t h
    rw [h0] at h0'
    cases h0'
    obtain ⟨o', ho', hs⟩ := hk i t0[i] (List.getElem?_eq_getElem hi)
    unfold meaningIn
    rw [ho', List.getElem?_eq_getElem hi]
    exact hs
  exact ⟨fun M page hM => run_same hM hm parse_number_production hsame,
    fun M page hM => run_same hM hm parse_number_testing hsame⟩

/-- C91: a history in which the spelling of the one variant changes and another variant is added: code made of the word
0x2000, whose number is 0, runs alike before and after, with the masks of the crate. -/
example (n : Nat) (s : BitVec 16 × Nat) :
    cycles (cycleOfVersion counter Bitmask.maskOf
        [⟨.uma .heapRead, .regOrImm .useRegOnly, .regOnly, ⟨false, false⟩⟩, ⟨.nop .mk, .regOnly, .regOnly, ⟨false, false⟩⟩]
        (fetchProduction counter fun _ _ => ⟨0x2000, 0x2000, 0x2000, 0x2000⟩) Production.parse) n s =
      cycles (cycleOfVersion counter Bitmask.maskOf [⟨.uma .heapRead, .regOnly, .regOnly, ⟨false, false⟩⟩]
        (fetchProduction counter fun _ _ => ⟨0x2000, 0x2000, 0x2000, 0x2000⟩) Production.parse) n s :=
  (C91_history [[⟨.uma .heapRead, .regOnly, .regOnly, ⟨false, false⟩⟩]]
    [[⟨.nop .mk, .regOnly, .regOnly, ⟨false, false⟩⟩, ⟨.uma .heapRead, .regOrImm .useRegOnly, .regOnly, ⟨false, false⟩⟩]]
    _ _ (by decide) (by decide) Bitmask.maskOf (fun v _ hi => Bitmask.mask_bit v hi)).1 counter _ counter_blind n s
    (counter_fetches _ _ (by decide) _ _ n s)

private theorem ok_bind {α β : Type} (a : α) (f : α → Res β) : (Except.ok a >>= f) = f a := rfl

private theorem error_bind {α β : Type} (e : Panic) (f : α → Res β) : (Except.error e >>= f) = .error e := rfl

private theorem current_same {w n : Nat} (M : Machine w State Contract) {mask : OpcodeVariant → BitVec 64}
    (hm : MasksOk mask) {t : List OpcodeVariant} (ht : ∀ i, i < 2048 → t[i]? = some (entry i)) (fetch : State → Res (BitVec n))
    {parse : BitVec n → Res (DecodedOpcode w × VariantMonotonicNumber)}
    (hp : ∀ raw, ∃ o, parse raw = .ok (o, ⟨bits raw 0 11⟩) ∧ o.variant = entry (bits raw 0 11)) (s : State) :
    cycleOfVersion M mask t fetch parse s = (do let raw ← fetch s; executeDecoded M s (← parse raw)) := by
  unfold cycleOfVersion
  generalize fetch s = r
  rcases r with e | raw
  · rw [error_bind, error_bind]
  · obtain ⟨o, ho, hv⟩ := hp raw
    have hlt : bits raw 0 11 < 2048 := Nat.mod_lt _ (by decide)
    have hmv : meaningIn t (bits raw 0 11) = o.variant := by
      unfold meaningIn; rw [ht _ hlt, hv, Option.getD_some]
    rw [ok_bind, ok_bind, ho, ok_bind, ok_bind, executeDecoded_eq M s hm hlt hv]
    refine congrArg Except.ok ?_
    show M.execute s { o with variant := meaningIn t (bits raw 0 11) }
      (priceOf (meaningIn t (bits raw 0 11)).opcode) (mask (meaningIn t (bits raw 0 11))) = _
    rw [hmv]

/-- C91: the crate's own fetch, decoder, prices and masks are the machine of the version whose table it publishes. -/
theorem C91_current (mask : OpcodeVariant → BitVec 64) (hm : MasksOk mask) :
    ∃ t, OPCODES_TABLE = .ok t ∧
      (∀ (M : Machine 16 State Contract) page s,
        cycleOfVersion M mask t (fetchProduction M page) Production.parse s = cycleProduction M page s) ∧
      (∀ (M : Machine 32 State Contract) page s,
        cycleOfVersion M mask t (fetchTesting M page) Testing.parse s = cycleTesting M page s) := by
  obtain ⟨t, h1, ht⟩ : ∃ t, OPCODES_TABLE = .ok t ∧ ∀ i, i < 2048 → t[i]? = some (entry i) :=
    ⟨fullTable, OPCODES_TABLE_eq, fun _ hi => fullTable_get hi⟩
  refine ⟨t, h1, fun M page s => ?_, fun M page s => ?_⟩
  · refine current_same M hm ht _ (fun raw => ?_) s
    obtain ⟨o, h, hv, _⟩ := prod_parse raw
    exact ⟨o, by rw [h]; simp [bits], by rw [hv]; simp [bits]⟩
  · refine current_same M hm ht _ (fun raw => ?_) s
    obtain ⟨o, h, hv, _⟩ := test_parse raw
    exact ⟨o, by rw [h]; simp [bits], by rw [hv]; simp [bits]⟩

/-- C91: for this machine. -/
example : ∃ t, OPCODES_TABLE = .ok t ∧ ∀ page s,
    cycleOfVersion counter Bitmask.maskOf t (fetchProduction counter page) Production.parse s = cycleProduction counter page s := by
  obtain ⟨t, ht, h, _⟩ := C91_current (State := BitVec 16 × Nat) (Contract := Unit) Bitmask.maskOf
    (fun v _ hi => Bitmask.mask_bit v hi)
  exact ⟨t, ht, h counter⟩

/-- C91: in particular, code whose words a version 0 machine knows runs on the crate's decoder, prices and masks exactly as
on a version 0 machine. -/
theorem C91_version_0 (t0 : List OpcodeVariant) (h0 : synthesizeOpcodeDecodingTables 11 ⟨0⟩ = .ok t0)
    (mask : OpcodeVariant → BitVec 64) (hm : MasksOk mask) :
    (∀ (M : Machine 16 State Contract) (page : Contract → Nat → U256), SpellingBlind M → ∀ steps s,
      FetchesBelow 1085 (cycleOfVersion M mask t0 (fetchProduction M page) Production.parse) (fetchProduction M page)
        steps s →
      cycles (cycleProduction M page) steps s =
        cycles (cycleOfVersion M mask t0 (fetchProduction M page) Production.parse) steps s) ∧
    (∀ (M : Machine 32 State Contract) (page : Contract → Nat → U256), SpellingBlind M → ∀ steps s,
      FetchesBelow 1085 (cycleOfVersion M mask t0 (fetchTesting M page) Testing.parse) (fetchTesting M page) steps s →
      cycles (cycleTesting M page) steps s =
        cycles (cycleOfVersion M mask t0 (fetchTesting M page) Testing.parse) steps s) := by
  obtain ⟨t, ht, hP, hT⟩ := C91_current (State := State) (Contract := Contract) mask hm
  obtain ⟨t0', t1, h0', h1, _, _, hk, _⟩ := C17_v0_vs_v1
  rw [h0] at h0'
  cases h0'
  rw [ht] at h1
  cases h1
  have hsame : ∀ i, i < 1085 → SameMeaning (meaningIn t i) (meaningIn t0 i) := by
    intro i hi
    obtain ⟨a, b, ha, hb, ⟨e1, e2, e3, e4⟩, _⟩ := hk i hi
    unfold meaningIn
    rw [ha, hb]
    exact ⟨e1.symm, e2.symm, e3.symm, e4.symm⟩
  constructor
  · intro M page hM steps s hf
    rw [← run_same hM hm parse_number_production hsame steps s hf, funext (hP M page)]
  · intro M page hM steps s hf
    rw [← run_same hM hm parse_number_testing hsame steps s hf, funext (hT M page)]

/-- C91: code made of the word 1051, a version 0 instruction, for any number of cycles. -/
example : ∃ t0, synthesizeOpcodeDecodingTables 11 ⟨0⟩ = .ok t0 ∧ ∀ n s,
    cycles (cycleProduction counter fun _ _ => ⟨1051, 1051, 1051, 1051⟩) n s =
      cycles (cycleOfVersion counter Bitmask.maskOf t0 (fetchProduction counter fun _ _ => ⟨1051, 1051, 1051, 1051⟩)
        Production.parse) n s := by
  obtain ⟨t0, _, h0, _⟩ := C17_v0_vs_v1
  exact ⟨t0, h0, fun n s => (C91_version_0 t0 h0 Bitmask.maskOf (fun v _ hi => Bitmask.mask_bit v hi)).1 counter _
    counter_blind n s (counter_fetches _ _ (by decide) _ _ n s)⟩

private theorem step_ok {w n : Nat} (M : Machine w State Contract) (mask : OpcodeVariant → BitVec 64) {t : List OpcodeVariant}
    {fetch : State → Res (BitVec n)} {parse : BitVec n → Res (DecodedOpcode w × VariantMonotonicNumber)} {s : State}
    {raw o k v} (hf : fetch s = .ok raw) (hp : parse raw = .ok (o, ⟨k⟩)) (hv : t[k]? = some v) :
    cycles (cycleOfVersion M mask t fetch parse) 1 s =
      .ok (M.execute s { o with variant := v } (priceOf v.opcode) (mask v)) := by
  have hmv : meaningIn t (VariantMonotonicNumber.intoUsize ⟨k⟩) = v := by
    unfold meaningIn VariantMonotonicNumber.intoUsize; rw [hv, Option.getD_some]
  unfold cycles cycleOfVersion
  rw [hf, ok_bind, hp, ok_bind]
  show Except.ok _ = Except.ok _
  refine congrArg Except.ok ?_
  show M.execute s { o with variant := meaningIn t (VariantMonotonicNumber.intoUsize ⟨k⟩) }
    (priceOf (meaningIn t (VariantMonotonicNumber.intoUsize ⟨k⟩)).opcode)
    (mask (meaningIn t (VariantMonotonicNumber.intoUsize ⟨k⟩))) = _
  rw [hmv]

/-- A machine that stays at position 0 and remembers the instruction it saw there last -/
private def reader : Machine 16 Opcode Unit := ⟨fun _ => (), fun _ => 0, fun _ o _ _ => o.variant.opcode⟩

/-- C91, why the words must be known to the earlier version: there are a machine and code, of the one word 1085, on which
the two versions differ in the first cycle already. -/
theorem C91_new_words (t0 : List OpcodeVariant) (h0 : synthesizeOpcodeDecodingTables 11 ⟨0⟩ = .ok t0)
    (mask : OpcodeVariant → BitVec 64) (hm : MasksOk mask) :
    ∃ (M : Machine 16 Opcode Unit) (page : Unit → Nat → U256), SpellingBlind M ∧
      ∀ s, ∃ o, cycles (cycleProduction M page) 1 s = .ok o ∧ o ≠ .invalid .mk ∧
        cycles (cycleOfVersion M mask t0 (fetchProduction M page) Production.parse) 1 s = .ok (.invalid .mk) := by
  obtain ⟨t, ht, hP, _⟩ := C91_current (State := Opcode) (Contract := Unit) mask hm
  obtain ⟨t0', t1, h0', h1, _, _, _, hi⟩ := C17_v0_vs_v1
  rw [h0] at h0'
  cases h0'
  have hg : t[1085]? = some (entry 1085) := by
    have e := OPCODES_TABLE_eq
    rw [ht] at e
    rw [Except.ok.inj e]
    exact fullTable_get (by decide)
  obtain ⟨o, ho⟩ := parse_number_production 1085#64
  have hne : (entry 1085).opcode ≠ .invalid .mk := by decide +kernel
  have hinv := hi 1085 (by decide) (by decide)
  have hfetch : ∀ s, fetchProduction reader (fun _ _ => ⟨0, 0, 0, 1085⟩) s = .ok 1085#64 := fun _ =>
    if_pos (by decide : (Production.splitPc 0).2 = 0#16)
  generalize entry 1085 = v at hg hne
  refine ⟨reader, fun _ _ => ⟨0, 0, 0, 1085⟩, fun _ _ _ _ _ h => h.1, fun s => ⟨v.opcode, ?_, hne, ?_⟩⟩
  · rw [← funext (hP _ _)]
    exact step_ok reader mask (hfetch s) ho hg
  · exact step_ok reader mask (hfetch s) ho hinv

/-- C91: with the masks of the crate. -/
example : ∃ t0, synthesizeOpcodeDecodingTables 11 ⟨0⟩ = .ok t0 ∧
    ∃ (M : Machine 16 Opcode Unit) (page : Unit → Nat → U256), ∀ s,
      cycles (cycleProduction M page) 1 s ≠
        cycles (cycleOfVersion M Bitmask.maskOf t0 (fetchProduction M page) Production.parse) 1 s := by
  obtain ⟨t0, _, h0, _⟩ := C17_v0_vs_v1
  obtain ⟨M, page, _, h⟩ := C91_new_words t0 h0 Bitmask.maskOf (fun v _ hi => Bitmask.mask_bit v hi)
  refine ⟨t0, h0, M, page, fun s he => ?_⟩
  obtain ⟨o, h1, h2, h3⟩ := h s
  rw [h1, h3] at he
  exact h2 (Except.ok.inj he)

end ZkEvm.Props
