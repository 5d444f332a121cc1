import Verif.Lemmas.Frames
import Verif.Props.Prices
import Verif.Props.System
import Verif.Props.Published
import Verif.Props.Sha256
/-! C104 and C105: what prices, masks and parameters guarantee of machines with call frames, for all histories. -/
namespace ZkEvm.Props
open Spec Spec.Frames FrameLemmas PriceLemmas Tables

/-! ## C104 -/

/-! ### A history

The bootloader makes a static call with 50000 ergs to a contract of a user, which makes a near call with 1000 ergs that returns
and then tries to write storage, which is replaced by a panic. Then the bootloader sends a message to L1. -/

private def boot (e : Nat) : CallFrame := ⟨e, 0x8001, 0x8001, 0, false, false, 1024, 1024⟩
private def user (e : Nat) : CallFrame := ⟨e, 0x20000, 0x20000, 0x8001, true, false, 1024, 1024⟩
private def farAbi : U256 := ⟨0, 0, 0, 50000⟩
private def nearAbi : U256 := ⟨1000, 0, 0, 0⟩
private def c₁ : Cycle .production := ⟨1059#64, entry 1059, true, 0, [], some (farAbi, 0x20000)⟩
private def c₂ : Cycle .production := ⟨1039#64, entry 1039, true, 0, [], some (nearAbi, 0x20000)⟩
private def c₃ : Cycle .production := ⟨1069#64, entry 1069, true, 0, [], none⟩
private def c₅ : Cycle .production := ⟨1053#64, entry 1053, true, 0, [], none⟩

private theorem issue (f : CallFrame) (w : BitVec 64) (n p : Nat) (op : Opcode) (hn : w.toNat % 2048 = n)
    (ho : (entry n).opcode = op) (hp : priceOf op = p) (ha : p ≤ f.ergs ∧ isInvalid op = false ∧
      (kernelOnly op = true → f.kernel = true) ∧ (f.isStatic = true → changesState op = false)) :
    Issues .production f w p (entry n) := by
  subst hn; subst ho; subst hp
  exact (issues_of .production f w).1 ha

private theorem s₁ : Step .production [boot 80000000] c₁ [user 50000, boot 79949818] := by
  have h := Step.farCall (m := .production) (f := boot 80000000) (f' := boot 79999818) (rest := []) (w := 1059#64)
    (p := 182) (bytes := 0) (v := entry 1059) (k := .normal) (loaded := []) farAbi 0x20000 0 50000
    (issue _ _ 1059 182 (.farCall .normal) rfl (by decide +kernel) rfl (by decide)) (by decide +kernel) (by decide) (by decide)
    (by decide) ⟨1024, 1024, 0, by decide, by decide, by decide, by decide, by decide⟩ (by unfold FarPassed; decide)
  have e : farCallee (boot 80000000) (entry 1059) .normal 0x20000 0 50000 = user 50000 := by decide +kernel
  rw [e] at h
  exact h

private theorem s₂ (rest : List CallFrame) : Step .production (user 50000 :: rest) c₂
    ({ user 1000 with isLocal := true } :: user 48975 :: rest) :=
  Step.nearCall (m := .production) (f := user 50000) (rest := rest) (w := 1039#64) (p := 25) (v := entry 1039) nearAbi
    (issue _ _ 1039 25 (.nearCall .mk) rfl (by decide +kernel) rfl (by decide)) (by decide +kernel) (by decide)

private theorem s₃ (rest : List CallFrame) : Step .production ({ user 1000 with isLocal := true } :: user 48975 :: rest) c₃
    (user 49970 :: rest) :=
  Step.ret (m := .production) (f := { user 1000 with isLocal := true }) (f' := { user 995 with isLocal := true })
    (rest := user 48975 :: rest) (w := 1069#64) (p := 5) (bytes := 0) (v := entry 1069) (r := .ok)
    (issue _ _ 1069 5 (.ret .ok) rfl (by decide +kernel) rfl (by decide)) (by decide +kernel) (by decide) (by decide)
    ⟨1024, 1024, 0, by decide, by decide, by decide, by decide, by decide⟩

private theorem s₄ (g : CallFrame) (rest : List CallFrame) : ∃ v, v.opcode = .ret .panic ∧
    Step .production (user 49970 :: g :: rest) ⟨1051#64, v, true, 0, [], none⟩ (g :: rest) := by
  have ho : (entry ((1051#64 : BitVec 64).toNat % 2048)).opcode = .log .storageWrite := by decide +kernel
  have h := (issues_of .production (user 49970) 1051#64).2 (by
    rw [ho]
    exact fun h => absurd (h.2.2.2 rfl) (by decide))
  rw [ho] at h
  obtain ⟨v, hv, hi⟩ := h
  exact ⟨v, hv, Step.panic (m := .production) (f := user 49970) (rest := g :: rest) hi hv⟩

private theorem s₅ : Step .production [boot 79949818] c₅ [boot 79793568] :=
  Step.proceed (m := .production) (f := boot 79949818) (rest := []) (w := 1053#64) (p := 156250) (bytes := 0)
    (v := entry 1053) (issue _ _ 1053 156250 (.log .toL1Message) rfl (by decide +kernel) (by decide) (by decide))
    (by rw [show (entry 1053).opcode = .log .toL1Message by decide +kernel]; nofun)
    (by rw [show (entry 1053).opcode = .log .toL1Message by decide +kernel]; nofun)
    (by rw [show (entry 1053).opcode = .log .toL1Message by decide +kernel]; nofun) (by decide)
    ⟨1024, 1024, 0, by decide, by decide, by decide, by decide, by decide⟩

/-- The static call, above any frames -/
private theorem body (g : CallFrame) (rest : List CallFrame) : ∃ v, v.opcode = .ret .panic ∧
    During .production (g :: rest).length (user 50000 :: g :: rest)
      [c₂, c₃, ⟨1051#64, v, true, 0, [], none⟩] (g :: rest) := by
  obtain ⟨v, hv, h4⟩ := s₄ g rest
  exact ⟨v, hv, .step (Nat.lt_succ_self _) (s₂ _) (.step (by simp) (s₃ _) (.step (Nat.lt_succ_self _) h4 (.none _)))⟩

private theorem whole : ∃ v, v.opcode = .ret .panic ∧
    During .production 0 [boot 80000000] [c₁, c₂, c₃, ⟨1051#64, v, true, 0, [], none⟩, c₅] [boot 79793568] := by
  obtain ⟨v, hv, h4⟩ := s₄ (boot 79949818) []
  exact ⟨v, hv, .step (by decide) s₁ (.step (Nat.zero_lt_succ _) (s₂ _) (.step (Nat.zero_lt_succ _) (s₃ _)
    (.step (Nat.zero_lt_succ _) h4 (.step (by decide) s₅ (.none _)))))⟩

/-- C104: whatever happens in a call, at any depth below it, its ergs pay for it: the words executed are paid by the ergs the
frame was given, what is left of these also covers the memory bought and the code loaded, and the frames below lose nothing. -/
theorem C104_call (m : Mode) (prices : List Nat) (hp : OPCODES_PRICES = .ok prices) (f : CallFrame) (rest s : List CallFrame)
    (cs : List (Cycle m)) (h : During m rest.length (f :: rest) cs s) :
    ∃ left, Executes prices f.ergs (executed cs) left ∧
      totalErgs s + grown cs * MEMORY_GROWTH_ERGS_PER_BYTE +
        ((loaded cs).map List.length).sum * ERGS_PER_CODE_WORD_DECOMMITTMENT ≤ totalErgs rest + left ∧
      totalErgs rest ≤ totalErgs s := by
  have h1 := (during_cost h).1
  obtain ⟨t, _, ha⟩ := during_local h
  have h2 := above_ergs ha
  rw [FrameLemmas.total_cons] at h1
  exact ⟨_, executes_of_sum hp _ f.ergs (by omega), by omega, h2⟩

-- The static call of the history, on top of the bootloader: its three words cost 3531 of its 50000 ergs.
example : ∃ prices cs left, OPCODES_PRICES = .ok prices ∧
    During .production 1 [user 50000, boot 79949818] cs [boot 79949818] ∧ executed cs = [1039#64, 1069#64, 1051#64] ∧
    Executes prices 50000 (executed cs) left ∧ left = 46469 := by
  obtain ⟨v, hv, h⟩ := body (boot 79949818) []
  obtain ⟨left, h1, h2, _⟩ := C104_call .production _ prices_eq _ _ _ _ h
  have h3 := executes_sum prices_eq h1
  rw [show ((executed (m := .production) [c₂, c₃, ⟨1051#64, v, true, 0, [], none⟩]).map wordPrice).sum = 3531 from by
    show wordPrice 1039#64 + (wordPrice 1069#64 + (wordPrice 1051#64 + 0)) = 3531
    decide +kernel] at h3
  exact ⟨_, _, left, prices_eq, h, rfl, h1, by have : (user 50000).ergs = 50000 := rfl; omega⟩

/-- C104: a call that has ended gives its caller back what the caller kept, and at most the ergs it was given besides; the
frames further below are as they were, and so is the caller, but for its heaps if the call was a near call. -/
theorem C104_returns (m : Mode) (f g : CallFrame) (rest s : List CallFrame) (cs : List (Cycle m))
    (h : During m (g :: rest).length (f :: g :: rest) cs s) (hs : s.length = (g :: rest).length) :
    ∃ g', s = g' :: rest ∧ g.ergs ≤ g'.ergs ∧ g'.ergs ≤ g.ergs + f.ergs ∧
      g' = { g with ergs := g'.ergs, heap := g'.heap, auxHeap := g'.auxHeap } ∧
      (f.isLocal = false → g'.heap = g.heap ∧ g'.auxHeap = g.auxHeap) := by
  have h1 := (during_cost h).1
  obtain ⟨t, _, ha⟩ := during_local h
  cases ha with
  | running ht =>
    rw [List.length_append] at hs
    exact absurd (List.length_eq_zero_iff.1 (by omega : t.length = 0)) ht
  | @ended f' back _ hsame =>
    have hsame := hsame.2.2.2.2
    refine ⟨_, rfl, Nat.le_add_right _ _, ?_, rfl, fun hl => ?_⟩
    · unfold resume at h1
      simp only [FrameLemmas.total_cons] at h1
      dsimp only at h1 ⊢
      omega
    · dsimp only
      rw [hsame, hl]
      exact ⟨rfl, rfl⟩

example : ∃ cs s, During .production 1 [user 50000, boot 79949818] cs s ∧ s.length = 1 ∧ (user 50000).isLocal = false := by
  obtain ⟨v, _, h⟩ := body (boot 79949818) []
  exact ⟨_, _, h, rfl, rfl⟩

/-- C104: what a call does to the stack does not depend on the frames below it: the same cycles are possible above any
others, and as long as the call runs they lead to the same frames. -/
theorem C104_local (m : Mode) (f : CallFrame) (rest rest' s : List CallFrame) (cs : List (Cycle m))
    (h : During m rest.length (f :: rest) cs s) : ∃ t s', During m rest'.length (f :: rest') cs s' ∧
      (rest.length < s.length → s = t ++ rest ∧ s' = t ++ rest') := by
  obtain ⟨t, h0, ha⟩ := during_local h
  obtain ⟨s', h1, h2⟩ := during_above rest' h0
  rw [Nat.zero_add] at h1
  refine ⟨t, s', h1, fun hl => ?_⟩
  cases ha with
  | running ht => exact ⟨rfl, h2 ht⟩
  | ended => rw [resume_length] at hl; exact absurd hl (Nat.lt_irrefl _)

example : ∃ cs s', During .production 1 [user 50000, boot 79949818] cs [boot 79949818] ∧
    During .production 2 [user 50000, user 7, boot 8] cs s' := by
  obtain ⟨v, _, h⟩ := body (boot 79949818) []
  obtain ⟨_, s', h', _⟩ := C104_local .production _ _ [user 7, boot 8] _ _ h
  exact ⟨_, s', h, h'⟩

/-- C104: a near call whose ABI word names an amount costs its caller at most that amount and the 25 ergs of the call, whatever
is done in it. -/
theorem C104_near (m : Mode) (f : CallFrame) (rest s t : List CallFrame) (c : Cycle m) (cs : List (Cycle m)) (abi : U256)
    (dest : Nat) (hc : Step m (f :: rest) c s) (hn : c.issued.opcode = .nearCall .mk) (habi : c.call = some (abi, dest))
    (h0 : (NearCallABI.fromU256 abi).ergsPassed ≠ 0) (h : During m (rest.length + 1) s cs t) (ht : t.length = rest.length + 1) :
    ∃ g', t = g' :: rest ∧ f.ergs ≤ g'.ergs + (NearCallABI.fromU256 abi).ergsPassed.toNat + 25 := by
  cases hc with
  | proceed _ h1 _ _ _ _ => exact absurd hn (h1 _)
  | @nearCall f rest w p v abi' hi hv hle =>
    obtain rfl : abi' = abi := (Prod.mk.inj (Option.some.inj habi)).1
    obtain ⟨g', h1, h2, _⟩ := C104_returns m _ _ rest t cs h ht
    refine ⟨g', h1, ?_⟩
    have h7 : p = 25 := by
      rw [(issued_price hi (by rw [hv]; intro h; cases h) (by rw [hv]; intro h; cases h)).1, hv]; rfl
    have h8 : nearPassed abi' (f.ergs - p) ≤ (NearCallABI.fromU256 abi').ergsPassed.toNat := by
      unfold nearPassed
      have : (NearCallABI.fromU256 abi').ergsPassed.toNat ≠ 0 := fun h => h0 (BitVec.eq_of_toNat_eq h)
      dsimp only
      rw [if_neg this]
      exact Nat.min_le_left _ _
    dsimp only at h2
    omega
  | farCall abi dest pretended passed hi hv hle hl hc hs hf => rw [hv] at hn; cases hn
  | ret hi hv _ hle hs => rw [hv] at hn; cases hn
  | panic hi hv => rw [hv] at hn; cases hn
  | pending hv => rw [hv] at hn; cases hn

-- The near call of the history names 1000 ergs, gives back 995 of them.
example : ∃ s, Step .production [user 50000, boot 79949818] c₂ s ∧ c₂.issued.opcode = .nearCall .mk ∧
    (NearCallABI.fromU256 nearAbi).ergsPassed ≠ 0 ∧ During .production 2 s [c₃] [user 49970, boot 79949818] :=
  ⟨_, s₂ _, by decide +kernel, by decide, .step (by decide) (s₃ _) (.none _)⟩

/-- C104: a far call spends at most the amount its ABI word names, and the additive cost of the message-value simulator if that
is what is called. -/
theorem C104_far (m : Mode) (prices : List Nat) (hp : OPCODES_PRICES = .ok prices) (f : CallFrame) (rest s t : List CallFrame)
    (c : Cycle m) (cs : List (Cycle m)) (k : FarCallOpcode) (abi : U256) (dest : Nat) (hc : Step m (f :: rest) c s)
    (hn : c.issued.opcode = .farCall k) (habi : c.call = some (abi, dest)) (h : During m (rest.length + 1) s cs t) :
    ∃ left, Executes prices ((FarCallABI.fromU256 abi).ergsPassed.toNat +
      if dest = ADDRESS_MSG_VALUE.toNat then MSG_VALUE_SIMULATOR_ADDITIVE_COST else 0) (executed cs) left := by
  cases hc with
  | proceed _ _ h1 _ _ _ => exact absurd hn (h1 _)
  | nearCall abi' hi hv hle => rw [hv] at hn; cases hn
  | @farCall f f' rest w p bytes v k loaded abi' dest' pretended passed hi hv hle hl hc hs hf =>
    obtain ⟨rfl, rfl⟩ := Prod.mk.inj (Option.some.inj habi)
    obtain ⟨left, h1, _⟩ := C104_call m prices hp _ ({ f' with ergs := f'.ergs - passed } :: rest) t cs h
    have := executes_sum hp h1
    have h2 : passed ≤ _ := hf.2
    refine ⟨_, executes_of_sum hp _ _ (Nat.le_trans ?_ h2)⟩
    exact Nat.le_trans (Nat.le_add_right _ left) (Nat.le_of_eq this)
  | ret hi hv _ hle hs => rw [hv] at hn; cases hn
  | panic hi hv => rw [hv] at hn; cases hn
  | pending hv => rw [hv] at hn; cases hn

example : ∃ s cs, Step .production [boot 80000000] c₁ s ∧ c₁.issued.opcode = .farCall .normal ∧
    During .production 1 s cs [boot 79949818] ∧ cs.length = 3 ∧ (FarCallABI.fromU256 farAbi).ergsPassed.toNat = 50000 := by
  obtain ⟨v, _, h⟩ := body (boot 79949818) []
  exact ⟨_, _, s₁, by decide +kernel, h, rfl, by decide⟩

/-- C104: from any stack of at most 80 frames that hold no more than the initial ergs, the stack never gets deeper than
`VM_MAX_STACK_DEPTH`, and neither timestamps, of cycles that are not paid for too, nor page numbers leave 32 bits. -/
theorem C104_counters (m : Mode) (s₀ s : List CallFrame) (cs : List (Cycle m)) (hl : s₀.length ≤ 80)
    (he : totalErgs s₀ ≤ VM_INITIAL_FRAME_ERGS) (h : During m 0 s₀ cs s) :
    s.length ≤ VM_MAX_STACK_DEPTH ∧ STARTING_TIMESTAMP + TIME_DELTA_PER_CYCLE * cs.length < 2 ^ 32 ∧
    ∀ counter bases, PageHistory counter bases →
      bases.length ≤ cs.countP (fun c => isFarCall (some c.issued.opcode)) → counter < 2 ^ 32 := by
  obtain ⟨h1, h2, h3⟩ := during_cost h
  have e1 : VM_INITIAL_FRAME_ERGS = 4294967295 := rfl
  have e2 : VM_MAX_STACK_DEPTH = 214748444 := by decide
  have e3 : STARTING_TIMESTAMP = 1024 := rfl
  have e4 : TIME_DELTA_PER_CYCLE = 4 := rfl
  refine ⟨by omega, by rw [e3, e4]; omega, fun counter bases hb hlen => ?_⟩
  refine (C64_counters m _ prices_eq _ (executed cs) (executes_of_sum prices_eq _ VM_INITIAL_FRAME_ERGS (by omega))).1
    counter bases hb (Nat.le_trans hlen (Nat.le_trans (far_count h).2 (Nat.le_of_eq ?_)))
  unfold farCalls
  refine congrFun (congrArg List.countP (funext fun w => ?_)) _
  cases opcodeOf m w with
  | none => rfl
  | some o => cases o <;> rfl

/-- The execution above meets the hypotheses of C104_counters (and of C119, which uses it). -/
theorem frames_example : ∃ f cs s, During .production 0 [f] cs s ∧ totalErgs [f] ≤ VM_INITIAL_FRAME_ERGS ∧
    cs.length = 5 := by
  obtain ⟨v, _, h⟩ := whole
  exact ⟨boot 80000000, _, _, h, by decide, rfl⟩

/-- C104: a call with at most the ergs of a transaction sends at most 512 messages to L1, at whatever depth. -/
theorem C104_messages (m : Mode) (f : CallFrame) (rest s : List CallFrame) (cs : List (Cycle m))
    (h : During m rest.length (f :: rest) cs s) (hf : f.ergs ≤ MAX_TX_ERGS_LIMIT) :
    cs.countP (fun c => decide (c.issued.opcode = .log .toL1Message)) ≤ PriceGenerator.LIMIT_FOR_L1_MESSAGES_MERKLIZER := by
  obtain ⟨left, h1, _⟩ := C104_call m _ prices_eq f rest s cs h
  exact Nat.le_trans (issued_count h _ (by intro h; cases h) (by intro h; cases h))
    (C38_l1_messages m _ prices_eq _ _ _ hf h1).1

example : ∃ cs s, During .production 0 [boot 80000000] cs s ∧ (boot 80000000).ergs ≤ MAX_TX_ERGS_LIMIT ∧
    ∃ c ∈ cs, c.issued.opcode = .log .toL1Message := by
  obtain ⟨v, _, h⟩ := whole
  exact ⟨_, _, h, by decide, c₅, by simp, by decide +kernel⟩

/-- C104: in a far call with at most the ergs of a transaction, all offsets within a heap of any frame can be dereferenced. -/
theorem C104_heaps (m : Mode) (f : CallFrame) (rest s : List CallFrame) (cs : List (Cycle m))
    (h : During m rest.length (f :: rest) cs s) (hf : f.ergs ≤ MAX_TX_ERGS_LIMIT)
    (hheap : f.heap ≤ NEW_FRAME_MEMORY_STIPEND) (haux : f.auxHeap ≤ NEW_FRAME_MEMORY_STIPEND) :
    ∀ g ∈ s.take (s.length - rest.length), ∀ offset, offset + 32 ≤ g.heap ∨ offset + 32 ≤ g.auxHeap →
      offset < u256Nat MAX_OFFSET_TO_DEREF ∧ offset + 32 < 2 ^ 32 := by
  obtain ⟨left, h1, h2, h3⟩ := C104_call m _ prices_eq f rest s cs h
  have h4 := executes_sum prices_eq h1
  obtain ⟨t, ht, ha⟩ := during_local h
  have hg := during_heaps ht NEW_FRAME_MEMORY_STIPEND (Nat.le_refl _)
    (fun g hg => by obtain rfl := List.mem_singleton.1 hg; exact ⟨hheap, haux⟩)
  have hgr : grown cs * MEMORY_GROWTH_ERGS_PER_BYTE ≤ MAX_TX_ERGS_LIMIT := by omega
  intro g hmem offset ho
  have hgt : g ∈ t := by
    cases ha with
    | running _ =>
      rw [List.length_append, Nat.add_sub_cancel, List.take_left] at hmem
      exact hmem
    | ended _ _ =>
      rw [resume_length, Nat.sub_self] at hmem
      cases hmem
  have := hg g hgt
  refine C65_heap offset (Nat.le_trans ?_ hgr)
  unfold heapGrowthCost
  exact Nat.mul_le_mul_right _ (by omega)

example : ∃ cs s, During .production 0 [boot 80000000] cs s ∧ (boot 80000000).ergs ≤ MAX_TX_ERGS_LIMIT ∧
    (boot 80000000).heap ≤ NEW_FRAME_MEMORY_STIPEND ∧ (boot 80000000).auxHeap ≤ NEW_FRAME_MEMORY_STIPEND ∧ s ≠ [] := by
  obtain ⟨v, _, h⟩ := whole
  exact ⟨_, _, h, by decide, by decide, by decide, by simp⟩

/-- C104: a call that is given 2300 ergs, or the stipend of the message-value simulator, writes no storage, at whatever depth. -/
theorem C104_stipend (m : Mode) (f : CallFrame) (rest s : List CallFrame) (cs : List (Cycle m))
    (h : During m rest.length (f :: rest) cs s)
    (hf : f.ergs ≤ 2300 ∨ f.ergs ≤ MSG_VALUE_SIMULATOR_ADDITIVE_COST - MSG_VALUE_SIMULATOR_MIN_USED_ERGS) :
    ∀ c ∈ cs, c.issued.opcode ≠ .log .storageWrite := by
  obtain ⟨left, h1, _⟩ := C104_call m _ prices_eq f rest s cs h
  have hw := C40_stipend m _ prices_eq _ _ _ hf h1
  have h0 : (executed cs).countP (fun w => decide (opcodeOf m w = some (.log .storageWrite))) = 0 :=
    List.countP_eq_zero.2 fun w hmem hd => hw w hmem (of_decide_eq_true hd)
  have h2 := issued_count h (.log .storageWrite) (by intro h; cases h) (by intro h; cases h)
  intro c hc he
  have := List.countP_eq_zero.1 (Nat.le_zero.1 (h0 ▸ h2)) c hc
  exact this (decide_eq_true he)

-- With one erg more than the stipend a storage write is issued, in the frame of a contract that is not static.
example : ∃ c s, During .production 0 [⟨3501, 0x20000, 0x20000, 0x8001, false, false, 1024, 1024⟩] [c] s ∧
    c.issued.opcode = .log .storageWrite ∧ 3500 = MSG_VALUE_SIMULATOR_ADDITIVE_COST - MSG_VALUE_SIMULATOR_MIN_USED_ERGS := by
  refine ⟨⟨1051#64, entry 1051, true, 0, [], none⟩, [⟨0, 0x20000, 0x20000, 0x8001, false, false, 1024, 1024⟩],
    .step (by decide) ?_ (.none _), by decide +kernel, rfl⟩
  exact Step.proceed (m := .production) (p := 3501)
    (issue _ _ 1051 3501 (.log .storageWrite) rfl (by decide +kernel) (by decide) (by decide))
    (by rw [show (entry 1051).opcode = .log .storageWrite by decide +kernel]; nofun)
    (by rw [show (entry 1051).opcode = .log .storageWrite by decide +kernel]; nofun)
    (by rw [show (entry 1051).opcode = .log .storageWrite by decide +kernel]; nofun) (by decide)
    ⟨1024, 1024, 0, by decide, by decide, by decide, by decide, by decide⟩
-- With the stipend itself the same word is a panic.
example : ∃ c, During .production 0 [⟨3500, 0x20000, 0x20000, 0x8001, false, false, 1024, 1024⟩] [c] [] ∧
    c.word = 1051#64 ∧ c.paid = false ∧ c.issued.opcode = .ret .panic := by
  have ho : (entry ((1051#64 : BitVec 64).toNat % 2048)).opcode = .log .storageWrite := by decide +kernel
  have h := (issues_of .production ⟨3500, 0x20000, 0x20000, 0x8001, false, false, 1024, 1024⟩ 1051#64).2 (by
    rw [ho]
    exact fun h => absurd h.1 (by decide))
  rw [ho] at h
  obtain ⟨v, hv, hi⟩ := h
  exact ⟨⟨1051#64, v, false, 0, [], none⟩, .step (by decide) (Step.panic (m := .production) hi hv) (.none _), rfl, rfl, hv⟩

/-- C104: the ergs of a call pay for the circuits its instructions fill, at whatever depth, for those that load the code it
calls, and for the memory bought. -/
theorem C104_circuits (m : Mode) (f : CallFrame) (rest s : List CallFrame) (cs : List (Cycle m)) (rounds : Nat)
    (h : During m rest.length (f :: rest) cs s) (hr : Decommits (loaded cs) rounds) :
    (filledCircuits m (executed cs) + rounds / PriceGenerator.CYCLES_PER_CODE_DECOMMITTER) * ERGS_PER_CIRCUIT
      + grown cs * MEMORY_GROWTH_ERGS_PER_BYTE ≤ f.ergs := by
  obtain ⟨left, h1, h2, h3⟩ := C104_call m _ prices_eq f rest s cs h
  have h4 := executes_sum prices_eq h1
  have h5 := C94_loaded_codes m _ prices_eq _ _ _ h1 _ _ hr (far_count h).1
  omega

example : ∃ cs s, During .production 0 [boot 80000000] cs s ∧ Decommits (loaded cs) 0 := by
  obtain ⟨v, _, h⟩ := whole
  exact ⟨_, _, h, .none⟩

/-- C104: the program counter at the end tells whether the first frame has succeeded. -/
theorem C104_exit (r : RetOpcode) : exitPc r = INITIAL_FRAME_SUCCESSFUL_EXIT_PC ↔ r = .ok := by cases r <;> decide

example : exitPc .revert = 0xffff := by decide

/-! ## C105 -/

/-- C105: nothing done in a static call, at whatever depth, changes state that is visible outside. -/
theorem C105_static (m : Mode) (f : CallFrame) (rest s : List CallFrame) (cs : List (Cycle m))
    (h : During m rest.length (f :: rest) cs s) (hf : f.isStatic = true) :
    ∀ c ∈ cs, changesState c.issued.opcode = false := by
  obtain ⟨t, h0, _⟩ := during_local h
  exact during_static hf h0 (Same.refl f)

-- In the static call of the history a storage write is attempted.
example : ∃ cs, During .production 1 [user 50000, boot 79949818] cs [boot 79949818] ∧ (user 50000).isStatic = true ∧
    ∃ c ∈ cs, opcodeOf .production c.word = some (.log .storageWrite) ∧ c.issued.opcode = .ret .panic := by
  obtain ⟨v, hv, h⟩ := body (boot 79949818) []
  exact ⟨_, h, rfl, _, List.mem_cons_of_mem _ (List.mem_cons_of_mem _ List.mem_cons_self),
    (opcodeOf_eq .production (1051#64)).trans (congrArg some (by decide +kernel)), hv⟩

/-- C105: what is called by an instruction with the static flag, or from a static frame, is a static call. -/
theorem C105_static_call (m : Mode) (f : CallFrame) (rest s t : List CallFrame) (c : Cycle m) (cs : List (Cycle m))
    (k : FarCallOpcode) (hc : Step m (f :: rest) c s) (hn : c.issued.opcode = .farCall k)
    (hs : f.isStatic = true ∨ ∃ o n, decode m c.word = .ok (o, n) ∧ flagAt o.variant.flags FAR_CALL_STATIC_FLAG_IDX = true)
    (h : During m (rest.length + 1) s cs t) : ∀ c ∈ cs, changesState c.issued.opcode = false := by
  cases hc with
  | proceed _ _ h1 _ _ _ => exact absurd hn (h1 _)
  | nearCall abi' hi hv hle => rw [hv] at hn; cases hn
  | @farCall f f' rest w p bytes v k loaded abi' dest' pretended passed hi hv hle hl hc hsp hf =>
    refine C105_static m _ ({ f' with ergs := f'.ergs - passed } :: rest) t cs h ?_
    show (f.isStatic || flagAt v.flags FAR_CALL_STATIC_FLAG_IDX) = true
    rcases hs with hs | ⟨o, n, hd, hs⟩
    · rw [hs]; rfl
    · rw [(issued_price hi (by rw [hv]; intro h; cases h) (by rw [hv]; intro h; cases h)).2, ← decode_entry hd, hs,
        Bool.or_true]
  | ret hi hv _ hle hs => rw [hv] at hn; cases hn
  | panic hi hv => rw [hv] at hn; cases hn
  | pending hv => rw [hv] at hn; cases hn

example : Step .production [boot 80000000] c₁ [user 50000, boot 79949818] ∧ c₁.issued.opcode = .farCall .normal ∧
    (boot 80000000).isStatic = false ∧ ∃ o n, decode .production c₁.word = .ok (o, n) ∧
      flagAt o.variant.flags FAR_CALL_STATIC_FLAG_IDX = true := by
  obtain ⟨o, h, hv, _⟩ := Coding.prod_parse 1059#64
  exact ⟨s₁, by decide +kernel, rfl, o, _, h, by rw [hv]; decide +kernel⟩

/-- C105: in every stack that is reached, a frame names the contract that called it as its caller, or it acts for that
contract and names the same caller, or the contract that called it has kernel rights. -/
theorem C105_caller (m : Mode) (f₀ : CallFrame) (s : List CallFrame) (cs : List (Cycle m)) (h : During m 0 [f₀] cs s) (i : Nat)
    (f g : CallFrame) (hf : s[i]? = some f) (hg : s[i + 1]? = some g) :
    f.caller = g.this ∨ (f.this = g.this ∧ f.caller = g.caller) ∨ g.this < ADDRESS_UNRESTRICTED_SPACE.toNat := by
  have hl := linked_get (during_linked h (Same.refl f₀)) hf hg
  rcases hl.2.2 with h | h | h
  · exact .inl h
  · exact .inr (.inl h)
  · exact .inr (.inr (of_decide_eq_true h))

-- While the near call runs: two frames in the name of the contract of the user above
-- the bootloader.
example : During .production 0 [boot 80000000] [c₁, c₂] [{ user 1000 with isLocal := true }, user 48975, boot 79949818] :=
  .step (by decide) s₁ (.step (by decide) (s₂ _) (.none _))

/-- C105: so where no contract with kernel rights has called, every caller that is named is the one of the first frame or a
contract in whose name a frame below runs: callers cannot be forged. -/
theorem C105_unforged (m : Mode) (f₀ : CallFrame) (s : List CallFrame) (cs : List (Cycle m)) (h : During m 0 [f₀] cs s)
    (hk : ∀ g ∈ s.tail, ADDRESS_UNRESTRICTED_SPACE.toNat ≤ g.this) :
    ∀ f ∈ s, f.caller = f₀.caller ∨ ∃ g ∈ s.tail, f.caller = g.this :=
  linked_caller (during_linked h (Same.refl f₀)) fun b hb => decide_eq_false (Nat.not_lt.2 (hk b hb))

example : ∃ c s, During .production 0 [user 50000] [c] s ∧ s.length = 2 ∧
    ∀ g ∈ s.tail, ADDRESS_UNRESTRICTED_SPACE.toNat ≤ g.this :=
  ⟨c₂, [{ user 1000 with isLocal := true }, user 48975], .step (by decide) (s₂ []) (.none _), rfl, by
    intro g hg; obtain rfl := List.mem_singleton.1 hg; decide⟩

/-- C105: an instruction reserved for the kernel is only issued in a frame with kernel rights; and that frame runs the code of
its own contract, or was called by a frame with kernel rights, or is the first. -/
theorem C105_kernel (m : Mode) (f₀ : CallFrame) (s t : List CallFrame) (cs : List (Cycle m)) (c : Cycle m)
    (h : During m 0 [f₀] cs s) (hc : Step m s c t) (hk : kernelOnly c.issued.opcode = true) :
    ∃ f rest, s = f :: rest ∧ f.this < ADDRESS_UNRESTRICTED_SPACE.toNat ∧
      (f.code = f.this ∨ rest = [] ∨ ∃ g rest', rest = g :: rest' ∧ g.this < ADDRESS_UNRESTRICTED_SPACE.toNat) := by
  obtain ⟨f, rest, rfl, hf⟩ := step_kernel hc hk
  have hf' : f.this < ADDRESS_UNRESTRICTED_SPACE.toNat := of_decide_eq_true hf
  refine ⟨f, rest, rfl, hf', ?_⟩
  cases rest with
  | nil => exact .inr (.inl rfl)
  | cons g rest =>
    have hl : Link f g := (during_linked h (Same.refl f₀) : Linked f₀ (f :: g :: rest)).1
    rcases hl.2.1 with h1 | h1
    · exact .inl h1.symm
    · exact .inr (.inr ⟨g, rest, rfl, h1 ▸ hf'⟩)

example : ∃ cs, During .production 0 [boot 80000000] cs [boot 79949818] ∧
    Step .production [boot 79949818] c₅ [boot 79793568] ∧ kernelOnly c₅.issued.opcode = true := by
  obtain ⟨v, _, h4⟩ := s₄ (boot 79949818) []
  exact ⟨_, .step (by decide) s₁ (.step (Nat.zero_lt_succ _) (s₂ _) (.step (Nat.zero_lt_succ _) (s₃ _)
    (.step (Nat.zero_lt_succ _) h4 (.none _)))), s₅, by decide +kernel⟩

end ZkEvm.Props
