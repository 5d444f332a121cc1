import Verif.Lemmas.Stack
import Verif.Props.Prices
import Verif.Lemmas.Frames
/-!
# The stack of a frame: C109

`Verif/Spec/Stack.lean` has two descriptions of how instructions use the stack of a frame: a machine with a stack pointer
and a page of cells, which finds its operands by looking at property masks, and lists of words, which instructions change
as the names of their addressing modes say.
-/
namespace ZkEvm.Props
open Spec Spec.Frames Spec.Stack Tables StackLemmas PriceLemmas FrameLemmas

/-- C109: for every word, and whatever is executed for it, the property mask leads to the operands that the addressing modes
of the instruction name, and the destination is one that can be written. -/
theorem C109_places (m : Mode) (word : BitVec m.bits) :
    ∃ base, sourceBase = .ok base ∧ (∃ o n mask, decode m word = .ok (o, n) ∧ Executed m word o mask) ∧
    ∀ o mask, Executed m word o mask → ∀ sp offset : BitVec (pcBits m),
      sourcePlace mask base sp offset = some (namedSource o.variant.src0OperandType sp offset) ∧
      destPlace mask (base + OPCODE_INPUT_VARIANT_FLAGS) sp offset = namedDest o.variant.dst0OperandType sp offset ∧
      namedDest o.variant.dst0OperandType sp offset ≠ none := by
  refine ⟨28, base_eq, ?_, fun o mask h sp offset => ⟨source_named h sp offset, (dest_named h sp offset).1, fun hn => ?_⟩⟩
  · obtain ⟨o, mask, n, hd, he, -⟩ := executed_exists m word
    exact ⟨o, n, mask, hd, he⟩
  · have := (dest_named h sp offset).2
    rw [hn] at this
    cases this

/-- C109: an instruction that is replaced by a nop or a panic does not touch the stack, whatever it was. -/
theorem C109_replaced (m : Mode) (o : DecodedOpcode (pcBits m)) (s t : Page (pcBits m)) (a : Access m)
    (ha : a.executed = o.maskIntoNop ∨ a.executed = o.maskIntoPanic) (h : Step m s a t) : t = s ∧ a.read = none := by
  cases h with
  | @mk mask base src sp dst sp' he hb h1 h2 h3 =>
    obtain rfl := Except.ok.inj (hb.symm.trans base_eq)
    rw [source_named he] at h1
    rw [show 28 + OPCODE_INPUT_VARIANT_FLAGS = 34 from rfl, (dest_named he _ _).1] at h2
    rcases ha with ha | ha
    all_goals
      rw [ha] at h1 h2
      cases h1
      cases h2
      exact ⟨rfl, h3⟩

-- the word `add r0, r0, stack+=[1]`, replaced by a nop: whatever the stack, it stays
example (s : Page 16) : ∃ (o : DecodedOpcode 16) (a : Access .production) (n : VariantMonotonicNumber),
    a.word = 0x000100000000001b#64 ∧ decode .production a.word = .ok (o, n) ∧
    o.variant.dst0OperandType = .full .useStackWithPushPop ∧ a.executed = o.maskIntoNop ∧ Step .production s a s := by
  obtain ⟨o, mask, n, hd, -, hv⟩ := executed_exists .production pushWord
  have hw : WellFormed ⟨.nop .mk, .full .useRegOnly, .full .useRegOnly, Flags.none⟩ = true := by decide
  refine ⟨o, ⟨pushWord, o.maskIntoNop, 0, 0, none, none⟩, n, rfl, hd, ?_, rfl,
    step_of (m := .production) (s := s) (a := ⟨pushWord, o.maskIntoNop, 0, 0, none, none⟩) (dst := .register) (sp' := s.sp)
      (.nop (m := .production) hd (Bitmask.spread_eq Bitmask.nop_variant hw)) rfl rfl⟩
  rw [hv, show pushWord.toNat % 2048 = 27 by decide, entry_push]

/-- C109: a frame's stack is a stack. From the start of a frame on, as long as operands lie in the stack and there are never
more words on it than there are addresses, whatever is read and written is what is read and written of a list, and in the end
there are as many words on it as were pushed and not popped. -/
theorem C109_stack (m : Mode) (cells : BitVec (pcBits m) → U256) (accesses : List (Access m)) (t : Page (pcBits m)) (d : Nat)
    (h : Run m (fresh m cells) accesses t) (hd : depth (2 ^ pcBits m) 0 accesses = some d) :
    ∃ l, ListRun m [] accesses l ∧ l.length = d := by
  obtain ⟨l, h1, -, h2⟩ := run_list h (fresh_holds m cells) hd
  exact ⟨l, h1, h2⟩

-- two words are pushed, one is popped, and the other one is looked at: what was pushed last comes first
example (v v' : U256) (cells : BitVec 16 → U256) : ∃ (a b c d : Access .production) (t : Page 16),
    [a.word, b.word, c.word, d.word] =
      [0x000100000000001b#64, 0x000100000000001b#64, 0x0000000100000021#64, 0x0000000000000031#64] ∧
    a.written = some v ∧ b.written = some v' ∧ c.read = some v' ∧ d.read = some v ∧
    Run .production (fresh .production cells) [a, b, c, d] t ∧ depth (2 ^ 16) 0 [a, b, c, d] = some 1 := by
  obtain ⟨p, q, r, mp, mq, mr, hp, hq, hr, vp, ip, vq, iq, vr, ir⟩ := three_words
  have h1 : Step .production (fresh .production cells) (pushes p v) ⟨1#16, Page.write cells (.stack 0#16) (some v)⟩ :=
    push_step hp vp ip (fresh .production cells) v
  have h2 : Step .production ⟨1#16, Page.write cells (.stack 0#16) (some v)⟩ (pushes p v')
      ⟨2#16, Page.write (Page.write cells (.stack 0#16) (some v)) (.stack 1#16) (some v')⟩ := push_step hp vp ip _ v'
  have h3 := pop_step hr vr ir ⟨2#16, Page.write (Page.write cells (.stack 0#16) (some v)) (.stack 1#16) (some v')⟩
  have h4 := peek_step hq vq iq ⟨1#16, Page.write (Page.write cells (.stack 0#16) (some v)) (.stack 1#16) (some v')⟩
  rw [show (⟨2#16, Page.write (Page.write cells (.stack 0#16) (some v)) (.stack 1#16) (some v')⟩ : Page 16).cells
    (2#16 - 1) = v' by simp [Page.write]] at h3
  dsimp only at h3
  rw [show (2#16 - 1 : BitVec 16) = 1#16 by decide] at h3
  rw [show (⟨1#16, Page.write (Page.write cells (.stack 0#16) (some v)) (.stack 1#16) (some v')⟩ : Page 16).cells
    0 = v by simp [Page.write]] at h4
  refine ⟨pushes p v, pushes p v', pops r v', peeks q v, _, rfl, rfl, rfl, rfl, rfl,
    .step h1 (.step h2 (.step h3 (.step h4 (.none _)))), ?_⟩
  · have h := pushes_depth vp ip v (2 ^ 16) [pushes p v', pops r v', peeks q v] 1 0 (by decide)
    have h' := pushes_depth vp ip v' (2 ^ 16) [pops r v', peeks q v] 1 1 (by decide)
    refine h.trans (h'.trans ?_)
    rw [pop_depth vr ir _ _ _ _ (by decide)]
    exact peek_depth vq iq _ _ _ (by decide)

/-- C109: in testing mode no frame can pay for filling its stack by pushing word after word. -/
theorem C109_testing (prices : List Nat) (hp : OPCODES_PRICES = .ok prices) (accesses : List (Access .testing)) (e e' : Nat)
    (he : e ≤ VM_INITIAL_FRAME_ERGS) (hx : Executes prices e (accesses.map (·.word)) e')
    (h1 : ∀ a ∈ accesses, a.executed.variant.dst0OperandType = .full .useStackWithPushPop → a.dstOffset = 1)
    (limit d : Nat) (hd : depth limit 0 accesses = some d) : depth (2 ^ 32) 0 accesses = some d ∧ d ≤ e / 5 := by
  have hl := (C37_steps .testing prices hp e e' _ hx).1
  rw [List.length_map] at hl
  obtain ⟨h2, h3⟩ := depth_single accesses (fun a ha hp => by rw [h1 a ha hp]; rfl) hd
  have he' : e ≤ 4294967295 := he
  exact ⟨h2 _ (by omega), by omega⟩

-- a push in testing mode, paid for
example (prices : List Nat) (hp : OPCODES_PRICES = .ok prices) : ∃ (a : Access .testing) (n : VariantMonotonicNumber) (e' : Nat),
    a.word = 0x1000000000000001b#128 ∧ decode .testing a.word = .ok (a.executed, n) ∧
    Executes prices VM_INITIAL_FRAME_ERGS ([a].map (·.word)) e' ∧
    a.executed.variant.dst0OperandType = .full .useStackWithPushPop ∧ a.dstOffset = 1 ∧ depth (2 ^ 32) 0 [a] = some 1 := by
  obtain ⟨o, hd, hv, -, -, -, -, -, -, hj⟩ := Coding.test_parse 0x1000000000000001b#128
  have hv : o.variant = _ := hv.trans entry_push
  have hj : o.imm1 = 1#32 := BitVec.eq_of_toNat_eq (hj.trans (by decide))
  refine ⟨⟨0x1000000000000001b#128, o, 0, 0, none, none⟩, _, _, rfl, hd, executes_of_sum hp _ _ ?_, ?_, ?_, ?_⟩
  · show wordPrice 0x1000000000000001b#128 + 0 ≤ _
    decide +kernel
  · show o.variant.dst0OperandType = _
    rw [hv]
  · show 0#32 + o.imm1 = _
    rw [hj]; rfl
  · show (depthTaken o.variant.src0OperandType _ 0).bind (fun d =>
      (depthPut (2 ^ 32) o.variant.dst0OperandType (0#32 + o.imm1).toNat d).bind fun d => some d) = _
    rw [hv, hj]
    rfl

/-- C109: in production they can: 65537 pushes and a look at the bottom, for less than half a percent of the ergs of a
transaction, and the bottom is not what was pushed first. The limit in `C109_stack` is needed. -/
theorem C109_production_overflow (prices : List Nat) (hp : OPCODES_PRICES = .ok prices) (cells : BitVec 16 → U256) :
    ∃ (accesses : List (Access .production)) (t : Page 16) (e' : Nat),
      Executes prices (MAX_TX_ERGS_LIMIT / 200) (accesses.map (·.word)) e' ∧
      (∀ a ∈ accesses, a.executed.variant.dst0OperandType = .full .useStackWithPushPop → a.dstOffset = 1) ∧
      Run .production (fresh .production cells) accesses t ∧
      depth (2 ^ 16 + 1) 0 accesses = some (2 ^ 16 + 1) ∧
      ¬ ∃ l, ListRun .production [] accesses l := by
  obtain ⟨p, q, r, mp, mq, mr, hwp, hwq, -, vp, ip, vq, iq, -⟩ := three_words
  obtain ⟨n, hn⟩ : ∃ n, n = 65536 := ⟨_, rfl⟩
  obtain ⟨one, hne⟩ : ∃ one : U256, U256.zero ≠ one := ⟨⟨1, 0, 0, 0⟩, by decide⟩
  obtain ⟨t, -, ht⟩ := push_run hwp vp ip U256.zero [pushes p one, peeks q one] (fun _ => True) n
    (fresh .production cells) (fun c => by
      have hsp : (fresh .production cells).sp + BitVec.ofNat 16 n = 0#16 := by
        subst hn; show (0#16 : BitVec 16) + _ = _; decide
      rw [hsp]
      exact ⟨_, trivial, .step (push_step hwp vp ip ⟨0#16, c⟩ one)
        (.step (peek_step hwq vq iq ⟨0#16 + 1, Page.write c (.stack 0#16) (some one)⟩) (.none _))⟩)
  refine ⟨_, t, _, executes_of_sum hp _ _ ?_, ?_, ht, ?_, ?_⟩
  · rw [List.map_append, List.map_replicate, List.map_append, List.map_replicate, List.sum_append, List.sum_replicate_nat]
    subst hn
    show 65536 * wordPrice pushWord + (wordPrice pushWord + (wordPrice peekWord + 0)) ≤ _
    decide +kernel
  · intro a ha hd
    rcases List.mem_append.1 ha with ha | ha
    · obtain rfl := List.eq_of_mem_replicate ha
      show 0#16 + p.imm1 = _; rw [ip]; rfl
    · rcases List.mem_cons.1 ha with rfl | ha
      · show 0#16 + p.imm1 = _; rw [ip]; rfl
      · obtain rfl := List.mem_singleton.1 ha
        have hd' : q.variant.dst0OperandType = _ := hd
        rw [vq] at hd'; cases hd'
  · rw [pushes_depth vp ip _ _ _ n 0 (by omega)]
    have := pushes_depth vp ip one (2 ^ 16 + 1) [peeks q one] 1 (0 + n) (by omega)
    refine this.trans ?_
    rw [peek_depth vq iq _ _ _ (by omega), hn]
  · rintro ⟨l, hl⟩
    have h1 := peek_list vq iq _ (push_list vp ip _ (pushes_list vp ip _ n hl))
    obtain ⟨k, rfl⟩ : ∃ k, n = k + 1 := ⟨65535, hn⟩
    rw [List.replicate_succ] at h1
    exact hne (Option.some.inj h1)

end ZkEvm.Props
