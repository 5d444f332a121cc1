import Verif.Spec.Stack
import Verif.Lemmas.Frames
import Verif.Lemmas.Bitmask
/-! Lemmas on operands on the stack. -/
namespace ZkEvm.StackLemmas
open Spec Spec.Frames Spec.Stack Tables Bitmask

theorem base_eq : sourceBase = .ok 28 := by
  have hs := sizes (version := DEFAULT_ISA_VERSION) (by decide)
  unfold sourceBase
  rw [hs.variants, hs.flags]
  rfl

private theorem unify {α : Type} {r : Res α} {a b : α} (h : r = .ok a) (h' : r = .ok b) : a = b :=
  Except.ok.inj (h.symm.trans h')

theorem decode_number {m : Mode} {w : BitVec m.bits} {o : DecodedOpcode (pcBits m)} {n : VariantMonotonicNumber}
    (h : decode m w = .ok (o, n)) : n = ⟨w.toNat % 2048⟩ := by
  cases m with
  | production =>
    obtain ⟨o₂, hd₂, hv, _⟩ := Coding.prod_parse w
    obtain ⟨rfl, rfl⟩ := Prod.mk.inj (unify (h : Production.parse w = _) hd₂)
    rfl
  | testing =>
    obtain ⟨o₂, hd₂, hv, _⟩ := Coding.test_parse w
    obtain ⟨rfl, rfl⟩ := Prod.mk.inj (unify (h : Testing.parse w = _) hd₂)
    rfl

theorem executed_mask {m : Mode} {w : BitVec m.bits} {o : DecodedOpcode (pcBits m)} {mask : BitVec 64}
    (h : Executed m w o mask) : mask = maskOf o.variant ∧ WellFormed o.variant = true := by
  cases h with
  | @decoded _ n masks _ hd hm hmk =>
    have hv := FrameLemmas.decode_entry hd
    have hn := decode_number hd
    have hlt : w.toNat % 2048 < 2048 := Nat.mod_lt _ (by decide)
    obtain rfl := unify hm masks_eq
    subst hn
    have hg : (fullTable.map maskOf)[w.toNat % 2048]? = some (maskOf (entry (w.toNat % 2048))) := by
      rw [List.getElem?_map, fullTable_get hlt]; rfl
    rw [hv]
    exact ⟨Option.some.inj (hmk.symm.trans hg), (mem_fullTable _).1 (List.mem_of_getElem? (fullTable_get hlt))⟩
  | nop hd hm =>
    have hw : WellFormed ⟨.nop .mk, .full .useRegOnly, .full .useRegOnly, Flags.none⟩ = true := by decide
    exact ⟨unify hm (spread_eq nop_variant hw), hw⟩
  | panic hd hm =>
    have hw : WellFormed ⟨.ret .panic, .regOnly, .regOnly, Flags.none⟩ = true := by decide
    exact ⟨unify hm (spread_eq panic_variant hw), hw⟩

theorem source_named {m : Mode} {w : BitVec m.bits} {o : DecodedOpcode (pcBits m)} {mask : BitVec 64}
    (h : Executed m w o mask) {k : Nat} (sp offset : BitVec k) :
    sourcePlace mask 28 sp offset = some (namedSource o.variant.src0OperandType sp offset) := by
  obtain ⟨rfl, -⟩ := executed_mask h
  obtain ⟨-, -, ⟨-, h3⟩, -⟩ := mask_onehot o.variant
  have hb : ∀ i, i < 6 → (maskOf o.variant).getLsbD (28 + i) = decide (i = modeNumber o.variant.src0OperandType) := by
    intro i hi
    have := h3 (28 + i) (by omega) (by omega)
    rw [Bool.eq_iff_iff, this, decide_eq_true_iff]; omega
  have h0 := hb 0 (by decide)
  unfold sourcePlace
  rw [show (maskOf o.variant).getLsbD 28 = _ from h0, hb 1 (by decide), hb 2 (by decide), hb 3 (by decide),
    hb 4 (by decide), hb 5 (by decide)]
  rcases o.variant.src0OperandType with _ | f | f
  · rfl
  · cases f <;> rfl
  · cases f <;> rfl

theorem dest_named {m : Mode} {w : BitVec m.bits} {o : DecodedOpcode (pcBits m)} {mask : BitVec 64}
    (h : Executed m w o mask) {k : Nat} (sp offset : BitVec k) :
    destPlace mask 34 sp offset = namedDest o.variant.dst0OperandType sp offset ∧
    (namedDest o.variant.dst0OperandType sp offset).isSome = true := by
  obtain ⟨rfl, hwf⟩ := executed_mask h
  obtain ⟨-, -, -, -, h3⟩ := mask_onehot o.variant
  have hlt := wf_dst_lt hwf
  have hb : ∀ i, i < 4 → (maskOf o.variant).getLsbD (34 + i) = decide (i = modeNumber o.variant.dst0OperandType) := by
    intro i hi
    have := h3 (34 + i) (by omega) (by omega)
    rw [Bool.eq_iff_iff, this, decide_eq_true_iff]; omega
  have h0 := hb 0 (by decide)
  unfold destPlace
  rw [show (maskOf o.variant).getLsbD 34 = _ from h0, hb 1 (by decide), hb 2 (by decide), hb 3 (by decide)]
  revert hlt
  generalize o.variant.dst0OperandType = d
  intro hlt
  rcases d with _ | f | f
  · exact ⟨rfl, rfl⟩
  · cases f <;> first | exact ⟨rfl, rfl⟩ | exact absurd hlt (by decide)
  · cases f <;> first | exact ⟨rfl, rfl⟩ | exact absurd hlt (by decide)

/-- Every word is executed somehow. -/
theorem executed_exists (m : Mode) (w : BitVec m.bits) : ∃ o mask n, decode m w = .ok (o, n) ∧ Executed m w o mask ∧
    o.variant = entry (w.toNat % 2048) := by
  have hlt : w.toNat % 2048 < 2048 := Nat.mod_lt _ (by decide)
  have hg : (fullTable.map maskOf)[w.toNat % 2048]? = some (maskOf (entry (w.toNat % 2048))) := by
    rw [List.getElem?_map, fullTable_get hlt]; rfl
  cases m with
  | production =>
    obtain ⟨o, hd, hv, _⟩ := Coding.prod_parse w
    exact ⟨o, _, _, hd, .decoded (m := .production) hd masks_eq hg, hv⟩
  | testing =>
    obtain ⟨o, hd, hv, _⟩ := Coding.test_parse w
    exact ⟨o, _, _, hd, .decoded (m := .testing) hd masks_eq hg, hv⟩

/-- A production word executed as it is, with its immediates -/
theorem executed_production (w : BitVec 64) : ∃ o mask, Executed .production w o mask ∧
    o.variant = entry (w.toNat % 2048) ∧ o.imm0.toNat = w.toNat / 2 ^ 32 % 2 ^ 16 ∧ o.imm1.toNat = w.toNat / 2 ^ 48 % 2 ^ 16 := by
  have hlt : w.toNat % 2048 < 2048 := Nat.mod_lt _ (by decide)
  have hg : (fullTable.map maskOf)[w.toNat % 2048]? = some (maskOf (entry (w.toNat % 2048))) := by
    rw [List.getElem?_map, fullTable_get hlt]; rfl
  obtain ⟨o, hd, hv, -, -, -, -, -, hi, hj⟩ := Coding.prod_parse w
  exact ⟨o, _, .decoded (m := .production) hd masks_eq hg, hv, hi, hj⟩

theorem step_of {m : Mode} {s : Page (pcBits m)} {a : Access m} {mask : BitVec 64} {dst sp'}
    (he : Executed m a.word a.executed mask)
    (hdst : namedDest a.executed.variant.dst0OperandType
      (namedSource a.executed.variant.src0OperandType s.sp a.srcOffset).2 a.dstOffset = some (dst, sp'))
    (hr : a.read = Page.read s.cells (namedSource a.executed.variant.src0OperandType s.sp a.srcOffset).1) :
    Step m s a ⟨sp', Page.write s.cells dst a.written⟩ :=
  .mk he base_eq (source_named he _ _) ((dest_named he _ _).1.trans hdst) hr

/-! ### Pages and lists -/

/-- The page holds the list from address 0 on, and the stack pointer is its length. -/
structure Holds {w : Nat} (s : Page w) (l : List U256) : Prop where
  small : l.length ≤ 2 ^ w
  sp : s.sp = BitVec.ofNat w l.length
  cells : ∀ i v, l[i]? = some v → s.cells (BitVec.ofNat w i) = v

theorem sub_ofNat {w : Nat} {d : Nat} {off : BitVec w} (h : off.toNat ≤ d) :
    BitVec.ofNat w d - off = BitVec.ofNat w (d - off.toNat) := by
  apply BitVec.eq_of_toNat_eq
  have := off.isLt
  rw [BitVec.toNat_sub, BitVec.toNat_ofNat, BitVec.toNat_ofNat]
  rw [show 2 ^ w - off.toNat + d % 2 ^ w = (2 ^ w - off.toNat) + d % 2 ^ w from rfl, Nat.add_mod_mod,
    show 2 ^ w - off.toNat + d = (d - off.toNat) + 2 ^ w by omega, Nat.add_mod_right]

theorem add_ofNat {w : Nat} (d : Nat) (off : BitVec w) : BitVec.ofNat w d + off = BitVec.ofNat w (d + off.toNat) := by
  apply BitVec.eq_of_toNat_eq
  rw [BitVec.toNat_add, BitVec.toNat_ofNat, BitVec.toNat_ofNat, Nat.mod_add_mod]

theorem ofNat_inj {w i j : Nat} (hi : i < 2 ^ w) (hj : j < 2 ^ w) (h : BitVec.ofNat w i = BitVec.ofNat w j) : i = j := by
  have := congrArg BitVec.toNat h
  rwa [BitVec.toNat_ofNat, BitVec.toNat_ofNat, Nat.mod_eq_of_lt hi, Nat.mod_eq_of_lt hj] at this

theorem taken {w : Nat} {s : Page w} {l : List U256} (hh : Holds s l) {mode : Operand} {off : BitVec w} {d : Nat}
    (hd : depthTaken mode off.toNat l.length = some d) :
    ∃ l', Takes mode off.toNat l (Page.read s.cells (namedSource mode s.sp off).1) l' ∧
      Holds ⟨(namedSource mode s.sp off).2, s.cells⟩ l' ∧ l'.length = d := by
  obtain ⟨h1, h2, h3⟩ := hh
  have stay : Holds (⟨s.sp, s.cells⟩ : Page w) l := ⟨h1, h2, h3⟩
  have val : ∀ i, i < l.length → some (s.cells (BitVec.ofNat w i)) = l[i]? := by
    intro i hi
    rw [List.getElem?_eq_getElem hi, h3 i _ (List.getElem?_eq_getElem hi)]
  rcases mode with _ | f | f
  · obtain rfl := Option.some.inj hd
    exact ⟨l, ⟨rfl, rfl⟩, stay, rfl⟩
  · cases f <;> (obtain rfl := Option.some.inj hd; exact ⟨l, ⟨rfl, rfl⟩, stay, rfl⟩)
  · cases f with
    | useRegOnly | useImm16Only | useCodePage =>
      obtain rfl := Option.some.inj hd
      exact ⟨l, ⟨rfl, rfl⟩, stay, rfl⟩
    | useStackWithPushPop =>
      unfold depthTaken at hd
      dsimp only at hd
      split at hd
      · rename_i hc
        obtain rfl := Option.some.inj hd
        refine ⟨l.take (l.length - off.toNat), ⟨l.drop (l.length - off.toNat), (List.take_append_drop _ _).symm, ?_, ?_⟩,
          ⟨?_, ?_, ?_⟩, ?_⟩
        · rw [List.length_drop]; omega
        · rw [List.head?_drop, ← val _ (by omega)]
          show some (s.cells (s.sp - off)) = _
          rw [h2, sub_ofNat hc.2]
        · rw [List.length_take]; omega
        · rw [List.length_take, Nat.min_eq_left (by omega)]
          show s.sp - off = _
          rw [h2, sub_ofNat hc.2]
        · intro i v hi
          rw [List.getElem?_take] at hi
          split at hi
          · exact h3 i v hi
          · cases hi
        · rw [List.length_take]; omega
      · cases hd
    | useStackWithOffset =>
      unfold depthTaken at hd
      dsimp only at hd
      split at hd
      · rename_i hc
        obtain rfl := Option.some.inj hd
        refine ⟨l, ⟨rfl, ?_⟩, stay, rfl⟩
        rw [← val _ (by omega)]
        show some (s.cells (s.sp - off)) = _
        rw [h2, sub_ofNat hc.2]
      · cases hd
    | useAbsoluteOnStack =>
      unfold depthTaken at hd
      dsimp only at hd
      split at hd
      · rename_i hc
        obtain rfl := Option.some.inj hd
        refine ⟨l, ⟨rfl, ?_⟩, stay, rfl⟩
        rw [← val _ hc]
        show some (s.cells off) = _
        rw [BitVec.ofNat_toNat, BitVec.setWidth_eq]
      · cases hd

theorem replaced {w : Nat} {s : Page w} {l : List U256} (hh : Holds s l) {i : Nat} (hi : i < l.length) {c : BitVec w}
    (hc : c = BitVec.ofNat w i) (written : Option U256) :
    Holds ⟨s.sp, Page.write s.cells (.stack c) written⟩ (replace l i written) ∧
      (replace l i written).length = l.length := by
  obtain ⟨h1, h2, h3⟩ := hh
  cases written with
  | none => exact ⟨⟨h1, h2, h3⟩, rfl⟩
  | some v =>
    refine ⟨⟨?_, ?_, ?_⟩, List.length_set⟩
    · show (l.set i v).length ≤ _
      rw [List.length_set]; exact h1
    · show s.sp = BitVec.ofNat w (l.set i v).length
      rw [List.length_set]; exact h2
    · intro j u hj
      show (if BitVec.ofNat w j = c then v else s.cells (BitVec.ofNat w j)) = u
      have hj' : (l.set i v)[j]? = some u := hj
      rw [List.getElem?_set] at hj'
      by_cases hij : i = j
      · subst hij
        rw [if_pos hc.symm]
        rw [if_pos rfl, if_pos hi] at hj'
        exact Option.some.inj hj'
      · rw [if_neg hij] at hj'
        have hjl : j < l.length := by
          obtain ⟨h, -⟩ := List.getElem?_eq_some_iff.1 hj'; exact h
        rw [if_neg]
        · exact h3 j u hj'
        · intro he
          exact hij (ofNat_inj (by omega) (by omega) (hc.symm.trans he.symm))

theorem put {w : Nat} {s : Page w} {l : List U256} (hh : Holds s l) {mode : Operand} {off : BitVec w} {d : Nat}
    (hd : depthPut (2 ^ w) mode off.toNat l.length = some d) (written : Option U256) {dst : Place w} {sp : BitVec w}
    (hp : namedDest mode s.sp off = some (dst, sp)) :
    ∃ l', Puts mode off.toNat l written l' ∧ Holds ⟨sp, Page.write s.cells dst written⟩ l' ∧ l'.length = d := by
  have hh' := hh
  obtain ⟨h1, h2, h3⟩ := hh
  have stay : Holds (⟨s.sp, s.cells⟩ : Page w) l := ⟨h1, h2, h3⟩
  rcases mode with _ | f | f
  · obtain rfl := Option.some.inj hd
    cases hp
    exact ⟨l, rfl, stay, rfl⟩
  · cases f with
    | useRegOnly =>
      obtain rfl := Option.some.inj hd
      cases hp
      exact ⟨l, rfl, stay, rfl⟩
    | useImm16Only => cases hp
  · cases f with
    | useRegOnly =>
      obtain rfl := Option.some.inj hd
      cases hp
      exact ⟨l, rfl, stay, rfl⟩
    | useImm16Only | useCodePage => cases hp
    | useStackWithPushPop =>
      unfold depthPut at hd
      dsimp only at hd
      split at hd
      · rename_i hc
        obtain rfl := Option.some.inj hd
        cases hp
        have hlen : (List.range off.toNat).length = off.toNat := List.length_range
        let cells := Page.write s.cells (.stack s.sp) written
        refine ⟨l ++ (List.range off.toNat).map (fun k => cells (BitVec.ofNat w (l.length + k))),
          ⟨_, rfl, ?_, ?_⟩, ⟨?_, ?_, ?_⟩, ?_⟩
        · rw [List.length_map, hlen]
        · intro v hv
          subst hv
          rw [List.head?_map, List.head?_range, if_neg (by omega)]
          show some (if BitVec.ofNat w (l.length + 0) = s.sp then v else _) = some v
          rw [if_pos (by rw [h2]; rfl)]
        · rw [List.length_append, List.length_map, hlen]; exact hc.2
        · rw [List.length_append, List.length_map, hlen]
          show s.sp + off = _
          rw [h2, add_ofNat]
        · intro i v hi
          by_cases hil : i < l.length
          · rw [List.getElem?_append_left hil] at hi
            have hold := h3 i v hi
            cases written with
            | none => exact hold
            | some u =>
              show (if BitVec.ofNat w i = s.sp then u else s.cells (BitVec.ofNat w i)) = v
              rw [if_neg, hold]
              intro he
              rw [h2] at he
              have := ofNat_inj (by omega) (by omega) he
              omega
          · rw [List.getElem?_append_right (by omega), List.getElem?_map] at hi
            obtain ⟨k, hk, rfl⟩ := Option.map_eq_some_iff.1 hi
            obtain ⟨hk1, hk2⟩ := List.getElem?_eq_some_iff.1 hk
            rw [List.getElem_range] at hk2
            rw [show l.length + k = i by omega]
        · rw [List.length_append, List.length_map, hlen]
      · cases hd
    | useStackWithOffset =>
      unfold depthPut at hd
      dsimp only at hd
      split at hd
      · rename_i hc
        obtain rfl := Option.some.inj hd
        cases hp
        obtain ⟨r1, r2⟩ := replaced hh' (i := l.length - off.toNat) (by omega) (c := s.sp - off)
          (by rw [h2, sub_ofNat hc.2]) written
        exact ⟨_, rfl, r1, r2⟩
      · cases hd
    | useAbsoluteOnStack =>
      unfold depthPut at hd
      dsimp only at hd
      split at hd
      · rename_i hc
        obtain rfl := Option.some.inj hd
        cases hp
        obtain ⟨r1, r2⟩ := replaced hh' (i := off.toNat) hc (c := off)
          (by rw [BitVec.ofNat_toNat, BitVec.setWidth_eq]) written
        exact ⟨_, rfl, r1, r2⟩
      · cases hd

theorem run_list {m : Mode} {s t : Page (pcBits m)} {as : List (Access m)} (h : Run m s as t) :
    ∀ {l : List U256} {d : Nat}, Holds s l → depth (2 ^ pcBits m) l.length as = some d →
      ∃ l', ListRun m l as l' ∧ Holds t l' ∧ l'.length = d := by
  induction h with
  | none s => intro l d hh hd; exact ⟨l, .none l, hh, Option.some.inj hd⟩
  | @step s t u a as hs hr ih =>
    intro l d hh hd
    cases hs with
    | @mk mask base src sp dst sp' he hb h1 h2 h3 =>
      obtain rfl := unify hb base_eq
      obtain ⟨d1, hd1, hd⟩ := Option.bind_eq_some_iff.1 hd
      obtain ⟨d2, hd2, hd⟩ := Option.bind_eq_some_iff.1 hd
      rw [source_named he] at h1
      obtain ⟨l1, t1, hh1, hl1⟩ := taken hh hd1
      rw [Option.some.inj h1] at t1 hh1
      rw [show 28 + OPCODE_INPUT_VARIANT_FLAGS = 34 from rfl, (dest_named he _ _).1] at h2
      subst hl1
      obtain ⟨l2, t2, hh2, hl2⟩ := put hh1 hd2 a.written h2
      subst hl2
      obtain ⟨l3, t3, hh3, hl3⟩ := ih hh2 hd
      rw [← h3] at t1
      exact ⟨l3, .step t1 t2 t3, hh3, hl3⟩

theorem fresh_holds (m : Mode) (cells : BitVec (pcBits m) → U256) : Holds (fresh m cells) [] :=
  ⟨Nat.zero_le _, rfl, fun _ _ h => nomatch h⟩

/-! ### Depths -/

theorem depth_single {m : Mode} (as : List (Access m))
    (h : ∀ a ∈ as, a.executed.variant.dst0OperandType = .full .useStackWithPushPop → a.dstOffset.toNat = 1) :
    ∀ {limit d₀ d : Nat}, depth limit d₀ as = some d →
      (∀ limit', d₀ + as.length ≤ limit' → depth limit' d₀ as = some d) ∧ d ≤ d₀ + as.length := by
  induction as with
  | nil =>
    intro limit d₀ d hd
    obtain rfl := Option.some.inj hd
    exact ⟨fun _ _ => rfl, Nat.le_refl _⟩
  | cons a as ih =>
    intro limit d₀ d hd
    obtain ⟨d1, hd1, hd⟩ := Option.bind_eq_some_iff.1 hd
    obtain ⟨d2, hd2, hd⟩ := Option.bind_eq_some_iff.1 hd
    obtain ⟨i1, i2⟩ := ih (fun b hb => h b (List.mem_cons_of_mem _ hb)) hd
    have ha := h a List.mem_cons_self
    have h1 : d1 ≤ d₀ := by
      revert hd1
      unfold depthTaken
      split <;> first | (split <;> intro hd1 <;> first | (cases hd1; omega) | cases hd1) | (intro hd1; cases hd1; omega)
    have h2 : d2 ≤ d1 + 1 ∧ ∀ limit', d1 + 1 ≤ limit' →
        depthPut limit' a.executed.variant.dst0OperandType a.dstOffset.toNat d1 = some d2 := by
      revert hd2 ha
      unfold depthPut
      split
      · intro hd2 ha
        rename_i he
        have h1 := ha he
        rw [h1] at hd2 ⊢
        split at hd2
        · cases hd2
          exact ⟨Nat.le_refl _, fun l hl => by rw [if_pos ⟨Nat.le_refl _, hl⟩]⟩
        · cases hd2
      · intro hd2 _
        split at hd2
        · rename_i hc; cases hd2; exact ⟨Nat.le_succ _, fun _ _ => by rw [if_pos hc]⟩
        · cases hd2
      · intro hd2 _
        split at hd2
        · rename_i hc; cases hd2; exact ⟨Nat.le_succ _, fun _ _ => by rw [if_pos hc]⟩
        · cases hd2
      · intro hd2 _
        cases hd2; exact ⟨Nat.le_succ _, fun _ _ => rfl⟩
    refine ⟨fun limit' hl => ?_, ?_⟩
    · rw [List.length_cons] at hl
      exact Option.bind_eq_some_iff.2 ⟨d1, hd1, Option.bind_eq_some_iff.2 ⟨d2, h2.2 _ (by omega), i1 _ (by omega)⟩⟩
    · rw [List.length_cons]; omega

/-! ### A stack that overflows -/

/-- `add r0, r0, stack+=[1]` -/
def pushWord : BitVec 64 := 0x000100000000001b
/-- `add stack[0], r0, r0` -/
def peekWord : BitVec 64 := 0x0000000000000031
/-- `add stack-=[1], r0, r0` -/
def popWord : BitVec 64 := 0x0000000100000021

theorem entry_push : entry 27 = ⟨.add .add, .full .useRegOnly, .full .useStackWithPushPop, ⟨false, false⟩⟩ := by decide +kernel
theorem entry_peek : entry 49 = ⟨.add .add, .full .useAbsoluteOnStack, .full .useRegOnly, ⟨false, false⟩⟩ := by decide +kernel
theorem entry_pop : entry 33 = ⟨.add .add, .full .useStackWithPushPop, .full .useRegOnly, ⟨false, false⟩⟩ := by decide +kernel

/-- The instructions of the three words -/
theorem three_words : ∃ p q r : DecodedOpcode 16, ∃ mp mq mr,
    Executed .production pushWord p mp ∧ Executed .production peekWord q mq ∧ Executed .production popWord r mr ∧
    p.variant = ⟨.add .add, .full .useRegOnly, .full .useStackWithPushPop, ⟨false, false⟩⟩ ∧ p.imm1 = 1#16 ∧
    q.variant = ⟨.add .add, .full .useAbsoluteOnStack, .full .useRegOnly, ⟨false, false⟩⟩ ∧ q.imm0 = 0#16 ∧
    r.variant = ⟨.add .add, .full .useStackWithPushPop, .full .useRegOnly, ⟨false, false⟩⟩ ∧ r.imm0 = 1#16 := by
  obtain ⟨p, mp, hp, vp, -, ip⟩ := executed_production pushWord
  obtain ⟨q, mq, hq, vq, iq, -⟩ := executed_production peekWord
  obtain ⟨r, mr, hr, vr, ir, -⟩ := executed_production popWord
  exact ⟨p, q, r, mp, mq, mr, hp, hq, hr,
    vp.trans ((congrArg entry (by decide : pushWord.toNat % 2048 = 27)).trans entry_push),
    BitVec.eq_of_toNat_eq (ip.trans (by decide)),
    vq.trans ((congrArg entry (by decide : peekWord.toNat % 2048 = 49)).trans entry_peek),
    BitVec.eq_of_toNat_eq (iq.trans (by decide)),
    vr.trans ((congrArg entry (by decide : popWord.toNat % 2048 = 33)).trans entry_pop),
    BitVec.eq_of_toNat_eq (ir.trans (by decide))⟩

/-- The cycle that pushes `v` -/
def pushes (p : DecodedOpcode 16) (v : U256) : Access .production := ⟨pushWord, p, 0, 0, none, some v⟩
/-- The cycle that reads `v` from the bottom -/
def peeks (q : DecodedOpcode 16) (v : U256) : Access .production := ⟨peekWord, q, 0, 0, some v, none⟩
/-- The cycle that pops `v` -/
def pops (r : DecodedOpcode 16) (v : U256) : Access .production := ⟨popWord, r, 0, 0, some v, none⟩

section
variable {p q r : DecodedOpcode 16} {mp mq mr : BitVec 64}
  (hp : Executed .production pushWord p mp) (hq : Executed .production peekWord q mq)
  (hr : Executed .production popWord r mr)
  (vp : p.variant = ⟨.add .add, .full .useRegOnly, .full .useStackWithPushPop, ⟨false, false⟩⟩) (ip : p.imm1 = 1#16)
  (vq : q.variant = ⟨.add .add, .full .useAbsoluteOnStack, .full .useRegOnly, ⟨false, false⟩⟩) (iq : q.imm0 = 0#16)
  (vr : r.variant = ⟨.add .add, .full .useStackWithPushPop, .full .useRegOnly, ⟨false, false⟩⟩) (ir : r.imm0 = 1#16)

include hp vp ip in
theorem push_step (s : Page 16) (v : U256) :
    Step .production s (pushes p v) ⟨s.sp + 1, Page.write s.cells (.stack s.sp) (some v)⟩ := by
  refine step_of (m := .production) (a := pushes p v) (s := s) hp ?_ ?_
  · show namedDest p.variant.dst0OperandType (namedSource p.variant.src0OperandType s.sp _).2 (0#16 + p.imm1) = _
    rw [vp, ip]; rfl
  · show none = Page.read s.cells (namedSource p.variant.src0OperandType s.sp _).1
    rw [vp]; rfl

include hq vq iq in
theorem peek_step (s : Page 16) : Step .production s (peeks q (s.cells 0)) s := by
  refine step_of (m := .production) (a := peeks q (s.cells 0)) (s := s) (dst := .register) (sp' := s.sp) hq ?_ ?_
  · show namedDest q.variant.dst0OperandType (namedSource q.variant.src0OperandType s.sp _).2 _ = _
    rw [vq]; rfl
  · show some _ = Page.read s.cells (namedSource q.variant.src0OperandType s.sp (0#16 + q.imm0)).1
    rw [vq, iq]; rfl

include hr vr ir in
theorem pop_step (s : Page 16) : Step .production s (pops r (s.cells (s.sp - 1))) ⟨s.sp - 1, s.cells⟩ := by
  refine step_of (m := .production) (a := pops r (s.cells (s.sp - 1))) (s := s) (dst := .register) (sp' := s.sp - 1) hr ?_ ?_
  · show namedDest r.variant.dst0OperandType (namedSource r.variant.src0OperandType s.sp (0#16 + r.imm0)).2 _ = _
    rw [vr, ir]; rfl
  · show some _ = Page.read s.cells (namedSource r.variant.src0OperandType s.sp (0#16 + r.imm0)).1
    rw [vr, ir]; rfl

include hp vp ip in
/-- Pushing `k` times moves the stack pointer by `k`. -/
theorem push_run (v : U256) (rest : List (Access .production)) (P : Page 16 → Prop) :
    ∀ (k : Nat) (s : Page 16), (∀ c, ∃ t, P t ∧ Run .production ⟨s.sp + BitVec.ofNat 16 k, c⟩ rest t) →
      ∃ t, P t ∧ Run .production s (List.replicate k (pushes p v) ++ rest) t := by
  intro k
  induction k with
  | zero =>
    intro s h
    obtain ⟨t, h1, h2⟩ := h s.cells
    rw [show s.sp + BitVec.ofNat 16 0 = s.sp from BitVec.add_zero _] at h2
    exact ⟨t, h1, h2⟩
  | succ k ih =>
    intro s h
    obtain ⟨t, h1, h2⟩ := ih ⟨s.sp + 1, Page.write s.cells (.stack s.sp) (some v)⟩ (fun c => by
      obtain ⟨t, h1, h2⟩ := h c
      refine ⟨t, h1, ?_⟩
      show Run .production ⟨s.sp + 1 + BitVec.ofNat 16 k, c⟩ rest t
      rw [BitVec.add_assoc, show (1 : BitVec 16) + BitVec.ofNat 16 k = BitVec.ofNat 16 (k + 1) by
        rw [Nat.add_comm, BitVec.ofNat_add]; rfl]
      exact h2)
    refine ⟨t, h1, ?_⟩
    rw [List.replicate_succ, List.cons_append]
    exact .step (push_step hp vp ip s v) h2

include vp ip in
theorem push_list (v : U256) {l l' : List U256} {rest : List (Access .production)}
    (h : ListRun .production l (pushes p v :: rest) l') : ListRun .production (l ++ [v]) rest l' := by
  cases h with
  | @step _ l1 l2 _ _ _ h1 h2 h3 =>
    have h1' : Takes p.variant.src0OperandType _ l none l1 := h1
    have h2' : Puts p.variant.dst0OperandType (0#16 + p.imm1).toNat l1 (some v) l2 := h2
    rw [vp] at h1' h2'
    obtain ⟨rfl, -⟩ := h1'
    obtain ⟨pushed, rfl, hl, hv⟩ := h2'
    rw [ip] at hl
    have hlen : pushed.length = 1 := hl
    have hhd := hv v rfl
    match pushed, hlen, hhd with
    | [x], _, hhd => obtain rfl := Option.some.inj hhd; exact h3

include vp ip in
theorem pushes_list (v : U256) {l' : List U256} {rest : List (Access .production)} : ∀ (k : Nat) {l : List U256},
    ListRun .production l (List.replicate k (pushes p v) ++ rest) l' →
    ListRun .production (l ++ List.replicate k v) rest l' := by
  intro k
  induction k with
  | zero => intro l h; rw [List.replicate_zero, List.append_nil]; exact h
  | succ k ih =>
    intro l h
    rw [List.replicate_succ, List.cons_append] at h
    have := ih (push_list vp ip v h)
    rwa [List.append_assoc] at this

include vq iq in
theorem peek_list (v : U256) {l l' : List U256} {rest : List (Access .production)}
    (h : ListRun .production l (peeks q v :: rest) l') : l.head? = some v := by
  cases h with
  | @step _ l1 l2 _ _ _ h1 h2 h3 =>
    have h1' : Takes q.variant.src0OperandType (0#16 + q.imm0).toNat l (some v) l1 := h1
    rw [vq, iq] at h1'
    rw [List.head?_eq_getElem?]
    exact h1'.2.symm

include vp ip in
theorem pushes_depth (v : U256) (limit : Nat) (rest : List (Access .production)) : ∀ (k d : Nat), d + k ≤ limit →
    depth limit d (List.replicate k (pushes p v) ++ rest) = depth limit (d + k) rest := by
  intro k
  induction k with
  | zero => intro d _; rfl
  | succ k ih =>
    intro d hd
    rw [List.replicate_succ, List.cons_append]
    show (depthTaken p.variant.src0OperandType _ d).bind (fun d =>
      (depthPut limit p.variant.dst0OperandType (0#16 + p.imm1).toNat d).bind fun d => depth limit d _) = _
    rw [vp, ip]
    show (if 1 ≤ 1 ∧ d + 1 ≤ limit then some (d + 1) else none).bind _ = _
    rw [if_pos ⟨Nat.le_refl _, by omega⟩]
    show depth limit (d + 1) _ = _
    rw [ih _ (by omega), show d + 1 + k = d + (k + 1) by omega]

include vq iq in
theorem peek_depth (v : U256) (limit d : Nat) (hd : 0 < d) : depth limit d [peeks q v] = some d := by
  show (depthTaken q.variant.src0OperandType (0#16 + q.imm0).toNat d).bind (fun d =>
      (depthPut limit q.variant.dst0OperandType _ d).bind fun d => some d) = _
  rw [vq, iq]
  show (if 0 < d then some d else none).bind _ = _
  rw [if_pos hd]
  rfl

include vr ir in
theorem pop_depth (v : U256) (limit d : Nat) (rest : List (Access .production)) (hd : 0 < d) :
    depth limit d (pops r v :: rest) = depth limit (d - 1) rest := by
  show (depthTaken r.variant.src0OperandType (0#16 + r.imm0).toNat d).bind (fun d =>
      (depthPut limit r.variant.dst0OperandType _ d).bind fun d => depth limit d rest) = _
  rw [vr, ir]
  show (if 1 ≤ 1 ∧ 1 ≤ d then some (d - 1) else none).bind _ = _
  rw [if_pos ⟨Nat.le_refl _, hd⟩]
  rfl
end

end ZkEvm.StackLemmas
