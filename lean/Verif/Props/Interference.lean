import Verif.Lemmas.Interference
/-! C108: what a frame does depends on other frames' memory only through the slices it was passed, for all machines and
histories. Vocabulary in `Verif/Spec/Interference.lean`. -/
namespace ZkEvm.Props
open Spec Spec.Frames Spec.Isolation Spec.Contents Spec.Interference IsolationLemmas IsolationHistory ContentsLemmas
open InterferenceLemmas

/-! ## C108 -/

/-- C108: a far call learns of the memory that was there before only the slices it is passed. Let the machine run during a far
call, without precompile calls, from two memories that agree on the slices of the pointers the callee is passed, on the code
loaded before and on the pages not handed out before the call. Then it does the same cycles, reaches the same state, and every
byte that differs afterwards differed before and was not touched. -/
theorem C108_callee (m : Mode) (S : Type) (M : Runner m S) (f : CallFrame) (cs ds : List (Cycle m)) (W X Y : World)
    (c : Cycle m) (s t : S) (μ₁ μ₂ ν₁ : Contents) (he : f.ergs ≤ VM_INITIAL_FRAME_ERGS) (h : Lives m (start f) cs W)
    (hm : Moves m W c X) (k : FarCallOpcode) (hc : c.issued.opcode = .farCall k)
    (hr : Runs M W.frames.length s X μ₁ ds t Y ν₁) (hno : ¬ Precompiles X ds)
    (hnew : ∀ page a, W.counter ≤ page.toNat → μ₁ page a = μ₂ page a)
    (hcode : ∀ b ∈ BOOTLOADER_BASE_PAGE :: W.bases, ∀ a,
      μ₁ (BitVec.ofNat 32 (codePage b)) a = μ₂ (BitVec.ofNat 32 (codePage b)) a)
    (hpassed : ∀ r, X.rooms = r :: W.rooms → ∀ w ∈ r.pointers, ∀ p, Carries w p → ∀ a : BitVec 32,
      p.start.toNat ≤ a.toNat → a.toNat < p.start.toNat + p.length.toNat → μ₁ p.memoryPage a = μ₂ p.memoryPage a) :
    ∃ ν₂, Runs M W.frames.length s X μ₂ ds t Y ν₂ ∧
      ∀ page a, ν₁ page a = ν₂ page a ∨ (ν₁ page a = μ₁ page a ∧ ν₂ page a = μ₂ page a) := by
  have hX : Lives m (start f) (cs ++ [c]) X := lives_append h (.step hm (.none _))
  have hlen : W.rooms.length = W.frames.length := lives_lengths h rfl
  have hroom : ∃ r, X.rooms = r :: W.rooms ∧ r.base = W.counter ∧ W.counter ≤ X.counter ∧ X.bases = W.counter :: W.bases := by
    cases hm with
    | proceed ps hs h1 h2 h3 hp => exact absurd hc (h2 _)
    | nearCall hs ho => rw [ho] at hc; cases hc
    | farCall => exact ⟨_, rfl, rfl, Nat.le_add_right _ _, rfl⟩
    | farRet abi hs ho hk hl hp => rw [ho] at hc; cases hc
    | nearRet hs ho hl => rw [ho] at hc; cases hc
    | panic hs ho => rw [ho] at hc; cases hc
  obtain ⟨r, hrooms, hbase, hcount, hbases⟩ := hroom
  have hi := (reached he hX).1
  have hshut : Shut W.frames.length (fun b => W.counter ≤ b)
      (fun page a => W.counter ≤ page.toNat ∨ (∃ b ∈ BOOTLOADER_BASE_PAGE :: W.bases, page = BitVec.ofNat 32 (codePage b)) ∨
        ∃ w ∈ r.pointers, ∃ p, Carries w p ∧ page = p.memoryPage ∧ p.start.toNat ≤ a.toNat ∧
          a.toNat < p.start.toNat + p.length.toNat) X := by
    refine ⟨fun n hn => Nat.le_trans hcount hn, fun i r' hir hil => ?_⟩
    rw [hrooms] at hir hil
    cases i with
    | succ i => simp only [List.length_cons] at hil; omega
    | zero =>
      rw [← Option.some.inj hir]
      refine ⟨Nat.le_of_eq hbase.symm, fun v hv => ?_⟩
      obtain ⟨e, _, hh⟩ := hi.held r (by rw [hrooms]; exact List.mem_cons_self) v hv
      obtain ⟨p, hp, _⟩ := C98_one_pointer v
      exact good_of hh hp (fun a h4 h5 => .inr (.inr ⟨v, hv, p, hp, rfl, h4, h5⟩))
  obtain ⟨ν₂, h1, _, h3⟩ := runs_same (f := f) he
    (fun b hb _ hlt page hp a => .inl (by
      rw [mem_pagesOf] at hp
      rw [BitVec.toNat_ofNat, Nat.mod_eq_of_lt (by omega)]
      omega)) hr hX hshut (fun b hb a => by
      rw [hbases] at hb
      rcases List.mem_cons.1 hb with rfl | hb'
      · exact .inr (.inl ⟨_, List.mem_cons_self, rfl⟩)
      · rcases List.mem_cons.1 hb' with rfl | hb'
        · refine .inl ?_
          rw [codePage_eq, BitVec.toNat_ofNat, Nat.mod_eq_of_lt (reached he h).2]
          exact Nat.le_refl _
        · exact .inr (.inl ⟨b, List.mem_cons_of_mem _ hb', rfl⟩)) (no_precompile hX (runs_lives hr) hno)
    (μ₂ := μ₂) (fun page a hA => by
      rcases hA with hA | ⟨b, hb, rfl⟩ | ⟨w, hw, p, hp, rfl, h4, h5⟩
      · exact hnew page a hA
      · exact hcode b hb a
      · exact hpassed r hrooms w hw p hp a h4 h5)
  exact ⟨ν₂, h1, h3⟩

/-- A machine in which the contract called by the bootloader copies byte 70 of page 10, which it was passed, to its heap -/
private noncomputable def copier : Runner .production Unit :=
  open Classical in
  { step := fun _ W μ => if W = w₁ then
      some ⟨(), c₅, w₅, fun page a => if page = 2050 ∧ a = 5 then some (μ 10 70) else none⟩ else none
    moves := by
      intro s W μ d h
      split at h
      · next hW => rw [hW, ← Option.some.inj h]; exact m₅
      · cases h
    writes := by
      intro s W μ d page a v h hp
      split at h
      · next hW =>
        rw [← Option.some.inj h] at hp ⊢
        dsimp only at hp ⊢
        split at hp
        · next hpage => rw [hW, hpage.1]; exact ⟨⟨2048, [got]⟩, _, rfl, .heap writes⟩
        · cases hp
      · cases h
    reads := by
      intro s W μ ν d h _ hag
      split at h
      · next hW =>
        have : μ 10 70 = ν 10 70 := hag 10 70 (by
          rw [hW]
          exact .slice (r := ⟨2048, [got]⟩) (w := got) (p := ⟨0, 10, 64, 100⟩) rfl List.mem_cons_self
            (by unfold Carries; decide) (by decide) (by decide))
        rw [if_pos hW, ← this]
        exact h
      · cases h }

-- The callee is passed bytes 64 to 163 of page 10 and copies one of them; the memories differ in byte 200 of page 10.
example : ∃ f cs W c X k s t ds Y μ₁ μ₂ ν₁, f.ergs ≤ VM_INITIAL_FRAME_ERGS ∧ Lives .production (start f) cs W ∧
    Moves .production W c X ∧ c.issued.opcode = .farCall k ∧ Runs copier W.frames.length s X μ₁ ds t Y ν₁ ∧
    ¬ Precompiles X ds ∧ (∀ page a, W.counter ≤ page.toNat → μ₁ page a = μ₂ page a) ∧
    (∀ b ∈ BOOTLOADER_BASE_PAGE :: W.bases, ∀ a,
      μ₁ (BitVec.ofNat 32 (codePage b)) a = μ₂ (BitVec.ofNat 32 (codePage b)) a) ∧
    (∀ r, X.rooms = r :: W.rooms → ∀ w ∈ r.pointers, ∀ p, Carries w p → ∀ a : BitVec 32,
      p.start.toNat ≤ a.toNat → a.toNat < p.start.toNat + p.length.toNat → μ₁ p.memoryPage a = μ₂ p.memoryPage a) ∧
    μ₁ ≠ μ₂ ∧ ν₁ 2050 5 = 9 := by
  let μ : Byte → Contents := fun b page a => if page = 10 ∧ a = 70 then 9 else if page = 10 ∧ a = 200 then b else 0
  refine ⟨boot 80000000, [], _, c₁, w₁, .normal, (), (), [c₅], w₅, μ 1, μ 2, _, by decide, .none _, m₁,
    show (entry 1059).opcode = _ by decide +kernel,
    .step (M := copier) (d := ⟨(), c₅, w₅, fun page a => if page = 2050 ∧ a = 5 then some (μ 1 10 70) else none⟩)
      (by decide) (if_pos rfl) (.none _ _ _), ?_, ?_, ?_, ?_, ?_, by decide⟩
  · rintro ⟨cs₁, c, cs₂, Y, h1, _, h2, _⟩
    have : c ∈ [c₅] := by
      show c ∈ [(_ : Cycle .production)]
      rw [h1]
      exact List.mem_append_right _ List.mem_cons_self
    rw [List.mem_singleton.1 this, show c₅.issued.opcode = _ from writes] at h2
    cases h2
  · intro page a hp
    have hne : page ≠ 10 := by
      rintro rfl
      exact absurd hp (by decide)
    show (if page = 10 ∧ a = 70 then 9 else if page = 10 ∧ a = 200 then 1 else 0) =
      (if page = 10 ∧ a = 70 then (9 : Byte) else if page = 10 ∧ a = 200 then 2 else 0)
    rw [if_neg (fun h => hne h.1), if_neg (fun h => hne h.1), if_neg (fun h => hne h.1), if_neg (fun h => hne h.1)]
  · intro b hb a
    rw [List.mem_singleton.1 hb]
    rfl
  · intro r hr w hw p hp a h1 h2
    rw [← (List.cons.inj hr).1] at hw
    rw [List.mem_singleton.1 hw] at hp
    obtain ⟨q, _, hu, _⟩ := C98_one_pointer got
    have hp' : p = ⟨0, 10, 64, 100⟩ := (hu p hp).trans (hu ⟨0, 10, 64, 100⟩ (by unfold Carries; decide)).symm
    rw [hp'] at h1 h2 ⊢
    have hne : a ≠ 200 := by
      rintro rfl
      exact absurd h2 (by decide)
    show (if _ ∧ a = 70 then 9 else if _ ∧ a = 200 then 1 else 0) = (if _ ∧ a = 70 then (9 : Byte) else if _ ∧ a = 200 then 2 else 0)
    rw [if_neg (c := _ ∧ a = 200) (fun h => hne h.2), if_neg (c := _ ∧ a = 200) (fun h => hne h.2)]
  · intro h
    exact absurd (congrFun (congrFun h 10) 200) (by decide)

/-- C108: once a frame has ended, only what was passed on of its memory matters. Let the machine run on, without precompile
calls, from two memories that agree on all pages but those of the frame, and there on the code and on the slices of the
pointers that frames hold. Then it does the same cycles, reaches the same state, and every byte that differs afterwards is an
old one of a page of that frame. -/
theorem C108_finished (m : Mode) (S : Type) (M : Runner m S) (f : CallFrame) (cs ds : List (Cycle m)) (W Y : World)
    (s t : S) (μ₁ μ₂ ν₁ : Contents) (he : f.ergs ≤ VM_INITIAL_FRAME_ERGS) (h : Lives m (start f) cs W) (b : Nat)
    (hb : b ∈ W.bases) (hend : ∀ r ∈ W.rooms, r.base ≠ b) (hr : Runs M 0 s W μ₁ ds t Y ν₁) (hno : ¬ Precompiles W ds)
    (hothers : ∀ page a, page.toNat ∉ pagesOf b → μ₁ page a = μ₂ page a)
    (hcode : ∀ a, μ₁ (BitVec.ofNat 32 (codePage b)) a = μ₂ (BitVec.ofNat 32 (codePage b)) a)
    (hheld : ∀ p, Holds W p → ∀ a : BitVec 32, p.start.toNat ≤ a.toNat → a.toNat < p.start.toNat + p.length.toNat →
      μ₁ p.memoryPage a = μ₂ p.memoryPage a) :
    ∃ ν₂, Runs M 0 s W μ₂ ds t Y ν₂ ∧
      ∀ page a, ν₁ page a = ν₂ page a ∨ (page.toNat ∈ pagesOf b ∧ ν₁ page a = μ₁ page a ∧ ν₂ page a = μ₂ page a) := by
  have hi := (reached he h).1
  have hb8 := page_lt hi.pages (List.mem_cons_of_mem _ hb)
  have hshut : Shut 0 (fun b' => b' ≠ b) (fun page a => page.toNat ∉ pagesOf b ∨
      page = BitVec.ofNat 32 (codePage b) ∨ ∃ p, Holds W p ∧ page = p.memoryPage ∧
        p.start.toNat ≤ a.toNat ∧ a.toNat < p.start.toNat + p.length.toNat) W := by
    refine ⟨fun n hn => by omega, fun i r hir _ => ?_⟩
    have hmem := List.mem_of_getElem? hir
    refine ⟨hend r hmem, fun v hv => ?_⟩
    obtain ⟨e, _, hh⟩ := hi.held r hmem v hv
    obtain ⟨p, hp, _⟩ := C98_one_pointer v
    exact good_of hh hp (fun a h4 h5 => .inr (.inr ⟨p, ⟨r, hmem, v, hv, hp⟩, rfl, h4, h5⟩))
  obtain ⟨ν₂, h1, h2, h3⟩ := runs_same (f := f) he
    (fun b' hne h8 hlt page hp a => .inl (by
      rw [mem_pagesOf] at hp
      rw [BitVec.toNat_ofNat, Nat.mod_eq_of_lt (by omega), mem_pagesOf]
      omega)) hr h hshut (fun b' hb' a => by
      by_cases e : b' = b
      · exact .inr (.inl (by rw [e]))
      · have := page_lt hi.pages hb'
        have := (reached he h).2
        refine .inl ?_
        rw [codePage_eq, BitVec.toNat_ofNat, Nat.mod_eq_of_lt (by omega), mem_pagesOf]
        omega) (no_precompile h (runs_lives hr) hno)
    (μ₂ := μ₂) (fun page a hA => by
      rcases hA with hA | rfl | ⟨p, hp, rfl, h4, h5⟩
      · exact hothers page a hA
      · exact hcode a
      · exact hheld p hp a h4 h5)
  refine ⟨ν₂, h1, fun page a => ?_⟩
  rcases h3 page a with h | h
  · exact .inl h
  · by_cases hp : page.toNat ∈ pagesOf b
    · exact .inr ⟨hp, h⟩
    · exact .inl (h2 page a (.inl hp))

/-- A machine in which the bootloader, when the contract has returned, copies byte 70 of its heap, page 10, to byte 5 -/
private noncomputable def mover : Runner .production Unit :=
  open Classical in
  { step := fun _ W μ => if W = w₄ then
      some ⟨(), c₅, w₆, fun page a => if page = 10 ∧ a = 5 then some (μ 10 70) else none⟩ else none
    moves := by
      intro s W μ d h
      split at h
      · next hW => rw [hW, ← Option.some.inj h]; exact m₆
      · cases h
    writes := by
      intro s W μ d page a v h hp
      split at h
      · next hW =>
        rw [← Option.some.inj h] at hp ⊢
        dsimp only at hp ⊢
        split at hp
        · next hpage => rw [hW, hpage.1]; exact ⟨⟨8, [cut]⟩, _, rfl, .heap writes⟩
        · cases hp
      · cases h
    reads := by
      intro s W μ ν d h _ hag
      split at h
      · next hW =>
        have : μ 10 70 = ν 10 70 := hag 10 70 (by
          rw [hW]
          exact .own (r := ⟨8, [cut]⟩) (page := 10) 70 rfl (by decide))
        rw [if_pos hW, ← this]
        exact h
      · cases h }

-- The contract with base page 2048 has ended; the memories differ on its heap, page 2050.
example : ∃ f cs W s t ds Y μ₁ μ₂ ν₁, f.ergs ≤ VM_INITIAL_FRAME_ERGS ∧ Lives .production (start f) cs W ∧ 2048 ∈ W.bases ∧
    (∀ r ∈ W.rooms, r.base ≠ 2048) ∧ Runs mover 0 s W μ₁ ds t Y ν₁ ∧ ¬ Precompiles W ds ∧
    (∀ page a, page.toNat ∉ pagesOf 2048 → μ₁ page a = μ₂ page a) ∧
    (∀ a, μ₁ (BitVec.ofNat 32 (codePage 2048)) a = μ₂ (BitVec.ofNat 32 (codePage 2048)) a) ∧
    (∀ p, Holds W p → ∀ a : BitVec 32, p.start.toNat ≤ a.toNat → a.toNat < p.start.toNat + p.length.toNat →
      μ₁ p.memoryPage a = μ₂ p.memoryPage a) ∧ μ₁ ≠ μ₂ ∧ ν₁ 10 5 = 9 := by
  let μ : Byte → Contents := fun b page a => if page = 10 ∧ a = 70 then 9 else if page = 2050 ∧ a = 0 then b else 0
  have hoff : ∀ (page a : BitVec 32), page ≠ 2050 → μ 1 page a = μ 2 page a := by
    intro page a hne
    show (if page = 10 ∧ a = 70 then 9 else if page = 2050 ∧ a = 0 then 1 else 0) =
      (if page = 10 ∧ a = 70 then (9 : Byte) else if page = 2050 ∧ a = 0 then 2 else 0)
    rw [if_neg (c := page = 2050 ∧ a = 0) (fun h => hne h.1), if_neg (c := page = 2050 ∧ a = 0) (fun h => hne h.1)]
  refine ⟨boot 80000000, _, w₄, (), (), [c₅], w₆, μ 1, μ 2, _, by decide, history, by decide, by decide,
    .step (M := mover) (d := ⟨(), c₅, w₆, fun page a => if page = 10 ∧ a = 5 then some (μ 1 10 70) else none⟩)
      (by decide) (if_pos rfl) (.none _ _ _), ?_, ?_, ?_, ?_, ?_, by decide⟩
  · rintro ⟨cs₁, c, cs₂, Y, h1, _, h2, _⟩
    have : c ∈ [c₅] := by
      show c ∈ [(_ : Cycle .production)]
      rw [h1]
      exact List.mem_append_right _ List.mem_cons_self
    rw [List.mem_singleton.1 this, show c₅.issued.opcode = _ from writes] at h2
    cases h2
  · intro page a hp
    refine hoff page a ?_
    rintro rfl
    exact absurd hp (by decide)
  · exact fun a => hoff _ a (by decide)
  · rintro p ⟨r, hr, w, hw, hp⟩ a _ _
    refine hoff _ a ?_
    rw [List.mem_singleton.1 hr] at hw
    rw [List.mem_singleton.1 hw] at hp
    obtain ⟨q, _, hu, _⟩ := C98_one_pointer cut
    rw [(hu p hp).trans (hu ⟨0, 10, 64, 64⟩ (by unfold Carries; decide)).symm]
    decide
  · intro h
    exact absurd (congrFun (congrFun h 2050) 0) (by decide)

end ZkEvm.Props
