import Verif.Lemmas.IsolationHistory
/-! C106: frames read each other's memory only through pointers that its owner has passed, for all histories. Vocabulary in
`Verif/Spec/Isolation.lean`. -/
namespace ZkEvm.Props
open Spec Spec.Frames Spec.Isolation FrameLemmas IsolationLemmas IsolationHistory

/-! ## C106 -/

private theorem reached {m : Mode} {f : CallFrame} {cs : List (Cycle m)} {W : World} (he : f.ergs ≤ VM_INITIAL_FRAME_ERGS)
    (h : Lives m (start f) cs W) : Inv W ∧ W.counter < 2 ^ 32 := by
  obtain ⟨h1, h2⟩ := lives_inv h (start_inv f)
  refine ⟨h1, (C104_counters m [f] W.frames cs (show 1 ≤ 80 by decide) ?_ (lives_during h)).2.2 _ _ h1.pages ?_⟩
  · show f.ergs + 0 ≤ _
    exact he
  · rw [h2]
    exact Nat.le_of_eq (Nat.zero_add _)

/-- C106: every pointer that any frame holds leads to the heap or auxiliary heap of a frame that made a pointer to it, and its
slice lies within that of the pointer made; none leads to the code or the stack of a frame, and numbers do not wrap around. -/
theorem C106_pointers (m : Mode) (f : CallFrame) (cs : List (Cycle m)) (W : World) (he : f.ergs ≤ VM_INITIAL_FRAME_ERGS)
    (h : Lives m (start f) cs W) (p : FatPointer) (hp : Holds W p) :
    (∃ b p₀, (b, p₀) ∈ W.created ∧ b ∈ BOOTLOADER_BASE_PAGE :: W.bases ∧
      (p.memoryPage.toNat = heapPage b ∨ p.memoryPage.toNat = auxHeapPage b) ∧ Within p p₀ ∧
      p₀.start.toNat + p₀.length.toNat < 2 ^ 32) ∧
    ∀ b ∈ BOOTLOADER_BASE_PAGE :: W.bases, p.memoryPage.toNat ≠ b + (BOOTLOADER_CODE_PAGE - BOOTLOADER_BASE_PAGE) ∧
      p.memoryPage.toNat ≠ b + (BOOTLOADER_STACK_PAGE - BOOTLOADER_BASE_PAGE) := by
  obtain ⟨hi, hc⟩ := reached he h
  obtain ⟨r, hr, w, hw, hp⟩ := hp
  obtain ⟨⟨b, p₀⟩, hm, hh⟩ := hi.held r hr w hw
  obtain ⟨hb, hpage⟩ := hi.made _ hm
  dsimp only at hh hb hpage
  have hin := (C98_inside p₀ p w hh hp).1
  have hv := ((C44_validate p₀ true).2.2.2.1 ((C98_exact p₀ p w hp).1 hh).1).2
  obtain ⟨hl, h8⟩ := page_lt hi.pages hb
  have e1 : BOOTLOADER_HEAP_PAGE - BOOTLOADER_BASE_PAGE = 2 := rfl
  have e2 : BOOTLOADER_AUX_HEAP_PAGE - BOOTLOADER_BASE_PAGE = 3 := rfl
  have e3 : BOOTLOADER_CODE_PAGE - BOOTLOADER_BASE_PAGE = 0 := rfl
  have e4 : BOOTLOADER_STACK_PAGE - BOOTLOADER_BASE_PAGE = 1 := rfl
  have hn : p.memoryPage.toNat = heapPage b ∨ p.memoryPage.toNat = auxHeapPage b := by
    rw [hin.1]
    unfold heapPage auxHeapPage at hpage ⊢
    rw [e1, e2] at hpage ⊢
    rcases hpage with hpage | hpage <;> rw [hpage, BitVec.toNat_ofNat, Nat.mod_eq_of_lt (by omega)]
    · exact .inl rfl
    · exact .inr rfl
  refine ⟨⟨b, p₀, hm, hb, hn, hin, hv⟩, fun b' hb' => ?_⟩
  have := (page_lt hi.pages hb').2
  unfold heapPage auxHeapPage at hn
  rw [e1, e2] at hn
  rw [e3, e4]
  omega

example : ∃ f cs W p, Lives .production (start f) cs W ∧ f.ergs ≤ VM_INITIAL_FRAME_ERGS ∧ Holds W p ∧ cs.length = 4 ∧
    p = ⟨0, 10, 64, 64⟩ :=
  ⟨_, _, _, _, history, by decide, ⟨_, List.mem_cons_self, _, List.mem_cons_self, by unfold Carries; decide⟩, rfl, rfl⟩

/-- C106: what is read through a pointer that any frame holds, from its offset on and inside its slice, are only bytes of a heap
or auxiliary heap that its owner has passed: each lies inside the slice of a pointer made by the owner of the page. -/
theorem C106_reads (m : Mode) (f : CallFrame) (cs : List (Cycle m)) (W : World) (he : f.ergs ≤ VM_INITIAL_FRAME_ERGS)
    (h : Lives m (start f) cs W) (p : FatPointer) (hp : Holds W p)
    (i : BitVec 32) (hl : p.offset.toNat + i.toNat < p.length.toNat) :
    ∃ b p₀, (b, p₀) ∈ W.created ∧ (p.memoryPage.toNat = heapPage b ∨ p.memoryPage.toNat = auxHeapPage b) ∧
      p₀.memoryPage = p.memoryPage ∧ p₀.start.toNat ≤ (p.start + p.offset + i).toNat ∧
      (p.start + p.offset + i).toNat < p₀.start.toNat + p₀.length.toNat := by
  obtain ⟨⟨b, p₀, hm, _, hpage, hin, hv⟩, _⟩ := C106_pointers m f cs W he h p hp
  have e : (p.start + p.offset + i).toNat = p.start.toNat + p.offset.toNat + i.toNat := by
    have := hin.2.2
    rw [BitVec.toNat_add, BitVec.toNat_add, Nat.mod_eq_of_lt (a := p.start.toNat + p.offset.toNat) (by omega),
      Nat.mod_eq_of_lt (by omega)]
  have := hin.2
  exact ⟨b, p₀, hm, hpage, hin.1.symm, by omega, by omega⟩

example : ∃ f cs W p, Lives .production (start f) cs W ∧ f.ergs ≤ VM_INITIAL_FRAME_ERGS ∧ Holds W p ∧
    p.offset.toNat + (31#32).toNat < p.length.toNat :=
  ⟨_, _, _, ⟨0, 10, 64, 64⟩, history, by decide, ⟨_, List.mem_cons_self, _, List.mem_cons_self, by unfold Carries; decide⟩,
    by decide⟩

/-- C106: a frame that has made no pointer is private: no frame holds a pointer to any page of it. -/
theorem C106_private (m : Mode) (f : CallFrame) (cs : List (Cycle m)) (W : World) (he : f.ergs ≤ VM_INITIAL_FRAME_ERGS)
    (h : Lives m (start f) cs W) (b : Nat) (hb : b ∈ BOOTLOADER_BASE_PAGE :: W.bases) (hn : ∀ p₀, (b, p₀) ∉ W.created)
    (p : FatPointer) (hp : Holds W p) : p.memoryPage.toNat ∉ pagesOf b := by
  obtain ⟨⟨b', p₀, hm, hb', hpage, _⟩, _⟩ := C106_pointers m f cs W he h p hp
  intro hmem
  obtain ⟨hi, _⟩ := reached he h
  have key := (C62_owner _ _ hi.pages).1
  have h1 := key b hb _ hmem
  have h2 := key b' hb' p.memoryPage.toNat (by
    unfold pagesOf
    rcases hpage with h | h
    · exact List.mem_cons_of_mem _ (List.mem_cons_of_mem _ (by rw [h]; exact List.mem_cons_self))
    · exact List.mem_cons_of_mem _ (List.mem_cons_of_mem _ (List.mem_cons_of_mem _ (by rw [h]; exact List.mem_cons_self))))
  rw [← h2] at h1
  rw [h1] at hn
  exact hn p₀ hm

-- The contract with base page 2048 has made no pointer, the bootloader holds one.
example : ∃ f cs W p, Lives .production (start f) cs W ∧ f.ergs ≤ VM_INITIAL_FRAME_ERGS ∧ Holds W p ∧ 2048 ∈ W.bases ∧
    (∀ p₀, (2048, p₀) ∉ W.created) ∧ p.memoryPage.toNat ∉ pagesOf 2048 := by
  have hn : ∀ p₀, (2048, p₀) ∉ w₄.created := fun p₀ h => by
    have := (Prod.mk.inj (List.mem_singleton.1 h)).1
    exact absurd this (by decide)
  have hp : Holds w₄ ⟨0, 10, 64, 64⟩ := ⟨_, List.mem_cons_self, _, List.mem_cons_self, by unfold Carries; decide⟩
  exact ⟨_, _, _, _, history, by decide, hp, by decide, hn,
    C106_private _ _ _ _ (by decide) history 2048 (by decide) hn _ hp⟩

/-- C106: a pointer is made only by the frame whose page it leads to, while that frame is running, in a far call that does not
forward a pointer or in a return that is no panic. -/
theorem C106_maker (m : Mode) (f : CallFrame) (cs : List (Cycle m)) (W : World) (h : Lives m (start f) cs W) (b : Nat)
    (p₀ : FatPointer) (hm : (b, p₀) ∈ W.created) :
    ∃ cs₁ c cs₂ Y Z, cs = cs₁ ++ c :: cs₂ ∧ Lives m (start f) cs₁ Y ∧ Moves m Y c Z ∧ Lives m Z cs₂ W ∧
      (∃ r rs, Y.rooms = r :: rs ∧ r.base = b) ∧
      ((∃ k abi dest, c.issued.opcode = .farCall k ∧ c.call = some (abi, dest) ∧
        (FarCallABI.fromU256 abi).forwardingMode ≠ .forwardFatPointer) ∨ ∃ k, c.issued.opcode = .ret k ∧ k ≠ .panic) := by
  rcases lives_created h (start_inv f) _ hm with h | ⟨cs₁, c, cs₂, Y, Z, h1, h2, h3, h4, _, h5, h6⟩
  · cases h
  · exact ⟨cs₁, c, cs₂, Y, Z, h1, h2, h3, h4, h6, h5⟩

example : ∃ f cs W p₀, Lives .production (start f) cs W ∧ (8, p₀) ∈ W.created ∧ p₀ = ⟨0, 10, 64, 100⟩ ∧ cs.length = 4 :=
  ⟨_, _, _, _, history, List.mem_cons_self, rfl, rfl⟩

/-- C106: a far call gives its callee pages that belong to no frame that runs or has run, and that no pointer leads to, also
not the one that is passed. -/
theorem C106_fresh (m : Mode) (f : CallFrame) (cs : List (Cycle m)) (W X : World) (c : Cycle m)
    (he : f.ergs ≤ VM_INITIAL_FRAME_ERGS) (h : Lives m (start f) cs W) (hm : Moves m W c X) (k : FarCallOpcode)
    (hc : c.issued.opcode = .farCall k) :
    ∃ r, X.rooms = r :: W.rooms ∧ (∀ page ∈ pagesOf r.base, page < 2 ^ 32) ∧
      (∀ b ∈ BOOTLOADER_BASE_PAGE :: W.bases, ∀ page ∈ pagesOf r.base, page ∉ pagesOf b) ∧
      ∀ p, Holds X p → p.memoryPage.toNat ∉ pagesOf r.base := by
  have hX : Lives m (start f) (cs ++ [c]) X := by
    clear hc he
    generalize start f = S at h
    induction h with
    | none W => exact .step hm (.none _)
    | step h1 _ ih => exact .step h1 (ih hm)
  obtain ⟨hi, hlt⟩ := reached he hX
  obtain ⟨hi', _⟩ := reached he h
  cases hm with
  | proceed ps hs h1 h2 h3 hp => exact absurd hc (h2 _)
  | nearCall hs ho => rw [ho] at hc; cases hc
  | @farCall s s' c r rs n bs cr new k' abi dest ps hs ho hcall hp =>
    dsimp only at hlt hi'
    have hb : n ∈ BOOTLOADER_BASE_PAGE :: n :: bs := List.mem_cons_of_mem _ List.mem_cons_self
    have hown : ∀ b ∈ BOOTLOADER_BASE_PAGE :: bs, b ≠ n := fun b hb => by
      have := (page_lt hi'.pages hb).1
      dsimp only at this
      omega
    refine ⟨⟨n, ps⟩, rfl, ?_, fun b hb' page hpage hpage' => ?_, ?_⟩
    · intro page hpage
      have h1 := (C62_owner _ _ hi.pages).1 n hb page hpage
      have h2 : NEW_MEMORY_PAGES_PER_FAR_CALL = 8 := rfl
      have := Nat.mod_lt page (by decide : 0 < 8)
      rw [h2] at h1 hlt
      omega
    · have h1 := (C62_owner _ _ hi.pages).1 n hb page hpage
      have h2 := (C62_owner _ _ hi'.pages).1 b hb' page hpage'
      exact hown b hb' (h2.trans h1.symm)
    · refine C106_private m f (cs ++ [c]) _ he hX n hb (fun p₀ hmem => ?_)
      rcases List.mem_append.1 hmem with hmem | hmem
      · have := fresh_base hp hmem
        exact hown _ (hi'.owned r List.mem_cons_self) this.symm
      · exact hown _ (hi'.made _ hmem).1 rfl
  | farRet abi hs ho hk hl hp => rw [ho] at hc; cases hc
  | nearRet hs ho hl => rw [ho] at hc; cases hc
  | panic hs ho => rw [ho] at hc; cases hc

example : ∃ f cs W c X k, Lives .production (start f) cs W ∧ f.ergs ≤ VM_INITIAL_FRAME_ERGS ∧ Moves .production W c X ∧
    c.issued.opcode = .farCall k ∧ Holds X ⟨0, 10, 64, 100⟩ :=
  ⟨_, _, _, _, _, .normal, .none _, by decide, m₁, show (entry 1059).opcode = _ by decide +kernel,
    ⟨_, List.mem_cons_self, _, List.mem_cons_self, by unfold Carries; decide⟩⟩

end ZkEvm.Props
