import Verif.Lemmas.Contents
/-! C107: the contents of memory pages change only under the hands of their owner, for all histories. Vocabulary in
`Verif/Spec/Contents.lean`. -/
namespace ZkEvm.Props
open Spec Spec.Frames Spec.Isolation Spec.Contents IsolationLemmas IsolationHistory ContentsLemmas

/-! ## C107 -/

/-- C107: a page of a frame changes only while that frame is running, and then by an instruction that writes to this very page;
so loaded code never changes. The one exception is a precompile call, which only a frame in the kernel's space can make. -/
theorem C107_writer (m : Mode) (f : CallFrame) (cs : List (Cycle m)) (W X : World) (c : Cycle m) (μ ν : Contents)
    (he : f.ergs ≤ VM_INITIAL_FRAME_ERGS) (h : Lives m (start f) cs W) (hm : Moves m W c X) (hw : Writes W c μ ν) (b : Nat)
    (hb : b ∈ BOOTLOADER_BASE_PAGE :: W.bases) (page : Nat) (hp : page ∈ pagesOf b) (a : BitVec 32)
    (hn : ν (BitVec.ofNat 32 page) a ≠ μ (BitVec.ofNat 32 page) a) :
    ((∃ r rs, W.rooms = r :: rs ∧ r.base = b) ∧ page ≠ codePage b ∧
      (page = stackPage b ∨ (page = heapPage b ∧ c.issued.opcode = .uma .heapWrite) ∨
        (page = auxHeapPage b ∧ c.issued.opcode = .uma .auxHeapWrite))) ∨
    (c.issued.opcode = .log .precompileCall ∧
      ∃ g rest, W.frames = g :: rest ∧ g.this < ADDRESS_UNRESTRICTED_SPACE.toNat) := by
  obtain ⟨hi, hlt⟩ := reached he h
  obtain ⟨r, rs, hr, hmw⟩ := hw _ _ hn
  have hr' := page_lt hi.pages (hi.owned r (by rw [hr]; exact List.mem_cons_self))
  have hb' := page_lt hi.pages hb
  rcases mayWrite_page ⟨hr'.2, by omega⟩ ⟨hb'.2, by omega⟩ ⟨counter_mod hi.pages, hlt⟩ hp hmw with
    ⟨h1, h2⟩ | ⟨h1, _⟩ | h1
  · refine .inl ⟨⟨r, rs, hr, h1⟩, ?_, h2⟩
    rw [codePage_eq]
    simp only [stackPage_eq, heapPage_eq, auxHeapPage_eq] at h2
    omega
  · omega
  · obtain ⟨g, rest, h2, h3, _⟩ := C105_kernel m f W.frames X.frames cs c (lives_during h) (moves_step hm) (by rw [h1]; rfl)
    exact .inr ⟨h1, g, rest, h2, h3⟩

/-- All pages empty, and the same with a byte at address 5 of the page `page` -/
private def empty : Contents := fun _ _ => 0
private def marked (page : BitVec 32) : Contents := fun p a => if p = page ∧ a = 5 then 7 else 0

private theorem marks {W : World} {r : Room} {rs : List Room} (hr : W.rooms = r :: rs) :
    Writes W c₅ empty (marked (BitVec.ofNat 32 (heapPage r.base))) := by
  intro page a hn
  unfold marked empty at hn
  split at hn
  · next h => rw [h.1]; exact ⟨r, rs, hr, .heap writes⟩
  · exact absurd rfl hn

-- The contract with base page 2048 writes to its heap, page 2050.
example : ∃ f cs W c X μ ν page a, Lives .production (start f) cs W ∧ f.ergs ≤ VM_INITIAL_FRAME_ERGS ∧
    Moves .production W c X ∧ Writes W c μ ν ∧ 2048 ∈ W.bases ∧ page ∈ pagesOf 2048 ∧
    ν (BitVec.ofNat 32 page) a ≠ μ (BitVec.ofNat 32 page) a :=
  ⟨_, _, _, _, _, _, _, 2050, 5, called, by decide, m₅, marks (r := ⟨2048, [got]⟩) rfl, by decide, by decide, by decide⟩

private theorem precompiles {m : Mode} {k : Nat} {f : CallFrame} {cs : List (Cycle m)} {W : World}
    (h : Lives m (start f) cs W) {c : Cycle m} {X Y : World} {μ ν : Contents} {cs₁ cs₂ : List (Cycle m)}
    (h1 : Evolves m k W μ cs₁ Y ν) (hm : Moves m Y c X) (hc : c.issued.opcode = .log .precompileCall) :
    Precompiles W (cs₁ ++ c :: cs₂) := by
  have hl := evolves_lives h1
  obtain ⟨g, rest, h2, h3, _⟩ := C105_kernel m f Y.frames X.frames (cs ++ cs₁) c (lives_during (lives_append h hl))
    (moves_step hm) (by rw [hc]; rfl)
  exact ⟨cs₁, c, cs₂, Y, rfl, hl, hc, g, rest, h2, h3⟩

/-- C107: during a far call, whatever the callee and the frames it calls do, no page of any frame that was there before or
is waiting changes, unless a frame in the kernel's space makes a precompile call. -/
theorem C107_call (m : Mode) (f : CallFrame) (cs ds : List (Cycle m)) (W X Y : World) (c : Cycle m) (μ ν : Contents)
    (he : f.ergs ≤ VM_INITIAL_FRAME_ERGS) (h : Lives m (start f) cs W) (hm : Moves m W c X) (k : FarCallOpcode)
    (hc : c.issued.opcode = .farCall k) (hd : Evolves m W.frames.length X μ ds Y ν) (b : Nat)
    (hb : b ∈ BOOTLOADER_BASE_PAGE :: W.bases) (page : Nat) (hp : page ∈ pagesOf b) (a : BitVec 32)
    (hn : ν (BitVec.ofNat 32 page) a ≠ μ (BitVec.ofNat 32 page) a) : Precompiles X ds := by
  obtain ⟨cs₁, d, cs₂, Z, Z', μ', ν', hds, h1, h2, h3, _, h5, h6⟩ := evolves_change hd hn
  have hX : Lives m (start f) (cs ++ [c]) X := lives_append h (.step hm (.none _))
  have hl : W.rooms.length = W.frames.length := lives_lengths h rfl
  have hlX : X.rooms.length = X.frames.length := lives_lengths hX rfl
  have hZ := lives_append hX (evolves_lives h1)
  have hup : b ∈ BOOTLOADER_BASE_PAGE :: Z.bases := by
    rcases List.mem_cons.1 hb with rfl | hb
    · exact List.mem_cons_self
    · exact List.mem_cons_of_mem _ ((lives_bases (evolves_lives h1)).2 b ((moves_bases hm).2.2 b hb))
  have haX : Above W.counter W.frames.length X := by
    rw [← hl]
    cases hm with
    | proceed ps hs h1 h2 h3 hp => exact absurd hc (h2 _)
    | nearCall hs ho => rw [ho] at hc; cases hc
    | farCall =>
      refine ⟨Nat.le_add_right _ _, fun i r' hi hlt => ?_⟩
      cases i with
      | zero => rw [← Option.some.inj hi]; exact Nat.le_refl _
      | succ i => simp only [List.length_cons] at hlt; omega
    | farRet abi hs ho hk hl hp => rw [ho] at hc; cases hc
    | nearRet hs ho hl => rw [ho] at hc; cases hc
    | panic hs ho => rw [ho] at hc; cases hc
  have haZ := evolves_above h1 hlX haX
  rcases C107_writer m f _ Z Z' d μ' ν' he hZ h2 h3 b hup page hp a h5 with ⟨⟨r, rs, hr, hrb⟩, _⟩ | ⟨hpre, _⟩
  · have hlZ : Z.rooms.length = Z.frames.length := lives_lengths hZ rfl
    have h7 := haZ.2 0 r (by rw [hr]; rfl) (by omega)
    have h8 := (page_lt (reached he h).1.pages hb).1
    omega
  · rw [hds]
    exact precompiles hX h1 h2 hpre

-- The callee with base page 2048 writes to its heap; the pages of the bootloader stay.
example : ∃ f cs W c X k ds Y μ ν, Lives .production (start f) cs W ∧ f.ergs ≤ VM_INITIAL_FRAME_ERGS ∧
    Moves .production W c X ∧ c.issued.opcode = .farCall k ∧ Evolves .production W.frames.length X μ ds Y ν ∧ μ ≠ ν ∧
    ¬ Precompiles X ds ∧ ∀ page ∈ pagesOf BOOTLOADER_BASE_PAGE, ∀ a, ν (BitVec.ofNat 32 page) a = μ (BitVec.ofNat 32 page) a := by
  have hE : Evolves .production 1 w₁ empty [c₅] w₅ (marked 2050) :=
    .step (by decide) m₅ (marks (r := ⟨2048, [got]⟩) rfl) (.none _ _)
  have hk : c₁.issued.opcode = .farCall .normal := show (entry 1059).opcode = _ by decide +kernel
  have hno : ¬ Precompiles w₁ [c₅] := by
    rintro ⟨cs₁, c, cs₂, Y, h1, _, h2, _⟩
    have : c ∈ [c₅] := by rw [h1]; exact List.mem_append_right _ List.mem_cons_self
    rw [List.mem_singleton.1 this, show c₅.issued.opcode = _ from writes] at h2
    cases h2
  refine ⟨boot 80000000, [], _, c₁, w₁, .normal, [c₅], w₅, empty, marked 2050, .none _, by decide, m₁, hk, hE, ?_, hno, ?_⟩
  · intro h
    exact absurd (congrFun (congrFun h 2050) 5) (by decide)
  · intro page hp a
    by_cases hn : marked 2050 (BitVec.ofNat 32 page) a = empty (BitVec.ofNat 32 page) a
    · exact hn
    · exact absurd (C107_call _ _ _ _ _ _ _ _ _ _ (by decide) (.none _) m₁ _ hk hE _ List.mem_cons_self page hp a hn) hno

/-- C107: what a callee was passed does not change under it: during a far call the whole page behind any pointer that any frame
holds at its start, the one passed included, stays as it is, unless a frame in the kernel's space makes a precompile call. -/
theorem C107_passed (m : Mode) (f : CallFrame) (cs ds : List (Cycle m)) (W X Y : World) (c : Cycle m) (μ ν : Contents)
    (he : f.ergs ≤ VM_INITIAL_FRAME_ERGS) (h : Lives m (start f) cs W) (hm : Moves m W c X) (k : FarCallOpcode)
    (hc : c.issued.opcode = .farCall k) (hd : Evolves m W.frames.length X μ ds Y ν) (p : FatPointer) (hp : Holds X p)
    (a : BitVec 32) (hn : ν p.memoryPage a ≠ μ p.memoryPage a) : Precompiles X ds := by
  have hX : Lives m (start f) (cs ++ [c]) X := lives_append h (.step hm (.none _))
  obtain ⟨⟨b, p₀, _, hb, hpage, _⟩, _⟩ := C106_pointers m f _ X he hX p hp
  obtain ⟨r, hr, _, _, hno⟩ := C106_fresh m f cs W X c he h hm k hc
  have hmem : p.memoryPage.toNat ∈ pagesOf b := by
    rw [mem_pagesOf]
    rw [heapPage_eq, auxHeapPage_eq] at hpage
    omega
  have e : BitVec.ofNat 32 p.memoryPage.toNat = p.memoryPage := by rw [BitVec.ofNat_toNat, BitVec.setWidth_eq]
  refine C107_call m f cs ds W X Y c μ ν he h hm k hc hd b ?_ p.memoryPage.toNat hmem a (by rw [e]; exact hn)
  have hbase : b ≠ r.base := by
    rintro rfl
    exact hno p hp hmem
  cases hm with
  | proceed ps hs h1 h2 h3 hp => exact absurd hc (h2 _)
  | nearCall hs ho => rw [ho] at hc; cases hc
  | farCall =>
    have e := (List.cons.inj hr).1
    rcases List.mem_cons.1 hb with rfl | hb
    · exact List.mem_cons_self
    rcases List.mem_cons.1 hb with rfl | hb
    · rw [← e] at hbase
      exact absurd rfl hbase
    · exact List.mem_cons_of_mem _ hb
  | farRet abi hs ho hk hl hp => rw [ho] at hc; cases hc
  | nearRet hs ho hl => rw [ho] at hc; cases hc
  | panic hs ho => rw [ho] at hc; cases hc

-- The callee was passed 100 bytes of the bootloader's heap, and writes to its own.
example : ∃ f cs W c X k ds Y μ ν p, Lives .production (start f) cs W ∧ f.ergs ≤ VM_INITIAL_FRAME_ERGS ∧
    Moves .production W c X ∧ c.issued.opcode = .farCall k ∧ Evolves .production W.frames.length X μ ds Y ν ∧ Holds X p ∧
    p = ⟨0, 10, 64, 100⟩ ∧ ds.length = 1 :=
  ⟨boot 80000000, [], _, c₁, w₁, .normal, [c₅], w₅, empty, marked 2050, _, .none _, by decide, m₁,
    show (entry 1059).opcode = _ by decide +kernel,
    .step (by decide) m₅ (marks (r := ⟨2048, [got]⟩) rfl) (.none _ _),
    ⟨_, List.mem_cons_self, _, List.mem_cons_self, by unfold Carries; decide⟩, rfl, rfl⟩

/-- C107: once a frame has ended, its pages never belong to a frame again, and what it returned stays as it was: no page of it
changes, unless a frame in the kernel's space makes a precompile call. -/
theorem C107_finished (m : Mode) (f : CallFrame) (cs ds : List (Cycle m)) (W X : World) (μ ν : Contents)
    (he : f.ergs ≤ VM_INITIAL_FRAME_ERGS) (h : Lives m (start f) cs W) (b : Nat) (hb : b ∈ W.bases)
    (hend : ∀ r ∈ W.rooms, r.base ≠ b) (hd : Evolves m 0 W μ ds X ν) :
    (∀ r ∈ X.rooms, ∀ page ∈ pagesOf r.base, page ∉ pagesOf b) ∧
    ∀ page ∈ pagesOf b, ∀ a, ν (BitVec.ofNat 32 page) a ≠ μ (BitVec.ofNat 32 page) a → Precompiles W ds := by
  have key : ∀ {ds X ν}, Evolves m 0 W μ ds X ν → ∀ r ∈ X.rooms, r.base ≠ b := by
    intro ds' X' ν' hd'
    have hlt : b < W.counter := by
      have := (page_lt (reached he h).1.pages (List.mem_cons_of_mem _ hb)).1
      omega
    clear h hb hd
    induction hd' with
    | none W μ => exact hend
    | @step W X Y μ ν ξ c cs hk hm hw he ih =>
      obtain ⟨h1, h2, _⟩ := moves_bases hm
      refine ih (fun r hr => ?_) (Nat.lt_of_lt_of_le hlt h1)
      rcases h2 r hr with h3 | ⟨r', hr', h3⟩
      · omega
      · rw [h3]
        exact hend r' hr'
  have up : ∀ {ds X ν}, Evolves m 0 W μ ds X ν → b ∈ BOOTLOADER_BASE_PAGE :: X.bases := fun hd =>
    List.mem_cons_of_mem _ ((lives_bases (evolves_lives hd)).2 b hb)
  refine ⟨fun r hr page h1 h2 => ?_, fun page hp a hn => ?_⟩
  · have hi := (reached he (lives_append h (evolves_lives hd))).1
    have e1 := (page_lt hi.pages (hi.owned r hr)).2
    have e2 := (page_lt hi.pages (up hd)).2
    rw [mem_pagesOf] at h1 h2
    exact key hd r hr (by omega)
  · obtain ⟨cs₁, d, cs₂, Z, Z', μ', ν', hds, h1, h2, h3, _, h5, h6⟩ := evolves_change hd hn
    rcases C107_writer m f _ Z Z' d μ' ν' he (lives_append h (evolves_lives h1)) h2 h3 b (up h1) page hp a h5 with
      ⟨⟨r, rs, hr, hrb⟩, _⟩ | ⟨hpre, _⟩
    · exact absurd hrb (key h1 r (by rw [hr]; exact List.mem_cons_self))
    · rw [hds]
      exact precompiles h h1 h2 hpre

-- The contract has returned; the bootloader writes to its own heap.
example : ∃ f cs W ds X μ ν, Lives .production (start f) cs W ∧ f.ergs ≤ VM_INITIAL_FRAME_ERGS ∧ 2048 ∈ W.bases ∧
    (∀ r ∈ W.rooms, r.base ≠ 2048) ∧ Evolves .production 0 W μ ds X ν ∧ μ ≠ ν :=
  ⟨_, _, _, [c₅], w₆, empty, marked 10, history, by decide, by decide, by decide,
    .step (by decide) m₆ (marks (r := ⟨8, [cut]⟩) rfl) (.none _ _),
    fun h => absurd (congrFun (congrFun h 10) 5) (by decide)⟩

/-- C107: the pages that a far call gives to its callee, other than the code that is loaded, have the contents they had at the
very start, unless a frame in the kernel's space makes a precompile call: nobody leaves anything there, so memory that is zero
at the start is zero for each new frame. -/
theorem C107_new (m : Mode) (f : CallFrame) (cs : List (Cycle m)) (W X : World) (c : Cycle m) (μ₀ μ ν : Contents)
    (he : f.ergs ≤ VM_INITIAL_FRAME_ERGS) (h : Evolves m 0 (start f) μ₀ cs W μ) (hm : Moves m W c X) (hw : Writes W c μ ν)
    (k : FarCallOpcode) (hc : c.issued.opcode = .farCall k) :
    ∃ r, X.rooms = r :: W.rooms ∧ ∀ page ∈ pagesOf r.base, page ≠ codePage r.base → ∀ a,
      ν (BitVec.ofNat 32 page) a ≠ μ₀ (BitVec.ofNat 32 page) a → Precompiles (start f) cs := by
  have hW := evolves_lives h
  have hX : Lives m (start f) (cs ++ [c]) X := lives_append hW (.step hm (.none _))
  have hroom : ∃ r, X.rooms = r :: W.rooms ∧ r.base = W.counter := by
    cases hm with
    | proceed ps hs h1 h2 h3 hp => exact absurd hc (h2 _)
    | nearCall hs ho => rw [ho] at hc; cases hc
    | farCall => exact ⟨_, rfl, rfl⟩
    | farRet abi hs ho hk hl hp => rw [ho] at hc; cases hc
    | nearRet hs ho hl => rw [ho] at hc; cases hc
    | panic hs ho => rw [ho] at hc; cases hc
  obtain ⟨r, hr, hbase⟩ := hroom
  refine ⟨r, hr, fun page hp hcode a hn => ?_⟩
  rw [hbase] at hp hcode
  have e8 : NEW_MEMORY_PAGES_PER_FAR_CALL = 8 := rfl
  have hbound : W.counter % 8 = 0 ∧ W.counter + 3 < 2 ^ 32 := by
    have h1 := (reached he hX).2
    rw [moves_far hm hc, e8] at h1
    exact ⟨counter_mod (reached he hW).1.pages, by omega⟩
  -- a cycle at `Y` with a page counter not above that of `W`
  have at_ : ∀ {Y : World} {ds : List (Cycle m)} {d : Cycle m} {μ' ν' : Contents}, Lives m (start f) ds Y → Writes Y d μ' ν' →
      Y.counter ≤ W.counter → ν' (BitVec.ofNat 32 page) a ≠ μ' (BitVec.ofNat 32 page) a →
      d.issued.opcode = .log .precompileCall := by
    intro Y ds d μ' ν' hY hwY hle hnY
    obtain ⟨hi, hlt⟩ := reached he hY
    obtain ⟨r', rs, hr', hmw⟩ := hwY _ _ hnY
    have h1 := page_lt hi.pages (hi.owned r' (by rw [hr']; exact List.mem_cons_self))
    rcases mayWrite_page ⟨h1.2, by omega⟩ hbound ⟨counter_mod hi.pages, hlt⟩ hp hmw with ⟨h2, _⟩ | ⟨_, h2, _⟩ | h2
    · omega
    · exact absurd h2 hcode
    · exact h2
  by_cases hlast : ν (BitVec.ofNat 32 page) a = μ (BitVec.ofNat 32 page) a
  · rw [hlast] at hn
    obtain ⟨cs₁, d, cs₂, Z, Z', μ', ν', hds, h1, h2, h3, h4, h5, _⟩ := evolves_change h hn
    have hle := Nat.le_trans (moves_bases h2).1 (lives_bases (evolves_lives h4)).1
    have := at_ (evolves_lives h1) h3 hle h5
    rw [hds]
    exact precompiles (.none _) h1 h2 this
  · have := at_ hW hw (Nat.le_refl _) hlast
    rw [this] at hc
    cases hc

-- The bootloader writes to its heap, and then calls a contract.
example : ∃ f cs W c X μ ν k, Evolves .production 0 (start f) empty cs W μ ∧ f.ergs ≤ VM_INITIAL_FRAME_ERGS ∧
    Moves .production W c X ∧ Writes W c μ ν ∧ c.issued.opcode = .farCall k ∧ μ ≠ empty :=
  ⟨boot 80000013, [c₅], start (boot 80000000), c₁, w₁, marked 10, marked 10, .normal,
    .step (by decide) m₀ (marks (r := ⟨8, []⟩) rfl) (.none _ _), by decide, m₁, fun _ _ h => absurd rfl h,
    show (entry 1059).opcode = _ by decide +kernel, fun h => absurd (congrFun (congrFun h 10) 5) (by decide)⟩

end ZkEvm.Props
