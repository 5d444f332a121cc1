import Verif.Spec.Contents
import Verif.Props.Isolation
/-! Lemmas on the contents of memory pages. -/
namespace ZkEvm.ContentsLemmas
open Spec Spec.Frames Spec.Isolation Spec.Contents IsolationLemmas

theorem evolves_lives {m : Mode} {k : Nat} {W X : World} {μ ν : Contents} {cs : List (Cycle m)}
    (h : Evolves m k W μ cs X ν) : Lives m W cs X := by
  induction h with
  | none W μ => exact .none W
  | step _ hm _ _ ih => exact .step hm ih

theorem lives_append {m : Mode} {W X Y : World} {cs ds : List (Cycle m)} (h : Lives m W cs X) (h' : Lives m X ds Y) :
    Lives m W (cs ++ ds) Y := by
  induction h with
  | none W => exact h'
  | step hm _ ih => exact .step hm (ih h')

/-- There are as many rooms as frames, before and after. -/
theorem moves_lengths {m : Mode} {W X : World} {c : Cycle m} (h : Moves m W c X) (hl : W.rooms.length = W.frames.length) :
    X.rooms.length = X.frames.length := by
  have rec_len : ∀ (ps : List U256) (rs : List Room), (receive ps rs).length = rs.length := by
    intro ps rs
    cases rs <;> rfl
  have res_len : ∀ (f : CallFrame) (back : Nat) (rest : List CallFrame), (resume f back rest).length = rest.length := by
    intro f back rest
    cases rest <;> rfl
  cases h with
  | @proceed s s' c r rs n bs cr ps hs h1 h2 h3 hp =>
    dsimp only at hl ⊢
    cases hs with
    | proceed => exact hl
    | nearCall _ _ ho => exact absurd ho (h1 _)
    | farCall _ _ _ _ _ ho => exact absurd ho (h2 _)
    | ret _ ho => exact absurd ho (h3 _)
    | panic _ ho => exact absurd ho (h3 _)
    | pending ho => exact absurd ho (h3 _)
  | @nearCall s s' c r rs n bs cr hs ho =>
    dsimp only at hl ⊢
    cases hs with
    | proceed _ h1 => exact absurd ho (h1 _)
    | nearCall => exact congrArg (· + 1) hl
    | farCall _ _ _ _ _ ho' => rw [show _ = _ from ho'] at ho; cases ho
    | ret _ ho' => rw [show _ = _ from ho'] at ho; cases ho
    | panic _ ho' => rw [show _ = _ from ho'] at ho; cases ho
    | pending ho' => rw [show _ = _ from ho'] at ho; cases ho
  | @farCall s s' c r rs n bs cr new k abi dest ps hs ho hc hp =>
    dsimp only at hl ⊢
    cases hs with
    | proceed _ _ h2 => exact absurd ho (h2 _)
    | nearCall _ _ ho' => rw [show _ = _ from ho'] at ho; cases ho
    | farCall => exact congrArg (· + 1) hl
    | ret _ ho' => rw [show _ = _ from ho'] at ho; cases ho
    | panic _ ho' => rw [show _ = _ from ho'] at ho; cases ho
    | pending ho' => rw [show _ = _ from ho'] at ho; cases ho
  | @farRet f s s' c r rs n bs cr new k ps abi hs ho hk hlc hp =>
    dsimp only at hl ⊢
    rw [rec_len]
    cases hs with
    | proceed _ _ _ h3 => exact absurd ho (h3 _)
    | nearCall _ _ ho' => rw [show _ = _ from ho'] at ho; cases ho
    | farCall _ _ _ _ _ ho' => rw [show _ = _ from ho'] at ho; cases ho
    | ret => rw [res_len]; exact Nat.succ.inj hl
    | panic => rw [res_len]; exact Nat.succ.inj hl
    | pending => rw [res_len]; exact Nat.succ.inj hl
  | @nearRet f s s' c r rs n bs cr k hs ho hlc =>
    dsimp only at hl ⊢
    rw [rec_len]
    cases hs with
    | proceed _ _ _ h3 => exact absurd ho (h3 _)
    | nearCall _ _ ho' => rw [show _ = _ from ho'] at ho; cases ho
    | farCall _ _ _ _ _ ho' => rw [show _ = _ from ho'] at ho; cases ho
    | ret => rw [res_len]; exact Nat.succ.inj hl
    | panic => rw [res_len]; exact Nat.succ.inj hl
    | pending => rw [res_len]; exact Nat.succ.inj hl
  | @panic s s' c r rs n bs cr hs ho =>
    dsimp only at hl ⊢
    cases hs with
    | proceed _ _ _ h3 => exact absurd ho (h3 _)
    | nearCall _ _ ho' => rw [show _ = _ from ho'] at ho; cases ho
    | farCall _ _ _ _ _ ho' => rw [show _ = _ from ho'] at ho; cases ho
    | ret => rw [res_len]; exact Nat.succ.inj hl
    | panic => rw [res_len]; exact Nat.succ.inj hl
    | pending => rw [res_len]; exact Nat.succ.inj hl

theorem lives_lengths {m : Mode} {W X : World} {cs : List (Cycle m)} (h : Lives m W cs X)
    (hl : W.rooms.length = W.frames.length) : X.rooms.length = X.frames.length := by
  induction h with
  | none W => exact hl
  | step hm _ ih => exact ih (moves_lengths hm hl)

/-- The base pages above the `d` lowest frames are at least `N`. -/
def Above (N d : Nat) (W : World) : Prop :=
  N ≤ W.counter ∧ ∀ (i : Nat) r, W.rooms[i]? = some r → i + d < W.rooms.length → N ≤ r.base

private theorem receive_get {ps : List U256} {rs : List Room} {i : Nat} {r : Room} (h : (receive ps rs)[i]? = some r) :
    (receive ps rs).length = rs.length ∧ ∃ r', rs[i]? = some r' ∧ r.base = r'.base := by
  cases rs with
  | nil => cases h
  | cons x xs =>
    refine ⟨rfl, ?_⟩
    cases i with
    | zero => exact ⟨x, rfl, by rw [← Option.some.inj h]⟩
    | succ i => exact ⟨r, h, rfl⟩

theorem moves_above {m : Mode} {W X : World} {c : Cycle m} {N d : Nat} (h : Moves m W c X) (hd : d < W.rooms.length)
    (ha : Above N d W) : Above N d X := by
  obtain ⟨h1, h2⟩ := ha
  cases h with
  | @proceed s s' c r rs n bs cr ps hs _ _ _ hp =>
    refine ⟨h1, fun i r' hi hl => ?_⟩
    cases i with
    | zero => rw [← Option.some.inj hi]; exact h2 0 r rfl hl
    | succ i => exact h2 (i + 1) r' hi hl
  | @nearCall s s' c r rs n bs cr hs ho =>
    refine ⟨h1, fun i r' hi hl => ?_⟩
    cases i with
    | zero => rw [← Option.some.inj hi]; exact h2 0 r rfl (by rw [Nat.zero_add]; exact hd)
    | succ i => exact h2 i r' hi (by simp only [List.length_cons] at hl ⊢; omega)
  | @farCall s s' c r rs n bs cr new k abi dest ps hs ho hc hp =>
    refine ⟨Nat.le_trans h1 (Nat.le_add_right _ _), fun i r' hi hl => ?_⟩
    cases i with
    | zero => rw [← Option.some.inj hi]; exact h1
    | succ i => exact h2 i r' hi (by simp only [List.length_cons] at hl ⊢; omega)
  | @farRet f s s' c r rs n bs cr new k ps abi hs ho hk hlc hp =>
    refine ⟨h1, fun i r' hi hl => ?_⟩
    obtain ⟨e, r'', h3, h4⟩ := receive_get hi
    rw [h4]
    exact h2 (i + 1) r'' h3 (by dsimp only at hl; rw [e] at hl; simp only [List.length_cons]; omega)
  | @nearRet f s s' c r rs n bs cr k hs ho hlc =>
    refine ⟨h1, fun i r' hi hl => ?_⟩
    obtain ⟨e, r'', h3, h4⟩ := receive_get hi
    rw [h4]
    exact h2 (i + 1) r'' h3 (by dsimp only at hl; rw [e] at hl; simp only [List.length_cons]; omega)
  | @panic s s' c r rs n bs cr hs ho =>
    refine ⟨h1, fun i r' hi hl => ?_⟩
    exact h2 (i + 1) r' hi (by dsimp only at hl; simp only [List.length_cons]; omega)

/-- The rooms afterwards have base pages of before, or the page counter of before. -/
theorem moves_bases {m : Mode} {W X : World} {c : Cycle m} (h : Moves m W c X) :
    W.counter ≤ X.counter ∧ (∀ r ∈ X.rooms, r.base = W.counter ∨ ∃ r' ∈ W.rooms, r.base = r'.base) ∧
    ∀ b ∈ W.bases, b ∈ X.bases := by
  cases h with
  | @proceed s s' c r rs n bs cr ps hs _ _ _ hp =>
    refine ⟨Nat.le_refl _, fun r' hr' => .inr ?_, fun b hb => hb⟩
    rcases List.mem_cons.1 hr' with rfl | hr'
    · exact ⟨r, List.mem_cons_self, rfl⟩
    · exact ⟨r', List.mem_cons_of_mem _ hr', rfl⟩
  | @nearCall s s' c r rs n bs cr hs ho =>
    refine ⟨Nat.le_refl _, fun r' hr' => .inr ⟨r', ?_, rfl⟩, fun b hb => hb⟩
    rcases List.mem_cons.1 hr' with rfl | hr'
    · exact List.mem_cons_self
    · exact hr'
  | @farCall s s' c r rs n bs cr new k abi dest ps hs ho hc hp =>
    refine ⟨Nat.le_add_right _ _, fun r' hr' => ?_, fun b hb => List.mem_cons_of_mem _ hb⟩
    rcases List.mem_cons.1 hr' with rfl | hr'
    · exact .inl rfl
    · exact .inr ⟨r', hr', rfl⟩
  | @farRet f s s' c r rs n bs cr new k ps abi hs ho hk hlc hp =>
    refine ⟨Nat.le_refl _, fun r' hr' => .inr ?_, fun b hb => hb⟩
    obtain ⟨r'', h1, h2, _⟩ := mem_receive hr'
    exact ⟨r'', List.mem_cons_of_mem _ h1, h2⟩
  | @nearRet f s s' c r rs n bs cr k hs ho hlc =>
    refine ⟨Nat.le_refl _, fun r' hr' => .inr ?_, fun b hb => hb⟩
    obtain ⟨r'', h1, h2, _⟩ := mem_receive hr'
    exact ⟨r'', List.mem_cons_of_mem _ h1, h2⟩
  | @panic s s' c r rs n bs cr hs ho =>
    exact ⟨Nat.le_refl _, fun r' hr' => .inr ⟨r', List.mem_cons_of_mem _ hr', rfl⟩, fun b hb => hb⟩

/-- The page counter does not wrap around. -/
theorem reached {m : Mode} {f : CallFrame} {cs : List (Cycle m)} {W : World} (he : f.ergs ≤ VM_INITIAL_FRAME_ERGS)
    (h : Lives m (start f) cs W) : Inv W ∧ W.counter < 2 ^ 32 := by
  obtain ⟨h1, h2⟩ := lives_inv h (start_inv f)
  refine ⟨h1, (Props.C104_counters m [f] W.frames cs (show 1 ≤ 80 by decide) ?_ (lives_during h)).2.2 _ _ h1.pages ?_⟩
  · show f.ergs + 0 ≤ _
    exact he
  · rw [h2]
    exact Nat.le_of_eq (Nat.zero_add _)

/-- The page counter and the base pages handed out, over a history -/
theorem lives_bases {m : Mode} {W X : World} {cs : List (Cycle m)} (h : Lives m W cs X) :
    W.counter ≤ X.counter ∧ ∀ b ∈ W.bases, b ∈ X.bases := by
  induction h with
  | none W => exact ⟨Nat.le_refl _, fun _ h => h⟩
  | step hm _ ih =>
    obtain ⟨h1, _, h3⟩ := moves_bases hm
    exact ⟨Nat.le_trans h1 ih.1, fun b hb => ih.2 b (h3 b hb)⟩

/-- A far call advances the page counter. -/
theorem moves_far {m : Mode} {W X : World} {c : Cycle m} (h : Moves m W c X) {k : FarCallOpcode}
    (hc : c.issued.opcode = .farCall k) : X.counter = W.counter + NEW_MEMORY_PAGES_PER_FAR_CALL := by
  cases h with
  | proceed ps hs h1 h2 h3 hp => exact absurd hc (h2 _)
  | nearCall hs ho => rw [ho] at hc; cases hc
  | farCall => rfl
  | farRet abi hs ho hk hl hp => rw [ho] at hc; cases hc
  | nearRet hs ho hl => rw [ho] at hc; cases hc
  | panic hs ho => rw [ho] at hc; cases hc

/-- What a change needs: some cycle makes it. -/
theorem evolves_change {m : Mode} {k : Nat} {W X : World} {μ ν : Contents} {cs : List (Cycle m)} {page a : BitVec 32}
    (h : Evolves m k W μ cs X ν) (hn : ν page a ≠ μ page a) :
    ∃ cs₁ c cs₂ Y Z μ' ν', cs = cs₁ ++ c :: cs₂ ∧ Evolves m k W μ cs₁ Y μ' ∧ Moves m Y c Z ∧ Writes Y c μ' ν' ∧
      Evolves m k Z ν' cs₂ X ν ∧ ν' page a ≠ μ' page a ∧ k < Y.frames.length := by
  induction h with
  | none W μ => exact absurd rfl hn
  | @step W X Y μ ν ξ c cs hk hm hw he ih =>
    by_cases hx : ξ page a = ν page a
    · exact ⟨[], c, cs, W, X, μ, ν, rfl, .none _ _, hm, hw, he, by rw [← hx]; exact hn, hk⟩
    · obtain ⟨cs₁, d, cs₂, Y', Z, μ', ν', h1, h2, h3⟩ := ih hx
      exact ⟨c :: cs₁, d, cs₂, Y', Z, μ', ν', by rw [h1]; rfl, .step hk hm hw h2, h3⟩

theorem evolves_above {m : Mode} {k N : Nat} {W X : World} {μ ν : Contents} {cs : List (Cycle m)}
    (h : Evolves m k W μ cs X ν) (hl : W.rooms.length = W.frames.length) (ha : Above N k W) : Above N k X := by
  induction h with
  | none W μ => exact ha
  | step hk hm _ _ ih => exact ih (moves_lengths hm hl) (moves_above hm (by rw [hl]; exact hk) ha)

/-- The four pages of a frame -/
theorem mem_pagesOf {b page : Nat} : page ∈ pagesOf b ↔ page = b ∨ page = b + 1 ∨ page = b + 2 ∨ page = b + 3 := by
  have e : pagesOf b = [b, b + 1, b + 2, b + 3] := rfl
  rw [e]
  simp only [List.mem_cons, List.not_mem_nil, or_false]

theorem codePage_eq (b : Nat) : codePage b = b := rfl
theorem stackPage_eq (b : Nat) : stackPage b = b + 1 := rfl
theorem heapPage_eq (b : Nat) : heapPage b = b + 2 := rfl
theorem auxHeapPage_eq (b : Nat) : auxHeapPage b = b + 3 := rfl

theorem ofNat_inj {x y : Nat} (hx : x < 2 ^ 32) (hy : y < 2 ^ 32) (h : BitVec.ofNat 32 x = BitVec.ofNat 32 y) : x = y := by
  have := congrArg BitVec.toNat h
  rwa [BitVec.toNat_ofNat, BitVec.toNat_ofNat, Nat.mod_eq_of_lt hx, Nat.mod_eq_of_lt hy] at this

/-- A multiple of the number of pages, as the counter is at all times -/
theorem counter_mod {counter : Nat} {bases : List Nat} (h : PageHistory counter bases) : counter % 8 = 0 := by
  have e1 : NEW_MEMORY_PAGES_PER_FAR_CALL = 8 := rfl
  induction h with
  | start => decide
  | farCall _ ih => rw [e1]; omega

/-- Which page is meant when an instruction changes a page of the frame with base page `b`, or one of those that the counter
will hand out at `b` -/
theorem mayWrite_page {n r b page : Nat} {op : Opcode} (hr : r % 8 = 0 ∧ r + 3 < 2 ^ 32) (hb : b % 8 = 0 ∧ b + 3 < 2 ^ 32)
    (hn : n % 8 = 0 ∧ n < 2 ^ 32) (hp : page ∈ pagesOf b) (h : MayWrite r n op (BitVec.ofNat 32 page)) :
    (r = b ∧ (page = stackPage b ∨ (page = heapPage b ∧ op = .uma .heapWrite) ∨
      (page = auxHeapPage b ∧ op = .uma .auxHeapWrite))) ∨ (n = b ∧ page = codePage b ∧ ∃ k, op = .farCall k) ∨
    op = .log .precompileCall := by
  rw [mem_pagesOf] at hp
  simp only [codePage_eq, stackPage_eq, heapPage_eq, auxHeapPage_eq]
  generalize hx : BitVec.ofNat 32 page = x at h
  cases h with
  | stack =>
    have := ofNat_inj (by omega) (by rw [stackPage_eq]; omega) hx
    rw [stackPage_eq] at this
    exact .inl ⟨by omega, .inl (by omega)⟩
  | heap ho =>
    have := ofNat_inj (by omega) (by rw [heapPage_eq]; omega) hx
    rw [heapPage_eq] at this
    exact .inl ⟨by omega, .inr (.inl ⟨by omega, ho⟩)⟩
  | auxHeap ho =>
    have := ofNat_inj (by omega) (by rw [auxHeapPage_eq]; omega) hx
    rw [auxHeapPage_eq] at this
    exact .inl ⟨by omega, .inr (.inr ⟨by omega, ho⟩)⟩
  | code ho =>
    have := ofNat_inj (by omega) (by rw [codePage_eq]; omega) hx
    rw [codePage_eq] at this
    exact .inr (.inl ⟨by omega, by omega, _, ho⟩)
  | precompile ho => exact .inr (.inr ho)

end ZkEvm.ContentsLemmas
