import Verif.Spec.Isolation
import Verif.Props.Pointers
import Verif.Props.Frames
/-! Lemmas on frames that pass pointers to each other. -/
namespace ZkEvm.IsolationLemmas
open Spec Spec.Frames Spec.Isolation FrameLemmas

theorem makes_handed {p₀ : FatPointer} {v w : U256} (h : Handed p₀ v) (hm : Makes v w) : Handed p₀ w := by
  cases hm with
  | add x o hv hx ho hw => exact .add x o h hv hx ho hw
  | sub x o hv hx ho hw => exact .sub x o h hv hx ho hw
  | shrink x l hv hx hl hw => exact .shrink x l h hv hx hl hw
  | pack x hx hw => exact .pack x h hx hw
  | advance o hv ho he hw => exact .advance o h hv ho he hw

/-- The cycle is a far call that does not forward a pointer, or a return. -/
def Offers {m : Mode} (c : Cycle m) : Prop :=
  (∃ k abi dest, c.issued.opcode = .farCall k ∧ c.call = some (abi, dest) ∧
    (FarCallABI.fromU256 abi).forwardingMode ≠ .forwardFatPointer) ∨ ∃ k, c.issued.opcode = .ret k ∧ k ≠ .panic

/-- What is true of every world reached -/
structure Inv (W : World) : Prop where
  pages : PageHistory W.counter W.bases
  owned : ∀ r ∈ W.rooms, r.base ∈ BOOTLOADER_BASE_PAGE :: W.bases
  held : ∀ r ∈ W.rooms, ∀ w ∈ r.pointers, ∃ e ∈ W.created, Handed e.2 w
  made : ∀ e ∈ W.created, e.1 ∈ BOOTLOADER_BASE_PAGE :: W.bases ∧
    (e.2.memoryPage = BitVec.ofNat 32 (heapPage e.1) ∨ e.2.memoryPage = BitVec.ofNat 32 (auxHeapPage e.1))

theorem start_inv (f : CallFrame) : Inv (start f) := by
  refine ⟨.start, ?_, ?_, nofun⟩
  · intro r hr
    rw [List.mem_singleton.1 hr]
    exact List.mem_cons_self
  · intro r hr w hw
    rw [List.mem_singleton.1 hr] at hw
    cases hw

private theorem own_fresh {q : FatPointer} {w : U256} {page : Nat} (h : (q.validate true).isEmpty = true)
    (hw : Carries w { q with memoryPage := BitVec.ofNat 32 page }) :
    Handed { q with memoryPage := BitVec.ofNat 32 page } w :=
  .fresh ((Props.C44_validate { q with memoryPage := BitVec.ofNat 32 page } true).2.2.2.2
    ((Props.C44_validate q true).2.2.2.1 h)) hw

/-- What a call or return passes comes from the pointers held before or is new, and new pointers are to own pages. -/
private theorem passes {r : Room} {abi : U256} {q : FatPointer} {page : Option Nat} {ps : List U256}
    {new cr : List (Nat × FatPointer)} (h : Passes r abi q page ps new)
    (hf : ∀ p₀ w, page = none → Handed p₀ abi → q.validateAsSlice = true → Carries w (remainder q) → Handed p₀ w)
    (hp : ∀ n, page = some n → n = heapPage r.base ∨ n = auxHeapPage r.base)
    (hr : ∀ w ∈ r.pointers, ∃ e ∈ cr, Handed e.2 w) :
    (∀ w ∈ ps, ∃ e ∈ new ++ cr, Handed e.2 w) ∧
    ∀ e ∈ new, e.1 = r.base ∧
      (e.2.memoryPage = BitVec.ofNat 32 (heapPage e.1) ∨ e.2.memoryPage = BitVec.ofNat 32 (auxHeapPage e.1)) := by
  cases h with
  | nothing => exact ⟨nofun, nofun⟩
  | @fresh page w hv hw =>
    refine ⟨fun x hx => ?_, fun e he => ?_⟩
    · rw [List.mem_singleton.1 hx]
      exact ⟨_, List.mem_append_left _ (List.mem_singleton.2 rfl), own_fresh hv hw⟩
    · rw [List.mem_singleton.1 he]
      rcases hp page rfl with rfl | rfl
      · exact ⟨rfl, .inl rfl⟩
      · exact ⟨rfl, .inr rfl⟩
  | @forwarded w ha hs hw =>
    refine ⟨fun x hx => ?_, nofun⟩
    rw [List.mem_singleton.1 hx]
    obtain ⟨e, he, hh⟩ := hr abi ha
    exact ⟨e, he, hf _ _ rfl hh hs hw⟩

theorem farPage_own {b : Nat} {abi : U256} {n : Nat} (h : farPage b abi = some n) : n = heapPage b ∨ n = auxHeapPage b := by
  unfold farPage at h
  split at h
  · exact .inl (Option.some.inj h).symm
  · exact .inr (Option.some.inj h).symm
  · cases h

theorem retPage_own {b : Nat} {abi : U256} {n : Nat} (h : retPage b abi = some n) : n = heapPage b ∨ n = auxHeapPage b := by
  unfold retPage at h
  split at h
  · exact .inl (Option.some.inj h).symm
  · exact .inr (Option.some.inj h).symm
  · cases h

private theorem far_passes {r : Room} {abi : U256} {ps : List U256} {new cr : List (Nat × FatPointer)}
    (h : Passes r abi (FarCallABI.fromU256 abi).memoryQuasiFatPointer (farPage r.base abi) ps new)
    (hr : ∀ w ∈ r.pointers, ∃ e ∈ cr, Handed e.2 w) :
    (∀ w ∈ ps, ∃ e ∈ new ++ cr, Handed e.2 w) ∧
    ∀ e ∈ new, e.1 = r.base ∧
      (e.2.memoryPage = BitVec.ofNat 32 (heapPage e.1) ∨ e.2.memoryPage = BitVec.ofNat 32 (auxHeapPage e.1)) := by
  refine passes h (fun p₀ w hn hh hs hw => .farCall hh ?_ hs hw) (fun n => farPage_own) hr
  unfold farPage at hn
  split at hn
  · cases hn
  · cases hn
  · assumption

private theorem far_fresh {r : Room} {abi : U256} {q : FatPointer} {ps : List U256} {new : List (Nat × FatPointer)}
    {e : Nat × FatPointer} (h : Passes r abi q (farPage r.base abi) ps new) (he : e ∈ new) :
    (FarCallABI.fromU256 abi).forwardingMode ≠ .forwardFatPointer := by
  intro hm
  have : farPage r.base abi = none := by unfold farPage; rw [hm]
  rw [this] at h
  cases h <;> cases he

/-- New pointers are recorded with the base page of the frame that passes them. -/
theorem fresh_base {r : Room} {abi : U256} {q : FatPointer} {page : Option Nat} {ps : List U256}
    {new : List (Nat × FatPointer)} {e : Nat × FatPointer} (h : Passes r abi q page ps new) (he : e ∈ new) : e.1 = r.base := by
  cases h with
  | nothing => cases he
  | fresh => rw [List.mem_singleton.1 he]
  | forwarded => cases he

private theorem ret_passes {r : Room} {abi : U256} {ps : List U256} {new cr : List (Nat × FatPointer)}
    (h : Passes r abi (RetABI.fromU256 abi).memoryQuasiFatPointer (retPage r.base abi) ps new)
    (hr : ∀ w ∈ r.pointers, ∃ e ∈ cr, Handed e.2 w) :
    (∀ w ∈ ps, ∃ e ∈ new ++ cr, Handed e.2 w) ∧
    ∀ e ∈ new, e.1 = r.base ∧
      (e.2.memoryPage = BitVec.ofNat 32 (heapPage e.1) ∨ e.2.memoryPage = BitVec.ofNat 32 (auxHeapPage e.1)) := by
  refine passes h (fun p₀ w hn hh hs hw => .ret hh ?_ hs hw) (fun n => retPage_own) hr
  unfold retPage at hn
  split at hn
  · cases hn
  · cases hn
  · assumption

theorem mem_receive {ps : List U256} {rs : List Room} {r : Room} (h : r ∈ receive ps rs) :
    ∃ r' ∈ rs, r.base = r'.base ∧ ∀ w ∈ r.pointers, w ∈ ps ∨ w ∈ r'.pointers := by
  cases rs with
  | nil => cases h
  | cons r' rs =>
    rcases List.mem_cons.1 h with rfl | h
    · exact ⟨r', List.mem_cons_self, rfl, fun w hw => List.mem_append.1 hw⟩
    · exact ⟨r, List.mem_cons_of_mem _ h, rfl, fun w hw => .inr hw⟩

/-- The invariant is kept; new pointers are created by the running frame, in a far call or a return. -/
theorem moves_inv {m : Mode} {W X : World} {c : Cycle m} (h : Moves m W c X) (hi : Inv W) :
    Inv X ∧ X.bases.length = W.bases.length + (if isFarCall (some c.issued.opcode) then 1 else 0) ∧
    ∀ e ∈ X.created, e ∈ W.created ∨
      Offers c ∧ ∃ r rs, W.rooms = r :: rs ∧ r.base = e.1 := by
  cases h with
  | @proceed s s' c r rs n bs cr ps hs h1 h2 h3 hp =>
    refine ⟨⟨hi.pages, fun r' hr' => ?_, fun r' hr' w hw => ?_, hi.made⟩, ?_, fun e he => .inl he⟩
    · rcases List.mem_cons.1 hr' with rfl | hr'
      · exact hi.owned r List.mem_cons_self
      · exact hi.owned r' (List.mem_cons_of_mem _ hr')
    · rcases List.mem_cons.1 hr' with rfl | hr'
      · rcases hp w hw with hw | ⟨v, hv, hm⟩
        · exact hi.held r List.mem_cons_self w hw
        · obtain ⟨e, he, hh⟩ := hi.held r List.mem_cons_self v hv
          exact ⟨e, he, makes_handed hh hm⟩
      · exact hi.held r' (List.mem_cons_of_mem _ hr') w hw
    · dsimp only
      cases ho : c.issued.opcode <;> first | rfl | exact absurd ho (h2 _)
  | @nearCall s s' c r rs n bs cr hs ho =>
    have back : ∀ r' ∈ r :: r :: rs, r' ∈ r :: rs := fun r' hr' => by
      rcases List.mem_cons.1 hr' with rfl | hr'
      · exact List.mem_cons_self
      · exact hr'
    exact ⟨⟨hi.pages, fun r' hr' => hi.owned r' (back r' hr'), fun r' hr' => hi.held r' (back r' hr'), hi.made⟩,
      by rw [ho]; rfl, fun e he => .inl he⟩
  | @farCall s s' c r rs n bs cr new k abi dest ps hs ho hc hp =>
    obtain ⟨hps, hnew⟩ := far_passes hp (hi.held r List.mem_cons_self)
    have up : ∀ b ∈ BOOTLOADER_BASE_PAGE :: bs, b ∈ BOOTLOADER_BASE_PAGE :: n :: bs := fun b hb => by
      rcases List.mem_cons.1 hb with rfl | hb
      · exact List.mem_cons_self
      · exact List.mem_cons_of_mem _ (List.mem_cons_of_mem _ hb)
    refine ⟨⟨.farCall hi.pages, fun r' hr' => ?_, fun r' hr' w hw => ?_, fun e he => ?_⟩, by rw [ho]; rfl, fun e he => ?_⟩
    · rcases List.mem_cons.1 hr' with rfl | hr'
      · exact List.mem_cons_of_mem _ List.mem_cons_self
      · exact up _ (hi.owned r' hr')
    · rcases List.mem_cons.1 hr' with rfl | hr'
      · exact hps w hw
      · obtain ⟨e, he, hh⟩ := hi.held r' hr' w hw
        exact ⟨e, List.mem_append_right _ he, hh⟩
    · rcases List.mem_append.1 he with he | he
      · obtain ⟨h1, h2⟩ := hnew e he
        exact ⟨by rw [h1]; exact up _ (hi.owned r List.mem_cons_self), h2⟩
      · exact ⟨up _ (hi.made e he).1, (hi.made e he).2⟩
    · rcases List.mem_append.1 he with he | he
      · exact .inr ⟨.inl ⟨k, abi, dest, ho, hc, far_fresh hp he⟩, r, rs, rfl, (hnew e he).1.symm⟩
      · exact .inl he
  | @farRet f s s' c r rs n bs cr new k ps abi hs ho hk hl hp =>
    obtain ⟨hps, hnew⟩ := ret_passes hp (hi.held r List.mem_cons_self)
    refine ⟨⟨hi.pages, fun r' hr' => ?_, fun r' hr' w hw => ?_, fun e he => ?_⟩, by rw [ho]; rfl, fun e he => ?_⟩
    · obtain ⟨r'', h1, h2, _⟩ := mem_receive hr'
      rw [h2]
      exact hi.owned r'' (List.mem_cons_of_mem _ h1)
    · obtain ⟨r'', h1, _, h2⟩ := mem_receive hr'
      rcases h2 w hw with hw | hw
      · exact hps w hw
      · obtain ⟨e, he, hh⟩ := hi.held r'' (List.mem_cons_of_mem _ h1) w hw
        exact ⟨e, List.mem_append_right _ he, hh⟩
    · rcases List.mem_append.1 he with he | he
      · obtain ⟨h1, h2⟩ := hnew e he
        exact ⟨by rw [h1]; exact hi.owned r List.mem_cons_self, h2⟩
      · exact hi.made e he
    · rcases List.mem_append.1 he with he | he
      · exact .inr ⟨.inr ⟨k, ho, hk⟩, r, rs, rfl, (hnew e he).1.symm⟩
      · exact .inl he
  | @nearRet f s s' c r rs n bs cr k hs ho hl =>
    refine ⟨⟨hi.pages, fun r' hr' => ?_, fun r' hr' w hw => ?_, hi.made⟩, by rw [ho]; rfl, fun e he => .inl he⟩
    · obtain ⟨r'', h1, h2, _⟩ := mem_receive hr'
      rw [h2]
      exact hi.owned r'' (List.mem_cons_of_mem _ h1)
    · obtain ⟨r'', h1, _, h2⟩ := mem_receive hr'
      rcases h2 w hw with hw | hw
      · exact hi.held r List.mem_cons_self w hw
      · exact hi.held r'' (List.mem_cons_of_mem _ h1) w hw
  | @panic s s' c r rs n bs cr hs ho =>
    exact ⟨⟨hi.pages, fun r' hr' => hi.owned r' (List.mem_cons_of_mem _ hr'),
      fun r' hr' => hi.held r' (List.mem_cons_of_mem _ hr'), hi.made⟩, by rw [ho]; rfl, fun e he => .inl he⟩

/-- A cycle of the world is one of the stack. -/
theorem moves_step {m : Mode} {W X : World} {c : Cycle m} (h : Moves m W c X) : Step m W.frames c X.frames := by
  cases h <;> assumption

theorem lives_during {m : Mode} {W X : World} {cs : List (Cycle m)} (h : Lives m W cs X) :
    During m 0 W.frames cs X.frames := by
  induction h with
  | none W => exact .none _
  | @step W X Y c cs hm _ ih =>
    have hs := moves_step hm
    refine .step ?_ hs ih
    generalize W.frames = s at hs ⊢
    generalize X.frames = s' at hs
    cases hs <;> exact Nat.zero_lt_succ _

theorem lives_inv {m : Mode} {W X : World} {cs : List (Cycle m)} (h : Lives m W cs X) (hi : Inv W) :
    Inv X ∧ X.bases.length = W.bases.length + cs.countP (fun c => isFarCall (some c.issued.opcode)) := by
  induction h with
  | none W => exact ⟨hi, rfl⟩
  | @step W X Y c cs hm _ ih =>
    obtain ⟨h1, h2, _⟩ := moves_inv hm hi
    obtain ⟨h3, h4⟩ := ih h1
    refine ⟨h3, ?_⟩
    rw [h4, h2, List.countP_cons]
    omega

/-- Every pointer was created before or in some cycle in between, by the frame running then. -/
theorem lives_created {m : Mode} {W X : World} {cs : List (Cycle m)} (h : Lives m W cs X) (hi : Inv W) :
    ∀ e ∈ X.created, e ∈ W.created ∨ ∃ cs₁ c cs₂ Y Z, cs = cs₁ ++ c :: cs₂ ∧ Lives m W cs₁ Y ∧ Moves m Y c Z ∧
      Lives m Z cs₂ X ∧ e ∈ Z.created ∧ Offers c ∧
      ∃ r rs, Y.rooms = r :: rs ∧ r.base = e.1 := by
  induction h with
  | none W => exact fun e he => .inl he
  | @step W X Y c cs hm hl ih =>
    obtain ⟨h1, _, h3⟩ := moves_inv hm hi
    intro e he
    rcases ih h1 e he with he | ⟨cs₁, d, cs₂, Y', Z, h4, h5, h6⟩
    · rcases h3 e he with h | ⟨h4, h5⟩
      · exact .inl h
      · exact .inr ⟨[], c, cs, W, X, rfl, .none _, hm, hl, he, h4, h5⟩
    · exact .inr ⟨c :: cs₁, d, cs₂, Y', Z, by rw [h4]; rfl, .step hm h5, h6⟩

/-- No page number of a frame wraps around. -/
theorem page_lt {counter : Nat} {bases : List Nat} (h : PageHistory counter bases) {b : Nat}
    (hb : b ∈ BOOTLOADER_BASE_PAGE :: bases) : b + 3 < counter ∧ b % 8 = 0 := by
  have e1 : NEW_MEMORY_PAGES_PER_FAR_CALL = 8 := rfl
  have e2 : STARTING_BASE_PAGE = 2048 := rfl
  have e3 : BOOTLOADER_BASE_PAGE = 8 := rfl
  have inv : counter % 8 = 0 ∧ 2048 ≤ counter ∧ ∀ b ∈ bases, b + 3 < counter ∧ b % 8 = 0 := by
    clear hb
    induction h with
    | start => exact ⟨by decide, by omega, nofun⟩
    | @farCall counter bases _ ih =>
      refine ⟨by omega, by omega, fun b hb => ?_⟩
      rcases List.mem_cons.1 hb with rfl | hb
      · omega
      · have := ih.2.2 b hb
        omega
  rcases List.mem_cons.1 hb with rfl | hb
  · omega
  · exact inv.2.2 b hb

end ZkEvm.IsolationLemmas
