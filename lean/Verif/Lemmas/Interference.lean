import Verif.Spec.Interference
import Verif.Props.Contents
/-! Lemmas on what a running machine can learn. -/
namespace ZkEvm.InterferenceLemmas
open Spec Spec.Frames Spec.Isolation Spec.Contents Spec.Interference IsolationLemmas ContentsLemmas

/-- A pointer word whose slice lies where `A` holds -/
def Good (A : BitVec 32 → BitVec 32 → Prop) (v : U256) : Prop :=
  ∃ q : FatPointer, Handed q v ∧ ∀ a : BitVec 32, q.start.toNat ≤ a.toNat → a.toNat < q.start.toNat + q.length.toNat → A q.memoryPage a

/-- The frames above the `d` lowest ones have base pages with `B` and good pointers, and `B` holds of all base pages to come. -/
def Shut (d : Nat) (B : Nat → Prop) (A : BitVec 32 → BitVec 32 → Prop) (W : World) : Prop :=
  (∀ n, W.counter ≤ n → B n) ∧
  ∀ (i : Nat) r, W.rooms[i]? = some r → i + d < W.rooms.length → B r.base ∧ ∀ v ∈ r.pointers, Good A v

theorem good_slice {A : BitVec 32 → BitVec 32 → Prop} {v : U256} {p : FatPointer} {a : BitVec 32} (h : Good A v)
    (hp : Carries v p) (h1 : p.start.toNat ≤ a.toNat) (h2 : a.toNat < p.start.toNat + p.length.toNat) : A p.memoryPage a := by
  obtain ⟨q, hq, hA⟩ := h
  obtain ⟨h3, h4, h5⟩ := (Props.C98_inside q p v hq hp).1
  rw [h3]
  exact hA a (by omega) (by omega)

/-- A word is good if the slice of the pointer it carries lies where `A` holds. -/
theorem good_of {A : BitVec 32 → BitVec 32 → Prop} {q p : FatPointer} {v : U256} (h : Handed q v) (hp : Carries v p)
    (hA : ∀ a : BitVec 32, p.start.toNat ≤ a.toNat → a.toNat < p.start.toNat + p.length.toNat → A p.memoryPage a) : Good A v := by
  have hin := (Props.C98_inside q p v h hp).1
  have hv := ((Props.C44_validate q true).2.2.2.1 ((Props.C98_exact q p v hp).1 h).1).2
  refine ⟨{ p with offset := 0 }, (Props.C98_exact _ p v hp).2 ⟨?_, rfl, Nat.le_refl _, Nat.le_refl _⟩, hA⟩
  refine (Props.C44_validate _ true).2.2.2.2 ⟨fun h => h.2 rfl, ?_⟩
  have := hin.2.2
  dsimp only
  omega

private theorem passes_good {A : BitVec 32 → BitVec 32 → Prop} {r : Room} {abi : U256} {q : FatPointer} {page : Option Nat}
    {ps : List U256} {new : List (Nat × FatPointer)} (h : Passes r abi q page ps new)
    (hf : ∀ p₀ w, page = none → Handed p₀ abi → q.validateAsSlice = true → Carries w (remainder q) → Handed p₀ w)
    (hp : ∀ n, page = some n → ∀ a, A (BitVec.ofNat 32 n) a) (hr : ∀ w ∈ r.pointers, Good A w) : ∀ w ∈ ps, Good A w := by
  cases h with
  | nothing => exact nofun
  | @fresh page w hv hw =>
    intro x hx
    rw [List.mem_singleton.1 hx]
    exact ⟨_, .fresh ((Props.C44_validate { q with memoryPage := BitVec.ofNat 32 page } true).2.2.2.2
      ((Props.C44_validate q true).2.2.2.1 hv)) hw, fun a _ _ => hp page rfl a⟩
  | @forwarded w ha hs hw =>
    intro x hx
    rw [List.mem_singleton.1 hx]
    obtain ⟨p₀, hh, hA⟩ := hr abi ha
    exact ⟨p₀, hf _ _ rfl hh hs hw, hA⟩

private theorem own_pages {b n : Nat} (h : n = heapPage b ∨ n = auxHeapPage b) : n ∈ pagesOf b := by
  rw [mem_pagesOf]
  rw [heapPage_eq, auxHeapPage_eq] at h
  omega

private theorem receive_get {ps : List U256} {rs : List Room} {i : Nat} {r : Room} (h : (receive ps rs)[i]? = some r) :
    (receive ps rs).length = rs.length ∧
      ∃ r', rs[i]? = some r' ∧ r.base = r'.base ∧ ∀ v ∈ r.pointers, v ∈ ps ∨ v ∈ r'.pointers := by
  cases rs with
  | nil => cases h
  | cons x xs =>
    refine ⟨rfl, ?_⟩
    cases i with
    | zero =>
      refine ⟨x, rfl, ?_⟩
      rw [← Option.some.inj h]
      exact ⟨rfl, fun v hv => List.mem_append.1 hv⟩
    | succ i => exact ⟨r, h, rfl, fun v hv => .inr hv⟩

theorem moves_shut {m : Mode} {W X : World} {c : Cycle m} {d : Nat} {B : Nat → Prop} {A : BitVec 32 → BitVec 32 → Prop}
    (h : Moves m W c X) (hd : d < W.rooms.length)
    (hA : ∀ r ∈ W.rooms, B r.base → ∀ page ∈ pagesOf r.base, ∀ a, A (BitVec.ofNat 32 page) a) (hs : Shut d B A W) :
    Shut d B A X := by
  obtain ⟨h1, h2⟩ := hs
  cases h with
  | @proceed s s' c r rs n bs cr ps hs _ _ _ hp =>
    refine ⟨h1, fun i r' hi hl => ?_⟩
    cases i with
    | zero =>
      rw [← Option.some.inj hi]
      obtain ⟨h3, h4⟩ := h2 0 r rfl hl
      refine ⟨h3, fun w hw => ?_⟩
      rcases hp w hw with hw | ⟨v, hv, hm⟩
      · exact h4 w hw
      · obtain ⟨q, hq, hA⟩ := h4 v hv
        exact ⟨q, makes_handed hq hm, hA⟩
    | succ i => exact h2 (i + 1) r' hi hl
  | @nearCall s s' c r rs n bs cr hs ho =>
    refine ⟨h1, fun i r' hi hl => ?_⟩
    cases i with
    | zero => rw [← Option.some.inj hi]; exact h2 0 r rfl (by rw [Nat.zero_add]; exact hd)
    | succ i => exact h2 i r' hi (by simp only [List.length_cons] at hl ⊢; omega)
  | @farCall s s' c r rs n bs cr new k abi dest ps hs ho hc hp =>
    refine ⟨fun x hx => h1 x (Nat.le_trans (Nat.le_add_right _ _) hx), fun i r' hi hl => ?_⟩
    cases i with
    | zero =>
      rw [← Option.some.inj hi]
      obtain ⟨h3, h4⟩ := h2 0 r rfl (by rw [Nat.zero_add]; exact hd)
      refine ⟨h1 n (Nat.le_refl _), passes_good hp (fun p₀ w hn hh hs hw => .farCall hh ?_ hs hw)
        (fun x hx => hA r List.mem_cons_self h3 x (own_pages (farPage_own hx))) h4⟩
      unfold farPage at hn
      split at hn
      · cases hn
      · cases hn
      · assumption
    | succ i => exact h2 i r' hi (by simp only [List.length_cons] at hl ⊢; omega)
  | @farRet f s s' c r rs n bs cr new k ps abi hs ho hk hlc hp =>
    refine ⟨h1, fun i r' hi hl => ?_⟩
    obtain ⟨e, r'', h5, h6, h7⟩ := receive_get hi
    obtain ⟨h8, h9⟩ := h2 (i + 1) r'' h5 (by dsimp only at hl; rw [e] at hl; simp only [List.length_cons]; omega)
    obtain ⟨h3, h4⟩ := h2 0 r rfl (by rw [Nat.zero_add]; exact hd)
    refine ⟨by rw [h6]; exact h8, fun v hv => ?_⟩
    rcases h7 v hv with hv | hv
    · refine passes_good hp (fun p₀ w hn hh hs hw => .ret hh ?_ hs hw)
        (fun x hx => hA r List.mem_cons_self h3 x (own_pages (retPage_own hx))) h4 v hv
      unfold retPage at hn
      split at hn
      · cases hn
      · cases hn
      · assumption
    · exact h9 v hv
  | @nearRet f s s' c r rs n bs cr k hs ho hlc =>
    refine ⟨h1, fun i r' hi hl => ?_⟩
    obtain ⟨e, r'', h5, h6, h7⟩ := receive_get hi
    obtain ⟨h8, h9⟩ := h2 (i + 1) r'' h5 (by dsimp only at hl; rw [e] at hl; simp only [List.length_cons]; omega)
    obtain ⟨h3, h4⟩ := h2 0 r rfl (by rw [Nat.zero_add]; exact hd)
    refine ⟨by rw [h6]; exact h8, fun v hv => ?_⟩
    rcases h7 v hv with hv | hv
    · exact h4 v hv
    · exact h9 v hv
  | @panic s s' c r rs n bs cr hs ho =>
    refine ⟨h1, fun i r' hi hl => ?_⟩
    exact h2 (i + 1) r' hi (by dsimp only at hl; simp only [List.length_cons]; omega)

theorem runs_lives {m : Mode} {S : Type} {M : Runner m S} {k : Nat} {s t : S} {W Y : World} {μ ν : Contents}
    {cs : List (Cycle m)} (h : Runs M k s W μ cs t Y ν) : Lives m W cs Y := by
  induction h with
  | none => exact .none _
  | step _ hs _ ih => exact .step (M.moves hs) ih

/-- A running machine is one whose contents evolve as in `Verif/Spec/Contents.lean`. -/
theorem runs_evolves {m : Mode} {S : Type} {M : Runner m S} {k : Nat} {s t : S} {W Y : World} {μ ν : Contents}
    {cs : List (Cycle m)} (h : Runs M k s W μ cs t Y ν) : Evolves m k W μ cs Y ν := by
  induction h with
  | none => exact .none _ _
  | @step s t W Y μ ν d cs hk hs _ ih =>
    refine .step hk (M.moves hs) (fun page a hn => ?_) ih
    unfold patched at hn
    cases hp : d.patch page a with
    | none => rw [hp] at hn; exact absurd rfl hn
    | some v => exact M.writes hs hp

/-- The base pages handed out afterwards are those of before and the page counter of before. -/
private theorem moves_given {m : Mode} {W X : World} {c : Cycle m} (h : Moves m W c X) :
    ∀ b ∈ X.bases, b = W.counter ∨ b ∈ W.bases := by
  cases h with
  | farCall => exact fun b hb => List.mem_cons.1 hb
  | _ => exact fun b hb => .inr hb

/-- The machine does the same from contents that agree where `A` holds. -/
theorem runs_same {m : Mode} {S : Type} {M : Runner m S} {f : CallFrame} {k : Nat} {B : Nat → Prop}
    {A : BitVec 32 → BitVec 32 → Prop} (he : f.ergs ≤ VM_INITIAL_FRAME_ERGS)
    (hA : ∀ b, B b → b % 8 = 0 → b + 3 < 2 ^ 32 → ∀ page ∈ pagesOf b, ∀ a, A (BitVec.ofNat 32 page) a)
    {s t : S} {W Y : World} {μ₁ ν₁ : Contents} {cs : List (Cycle m)} (h : Runs M k s W μ₁ cs t Y ν₁) :
    ∀ {pre : List (Cycle m)} {μ₂ : Contents}, Lives m (start f) pre W → Shut k B A W →
      (∀ b ∈ BOOTLOADER_BASE_PAGE :: W.bases, ∀ a, A (BitVec.ofNat 32 (codePage b)) a) →
      (∀ c ∈ cs, c.issued.opcode ≠ .log .precompileCall) → (∀ page a, A page a → μ₁ page a = μ₂ page a) →
      ∃ ν₂, Runs M k s W μ₂ cs t Y ν₂ ∧ (∀ page a, A page a → ν₁ page a = ν₂ page a) ∧
        ∀ page a, ν₁ page a = ν₂ page a ∨ (ν₁ page a = μ₁ page a ∧ ν₂ page a = μ₂ page a) := by
  induction h with
  | none s W μ => exact fun {pre μ₂} _ _ _ _ hag => ⟨μ₂, .none _ _ _, hag, fun _ _ => .inr ⟨rfl, rfl⟩⟩
  | @step s t W Y μ₁ ν₁ d cs hk hs _ ih =>
    intro pre μ₂ hl hsh hcode hno hag
    have hlen : W.rooms.length = W.frames.length := lives_lengths hl rfl
    obtain ⟨hi, hlt⟩ := reached he hl
    have hown : ∀ r ∈ W.rooms, B r.base → ∀ page ∈ pagesOf r.base, ∀ a, A (BitVec.ofNat 32 page) a := fun r hr hb => by
      have := page_lt hi.pages (hi.owned r hr)
      exact hA r.base hb this.2 (by omega)
    have hread : ∀ page a, Readable W page a → μ₁ page a = μ₂ page a := by
      intro page a hr
      refine hag page a ?_
      cases hr with
      | @own r rs page a hr hp =>
        exact hown r (by rw [hr]; exact List.mem_cons_self) (hsh.2 0 r (by rw [hr]; rfl) (by omega)).1 page hp a
      | @code b a hb => exact hcode b hb a
      | @slice r rs w p a hr hw hp h1 h2 =>
        exact good_slice ((hsh.2 0 r (by rw [hr]; rfl) (by omega)).2 w hw) hp h1 h2
    have hs₂ := M.reads hs (hno _ List.mem_cons_self) hread
    have hpatch : ∀ page a, patched d.patch μ₁ page a = patched d.patch μ₂ page a ∨
        (patched d.patch μ₁ page a = μ₁ page a ∧ patched d.patch μ₂ page a = μ₂ page a) := by
      intro page a
      unfold patched
      cases d.patch page a with
      | none => exact .inr ⟨rfl, rfl⟩
      | some v => exact .inl rfl
    have hm := M.moves hs
    have hcode' : ∀ b ∈ BOOTLOADER_BASE_PAGE :: d.world.bases, ∀ a, A (BitVec.ofNat 32 (codePage b)) a := by
      intro b hb a
      rcases List.mem_cons.1 hb with rfl | hb'
      · exact hcode _ List.mem_cons_self a
      · rcases moves_given hm b hb' with rfl | hb'
        · have h8 := page_lt (reached he (lives_append hl (.step hm (.none _)))).1.pages hb
          have hlt' := (reached he (lives_append hl (.step hm (.none _)))).2
          exact hA _ (hsh.1 _ (Nat.le_refl _)) h8.2 (by omega) _ (by rw [mem_pagesOf, codePage_eq]; omega) a
        · exact hcode b (List.mem_cons_of_mem _ hb') a
    obtain ⟨ν₂, h1, h2, h3⟩ := ih (μ₂ := patched d.patch μ₂) (lives_append hl (.step hm (.none _)))
      (moves_shut hm (by omega) hown hsh) hcode' (fun c hc => hno c (List.mem_cons_of_mem _ hc)) (fun page a ha => by
        rcases hpatch page a with h | ⟨h4, h5⟩
        · exact h
        · rw [h4, h5]; exact hag page a ha)
    refine ⟨ν₂, .step hk hs₂ h1, h2, fun page a => ?_⟩
    rcases h3 page a with h | ⟨h4, h5⟩
    · exact .inl h
    · rcases hpatch page a with h | ⟨h6, h7⟩
      · rw [h4, h5]; exact .inl h
      · exact .inr ⟨h4.trans h6, h5.trans h7⟩

/-- Where a cycle happens -/
theorem lives_split {m : Mode} {W X : World} {cs : List (Cycle m)} (h : Lives m W cs X) {c : Cycle m} (hc : c ∈ cs) :
    ∃ cs₁ cs₂ Y Z, cs = cs₁ ++ c :: cs₂ ∧ Lives m W cs₁ Y ∧ Moves m Y c Z := by
  induction h with
  | none => cases hc
  | @step W X Y d cs hm _ ih =>
    rcases List.mem_cons.1 hc with rfl | hc
    · exact ⟨[], cs, W, X, rfl, .none _, hm⟩
    · obtain ⟨cs₁, cs₂, Y', Z, h1, h2, h3⟩ := ih hc
      exact ⟨d :: cs₁, cs₂, Y', Z, by rw [h1]; rfl, .step hm h2, h3⟩

/-- Precompile calls are made in the kernel's space only. -/
theorem no_precompile {m : Mode} {f : CallFrame} {pre cs : List (Cycle m)} {W X : World} (h : Lives m (start f) pre W)
    (hl : Lives m W cs X) (hno : ¬ Precompiles W cs) : ∀ c ∈ cs, c.issued.opcode ≠ .log .precompileCall := by
  intro c hc hop
  obtain ⟨cs₁, cs₂, Y, Z, h1, h2, h3⟩ := lives_split hl hc
  obtain ⟨g, rest, h4, h5, _⟩ := Props.C105_kernel m f Y.frames Z.frames (pre ++ cs₁) c (lives_during (lives_append h h2))
    (moves_step h3) (by rw [hop]; rfl)
  exact hno ⟨cs₁, c, cs₂, Y, h1, h2, hop, g, rest, h4, h5⟩

end ZkEvm.InterferenceLemmas
