import Verif.Lemmas.Isolation
/-! A history: the bootloader passes 100 bytes of its heap to a contract, which cuts them down to 64, packs the pointer into an ABI word and
returns it. -/
namespace ZkEvm.IsolationHistory
open Spec Spec.Frames Spec.Isolation FrameLemmas IsolationLemmas PriceLemmas Tables

def boot (e : Nat) : CallFrame := ⟨e, 0x8001, 0x8001, 0, false, false, 1024, 1024⟩
def user (e : Nat) : CallFrame := ⟨e, 0x20000, 0x20000, 0x8001, true, false, 1024, 1024⟩
def callAbi : U256 := ⟨0, 100 * 2 ^ 32 + 64, 0, 50000⟩
def got : U256 := ⟨10 * 2 ^ 32, 100 * 2 ^ 32 + 64, 0, 0⟩
def cut : U256 := ⟨10 * 2 ^ 32, 64 * 2 ^ 32 + 64, 0, 0⟩
def retAbi : U256 := ⟨10 * 2 ^ 32, 64 * 2 ^ 32 + 64, 0, 2 ^ 32⟩
def c₁ : Cycle .production := ⟨1059#64, entry 1059, true, 0, [], some (callAbi, 0x20000)⟩
def c₂ : Cycle .production := ⟨991#64, entry 991, true, 0, [], none⟩
def c₃ : Cycle .production := ⟨943#64, entry 943, true, 0, [], none⟩
def c₄ : Cycle .production := ⟨1069#64, entry 1069, true, 0, [], none⟩

theorem issue (f : CallFrame) (w : BitVec 64) (n p : Nat) (op : Opcode) (hn : w.toNat % 2048 = n)
    (ho : (entry n).opcode = op) (hp : priceOf op = p) (ha : p ≤ f.ergs ∧ isInvalid op = false ∧
      (kernelOnly op = true → f.kernel = true) ∧ (f.isStatic = true → changesState op = false)) :
    Issues .production f w p (entry n) := by
  subst hn; subst ho; subst hp
  exact (issues_of .production f w).1 ha

theorem s₁ : Step .production [boot 80000000] c₁ [user 50000, boot 79949818] := by
  have h := Step.farCall (m := .production) (f := boot 80000000) (f' := boot 79999818) (rest := []) (w := 1059#64)
    (p := 182) (bytes := 0) (v := entry 1059) (k := .normal) (loaded := []) callAbi 0x20000 0 50000
    (issue _ _ 1059 182 (.farCall .normal) rfl (by decide +kernel) rfl (by decide)) (by decide +kernel) (by decide) (by decide)
    (by decide) ⟨1024, 1024, 0, by decide, by decide, by decide, by decide, by decide⟩ (by unfold FarPassed; decide)
  have e : farCallee (boot 80000000) (entry 1059) .normal 0x20000 0 50000 = user 50000 := by decide +kernel
  rw [e] at h
  exact h

theorem shrinks : (entry 991).opcode = .ptr .shrink := by decide +kernel
theorem packs : (entry 943).opcode = .ptr .pack := by decide +kernel
theorem returns : (entry 1069).opcode = .ret .ok := by decide +kernel

theorem s₂ : Step .production [user 50000, boot 79949818] c₂ [user 49994, boot 79949818] :=
  Step.proceed (m := .production) (f := user 50000) (rest := [boot 79949818]) (w := 991#64) (p := 6) (bytes := 0)
    (v := entry 991) (issue _ _ 991 6 (.ptr .shrink) rfl shrinks (by decide) (by decide)) (by rw [shrinks]; nofun)
    (by rw [shrinks]; nofun) (by rw [shrinks]; nofun) (by decide)
    ⟨1024, 1024, 0, by decide, by decide, by decide, by decide, by decide⟩

theorem s₃ : Step .production [user 49994, boot 79949818] c₃ [user 49988, boot 79949818] :=
  Step.proceed (m := .production) (f := user 49994) (rest := [boot 79949818]) (w := 943#64) (p := 6) (bytes := 0)
    (v := entry 943) (issue _ _ 943 6 (.ptr .pack) rfl packs (by decide) (by decide)) (by rw [packs]; nofun)
    (by rw [packs]; nofun) (by rw [packs]; nofun) (by decide)
    ⟨1024, 1024, 0, by decide, by decide, by decide, by decide, by decide⟩

theorem s₄ : Step .production [user 49988, boot 79949818] c₄ [boot 79999801] :=
  Step.ret (m := .production) (f := user 49988) (f' := user 49983) (rest := [boot 79949818]) (w := 1069#64) (p := 5)
    (bytes := 0) (v := entry 1069) (r := .ok) (issue _ _ 1069 5 (.ret .ok) rfl returns rfl (by decide)) returns (by decide)
    (by decide) ⟨1024, 1024, 0, by decide, by decide, by decide, by decide, by decide⟩

def shown : List (Nat × FatPointer) := [(8, ⟨0, 10, 64, 100⟩)]
def w₁ : World := ⟨[user 50000, boot 79949818], [⟨2048, [got]⟩, ⟨8, []⟩], 2056, [2048], shown⟩
def w₂ : World := ⟨[user 49994, boot 79949818], [⟨2048, [got, cut]⟩, ⟨8, []⟩], 2056, [2048], shown⟩
def w₃ : World := ⟨[user 49988, boot 79949818], [⟨2048, [got, cut, retAbi]⟩, ⟨8, []⟩], 2056, [2048], shown⟩
def w₄ : World := ⟨[boot 79999801], [⟨8, [cut]⟩], 2056, [2048], shown⟩

theorem m₁ : Moves .production (start (boot 80000000)) c₁ w₁ :=
  Moves.farCall (m := .production) (r := ⟨BOOTLOADER_BASE_PAGE, []⟩) (rs := []) (n := STARTING_BASE_PAGE) (bs := [])
    (cr := []) (new := shown) (k := .normal) (abi := callAbi) (dest := 0x20000) (ps := [got]) s₁
    (show (entry 1059).opcode = _ by decide +kernel) rfl
    (Passes.fresh (r := ⟨BOOTLOADER_BASE_PAGE, []⟩) (page := 10) (by decide) (by unfold Carries; decide))

theorem m₂ : Moves .production w₁ c₂ w₂ := by
  refine Moves.proceed (m := .production) (r := ⟨2048, [got]⟩) (rs := [⟨8, []⟩]) [got, cut] s₂ ?_ ?_ ?_ ?_
  · rw [show c₂.issued.opcode = _ from shrinks]; nofun
  · rw [show c₂.issued.opcode = _ from shrinks]; nofun
  · rw [show c₂.issued.opcode = _ from shrinks]; nofun
  · intro w hw
    rcases List.mem_cons.1 hw with rfl | hw
    · exact .inl List.mem_cons_self
    · rw [List.mem_singleton.1 hw]
      exact .inr ⟨got, List.mem_cons_self, .shrink (p := ⟨0, 10, 64, 100⟩) ⟨36, 0, 0, 0⟩ 64 (by unfold Carries; decide)
        (by decide) (by decide) (by unfold Carries; decide)⟩

theorem m₃ : Moves .production w₂ c₃ w₃ := by
  refine Moves.proceed (m := .production) (r := ⟨2048, [got, cut]⟩) (rs := [⟨8, []⟩]) [got, cut, retAbi] s₃ ?_ ?_ ?_ ?_
  · rw [show c₃.issued.opcode = _ from packs]; nofun
  · rw [show c₃.issued.opcode = _ from packs]; nofun
  · rw [show c₃.issued.opcode = _ from packs]; nofun
  · intro w hw
    rcases List.mem_cons.1 hw with rfl | hw
    · exact .inl List.mem_cons_self
    rcases List.mem_cons.1 hw with rfl | hw
    · exact .inl (List.mem_cons_of_mem _ List.mem_cons_self)
    · rw [List.mem_singleton.1 hw]
      exact .inr ⟨cut, List.mem_cons_of_mem _ List.mem_cons_self, .pack ⟨0, 0, 0, 2 ^ 32⟩ (by decide) (by decide)⟩

theorem m₄ : Moves .production w₃ c₄ w₄ :=
  Moves.farRet (m := .production) (f := user 49988) (s := [boot 79949818]) (r := ⟨2048, [got, cut, retAbi]⟩)
    (rs := [⟨8, []⟩]) (new := []) (k := .ok) (ps := [cut]) retAbi s₄ returns (by decide) rfl
    (Passes.forwarded (r := ⟨2048, [got, cut, retAbi]⟩) (by decide) (by decide) (by unfold Carries; decide))

theorem called : Lives .production (start (boot 80000000)) [c₁] w₁ := .step m₁ (.none _)

theorem history : Lives .production (start (boot 80000000)) [c₁, c₂, c₃, c₄] w₄ :=
  .step m₁ (.step m₂ (.step m₃ (.step m₄ (.none _))))

/-! Other cycles: the contract writes to its heap, or the bootloader does after or before all that. -/

def c₅ : Cycle .production := ⟨1077#64, entry 1077, true, 0, [], none⟩

theorem writes : (entry 1077).opcode = .uma .heapWrite := by decide +kernel

theorem s₅ (f f' : CallFrame) (rest : List CallFrame) (hp : 13 ≤ f.ergs) (hf : Spends f (f.ergs - 13) f' 0) :
    Step .production (f :: rest) c₅ (f' :: rest) :=
  Step.proceed (m := .production) (f := f) (rest := rest) (w := 1077#64) (p := 13) (bytes := 0)
    (v := entry 1077) (issue _ _ 1077 13 (.uma .heapWrite) rfl writes (by decide)
      ⟨hp, by decide, (nofun), fun _ => by decide⟩) (by rw [writes]; nofun)
    (by rw [writes]; nofun) (by rw [writes]; nofun) hp hf

def w₅ : World := ⟨[user 49987, boot 79949818], [⟨2048, [got]⟩, ⟨8, []⟩], 2056, [2048], shown⟩
def w₆ : World := ⟨[boot 79999788], [⟨8, [cut]⟩], 2056, [2048], shown⟩

theorem m₅ : Moves .production w₁ c₅ w₅ := by
  refine Moves.proceed (m := .production) (r := ⟨2048, [got]⟩) (rs := [⟨8, []⟩]) [got]
    (s₅ (user 50000) (user 49987) _ (by decide) ⟨1024, 1024, 0, by decide, by decide, by decide, by decide, by decide⟩)
    ?_ ?_ ?_ (fun w hw => .inl hw) <;> rw [show c₅.issued.opcode = _ from writes] <;> nofun

theorem m₆ : Moves .production w₄ c₅ w₆ := by
  refine Moves.proceed (m := .production) (r := ⟨8, [cut]⟩) (rs := []) [cut]
    (s₅ (boot 79999801) (boot 79999788) _ (by decide) ⟨1024, 1024, 0, by decide, by decide, by decide, by decide, by decide⟩)
    ?_ ?_ ?_ (fun w hw => .inl hw) <;> rw [show c₅.issued.opcode = _ from writes] <;> nofun

theorem m₀ : Moves .production (start (boot 80000013)) c₅ (start (boot 80000000)) := by
  refine Moves.proceed (m := .production) (r := ⟨BOOTLOADER_BASE_PAGE, []⟩) (rs := []) []
    (s₅ (boot 80000013) (boot 80000000) _ (by decide) ⟨1024, 1024, 0, by decide, by decide, by decide, by decide, by decide⟩)
    ?_ ?_ ?_ (fun w hw => .inl hw) <;> rw [show c₅.issued.opcode = _ from writes] <;> nofun

end ZkEvm.IsolationHistory
