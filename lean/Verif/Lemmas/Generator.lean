import Verif.Model.GeneratorRun
/-! Invariants of generator processes writing the same text to the same file. -/
namespace ZkEvm.GeneratorLemmas
open PriceGenerator

/-- bytes that process `q` is known to have put in place since it truncated the file -/
def written (text : List Byte) : Phase → Nat
  | .writing pos => pos
  | .done => text.length
  | _ => 0

structure Inv (text old : List Byte) (w : World) : Prop where
  bound : ∀ (p pos : Nat), w.procs[p]? = some (.writing pos) → pos ≤ text.length
  fresh : w.created = [] → w.file = old ∧ ∀ (p : Nat) ph, w.procs[p]? = some ph → ph = .start ∨ ph = .failed
  bytes : w.created ≠ [] → w.file.length ≤ text.length ∧
    ∀ (i : Nat) b, w.file[i]? = some b → b = 0 ∨ text[i]? = some b
  last : ∀ q rest, w.created = q :: rest → ∃ ph, w.procs[q]? = some ph ∧
    ∀ i, i < written text ph → w.file[i]? = text[i]?
  known : ∀ (p : Nat) ph, w.procs[p]? = some ph → (ph = .done ∨ ∃ pos, ph = .writing pos) → p ∈ w.created

theorem writeAt_get (file chunk : List Byte) (pos i : Nat) :
    (writeAt file pos chunk)[i]? =
      if i < pos then (if i < file.length then file[i]? else some 0)
      else if i < pos + chunk.length then chunk[i - pos]? else file[i]? := by
  unfold writeAt
  simp only [List.getElem?_append, List.length_append, List.length_take, List.length_replicate,
    List.getElem?_take, List.getElem?_replicate, List.getElem?_drop]
  by_cases h1 : i < pos
  · by_cases h2 : i < file.length
    · have : i < min pos file.length + (pos - file.length) := by omega
      have h3 : i < min pos file.length + (pos - file.length) + chunk.length := by omega
      have h4 : i < min pos file.length := by omega
      simp [h1, h2, this, h3, h4]
    · have : i < min pos file.length + (pos - file.length) := by omega
      have h3 : i < min pos file.length + (pos - file.length) + chunk.length := by omega
      have h4 : ¬ i < min pos file.length := by omega
      have h5 : i - min pos file.length < pos - file.length := by omega
      simp [h1, h2, this, h3, h4, h5]
  · have h2 : min pos file.length + (pos - file.length) = pos := by omega
    rw [h2]
    by_cases h3 : i < pos + chunk.length
    · simp [h1, h3]
    · have h4 : pos + chunk.length + (i - (pos + chunk.length)) = i := by omega
      simp [h1, h3, h4]

theorem chunk_get (text : List Byte) (pos n i : Nat) (h1 : pos ≤ i) (h2 : i < pos + n) :
    ((text.drop pos).take n)[i - pos]? = text[i]? := by
  rw [List.getElem?_take, if_pos (by omega), List.getElem?_drop]
  congr 1; omega

theorem written_le {text old : List Byte} {w : World} (h : Inv text old w) {q : Nat} {ph : Phase}
    (hq : w.procs[q]? = some ph) : written text ph ≤ text.length := by
  cases ph with
  | writing pos => exact h.bound q pos hq
  | start => exact Nat.zero_le _
  | failed => exact Nat.zero_le _
  | done => exact Nat.le_refl _

theorem set_get {procs : List Phase} {p q : Nat} {ph ph' : Phase} (hp : procs[p]? = some ph) :
    (procs.set p ph')[q]? = if q = p then some ph' else procs[q]? := by
  have hlt : p < procs.length := (List.getElem?_eq_some_iff.1 hp).1
  rw [List.getElem?_set]
  by_cases h : p = q
  · subst h; simp [hlt]
  · rw [if_neg h, if_neg (fun h' => h h'.symm)]

theorem Inv.step {text old : List Byte} {w w' : World} (h : Inv text old w) (hs : Acts text w w') :
    Inv text old w' := by
  obtain ⟨p, ph, ph', file', hp, hc⟩ := hs
  -- a step that leaves the file alone and cannot lower what has been written by a live process
  have quiet : ∀ ph'', file' = w.file → (∀ pos, ph'' = .writing pos → pos ≤ text.length) →
      written text ph'' ≤ written text ph → ((ph'' = .done ∨ ∃ pos, ph'' = .writing pos) → p ∈ w.created) →
      (ph'' = .start ∨ ph'' = .failed ∨ p ∈ w.created) →
      Inv text old ⟨file', w.procs.set p ph'', w.created⟩ := by
    intro ph'' hf hb hw hk hfr
    subst hf
    refine ⟨?_, ?_, h.bytes, ?_, ?_⟩
    · intro q pos hq
      dsimp only at hq
      rw [set_get hp] at hq
      by_cases hqp : q = p
      · rw [if_pos hqp] at hq; exact hb pos (Option.some.inj hq)
      · rw [if_neg hqp] at hq; exact h.bound q pos hq
    · intro hcr
      obtain ⟨h1, h2⟩ := h.fresh hcr
      refine ⟨h1, fun q ph2 hq => ?_⟩
      dsimp only at hq hcr
      rw [set_get hp] at hq
      by_cases hqp : q = p
      · rw [if_pos hqp] at hq
        cases Option.some.inj hq
        rcases hfr with hfr | hfr | hfr
        · exact .inl hfr
        · exact .inr hfr
        · rw [hcr] at hfr; cases hfr
      · rw [if_neg hqp] at hq; exact h2 q ph2 hq
    · intro q rest hcr
      obtain ⟨ph2, h1, h2⟩ := h.last q rest hcr
      dsimp only
      rw [set_get hp]
      by_cases hqp : q = p
      · subst hqp
        rw [hp] at h1
        cases Option.some.inj h1
        exact ⟨ph'', if_pos rfl, fun i hi => h2 i (by omega)⟩
      · exact ⟨ph2, by rw [if_neg hqp]; exact h1, h2⟩
    · intro q ph2 hq hl
      dsimp only at hq
      rw [set_get hp] at hq
      by_cases hqp : q = p
      · rw [if_pos hqp] at hq
        cases Option.some.inj hq
        exact hqp ▸ hk hl
      · rw [if_neg hqp] at hq; exact h.known q ph2 hq hl
  cases hc with
  | create =>
    simp only [and_self, if_true]
    refine ⟨?_, fun h => (nomatch h), fun _ => ⟨Nat.zero_le _, fun i b hb => (by simp at hb)⟩, ?_, ?_⟩
    · intro q pos hq
      dsimp only at hq
      rw [set_get hp] at hq
      by_cases hqp : q = p
      · rw [if_pos hqp] at hq; cases Option.some.inj hq; exact Nat.zero_le _
      · rw [if_neg hqp] at hq; exact h.bound q pos hq
    · intro q rest hcr
      cases hcr
      dsimp only
      rw [set_get hp, if_pos rfl]
      exact ⟨_, rfl, fun i hi => absurd hi (Nat.not_lt_zero _)⟩
    · intro q ph2 hq hl
      dsimp only at hq
      rw [set_get hp] at hq
      by_cases hqp : q = p
      · exact hqp ▸ List.mem_cons_self
      · rw [if_neg hqp] at hq; exact List.mem_cons_of_mem _ (h.known q ph2 hq hl)
  | createFails =>
    simp only [reduceCtorEq, and_false, if_false]
    exact quiet .failed rfl (fun _ h => (nomatch h)) (Nat.zero_le _)
      (fun h => by rcases h with h | ⟨_, h⟩ <;> cases h) (.inr (.inl rfl))
  | writeFails pos hlt =>
    simp only [reduceCtorEq, and_false, if_false]
    exact quiet .failed rfl (fun _ h => (nomatch h)) (Nat.zero_le _)
      (fun h => by rcases h with h | ⟨_, h⟩ <;> cases h) (.inr (.inl rfl))
  | finish =>
    simp only [reduceCtorEq, and_false, if_false]
    have hk := h.known p _ hp (.inr ⟨_, rfl⟩)
    exact quiet .done rfl (fun _ h => (nomatch h)) (Nat.le_refl _) (fun _ => hk) (.inr (.inr hk))
  | write _ pos n hn hle =>
    simp only [reduceCtorEq, false_and, if_false]
    have hk := h.known p _ hp (.inr ⟨_, rfl⟩)
    have hne : w.created ≠ [] := fun h0 => by rw [h0] at hk; cases hk
    obtain ⟨hlen, hbytes⟩ := h.bytes hne
    have hcl : ((text.drop pos).take n).length = n := by
      rw [List.length_take, List.length_drop]; omega
    have hget : ∀ i, (writeAt w.file pos ((text.drop pos).take n))[i]? =
        if i < pos then (if i < w.file.length then w.file[i]? else some 0)
        else if i < pos + n then text[i]? else w.file[i]? := by
      intro i
      rw [writeAt_get, hcl]
      by_cases h1 : i < pos
      · rw [if_pos h1, if_pos h1]
      · rw [if_neg h1, if_neg h1]
        by_cases h2 : i < pos + n
        · rw [if_pos h2, if_pos h2, chunk_get text pos n i (by omega) h2]
        · rw [if_neg h2, if_neg h2]
    refine ⟨?_, fun h0 => absurd h0 hne, fun _ => ⟨?_, ?_⟩, ?_, ?_⟩
    · intro q pos' hq
      dsimp only at hq
      rw [set_get hp] at hq
      by_cases hqp : q = p
      · rw [if_pos hqp] at hq; cases Option.some.inj hq; exact hle
      · rw [if_neg hqp] at hq; exact h.bound q pos' hq
    · have : (writeAt w.file pos ((text.drop pos).take n))[text.length]? = none := by
        rw [hget, if_neg (by omega), if_neg (by omega)]
        exact List.getElem?_eq_none hlen
      exact List.getElem?_eq_none_iff.1 this
    · intro i b hb
      rw [hget] at hb
      by_cases h1 : i < pos
      · rw [if_pos h1] at hb
        by_cases h2 : i < w.file.length
        · rw [if_pos h2] at hb; exact hbytes i b hb
        · rw [if_neg h2] at hb; exact .inl (Option.some.inj hb).symm
      · rw [if_neg h1] at hb
        by_cases h2 : i < pos + n
        · rw [if_pos h2] at hb; exact .inr hb
        · rw [if_neg h2] at hb; exact hbytes i b hb
    · intro q rest hcr
      obtain ⟨ph2, h1, h2⟩ := h.last q rest hcr
      have hw2 := written_le h h1
      have hin : ∀ i, i < written text ph2 → (writeAt w.file pos ((text.drop pos).take n))[i]? = text[i]? := by
        intro i hi
        have hfi := h2 i hi
        have hti : i < w.file.length := by
          rw [List.getElem?_eq_getElem (by omega : i < text.length)] at hfi
          exact (List.getElem?_eq_some_iff.1 hfi).1
        rw [hget, if_pos hti, hfi]
        by_cases a : i < pos
        · rw [if_pos a]
        · rw [if_neg a]; by_cases b : i < pos + n
          · rw [if_pos b]
          · rw [if_neg b]
      dsimp only
      rw [set_get hp]
      by_cases hqp : q = p
      · subst hqp
        rw [hp] at h1
        cases Option.some.inj h1
        refine ⟨_, if_pos rfl, fun i hi => ?_⟩
        by_cases a : i < pos
        · exact hin i a
        · have hi' : i < pos + n := hi
          rw [hget, if_neg a, if_pos hi']
      · exact ⟨ph2, by rw [if_neg hqp]; exact h1, hin⟩
    · intro q ph2 hq hl
      dsimp only at hq
      rw [set_get hp] at hq
      by_cases hqp : q = p
      · exact hqp ▸ hk
      · rw [if_neg hqp] at hq; exact h.known q ph2 hq hl

theorem Inv.reaches {text old : List Byte} {n : Nat} {w : World} (h : Reaches text (launch old n) w) :
    Inv text old w := by
  induction h with
  | refl =>
    have hst : ∀ (q : Nat) ph, (launch old n).procs[q]? = some ph → ph = .start := by
      intro q ph hq
      have := List.mem_of_getElem? hq
      exact (List.mem_replicate.1 this).2
    refine ⟨fun p pos hp => (nomatch hst p _ hp), fun _ => ⟨rfl, fun p ph hp => .inl (hst p ph hp)⟩,
      fun h => absurd rfl h, fun q rest h => (nomatch h), fun p ph hp hl => ?_⟩
    cases hst p ph hp
    rcases hl with h | ⟨_, h⟩ <;> cases h
  | step _ hs ih => exact ih.step hs

/-- one generator alone -/
def Alone (text old : List Byte) (w : World) : Prop :=
  ∃ ph, w.procs = [ph] ∧ match ph with
    | .start => w.file = old
    | .writing pos => pos ≤ text.length ∧ w.file = text.take pos
    | .done => w.file = text
    | .failed => w.file = old ∨ w.file <+: text

theorem Alone.reaches {text old : List Byte} {w : World} (h : Reaches text (launch old 1) w) : Alone text old w := by
  induction h with
  | refl => exact ⟨.start, rfl, rfl⟩
  | step _ hs ih =>
    obtain ⟨p, ph, ph', file', hp, hc⟩ := hs
    obtain ⟨ph0, h0, h1⟩ := ih
    rw [h0] at hp
    cases p with
    | succ p => simp at hp
    | zero =>
    cases Option.some.inj hp
    refine ⟨ph', by dsimp only; rw [h0]; rfl, ?_⟩
    cases hc with
    | create => exact ⟨Nat.zero_le _, rfl⟩
    | createFails => exact .inl h1
    | writeFails _ pos hlt => exact .inr (by rw [h1.2]; exact List.take_prefix _ _)
    | finish => dsimp only; rw [h1.2, List.take_length]
    | write _ pos n hn hle =>
      refine ⟨hle, ?_⟩
      dsimp only
      have hcl : ((text.drop pos).take n).length = n := by
        rw [List.length_take, List.length_drop]; omega
      have hd : (text.take pos).drop (pos + ((text.drop pos).take n).length) = [] :=
        List.drop_eq_nil_of_le (by rw [List.length_take, hcl]; omega)
      rw [h1.2, writeAt, hd, List.length_take, Nat.min_eq_left h1.1, Nat.sub_self, List.take_take, Nat.min_self,
        List.replicate_zero, List.append_nil, List.append_nil, ← List.take_add]

end ZkEvm.GeneratorLemmas
