import Verif.Model.Lib
import Verif.Lemmas.Numbering
import Verif.Lemmas.Merge
/-! Evaluation of the table builders: the enumeration is evaluated by the kernel, the version merge goes
through the general lemmas of `Verif.Lemmas.Merge`. -/
namespace ZkEvm
open Spec Numbering

instance instDecEqRes {α : Type} [DecidableEq α] : DecidableEq (Res α)
  | .ok a, .ok b => if h : a = b then isTrue (by rw [h]) else isFalse (by intro h'; cases h'; exact h rfl)
  | .error a, .error b =>
    if h : a = b then isTrue (by rw [h]) else isFalse (by intro h'; cases h'; exact h rfl)
  | .ok _, .error _ => isFalse (by intro h; cases h)
  | .error _, .ok _ => isFalse (by intro h; cases h)

namespace Tables

/-- The assigned prefix of the version-0 table -/
def tableV0 : List OpcodeVariant := (List.range 1085).map entryV0
/-- The assigned prefix of the version-1 table -/
def tableV1 : List OpcodeVariant := (List.range 1093).map entry
/-- Version-1 UMA variants in the order of enumeration -/
def umaV1 : List OpcodeVariant :=
  [.heapRead, .heapWrite, .auxHeapRead, .auxHeapWrite].flatMap (fun o =>
    [RegOrImmFlags.useRegOnly, .useImm16Only].flatMap fun s =>
      [false, true].map fun b => ⟨.uma o, .regOrImm s, .regOnly, ⟨b, false⟩⟩)
  ++ [⟨.uma .fatPointerRead, .regOnly, .regOnly, ⟨false, false⟩⟩,
      ⟨.uma .fatPointerRead, .regOnly, .regOnly, ⟨true, false⟩⟩]
/-- The version-1 variants in the order of enumeration -/
def enumV1 : List OpcodeVariant := (List.range 1075).map entry ++ umaV1

attribute [irreducible] tableV0 tableV1 enumV1

theorem map_range_congr {α : Type} (n : Nat) (f g : Nat → α) (h : ∀ i, i < n → f i = g i) :
    (List.range n).map f = (List.range n).map g :=
  List.map_congr_left fun i hi => h i (List.mem_range.1 hi)

theorem map_range_id (n : Nat) (f : Nat → Nat) (h : ∀ i, i < n → f i = i) :
    (List.range n).map f = List.range n := by
  rw [map_range_congr n f id h, List.map_id]

theorem allVariants_v0 : allVariantsInVersion ⟨0⟩ = .ok tableV0 := by decide +kernel
theorem allVariants_v1 : allVariantsInVersion ⟨1⟩ = .ok enumV1 := by decide +kernel

theorem density_v0 : computeEncodingDensity ⟨0⟩ = .ok 1085 := by decide +kernel
theorem density_v1 : computeEncodingDensity ⟨1⟩ = .ok 1093 := by decide +kernel

theorem length_tableV0 : tableV0.length = 1085 := by unfold tableV0; simp only [List.length_map, List.length_range]
theorem length_tableV1 : tableV1.length = 1093 := by unfold tableV1; simp only [List.length_map, List.length_range]

theorem semKey_entryV0_all : ((List.range 1085).all fun i => decide (semKey (entryV0 i) = entryV0 i)) = true := by
  decide +kernel
theorem semKey_entryV0 {i : Nat} (h : i < 1085) : semKey (entryV0 i) = entryV0 i := by
  simpa using List.all_eq_true.1 semKey_entryV0_all i (List.mem_range.2 h)

theorem semKey_entry_all :
    ((List.range 1085).all fun i => decide (semKey (entry i) = entryV0 i)) = true := by
  decide +kernel
theorem semKey_entry {i : Nat} (h : i < 1085) : semKey (entry i) = entryV0 i := by
  simpa using List.all_eq_true.1 semKey_entry_all i (List.mem_range.2 h)

theorem nodup_keys_v0 : (tableV0.map semKey).Nodup := by
  unfold tableV0
  rw [List.map_map]
  rw [List.nodup_iff_pairwise_ne, List.pairwise_map]
  refine List.Pairwise.imp_of_mem ?_ (List.nodup_iff_pairwise_ne.1 (List.nodup_range (n := 1085)))
  intro a b ha hb hne h
  rw [List.mem_range] at ha hb
  simp only [Function.comp, semKey_entryV0 ha, semKey_entryV0 hb] at h
  exact hne (entryV0_injective ha hb h)

/-- Membership of the table entries in the version-1 enumeration -/
theorem entry_mem_enumV1 {i : Nat} (h : i < 1085) : entry i ∈ enumV1 := by
  unfold enumV1
  by_cases h' : i < 1075
  · exact List.mem_append_left _ (List.mem_map_of_mem (List.mem_range.2 h'))
  · apply List.mem_append_right
    have hall : ((List.range 10).all fun k => decide (entry (k + 1075) ∈ umaV1)) = true := by
      decide +kernel
    have := List.all_eq_true.1 hall (i - 1075) (List.mem_range.2 (by omega))
    rw [show i - 1075 + 1075 = i by omega] at this
    simpa using this

theorem number_keys_enumV1 :
    enumV1.map (number ∘ semKey) = List.range 1075 ++ umaV1.map (number ∘ semKey) := by
  unfold enumV1
  rw [List.map_append, List.map_map]
  rw [map_range_id]
  intro i hi
  simp only [Function.comp, semKey_entry (show i < 1085 by omega)]
  exact number_entryV0 (show i < 1085 by omega)

theorem nodup_keys_enumV1 : (enumV1.map semKey).Nodup := by
  have h : (enumV1.map (number ∘ semKey)).Nodup := by
    rw [number_keys_enumV1, List.nodup_append]
    refine ⟨List.nodup_range, by decide +kernel, ?_⟩
    have hge : (umaV1.all fun v => decide (1075 ≤ number (semKey v))) = true := by decide +kernel
    intro a ha b hb hab
    rw [List.mem_range] at ha
    obtain ⟨v, hv, rfl⟩ := List.mem_map.1 hb
    have := List.all_eq_true.1 hge v hv
    simp only [decide_eq_true_eq] at this
    simp only [Function.comp] at hab
    omega
  rw [← List.map_map] at h
  exact List.Pairwise.of_map number (fun a b hne hab => hne (by rw [hab])) h

/-! General statements about lists given by functions, so that no concrete list is ever unfolded. -/

theorem gen_sanity (n : Nat) (e e0 : Nat → OpcodeVariant) (new : List OpcodeVariant)
    (hmem : ∀ i, i < n → e i ∈ new) (hk : ∀ i, i < n → semKey (e i) = semKey (e0 i)) :
    ∀ o ∈ (List.range n).map e0, ∃ m ∈ new, semKey m = semKey o := by
  intro o ho
  obtain ⟨i, hi, rfl⟩ := List.mem_map.1 ho
  rw [List.mem_range] at hi
  exact ⟨e i, hmem i hi, hk i hi⟩

theorem gen_fst (n : Nat) (e e0 : Nat → OpcodeVariant) (new : List OpcodeVariant)
    (h0 : (((List.range n).map e0).map semKey).Nodup) (hnew : (new.map semKey).Nodup)
    (hmem : ∀ i, i < n → e i ∈ new) (hk : ∀ i, i < n → semKey (e i) = semKey (e0 i)) :
    (findNewLoop ((List.range n).map e0) new).1 = (List.range n).map e := by
  rw [Merge.findNewLoop_fst_nodup _ _ h0, List.map_map]
  apply map_range_congr
  intro i hi
  exact Merge.foldl_replace_nodup _ hnew _ _ (hmem i hi) (hk i hi)

theorem gen_snd (n m : Nat) (hmn : m ≤ n) (e e0 : Nat → OpcodeVariant) (u diff : List OpcodeVariant)
    (hk : ∀ i, i < m → semKey (e i) = semKey (e0 i))
    (hu : u.filter (fun x => !((List.range n).map e0).any fun o => semanticallyEqual x o) = diff) :
    (findNewLoop ((List.range n).map e0) ((List.range m).map e ++ u)).2 = diff := by
  rw [Merge.findNewLoop_diff, List.filter_append, hu]
  rw [show ((List.range m).map e).filter
      (fun x => !((List.range n).map e0).any fun o => semanticallyEqual x o) = [] from ?_, List.nil_append]
  rw [List.filter_eq_nil_iff]
  intro v hv
  obtain ⟨i, hi, rfl⟩ := List.mem_map.1 hv
  rw [List.mem_range] at hi
  simp only [Bool.not_eq_true', Bool.not_eq_false, List.any_eq_true]
  refine ⟨e0 i, List.mem_map_of_mem (List.mem_range.2 (by omega)), ?_⟩
  rw [semanticallyEqual_iff, hk i hi]

theorem gen_findNew_nil (new : List OpcodeVariant) : findNewOpcodes [] new = .ok ([], new) := by
  rw [Merge.findNewOpcodes_ok (by simp)]
  have h2 := Merge.findNewLoop_diff [] new
  have h1 := Merge.findNewLoop_keys [] new
  simp only [List.map_nil, List.map_eq_nil_iff] at h1
  simp only [List.any_nil, Bool.not_false] at h2
  rw [List.filter_eq_self.2 (by simp)] at h2
  cases h : findNewLoop [] new
  rw [h] at h1 h2
  simp_all

theorem gen_merge (n m : Nat) (hmn : m ≤ n) (e e0 : Nat → OpcodeVariant) (u diff : List OpcodeVariant)
    (h0 : (((List.range n).map e0).map semKey).Nodup)
    (hnew : (((List.range m).map e ++ u).map semKey).Nodup)
    (hmem : ∀ i, i < n → e i ∈ (List.range m).map e ++ u)
    (hk : ∀ i, i < n → semKey (e i) = semKey (e0 i))
    (hu : u.filter (fun x => !((List.range n).map e0).any fun o => semanticallyEqual x o) = diff) :
    findNewOpcodes ((List.range n).map e0) ((List.range m).map e ++ u) = .ok ((List.range n).map e, diff) := by
  rw [Merge.findNewOpcodes_ok (gen_sanity n e e0 _ hmem hk)]
  rw [← gen_fst n e e0 _ h0 hnew hmem hk,
    ← gen_snd n m hmn e e0 u diff (fun i hi => hk i (by omega)) hu]

theorem keys_agree {i : Nat} (hi : i < 1085) : semKey (entry i) = semKey (entryV0 i) := by
  rw [semKey_entry hi, semKey_entryV0 hi]

theorem gen_any (n : Nat) (e0 : Nat → OpcodeVariant) (num : OpcodeVariant → Nat) (wf : OpcodeVariant → Bool)
    (hkey : ∀ i, i < n → semKey (e0 i) = e0 i) (hwf : ∀ i, i < n → wf (e0 i) = true)
    (hinv : ∀ v, wf v = true → num v < n ∧ e0 (num v) = v) (u : OpcodeVariant) :
    (((List.range n).map e0).any fun o => semanticallyEqual u o) = wf (semKey u) := by
  rw [Bool.eq_iff_iff, List.any_eq_true]
  constructor
  · rintro ⟨o, ho, he⟩
    obtain ⟨i, hi, rfl⟩ := List.mem_map.1 ho
    rw [List.mem_range] at hi
    rw [semanticallyEqual_iff, hkey i hi] at he
    rw [he]
    exact hwf i hi
  · intro h
    obtain ⟨h1, h2⟩ := hinv _ h
    refine ⟨e0 (num (semKey u)), List.mem_map_of_mem (List.mem_range.2 h1), ?_⟩
    rw [semanticallyEqual_iff, hkey _ h1, h2]

theorem uma_diff : umaV1.filter (fun n => !((List.range 1085).map entryV0).any fun o => semanticallyEqual n o)
    = (List.range 8).map (fun k => entry (1085 + k)) := by
  rw [show (fun n => !((List.range 1085).map entryV0).any fun o => semanticallyEqual n o)
      = (fun n => !WellFormedV0 (semKey n)) from ?_]
  · decide +kernel
  · funext u
    rw [gen_any 1085 entryV0 number WellFormedV0 (fun i hi => semKey_entryV0 hi) (fun i hi => wf_entryV0 hi)
      entryV0_number u]

theorem tableV0_def : tableV0 = (List.range 1085).map entryV0 := by unfold tableV0; rfl
theorem enumV1_def : enumV1 = (List.range 1075).map entry ++ umaV1 := by unfold enumV1; rfl

theorem findNew_v1 : findNewOpcodes tableV0 enumV1
    = .ok ((List.range 1085).map entry, (List.range 8).map (fun k => entry (1085 + k))) := by
  have h0 := nodup_keys_v0
  have h1 := nodup_keys_enumV1
  have h2 := @entry_mem_enumV1
  rw [tableV0_def] at h0 ⊢
  rw [enumV1_def] at h1 h2 ⊢
  exact gen_merge 1085 1075 (by decide) entry entryV0 umaV1 _ h0 h1 (fun i hi => h2 hi)
    (fun i hi => keys_agree hi) uma_diff

theorem map_range_add {α : Type} (a b : Nat) (f : Nat → α) :
    (List.range a).map f ++ (List.range b).map (fun k => f (a + k)) = (List.range (a + b)).map f := by
  rw [List.range_add, List.map_append, List.map_map]
  rfl

theorem tableV1_def : tableV1 = (List.range 1093).map entry := by unfold tableV1; rfl

theorem append_v1 : (List.range 1085).map entry ++ (List.range 8).map (fun k => entry (1085 + k)) = tableV1 := by
  rw [tableV1_def]
  exact map_range_add 1085 8 entry

theorem loop_v0 : synthesizeLoop ⟨0⟩ [] allIsaVersions = .ok tableV0 := by
  unfold allIsaVersions synthesizeLoop
  rw [if_neg (by decide), allVariants_v0]
  simp only [bind, Except.bind]
  rw [gen_findNew_nil]
  simp only [density_v0, List.nil_append, length_tableV0]
  unfold synthesizeLoop
  rw [if_pos (by decide)]
  rfl

theorem gen_loop {v : ISAVersion} (hv : 1 ≤ v.num) (T0 N A B T1 : List OpcodeVariant)
    (h0 : allVariantsInVersion ⟨0⟩ = .ok T0) (d0 : computeEncodingDensity ⟨0⟩ = .ok T0.length)
    (h1 : allVariantsInVersion ⟨1⟩ = .ok N) (hm : findNewOpcodes T0 N = .ok (A, B)) (hab : A ++ B = T1)
    (d1 : computeEncodingDensity ⟨1⟩ = .ok T1.length) :
    synthesizeLoop v [] allIsaVersions = .ok T1 := by
  unfold allIsaVersions synthesizeLoop
  rw [if_neg (by simp [ISAVersion.le]), h0]
  simp only [bind, Except.bind]
  rw [gen_findNew_nil]
  simp only [d0, List.nil_append]
  rw [show rassert (T0.length == T0.length) = .ok () by rw [beq_self_eq_true]; rfl]
  simp only []
  unfold synthesizeLoop
  rw [if_neg (by simp [ISAVersion.le]; omega), h1]
  simp only [bind, Except.bind]
  rw [hm]
  simp only [d1, hab]
  rw [show rassert (T1.length == T1.length) = .ok () by rw [beq_self_eq_true]; rfl]
  simp only []
  unfold synthesizeLoop
  rfl

theorem loop_ge1 {v : ISAVersion} (hv : 1 ≤ v.num) :
    synthesizeLoop v [] allIsaVersions = .ok tableV1 :=
  gen_loop hv tableV0 enumV1 _ _ tableV1 allVariants_v0 (by rw [density_v0, length_tableV0])
    allVariants_v1 findNew_v1 append_v1 (by rw [density_v1, length_tableV1])

theorem allOpcodes_ok : allOpcodes = .ok allOpcodesList := by
  unfold allOpcodes
  rfl

theorem checkNames_ok : checkNames [] allOpcodesList = .ok () := by decide +kernel

/-- The common part of the builders after the size is known -/
def padded (target : Target) (l : List OpcodeVariant) (n : Nat) : Res (List OpcodeVariant) :=
  if n * target.variantSize < 2 ^ (target.usizeBits - 1) then
    if l.length ≤ n then .ok (l ++ List.replicate (n - l.length) invalidVariant) else .error .assertFailed
  else .error .capacityOverflow

/-- The closing part of the builders, for a list that starts with the invalid entry. -/
theorem finishTable_eq (bits : Nat) (l : List OpcodeVariant) (target : Target) (n : Nat)
    (hn : usizeOneShl bits target = .ok n) (h0 : l[0]? = some invalidVariant) :
    finishTable bits l target =
      if l.length ≤ n then .ok (l ++ List.replicate (n - l.length) invalidVariant) else .error .assertFailed := by
  unfold finishTable
  simp only [index, h0, bind, Except.bind]
  rw [show rassert (invalidVariant == INVALID_OPCODE_VARIANT) = .ok () from rfl]
  simp only [hn]
  by_cases hl : l.length ≤ n
  · simp only [hl, decide_true, if_true]
    rw [show rassert true = .ok () from rfl]
    simp only [resizeTo]
    rw [List.take_of_length_le hl]
    rfl
  · simp only [hl, decide_false, if_false]
    rfl

theorem synthesize_gen (bits : Nat) (v : ISAVersion) (target : Target) (l : List OpcodeVariant)
    (hl : synthesizeLoop v [] allIsaVersions = .ok l) (h0 : l[0]? = some invalidVariant) :
    synthesizeOpcodeDecodingTables bits v target = usizeOneShl bits target >>= padded target l := by
  unfold synthesizeOpcodeDecodingTables
  rw [allOpcodes_ok]
  simp only [bind, Except.bind]
  rw [checkNames_ok]
  simp only []
  cases hn : usizeOneShl bits target with
  | error e => rfl
  | ok n =>
    dsimp only
    unfold vecWithCapacity padded
    by_cases hc : n * target.variantSize < 2 ^ (target.usizeBits - 1)
    · rw [if_pos hc, if_pos hc, hl]
      exact finishTable_eq bits l target n hn h0
    · rw [if_neg hc, if_neg hc]

/-- the widths that matter, on a 64-bit debug build -/
theorem synthesize_eq (bits : Nat) (hb : bits < 60) (v : ISAVersion) (l : List OpcodeVariant)
    (hl : synthesizeLoop v [] allIsaVersions = .ok l) (h0 : l[0]? = some invalidVariant) (hlen : l.length ≤ 2 ^ bits) :
    synthesizeOpcodeDecodingTables bits v = .ok (l ++ List.replicate (2 ^ bits - l.length) invalidVariant) := by
  rw [synthesize_gen bits v .debug l hl h0]
  have h64 : usizeOneShl bits .debug = .ok (2 ^ bits) := by
    unfold usizeOneShl
    show (if bits < 64 then _ else _) = _
    rw [if_pos (by omega)]
  rw [h64]
  show padded .debug l (2 ^ bits) = _
  unfold padded
  have : 2 ^ bits * 8 < 2 ^ 63 := by
    have := Nat.pow_le_pow_right (show 2 > 0 by decide) (show bits ≤ 59 by omega)
    omega
  have this' : 2 ^ bits * Target.debug.variantSize < 2 ^ (Target.debug.usizeBits - 1) := this
  rw [if_pos this', if_pos hlen]

theorem map_range_get {α : Type} (n : Nat) (f : Nat → α) (i : Nat) (h : i < n) :
    ((List.range n).map f)[i]? = some (f i) := by
  simp [h]

theorem tableV0_zero : tableV0[0]? = some invalidVariant := by
  rw [tableV0_def, map_range_get _ _ _ (by decide)]
  rfl
theorem tableV1_zero : tableV1[0]? = some invalidVariant := by
  rw [tableV1_def, map_range_get _ _ _ (by decide)]
  rfl

/-- The default opcode table, all 2048 entries -/
def fullTable : List OpcodeVariant := (List.range 2048).map entry

attribute [irreducible] fullTable

theorem fullTable_def : fullTable = (List.range 2048).map entry := by unfold fullTable; rfl

theorem map_range_const {α : Type} (n : Nat) (f : Nat → α) (c : α) (h : ∀ i, i < n → f i = c) :
    (List.range n).map f = List.replicate n c := by
  rw [map_range_congr n f (fun _ => c) h, List.map_const', List.length_range]

theorem pad_eq (n k : Nat) (e : Nat → OpcodeVariant) (h : ∀ i, n ≤ i → e i = invalidVariant) :
    (List.range n).map e ++ List.replicate k invalidVariant = (List.range (n + k)).map e := by
  rw [← map_range_add n k e, map_range_const k (fun i => e (n + i)) invalidVariant (fun i _ => h _ (by omega))]

theorem fullTable_eq : tableV1 ++ List.replicate 955 invalidVariant = fullTable := by
  rw [tableV1_def, fullTable_def]
  exact pad_eq 1093 955 entry fun i hi => entry_unassigned hi

theorem length_fullTable : fullTable.length = 2048 := by
  rw [fullTable_def]; simp only [List.length_map, List.length_range]

theorem OPCODES_TABLE_eq : OPCODES_TABLE = .ok fullTable := by
  unfold OPCODES_TABLE
  rw [synthesize_eq OPCODES_TABLE_WIDTH (by decide) DEFAULT_ISA_VERSION tableV1 (loop_ge1 (by decide)) tableV1_zero
    (by rw [length_tableV1]; decide)]
  simp only [OPCODES_TABLE_WIDTH, length_tableV1]
  simp only [bind, Except.bind, intoArray]
  rw [show (2 ^ 11 - 1093) = 955 from rfl, fullTable_eq, if_pos length_fullTable]

theorem fullTable_get {n : Nat} (h : n < 2048) : fullTable[n]? = some (entry n) := by
  rw [fullTable_def]; exact map_range_get 2048 entry n h

theorem mem_fullTable (v : OpcodeVariant) : v ∈ fullTable ↔ WellFormed v = true := by
  rw [fullTable_def, List.mem_map]
  constructor
  · rintro ⟨n, _, rfl⟩
    by_cases h : n < assigned
    · exact wf_entry h
    · rw [entry_unassigned (Nat.le_of_not_lt h)]; rfl
  · intro h
    obtain ⟨h1, h2⟩ := entry_number v h
    exact ⟨number v, List.mem_range.2 (Nat.lt_trans h1 (by decide)), h2⟩

end Tables
end ZkEvm
