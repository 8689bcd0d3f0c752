import Verif.Sampling.LabelLemmas

/-!
# C06-C10: labeling and imbalance
-/

namespace ModSSC.Sampling
open ModSSC Spec

variable {σ : Type}

/-! ### bridges to the specification vocabulary (helpers) -/

theorem filterMap_getElem {y : List Int} {idx : List Nat} (h : ∀ i ∈ idx, i < y.length) :
    idx.filterMap (fun i => y[i]?) = idx.map (fun i => y.getD i 0) := by
  induction idx with
  | nil => rfl
  | cons i t ih =>
    have hi := h i (by simp)
    rw [List.filterMap_cons, List.map_cons, ih (fun j hj => h j (by simp [hj]))]
    simp [List.getD_eq_getElem?_getD, hi]

theorem classSize_eq_count {y : List Int} {idx : List Nat} (h : ∀ i ∈ idx, i < y.length) (c : Int) :
    classSize y idx c = (idx.map (fun i => y.getD i 0)).count c := by
  rw [classSize_eq h, count_map_eq_countP]

theorem mem_classesOf {y : List Int} {idx : List Nat} (h : ∀ i ∈ idx, i < y.length) (c : Int) :
    c ∈ classesOf y idx ↔ c ∈ idx.map (fun i => y.getD i 0) := by
  rw [classesOf, List.mem_dedup, filterMap_getElem h]

theorem classesOf_nodup (y : List Int) (idx : List Nat) : (classesOf y idx).Nodup :=
  List.nodup_dedup _

theorem classSize_pos {y : List Int} {idx : List Nat} (h : ∀ i ∈ idx, i < y.length) (c : Int) :
    c ∈ classesOf y idx ↔ 0 < classSize y idx c := by
  rw [mem_classesOf h, classSize_eq_count h, List.count_pos_iff]

theorem classes_perm {y : List Int} {idx : List Nat} (h : ∀ i ∈ idx, i < y.length)
    {classes : List Int} (hn : classes.Nodup)
    (hm : ∀ c, c ∈ classes ↔ c ∈ idx.map (fun i => y.getD i 0)) :
    classes.Perm (classesOf y idx) := by
  rw [List.perm_ext_iff_of_nodup hn (classesOf_nodup y idx)]
  intro c; rw [hm, mem_classesOf h]

theorem pyInt_truncated (q : Rat) : IsTruncated q (pyInt q) := by
  unfold pyInt IsTruncated
  constructor
  · intro h
    rw [if_pos h]
    exact ⟨Int.floor_le q, Int.lt_floor_add_one q⟩
  · intro h
    rw [if_neg (by linarith)]
    have h1 : (((-q).floor : Int) : Rat) ≤ -q := Int.floor_le (-q)
    have h2 : -q < (((-q).floor : Int) : Rat) + 1 := Int.lt_floor_add_one (-q)
    push_cast
    constructor <;> linarith

theorem pyInt_nonneg {q : Rat} (h : 0 ≤ q) : 0 ≤ pyInt q := by
  unfold pyInt
  rw [if_pos h]
  exact Int.floor_nonneg.mpr h

/-- Everything about `select_labeled` without fixed indices. -/
theorem selectLabeled_main {R : Rng σ} (hR : R.Lawful) {argsort : List Int → List Nat}
    (hA : IsArgsort argsort) (train : List Nat) (y : List Int) (spec : LabelingSpec) (s : σ)
    (hne : train ≠ []) (hnd : train.Nodup) (hy : ∀ i ∈ train, i < y.length)
    (hfix : spec.fixedIndices = none)
    (hv : spec.mode = .perClass → 0 ≤ spec.value) (target : Int)
    (ht : labelTarget spec train.length (classesOf y train).length = .ok target) :
    ∃ l s', selectLabeled R argsort train y spec s = .ok (l, s') ∧
      StrictlyIncreasing l ∧ (∀ x ∈ l, x ∈ train) ∧
      (l.length : Int) = max target
        (max spec.minPerClass 0 * (numClassesWithAtLeast y train spec.minPerClass : Int)) ∧
      ∀ c ∈ classesOf y train,
        loOf spec.minPerClass (classSize y train c) ≤ (classSize y l c : Int) ∧
        classSize y l c ≤ classSize y train c ∧
        ∃ classes : List Int, classes.Perm (classesOf y train) ∧ ∀ c ∈ classes,
          (classSize y l c : Int) = (allocate argsort spec (classes.map (classSize y train))
            train.length target).getD (classes.idxOf c) 0 := by
  set f : Nat → Int := fun i => y.getD i 0 with hf
  set yT := train.map f with hyT
  obtain ⟨classes, hcn, -, hcm, hcc⟩ := classCounts_spec yT
  have hperm := classes_perm hy hcn hcm
  have hcl : (classCounts yT).length = (classesOf y train).length := by
    rw [hcc, List.length_map]; exact hperm.length_eq
  have e1 : (classCounts yT).map (·.1) = classes := by
    rw [hcc, List.map_map]; exact List.map_id _
  have e2 : (classCounts yT).map (·.2) = classes.map (fun c => yT.count c) := by
    rw [hcc, List.map_map]; rfl
  have hcnt : ∀ c, classSize y train c = yT.count c := fun c => classSize_eq_count hy c
  have hsum : (classes.map (fun c => yT.count c)).sum = train.length := by
    rw [sum_counts yT classes hcn hcm]; simp [hyT]
  have htle : target ≤ (train.length : Int) := by
    unfold labelTarget at ht
    simp only at ht
    split at ht
    · split at ht
      · simp at ht; omega
      · simp at ht
    · simp at ht; omega
    · simp at ht; omega
    · simp at ht
  obtain ⟨al, ab, as⟩ := allocate_spec hA spec (classes.map (fun c => yT.count c)) train.length target
    (by rw [hsum]; exact htle) (fun h => pyInt_nonneg (hv h))
  set per := allocate argsort spec (classes.map (fun c => yT.count c)) train.length target with hper
  have hzip : (classes.zip per).map (·.1) = classes := by
    rw [List.map_fst_zip]; rw [al]; simp
  -- the number of labels drawn from class `c`
  set cnt : Int → Nat := fun c => (per.getD (classes.idxOf c) 0).toNat with hcntdef
  have hpairs : ∀ p ∈ classes.zip per, ∃ j, ∃ hj : j < classes.length, p.1 = classes[j] ∧
      p.2 = per.getD j 0 ∧ classes.idxOf p.1 = j := by
    intro p hp
    obtain ⟨j, hj, rfl⟩ := List.getElem_of_mem hp
    have hj1 : j < classes.length := by simp [List.length_zip] at hj; omega
    have hj2 : j < per.length := by simp [List.length_zip] at hj; omega
    refine ⟨j, hj1, by simp, by simp [List.getD_eq_getElem?_getD, hj2], ?_⟩
    simp only [List.getElem_zip]
    exact List.Nodup.idxOf_getElem hcn j hj1
  have hgetc : ∀ j (hj : j < classes.length),
      (classes.map (fun c => yT.count c)).getD j 0 = yT.count classes[j] := by
    intro j hj
    simp [List.getD_eq_getElem?_getD, hj]
  have hcp : ∀ c, yT.count c = train.countP (fun i => decide (f i = c)) :=
    fun c => count_map_eq_countP train f c
  obtain ⟨parts, s', ed, ok⟩ := drawLoop_spec hR train hnd y (classes.zip per) cnt
    (by rw [hzip]; exact hcn)
    (by
      intro p hp
      obtain ⟨j, hj, h1, h2, h3⟩ := hpairs p hp
      simp only [hcntdef]
      rw [h3, h2])
    (by
      intro p hp
      obtain ⟨j, hj, h1, h2, h3⟩ := hpairs p hp
      have := (ab j (by simpa using hj)).2
      rw [hgetc j hj] at this
      rw [h2, h1, ← hcp]
      exact this) s
  rw [hzip] at ok
  have hlen : (parts.length : Int) = per.sum := by
    have h1 := ok.length_eq hcn
    have h2 : per = (classes.map cnt).map (fun n : Nat => (n : Int)) := by
      apply eq_of_getD (by rw [al]; simp)
      intro j hj
      have hj' : j < classes.length := by rw [al] at hj; simpa using hj
      have h3 : classes.idxOf classes[j] = j := List.Nodup.idxOf_getElem hcn j hj'
      have h4 := (ab j (by simpa using hj')).1
      have h5 : 0 ≤ per.getD j 0 := by
        refine le_trans ?_ h4
        unfold loOf; split <;> omega
      have h6 : ((classes.map cnt).map (fun n : Nat => (n : Int))).getD j 0
          = ((per.getD (classes.idxOf classes[j]) 0).toNat : Int) := by
        simp only [List.getD_eq_getElem?_getD, List.getElem?_map, List.getElem?_eq_getElem hj',
          Option.map_some, Option.getD_some, hcntdef]
      rw [h6, h3]
      omega
    rw [h2, sum_map_natCast, h1]
  have hcard : (classes.map (fun c => yT.count c)).countP (fun (c : Nat) => decide (spec.minPerClass ≤ (c : Int)))
      = numClassesWithAtLeast y train spec.minPerClass := by
    unfold numClassesWithAtLeast
    rw [List.countP_map, ← hperm.countP_eq]
    apply List.countP_congr
    intro c _
    simp only [Function.comp, hcnt]
  refine ⟨npSort parts, s', ?_, npSort_strict ok.nodup, ?_, ?_, ?_⟩
  · unfold selectLabeled
    rw [if_neg hne, hfix]
    simp only [gather_ok hy, bind, Except.bind]
    rw [← hf, ← hyT, hcl, ht]
    simp only
    rw [e1, e2, ← hper, ed]
    simp only
    have hle : parts.length ≤ train.length := by
      have hsub : parts.Subperm train := List.subperm_of_subset ok.nodup (fun x hx => (ok.mem x hx).1)
      exact hsub.length_le
    rw [if_neg (by rw [length_npSort]; omega), if_neg]
    simp only [not_not]
    exact (npSort_perm _).nodup_iff.mpr ok.nodup
  · intro x hx
    exact (ok.mem x (mem_npSort.mp hx)).1
  · rw [length_npSort, hlen, as, hcard]
  · intro c hc
    have hc' : c ∈ classes := hperm.mem_iff.mpr hc
    have hin : ∀ i ∈ npSort parts, i < y.length := fun i hi =>
      hy i (ok.mem i (mem_npSort.mp hi)).1
    rw [classSize_eq hin, (npSort_perm parts).countP_eq, ok.count c hc', hcnt c]
    have hi := List.idxOf_lt_length_of_mem hc'
    have := ab (classes.idxOf c) (by simpa using hi)
    rw [hgetc _ hi, List.getElem_idxOf hi] at this
    have h0 : ∀ n, 0 ≤ loOf spec.minPerClass n := by intro n; unfold loOf; split <;> omega
    have h1 := h0 (yT.count c)
    simp only [hcntdef]
    refine ⟨by omega, by omega, classes, hperm, ?_⟩
    intro d hd
    have e3 : classes.map (classSize y train) = classes.map (fun c => yT.count c) :=
      List.map_congr_left (fun c _ => hcnt c)
    rw [e3, ← hper, classSize_eq hin, (npSort_perm parts).countP_eq, ok.count d hd]
    have hi := List.idxOf_lt_length_of_mem hd
    have := (ab (classes.idxOf d) (by simpa using hi)).1
    have h2 := h0 ((classes.map (fun c => yT.count c)).getD (classes.idxOf d) 0)
    simp only [hcntdef]
    omega

/-! ### C06 -/

theorem drawLoop_mem {R : Rng σ} (hR : R.Lawful) (idx : List Nat) (y : List Int)
    (pairs : List (Int × Int)) (s : σ) (parts : List Nat) (s' : σ)
    (h : drawLoop R idx y pairs s = .ok (parts, s')) : ∀ x ∈ parts, x ∈ idx := by
  induction pairs generalizing s parts s' with
  | nil => simp [drawLoop] at h; simp [h.1]
  | cons p rest ih =>
    obtain ⟨c, n⟩ := p
    unfold drawLoop at h
    simp only at h
    split at h
    · exact ih s parts s' h
    · split at h
      · simp at h
      · rename_i h1 h2
        split at h
        · simp at h
        · rename_i parts0 s2 he
          obtain ⟨rfl, rfl⟩ : _ = parts ∧ s2 = s' := by simpa using h
          intro x hx
          rcases List.mem_append.mp hx with hx | hx
          · have := hR.choice_subperm s (idx.filter (fun i => decide (y.getD i 0 = c))) n.toNat (by omega)
            exact (List.mem_filter.mp (this.subset hx)).1
          · exact ih _ _ _ he x hx

/-- **C06 (subset).** Whatever the specification, a successful `select_labeled` returns a sorted
duplicate-free subset of the training indices. -/
theorem C06_labeled_subset {R : Rng σ} (hR : R.Lawful) {argsort : List Int → List Nat}
    (train : List Nat) (y : List Int) (spec : LabelingSpec) (s : σ) (l : List Nat) (s' : σ)
    (h : selectLabeled R argsort train y spec s = .ok (l, s')) :
    StrictlyIncreasing l ∧ ∀ x ∈ l, x ∈ train := by
  unfold selectLabeled at h
  split at h
  · obtain ⟨rfl, -⟩ : [] = l ∧ s = s' := by simpa using h
    exact ⟨List.Pairwise.nil, by simp⟩
  · split at h
    · split at h
      · simp at h
      · split at h
        · simp at h
        · rename_i fixed _ hall hnd
          obtain ⟨rfl, -⟩ : _ = l ∧ s = s' := by simpa using h
          simp only [List.any_eq_true, decide_eq_true_eq, not_exists, not_and, not_or,
            not_not] at hall
          refine ⟨npSort_strict ?_, ?_⟩
          · refine List.Nodup.map_on ?_ (not_not.mp hnd)
            intro a ha b hb hab
            have := (hall a ha).1
            have := (hall b hb).1
            omega
          · intro x hx
            obtain ⟨i, hi, rfl⟩ := List.mem_map.mp (mem_npSort.mp hx)
            exact (hall i hi).2
    · simp only [bind, Except.bind] at h
      split at h
      · simp at h
      · split at h
        · simp at h
        · split at h
          · simp at h
          · rename_i pr hdraw
            split at h
            · simp at h
            · split at h
              · simp at h
              · rename_i hnd
                obtain ⟨rfl, -⟩ : _ = l ∧ _ = s' := by simpa using h
                refine ⟨pairwise_lt_of_le_nodup (npSort_sorted _) (not_not.mp hnd), ?_⟩
                intro x hx
                exact drawLoop_mem hR train y _ _ pr.1 pr.2 hdraw x (mem_npSort.mp hx)

/-- **C06 (fixed indices).** With `fixed_indices` on a non-empty training set the call succeeds iff
all of them are training indices without repetition, and then it returns exactly them. -/
theorem C06_fixed_indices {R : Rng σ} {argsort : List Int → List Nat}
    (train : List Nat) (hne : train ≠ []) (y : List Int) (spec : LabelingSpec) (fixed : List Int)
    (hf : spec.fixedIndices = some fixed) (s : σ) :
    ((∀ i ∈ fixed, 0 ≤ i ∧ i.toNat ∈ train) ∧ fixed.Nodup →
      ∃ l, selectLabeled R argsort train y spec s = .ok (l, s) ∧ StrictlyIncreasing l ∧
        ∀ x : Nat, x ∈ l ↔ (x : Int) ∈ fixed) ∧
    (¬ ((∀ i ∈ fixed, 0 ≤ i ∧ i.toNat ∈ train) ∧ fixed.Nodup) →
      selectLabeled R argsort train y spec s = .error .validation) := by
  have key : (fixed.any (fun i => decide (i < 0 ∨ i.toNat ∉ train)) = true) ↔
      ¬ (∀ i ∈ fixed, 0 ≤ i ∧ i.toNat ∈ train) := by
    simp only [List.any_eq_true, decide_eq_true_eq, not_forall]
    constructor
    · rintro ⟨i, hi, h⟩
      exact ⟨i, hi, by rcases h with h | h <;> simp [h]⟩
    · rintro ⟨i, hi, h⟩
      refine ⟨i, hi, ?_⟩
      by_contra hc
      simp only [not_or, not_not, Int.not_lt] at hc
      exact h hc
  constructor
  · rintro ⟨hall, hnd⟩
    refine ⟨npSort (fixed.map Int.toNat), ?_, ?_, ?_⟩
    · unfold selectLabeled
      rw [if_neg hne, hf]
      simp only
      rw [if_neg (by rw [key]; simpa using hall), if_neg (by simpa using hnd)]
    · refine npSort_strict (List.Nodup.map_on ?_ hnd)
      intro a ha b hb hab
      have := (hall a ha).1
      have := (hall b hb).1
      omega
    · intro x
      rw [mem_npSort, List.mem_map]
      constructor
      · rintro ⟨i, hi, rfl⟩
        have := (hall i hi).1
        rwa [Int.toNat_of_nonneg this]
      · intro hx
        exact ⟨x, hx, by simp⟩
  · intro hbad
    unfold selectLabeled
    rw [if_neg hne, hf]
    simp only
    by_cases h1 : ∀ i ∈ fixed, 0 ≤ i ∧ i.toNat ∈ train
    · rw [if_neg (by rw [key]; simpa using h1), if_pos]
      intro hnd; exact hbad ⟨h1, hnd⟩
    · rw [if_pos (key.mpr h1)]

/-- The finding recorded with C06: on an *empty* training set invalid `fixed_indices` are accepted
silently. -/
theorem C06_empty_train_ignores_fixed :
    selectLabeled Rng.demo stableArgsort [] [0, 1] { fixedIndices := some [7, 7] } 0 = .ok ([], 0) := by
  decide +kernel

/-- **C06/C07 (total).** Without fixed indices, with one label per sample, a known mode and an
admissible value, `select_labeled` never raises; in particular its own final guards never fire. -/
theorem C06_never_fails {R : Rng σ} (hR : R.Lawful) {argsort : List Int → List Nat}
    (hA : IsArgsort argsort) (train : List Nat) (y : List Int) (spec : LabelingSpec) (s : σ)
    (hnd : train.Nodup) (hy : ∀ i ∈ train, i < y.length) (hfix : spec.fixedIndices = none)
    (hmode : spec.mode ≠ .other) (hfrac : spec.mode = .fraction → 0 < spec.value ∧ spec.value ≤ 1)
    (hper : spec.mode = .perClass → 0 ≤ spec.value) :
    ∃ l s', selectLabeled R argsort train y spec s = .ok (l, s') := by
  by_cases hne : train = []
  · exact ⟨[], s, by simp [selectLabeled, hne]⟩
  · have : ∃ t, labelTarget spec train.length (classesOf y train).length = .ok t := by
      unfold labelTarget
      simp only
      split
      · rename_i h; rw [if_pos (hfrac h)]; exact ⟨_, rfl⟩
      · exact ⟨_, rfl⟩
      · exact ⟨_, rfl⟩
      · rename_i h; exact absurd h hmode
    obtain ⟨t, ht⟩ := this
    obtain ⟨l, s', e, -⟩ := selectLabeled_main hR hA train y spec s hne hnd hy hfix hper t ht
    exact ⟨l, s', e⟩

/-- Non-vacuity for C06-C08: a concrete run. -/
example : (selectLabeled Rng.demo stableArgsort [0,1,2,3,4,5,6,7] [0,0,0,1,1,1,1,2]
    { mode := .count, value := 4 } 0).map (·.1) = .ok [0, 3, 4, 7] := by decide +kernel

/-! ### C07 -/

/-- **C07.** On a non-empty training set the number of labels is
`max (min |train| request) (m * B)` (both non-negative), where the request is the rounded fraction,
the truncated count, or the truncated per-class value times the number of classes; `m` is
`min_per_class` and `B` the number of classes with at least `m` members. -/
theorem C07_exact_label_count {R : Rng σ} (hR : R.Lawful) {argsort : List Int → List Nat}
    (hA : IsArgsort argsort) (train : List Nat) (y : List Int) (spec : LabelingSpec) (s : σ)
    (hne : train ≠ []) (hnd : train.Nodup) (hy : ∀ i ∈ train, i < y.length)
    (hfix : spec.fixedIndices = none) (hper : spec.mode = .perClass → 0 ≤ spec.value)
    (l : List Nat) (s' : σ) (h : selectLabeled R argsort train y spec s = .ok (l, s')) :
    ∃ request : Int,
      (spec.mode = .fraction → IsNearestEven (spec.value * (train.length : Rat)) request) ∧
      (spec.mode = .count → IsTruncated spec.value request) ∧
      (spec.mode = .perClass → ∃ v, IsTruncated spec.value v ∧
        request = v * ((classesOf y train).length : Int)) ∧
      (l.length : Int) = max (max 0 (min (train.length : Int) request))
        (max spec.minPerClass 0 * (numClassesWithAtLeast y train spec.minPerClass : Int)) := by
  have hcl : (classCounts (train.map (fun i => y.getD i 0))).length = (classesOf y train).length := by
    obtain ⟨classes, hcn, -, hcm, hcc⟩ := classCounts_spec (train.map (fun i => y.getD i 0))
    rw [hcc, List.length_map]; exact (classes_perm hy hcn hcm).length_eq
  have main := fun t ht => selectLabeled_main hR hA train y spec s hne hnd hy hfix hper t ht
  have fin : ∀ t, labelTarget spec train.length (classesOf y train).length = .ok t →
      (l.length : Int) = max t
        (max spec.minPerClass 0 * (numClassesWithAtLeast y train spec.minPerClass : Int)) := by
    intro t ht
    obtain ⟨l2, s2, e, -, -, e2, -⟩ := main t ht
    rw [h] at e
    obtain ⟨rfl, -⟩ : l = l2 ∧ s' = s2 := by simpa using e
    exact e2
  cases hm : spec.mode with
  | fraction =>
    by_cases hv : 0 < spec.value ∧ spec.value ≤ 1
    · refine ⟨pyRound (spec.value * (train.length : Rat)), fun _ => pyRound_nearest _, by simp, by simp, ?_⟩
      apply fin
      simp [labelTarget, hm, hv]
    · exfalso
      unfold selectLabeled at h
      rw [if_neg hne, hfix] at h
      simp only [gather_ok hy, bind, Except.bind] at h
      simp [labelTarget, hm, hv] at h
  | count =>
    refine ⟨pyInt spec.value, by simp, fun _ => pyInt_truncated _, by simp, ?_⟩
    apply fin
    simp [labelTarget, hm]
  | perClass =>
    refine ⟨pyInt spec.value * ((classesOf y train).length : Int), by simp, by simp,
      fun _ => ⟨_, pyInt_truncated _, rfl⟩, ?_⟩
    apply fin
    simp [labelTarget, hm]
  | other =>
    exfalso
    unfold selectLabeled at h
    rw [if_neg hne, hfix] at h
    simp only [gather_ok hy, bind, Except.bind] at h
    simp [labelTarget, hm] at h

/-- `min_per_class` really can raise the count above the request (3 classes, request 1). -/
example : (selectLabeled Rng.demo stableArgsort [0,1,2,3,4,5] [0,0,1,1,2,2]
    { mode := .count, value := 1, minPerClass := 1 } 0).map (·.1) = .ok [0, 2, 4] := by decide +kernel

/-! ### C08 -/

/-- **C08.** Every class with at least `min_per_class` members gets at least that many labels, and no
class gets more labels than it has members. -/
theorem C08_min_per_class {R : Rng σ} (hR : R.Lawful) {argsort : List Int → List Nat}
    (hA : IsArgsort argsort) (train : List Nat) (y : List Int) (spec : LabelingSpec) (s : σ)
    (hnd : train.Nodup) (hy : ∀ i ∈ train, i < y.length)
    (hfix : spec.fixedIndices = none) (hper : spec.mode = .perClass → 0 ≤ spec.value)
    (l : List Nat) (s' : σ) (h : selectLabeled R argsort train y spec s = .ok (l, s')) (c : Int)
    (hc : 0 < classSize y train c) :
    (spec.minPerClass ≤ (classSize y train c : Int) → spec.minPerClass ≤ (classSize y l c : Int)) ∧
    classSize y l c ≤ classSize y train c := by
  by_cases hne : train = []
  · subst hne; simp [classSize] at hc
  · have hcl : (classCounts (train.map (fun i => y.getD i 0))).length = (classesOf y train).length := by
      obtain ⟨classes, hcn, -, hcm, hcc⟩ := classCounts_spec (train.map (fun i => y.getD i 0))
      rw [hcc, List.length_map]; exact (classes_perm hy hcn hcm).length_eq
    have : ∃ t, labelTarget spec train.length (classesOf y train).length = .ok t := by
      rcases hlt : labelTarget spec train.length (classesOf y train).length with e | t
      · exfalso
        unfold selectLabeled at h
        rw [if_neg hne, hfix] at h
        simp only [gather_ok hy, bind, Except.bind] at h
        rw [hcl, hlt] at h
        simp at h
      · exact ⟨t, rfl⟩
    obtain ⟨t, ht⟩ := this
    obtain ⟨l2, s2, e, -, -, -, e2⟩ := selectLabeled_main hR hA train y spec s hne hnd hy hfix hper t ht
    rw [h] at e
    obtain ⟨rfl, -⟩ : l = l2 ∧ s' = s2 := by simpa using e
    obtain ⟨b1, b2, -⟩ := e2 c ((classSize_pos hy c).mpr hc)
    refine ⟨fun hm => ?_, b2⟩
    unfold loOf at b1
    rw [if_pos hm] at b1
    omega

/-! ### C09 -/

theorem labelTarget_of_ok {R : Rng σ} {argsort : List Int → List Nat} (train : List Nat)
    (y : List Int) (spec : LabelingSpec) (s : σ)
    (hne : train ≠ []) (hy : ∀ i ∈ train, i < y.length)
    (hfix : spec.fixedIndices = none)
    (l : List Nat) (s' : σ) (h : selectLabeled R argsort train y spec s = .ok (l, s')) :
    ∃ t, labelTarget spec train.length (classesOf y train).length = .ok t := by
  have hcl : (classCounts (train.map (fun i => y.getD i 0))).length = (classesOf y train).length := by
    obtain ⟨classes, hcn, -, hcm, hcc⟩ := classCounts_spec (train.map (fun i => y.getD i 0))
    rw [hcc, List.length_map]; exact (classes_perm hy hcn hcm).length_eq
  rcases hlt : labelTarget spec train.length (classesOf y train).length with e | t
  · exfalso
    unfold selectLabeled at h
    rw [if_neg hne, hfix] at h
    simp only [gather_ok hy, bind, Except.bind] at h
    rw [hcl, hlt] at h
    simp at h
  · exact ⟨t, rfl⟩

/-- If the initial allocation already respects minimum, caps and total, it is the result. -/
theorem allocate_eq_initial {argsort : List Int → List Nat} (spec : LabelingSpec)
    (counts : List Nat) (nTrain : Nat) (target : Int)
    (hsum : (initialAllocation argsort spec counts nTrain target).sum = target)
    (hb : ∀ j, j < counts.length →
      spec.minPerClass ≤ (initialAllocation argsort spec counts nTrain target).getD j 0 ∧
      (initialAllocation argsort spec counts nTrain target).getD j 0 ≤ ((counts.getD j 0 : Nat) : Int)) :
    allocate argsort spec counts nTrain target
      = initialAllocation argsort spec counts nTrain target := by
  have hl := initialAllocation_length argsort spec counts nTrain target
  set per := initialAllocation argsort spec counts nTrain target with hper
  have he : enforceMinCap spec.minPerClass counts per = per := by
    apply eq_of_getD (by rw [enforceMinCap_length _ _ _ hl, hl])
    intro j hj
    rw [enforceMinCap_length _ _ _ hl] at hj
    rw [enforceMinCap_getD _ _ _ hl j hj]
    have := hb j hj
    split <;> omega
  unfold allocate adjustTotal
  rw [← hper, he]
  simp [hsum]

/-- **C09 (balanced, partial).** Full claim: with `strategy='balanced'` the labeled class counts
differ by at most one unless a class is exhausted.  Proved under the extra assumption that no class
is smaller than its share (`t ≤ k * size`) and `min_per_class` does not exceed the share, where `t`
is the target and `k` the number of classes.  Without it the claim is false, see
`C09_balanced_violated`. -/
theorem C09_balanced_partial {R : Rng σ} (hR : R.Lawful) {argsort : List Int → List Nat}
    (hA : IsArgsort argsort) (train : List Nat) (y : List Int) (spec : LabelingSpec) (s : σ)
    (hne : train ≠ []) (hnd : train.Nodup) (hy : ∀ i ∈ train, i < y.length)
    (hfix : spec.fixedIndices = none) (hmode : spec.mode ≠ .perClass)
    (hstrat : spec.strategy = .balanced)
    (l : List Nat) (s' : σ) (h : selectLabeled R argsort train y spec s = .ok (l, s'))
    (t : Int) (ht : labelTarget spec train.length (classesOf y train).length = .ok t) (htpos : 0 < t)
    (hmin : spec.minPerClass * ((classesOf y train).length : Int) ≤ t)
    (hbig : ∀ c ∈ classesOf y train, t ≤ (classesOf y train).length * (classSize y train c : Int))
    (c d : Int) (hc : c ∈ classesOf y train) (hd : d ∈ classesOf y train) :
    classSize y l c ≤ classSize y l d + 1 := by
  obtain ⟨l2, s2, e, -, -, -, e2⟩ := selectLabeled_main hR hA train y spec s hne hnd hy hfix
    (fun h => absurd h hmode) t ht
  rw [h] at e
  obtain ⟨rfl, -⟩ : l = l2 ∧ s' = s2 := by simpa using e
  obtain ⟨-, -, classes, hp, hall⟩ := e2 c hc
  set counts := classes.map (classSize y train) with hcounts
  have hkl : counts.length = (classesOf y train).length := by rw [hcounts, List.length_map, hp.length_eq]
  have hkpos : 0 < counts.length := by
    rw [hkl]; exact List.length_pos_of_mem hc
  have hinit : initialAllocation argsort spec counts train.length t
      = bump (counts.map (fun (_ : Nat) => t / (counts.length : Int)))
          ((argsort (counts.map (fun (c : Nat) => -(c : Int)))).take (t % (counts.length : Int)).toNat) := by
    unfold initialAllocation
    rw [if_neg hmode, if_pos ⟨hstrat, htpos⟩]
  have hposlt : ∀ i ∈ (argsort (counts.map (fun (c : Nat) => -(c : Int)))).take
      (t % (counts.length : Int)).toNat,
      i < (counts.map (fun (_ : Nat) => t / (counts.length : Int))).length := by
    intro i hi
    have := argsort_lt hA _ (List.mem_of_mem_take hi)
    simpa using this
  have hposnd : ((argsort (counts.map (fun (c : Nat) => -(c : Int)))).take
      (t % (counts.length : Int)).toNat).Nodup :=
    (argsort_nodup hA _).sublist (List.take_sublist _ _)
  have hmod0 : 0 ≤ t % (counts.length : Int) := Int.emod_nonneg _ (by omega)
  have hmodlt : t % (counts.length : Int) < counts.length := Int.emod_lt_of_pos _ (by omega)
  have hdm : (counts.length : Int) * (t / (counts.length : Int)) + t % (counts.length : Int) = t :=
    Int.mul_ediv_add_emod _ _
  have hval : ∀ j, j < counts.length →
      (initialAllocation argsort spec counts train.length t).getD j 0
        = t / (counts.length : Int) + (if j ∈ (argsort (counts.map (fun (c : Nat) => -(c : Int)))).take
            (t % (counts.length : Int)).toNat then 1 else 0) := by
    intro j hj
    rw [hinit, bump_getD _ _ hposlt hposnd, getD_map_nat _ _ _ hj]
  have hsum : (initialAllocation argsort spec counts train.length t).sum = t := by
    rw [hinit, bump_sum _ _ hposlt, List.length_take, argsort_length hA]
    simp only [List.map_const', List.sum_replicate, List.length_map, nsmul_eq_mul]
    omega
  have hidx : ∀ c ∈ classes, classes.idxOf c < counts.length := by
    intro c hc; rw [hcounts, List.length_map]; exact List.idxOf_lt_length_of_mem hc
  have halloc := allocate_eq_initial spec counts train.length t hsum (by
    intro j hj
    rw [hval j hj]
    have hjc : j < classes.length := by simpa [hcounts] using hj
    have hsz : counts.getD j 0 = classSize y train classes[j] := by
      simp [hcounts, List.getD_eq_getElem?_getD, hjc]
    have h1 := hbig classes[j] (hp.mem_iff.mp (List.getElem_mem hjc))
    rw [hsz]
    rw [← hkl] at h1 hmin
    generalize (classSize y train classes[j] : Int) = C at *
    have a1 : spec.minPerClass ≤ t / (counts.length : Int) :=
      (Int.le_ediv_iff_mul_le (by omega)).mpr hmin
    have a2 : t / (counts.length : Int) ≤ C := by
      have := Int.ediv_le_ediv (show (0:Int) < counts.length by omega) h1
      rwa [Int.mul_ediv_cancel_left _ (by omega)] at this
    refine ⟨by split <;> omega, ?_⟩
    split
    · rename_i hmem
      have hr : 0 < t % (counts.length : Int) := by
        by_contra hcon
        have : (t % (counts.length : Int)).toNat = 0 := by omega
        rw [this] at hmem
        simp at hmem
      by_contra hcon
      have hCe : t / (counts.length : Int) = C := by omega
      rw [hCe] at hdm
      omega
    · omega)
  have hfinal : ∀ c ∈ classes, t / (counts.length : Int) ≤ (classSize y l c : Int) ∧
      (classSize y l c : Int) ≤ t / (counts.length : Int) + 1 := by
    intro c hc
    rw [hall c hc, halloc, hval _ (hidx c hc)]
    split <;> omega
  have := hfinal c (hp.mem_iff.mpr hc)
  have := hfinal d (hp.mem_iff.mpr hd)
  omega

/-- The hypotheses of `C09_balanced_partial` are satisfiable: 5 labels over classes of size 3 and 4. -/
example : (selectLabeled Rng.demo stableArgsort [0,1,2,3,4,5,6] [0,0,0,1,1,1,1]
    { mode := .count, value := 5, strategy := .balanced } 0).map
      (fun r => (classSize [0,0,0,1,1,1,1] r.1 0, classSize [0,0,0,1,1,1,1] r.1 1)) = .ok (2, 3) := by
  decide +kernel

/-- **C09 violated (balanced).** With class sizes 1, 10, 10 and 9 requested labels, `balanced` gives
1, 5 and 3 labels: the two large classes, neither exhausted, differ by two. -/
theorem C09_balanced_violated :
    ∃ (train : List Nat) (y : List Int) (l : List Nat) (s' : Nat),
      selectLabeled Rng.demo stableArgsort train y
        { mode := .count, value := 9, strategy := .balanced } 0 = .ok (l, s') ∧
      classSize y l 1 = classSize y l 2 + 2 ∧
      classSize y l 1 < classSize y train 1 ∧ classSize y l 2 < classSize y train 2 := by
  refine ⟨List.range 21, 0 :: (List.replicate 10 1 ++ List.replicate 10 2),
    [0, 1, 2, 3, 4, 5, 11, 12, 13], 3, ?_⟩
  decide +kernel

/-- **C09 violated (per_class).** With `per_class` value 2 and class sizes 1 and 5, three samples of
the second class are labeled. -/
theorem C09_per_class_violated :
    ∃ (train : List Nat) (y : List Int) (l : List Nat) (s' : Nat),
      selectLabeled Rng.demo stableArgsort train y { mode := .perClass, value := 2 } 0 = .ok (l, s') ∧
      classSize y l 1 = 3 := by
  refine ⟨List.range 6, [0, 1, 1, 1, 1, 1], [0, 1, 2, 3], 2, ?_⟩
  decide +kernel

/-- **C09 (per_class, partial).** Full claim: `mode='per_class'` never labels more than `value`
samples of one class.  Proved when every class has at least `value` members and
`min_per_class ≤ value`; then every class gets exactly `value`. -/
theorem C09_per_class_partial {R : Rng σ} (hR : R.Lawful) {argsort : List Int → List Nat}
    (hA : IsArgsort argsort) (train : List Nat) (y : List Int) (spec : LabelingSpec) (s : σ)
    (hne : train ≠ []) (hnd : train.Nodup) (hy : ∀ i ∈ train, i < y.length)
    (hfix : spec.fixedIndices = none) (hmode : spec.mode = .perClass)
    (v : Nat) (hval : spec.value = (v : Rat)) (hmin : spec.minPerClass ≤ v)
    (l : List Nat) (s' : σ) (h : selectLabeled R argsort train y spec s = .ok (l, s'))
    (hbig : ∀ c ∈ classesOf y train, v ≤ classSize y train c)
    (c : Int) (hc : c ∈ classesOf y train) : classSize y l c = v := by
  have hv : pyInt spec.value = (v : Int) := by
    unfold pyInt
    rw [hval, if_pos (by exact_mod_cast Nat.zero_le v)]
    exact Int.floor_natCast (R := Rat) v
  obtain ⟨t, ht⟩ := labelTarget_of_ok train y spec s hne hy hfix l s' h
  obtain ⟨l2, s2, e, -, -, -, e2⟩ := selectLabeled_main hR hA train y spec s hne hnd hy hfix
    (fun _ => by rw [hval]; exact_mod_cast Nat.zero_le v) t ht
  rw [h] at e
  obtain ⟨rfl, -⟩ : l = l2 ∧ s' = s2 := by simpa using e
  obtain ⟨-, -, classes, hp, hall⟩ := e2 c hc
  set counts := classes.map (classSize y train) with hcounts
  have hinit : initialAllocation argsort spec counts train.length t = counts.map (fun (_ : Nat) => (v : Int)) := by
    unfold initialAllocation
    rw [if_pos hmode, hv]
  have hkl : counts.length = (classesOf y train).length := by rw [hcounts, List.length_map, hp.length_eq]
  have hcnt : ∀ j, j < counts.length → v ≤ counts.getD j 0 := by
    intro j hj
    have hjc : j < classes.length := by simpa [hcounts] using hj
    have hsz : counts.getD j 0 = classSize y train classes[j] := by
      simp [hcounts, List.getD_eq_getElem?_getD, hjc]
    rw [hsz]
    exact hbig _ (hp.mem_iff.mp (List.getElem_mem hjc))
  have htot : counts.sum = train.length := by
    have h1 : (train.map (fun i => y.getD i 0)).length = train.length := by simp
    rw [← h1, ← sum_counts (train.map (fun i => y.getD i 0)) classes
      (hp.nodup_iff.mpr (classesOf_nodup y train))
      (fun c => by rw [hp.mem_iff, mem_classesOf hy])]
    rw [hcounts]
    congr 1
    exact List.map_congr_left (fun c _ => classSize_eq_count hy c)
  have hle : (v : Int) * (counts.length : Int) ≤ (train.length : Int) := by
    have h2 : (counts.map (fun (_ : Nat) => (v : Int))).sum ≤ (counts.map (fun (c : Nat) => (c : Int))).sum := by
      apply sum_le_of_getD (by simp)
      intro j hj
      have hj' : j < counts.length := by simpa using hj
      rw [getD_map_nat _ _ _ hj', getD_map_nat _ _ _ hj']
      exact_mod_cast hcnt j hj'
    rw [sum_map_natCast, htot] at h2
    simpa [Int.mul_comm] using h2
  have htv : t = (v : Int) * (counts.length : Int) := by
    unfold labelTarget at ht
    simp only [hmode, hv, ← hkl] at ht
    have : t = max 0 (min (train.length : Int) ((v : Int) * (counts.length : Int))) := by
      simpa using ht.symm
    have h3 : 0 ≤ (v : Int) * (counts.length : Int) := by positivity
    omega
  have halloc := allocate_eq_initial (argsort := argsort) spec counts train.length t
    (by rw [hinit, htv]; simp [Int.mul_comm])
    (by
      intro j hj
      rw [hinit, getD_map_nat _ _ _ hj]
      have := hcnt j hj
      omega)
  have hcm := hp.mem_iff.mpr hc
  have := hall c hcm
  rw [halloc, hinit, getD_map_nat _ _ _ (by
    rw [hcounts, List.length_map]; exact List.idxOf_lt_length_of_mem hcm)] at this
  exact_mod_cast this

example : (selectLabeled Rng.demo stableArgsort [0,1,2,3,4,5,6] [0,0,0,1,1,1,1]
    { mode := .perClass, value := 2 } 0).map (·.1) = .ok [0, 1, 3, 4] := by decide +kernel

/-! ### C10 -/

theorem zip_getD_mem {classes : List Int} {q : List Nat} (p : Int × Nat) (hn : classes.Nodup)
    (hp : p ∈ classes.zip q) : p.1 ∈ classes ∧ p.2 = q.getD (classes.idxOf p.1) 0 := by
  obtain ⟨j, hj, rfl⟩ := List.getElem_of_mem hp
  have hj1 : j < classes.length := by simp [List.length_zip] at hj; omega
  have hj2 : j < q.length := by simp [List.length_zip] at hj; omega
  simp only [List.getElem_zip]
  rw [List.Nodup.idxOf_getElem hn j hj1]
  exact ⟨List.getElem_mem _, by simp [List.getD_eq_getElem?_getD, hj2]⟩

/-- **C10 (subset).** Whenever `apply_imbalance` succeeds on duplicate-free indices, it returns a
sorted duplicate-free subset of them. -/
theorem C10_imbalance_subset {R : Rng σ} (hR : R.Lawful) {argsort : List Int → List Nat}
    (idx : List Nat) (hnd : idx.Nodup) (y : List Int) (spec : ImbalanceSpec) (s : σ)
    (out : List Nat) (s' : σ) (h : applyImbalance R argsort idx y spec s = .ok (out, s')) :
    StrictlyIncreasing out ∧ ∀ x ∈ out, x ∈ idx := by
  unfold applyImbalance at h
  split at h
  · obtain ⟨rfl, -⟩ : _ = out ∧ s = s' := by simpa using h
    exact ⟨npSort_strict hnd, fun x hx => mem_npSort.mp hx⟩
  · simp only [bind, Except.bind] at h
    split at h
    · simp at h
    · rename_i ySub _
      split at h
      · split at h
        · simp at h
        · rename_i cap _
          split at h
          · simp at h
          · obtain ⟨rfl, -⟩ : _ = out ∧ _ = s' := by simpa using h
            have ok := subsampleLoop_spec hR idx hnd y ((npUnique ySub).map (fun c => (c, cap.toNat)))
              (fun c => min cap.toNat (idx.countP (fun i => decide (y.getD i 0 = c))))
              (by rw [List.map_map]; simpa [Function.comp_def] using nodup_npUnique ySub)
              (by intro p hp; obtain ⟨c, _, rfl⟩ := List.mem_map.mp hp; rfl) s
            exact ⟨npSort_strict ok.nodup, fun x hx => (ok.mem x (mem_npSort.mp hx)).1⟩
      · split at h
        · simp at h
        · rename_i alpha _
          split at h
          · simp at h
          · obtain ⟨rfl, -⟩ : _ = out ∧ _ = s' := by simpa using h
            set desired := longTailDesired argsort ((npUnique ySub).map (fun c => ySub.count c)) alpha
              spec.minPerClass with hdes
            have ok := subsampleLoop_spec hR idx hnd y ((npUnique ySub).zip desired)
              (fun c => min (desired.getD ((npUnique ySub).idxOf c) 0)
                (idx.countP (fun i => decide (y.getD i 0 = c))))
              (by
                rw [List.map_fst_zip]
                · exact nodup_npUnique ySub
                · simp [hdes, longTailDesired])
              (by
                intro p hp
                rw [(zip_getD_mem p (nodup_npUnique ySub) hp).2]) s
            exact ⟨npSort_strict ok.nodup, fun x hx => (ok.mem x (mem_npSort.mp hx)).1⟩
      · simp at h

/-- **C10 (none).** `kind = none` returns the indices unchanged (sorted). -/
theorem C10_none {R : Rng σ} {argsort : List Int → List Nat} (idx : List Nat) (y : List Int)
    (spec : ImbalanceSpec) (hk : spec.kind = .none) (s : σ) :
    ∃ out, applyImbalance R argsort idx y spec s = .ok (out, s) ∧ out.Perm idx :=
  ⟨npSort idx, by simp [applyImbalance, hk], npSort_perm idx⟩

/-- **C10 (subsample).** `subsample_max_per_class` with cap `k ≥ 1` leaves exactly
`min k (class size)` samples of every class. -/
theorem C10_subsample_cap {R : Rng σ} (hR : R.Lawful) {argsort : List Int → List Nat}
    (idx : List Nat) (hnd : idx.Nodup) (y : List Int) (hy : ∀ i ∈ idx, i < y.length)
    (spec : ImbalanceSpec) (hk : spec.kind = .subsampleMaxPerClass) (cap : Nat) (hcap : 1 ≤ cap)
    (hc : spec.maxPerClass = some (cap : Int)) (s : σ) :
    ∃ out s', applyImbalance R argsort idx y spec s = .ok (out, s') ∧
      ∀ c, classSize y out c = min cap (classSize y idx c) := by
  by_cases hne : idx = []
  · subst hne
    exact ⟨[], s, by simp [applyImbalance, npSort], by simp [classSize]⟩
  · set ySub := idx.map (fun i => y.getD i 0) with hys
    have ok := subsampleLoop_spec hR idx hnd y ((npUnique ySub).map (fun c => (c, cap)))
      (fun c => min cap (idx.countP (fun i => decide (y.getD i 0 = c))))
      (by rw [List.map_map]; simpa [Function.comp_def] using nodup_npUnique ySub)
      (by intro p hp; obtain ⟨c, _, rfl⟩ := List.mem_map.mp hp; rfl) s
    have hcl : ((npUnique ySub).map (fun c => (c, cap))).map (·.1) = npUnique ySub := by
      rw [List.map_map]; simp [Function.comp_def]
    rw [hcl] at ok
    refine ⟨npSort (subsampleLoop R idx y ((npUnique ySub).map (fun c => (c, cap))) s).1,
      (subsampleLoop R idx y ((npUnique ySub).map (fun c => (c, cap))) s).2, ?_, ?_⟩
    · unfold applyImbalance
      rw [if_neg (by simp [hk, hne]), gather_ok hy]
      simp only [bind, Except.bind, hk, hc]
      rw [if_neg (by omega), ← hys]
      simp only [Int.toNat_natCast]
    · intro c
      rw [classSize_eq (fun i hi => hy i (ok.mem i (mem_npSort.mp hi)).1),
        (npSort_perm _).countP_eq, classSize_eq hy]
      by_cases hcm : c ∈ npUnique ySub
      · exact ok.count c hcm
      · rw [ok.count0 c hcm]
        have : idx.countP (fun i => decide (y.getD i 0 = c)) = 0 := by
          rw [← count_map_eq_countP]
          exact List.count_eq_zero.mpr (fun h => hcm (mem_npUnique.mpr h))
        omega

example : (applyImbalance Rng.demo stableArgsort [0,1,2,3,4,5] [0,0,0,0,1,1]
    { kind := .subsampleMaxPerClass, maxPerClass := some 3 } 0).map (·.1) = .ok [0, 1, 2, 4, 5] := by
  decide +kernel

/-- **C10 (rejections).** Missing or non-positive caps, missing or out-of-range `alpha`, and unknown
kinds are errors on non-empty input. -/
theorem C10_rejects {R : Rng σ} {argsort : List Int → List Nat} (idx : List Nat) (y : List Int)
    (hy : ∀ i ∈ idx, i < y.length) (hne : idx ≠ []) (spec : ImbalanceSpec) (s : σ)
    (h : (spec.kind = .subsampleMaxPerClass ∧ ∀ k, spec.maxPerClass = some k → k < 1) ∨
      (spec.kind = .longTail ∧ ∀ a, spec.alpha = some a → a ≤ 0 ∨ 1 ≤ a) ∨ spec.kind = .other) :
    applyImbalance R argsort idx y spec s = .error .valueError := by
  unfold applyImbalance
  rcases h with ⟨hk, h⟩ | ⟨hk, h⟩ | hk
  · rw [if_neg (by simp [hk, hne]), gather_ok hy]
    simp only [bind, Except.bind, hk]
    split
    · rfl
    · rename_i k hk2
      rw [if_pos (h k hk2)]
  · rw [if_neg (by simp [hk, hne]), gather_ok hy]
    simp only [bind, Except.bind, hk]
    split
    · rfl
    · rename_i a ha
      rw [if_pos]
      have := h a ha
      rintro ⟨h1, h2⟩
      rcases this with h | h
      · exact absurd h1 (not_lt.mpr h)
      · exact absurd h2 (not_lt.mpr h)
  · rw [if_neg (by simp [hk, hne]), gather_ok hy]
    simp only [bind, Except.bind, hk]

theorem longTailDesired_getD {argsort : List Int → List Nat} (counts : List Nat) (alpha : Rat)
    (m : Int) (j : Nat) (hj : j < counts.length) :
    (longTailDesired argsort counts alpha m).getD j 0
      = (min (max (pyRound ((counts.getD ((argsort (counts.map (fun (c : Nat) => -(c : Int)))).headD 0) 0
            : Rat) * alpha ^ ((argsort (counts.map (fun (c : Nat) => -(c : Int)))).idxOf j))) m)
          (counts.getD j 0 : Int)).toNat := by
  simp only [longTailDesired]
  rw [List.getD_eq_getElem?_getD, List.getElem?_map, List.getElem?_range hj]
  rfl

/-- **C10 (long tail).** `long_tail` with `0 < alpha < 1` ranks the classes by decreasing size and
leaves `min(size, max(min_per_class, round(max_size * alpha^rank)))` samples of each; hence every
class keeps at least one sample when `min_per_class ≥ 1`. -/
theorem C10_long_tail {R : Rng σ} (hR : R.Lawful) {argsort : List Int → List Nat}
    (hA : IsArgsort argsort) (idx : List Nat) (hne : idx ≠ []) (hnd : idx.Nodup) (y : List Int)
    (hy : ∀ i ∈ idx, i < y.length) (spec : ImbalanceSpec) (hk : spec.kind = .longTail) (alpha : Rat)
    (ha : spec.alpha = some alpha) (ha0 : 0 < alpha) (ha1 : alpha < 1) (s : σ) :
    ∃ out s' rank top, applyImbalance R argsort idx y spec s = .ok (out, s') ∧
      IsFrequencyRank y idx rank ∧
      (∃ c ∈ classesOf y idx, classSize y idx c = top) ∧
      (∀ c ∈ classesOf y idx, classSize y idx c ≤ top) ∧
      ∀ c ∈ classesOf y idx, ∃ want : Int, IsNearestEven ((top : Rat) * alpha ^ rank c) want ∧
        (classSize y out c : Int)
          = min (classSize y idx c : Int) (max spec.minPerClass want) := by
  set ySub := idx.map (fun i => y.getD i 0) with hys
  set classes := npUnique ySub with hcls
  have hcn : classes.Nodup := nodup_npUnique ySub
  have hcm : ∀ c, c ∈ classes ↔ c ∈ classesOf y idx := fun c => by
    rw [hcls, mem_npUnique, mem_classesOf hy]
  set counts := classes.map (fun c => ySub.count c) with hcounts
  have hclen : counts.length = classes.length := by simp [hcounts]
  set order := argsort (counts.map (fun (c : Nat) => -(c : Int))) with horder
  have hop : order.Perm (List.range counts.length) := by
    have := (hA (counts.map (fun (c : Nat) => -(c : Int)))).1
    simpa using this
  have hos := (hA (counts.map (fun (c : Nat) => -(c : Int)))).2
  rw [← horder] at hos
  have hond : order.Nodup := hop.nodup_iff.mpr List.nodup_range
  have holen : order.length = counts.length := by simpa using hop.length_eq
  have hclpos : 0 < classes.length := by
    obtain ⟨i, hi⟩ := List.exists_mem_of_ne_nil idx hne
    have : y.getD i 0 ∈ classes := by
      rw [hcls, mem_npUnique]; exact List.mem_map.mpr ⟨i, hi, rfl⟩
    exact List.length_pos_of_mem this
  have hcount : ∀ j (hj : j < classes.length), counts.getD j 0 = classSize y idx classes[j] := by
    intro j hj
    simp [hcounts, List.getD_eq_getElem?_getD, hj, classSize_eq_count hy, hys]
  have hcountc : ∀ c ∈ classes, counts.getD (classes.idxOf c) 0 = classSize y idx c := by
    intro c hc
    have hi := List.idxOf_lt_length_of_mem hc
    rw [hcount _ hi, List.getElem_idxOf hi]
  set rank : Int → Nat := fun c => order.idxOf (classes.idxOf c) with hrank
  have hmemo : ∀ c ∈ classes, classes.idxOf c ∈ order := by
    intro c hc
    rw [hop.mem_iff, List.mem_range, hclen]
    exact List.idxOf_lt_length_of_mem hc
  -- comparing positions in `order` compares counts
  have hcmp : ∀ a b (ha : a < order.length) (hb : b < order.length), a < b →
      counts.getD order[b] 0 ≤ counts.getD order[a] 0 := by
    intro a b ha hb hab
    have := List.pairwise_iff_getElem.mp hos a b ha hb hab
    have ma : order[a] < counts.length := by
      have := hop.mem_iff.mp (List.getElem_mem ha); simpa using this
    have mb : order[b] < counts.length := by
      have := hop.mem_iff.mp (List.getElem_mem hb); simpa using this
    rw [getD_map_nat _ _ _ ma, getD_map_nat _ _ _ mb] at this
    omega
  set top := counts.getD (order.headD 0) 0 with htop
  have hhead : order.headD 0 = order[0]'(by omega) := by
    have h0 : 0 < order.length := by omega
    rw [List.headD_eq_head?_getD, List.head?_eq_getElem?, List.getElem?_eq_getElem h0]
    rfl
  have hh0 : order[0]'(by omega) < classes.length := by
    have := hop.mem_iff.mp (List.getElem_mem (show 0 < order.length by omega))
    rw [List.mem_range] at this; omega
  set desired := longTailDesired argsort counts alpha spec.minPerClass with hdes
  have hdl : desired.length = classes.length := by simp [hdes, longTailDesired, hclen]
  have hzip : (classes.zip desired).map (·.1) = classes := by
    rw [List.map_fst_zip]; omega
  have ok := subsampleLoop_spec hR idx hnd y (classes.zip desired)
    (fun c => min (desired.getD (classes.idxOf c) 0)
      (idx.countP (fun i => decide (y.getD i 0 = c))))
    (by rw [hzip]; exact hcn)
    (by intro p hp; rw [(zip_getD_mem p hcn hp).2]) s
  rw [hzip] at ok
  refine ⟨npSort (subsampleLoop R idx y (classes.zip desired) s).1,
    (subsampleLoop R idx y (classes.zip desired) s).2, rank, top, ?_, ⟨?_, ?_, ?_⟩, ?_, ?_, ?_⟩
  · unfold applyImbalance
    rw [if_neg (by simp [hk, hne]), gather_ok hy]
    simp only [bind, Except.bind, hk, ha]
    rw [if_neg (by simp [ha0, ha1]), ← hys, ← hcls, ← hcounts, ← hdes]
  · intro c hc d hd h
    have h1 := hmemo c ((hcm c).mpr hc)
    have h2 := hmemo d ((hcm d).mpr hd)
    simp only [hrank] at h
    have h3 := (List.idxOf_inj h1).mp h
    exact (List.idxOf_inj ((hcm c).mpr hc)).mp h3
  · intro c hc
    have h1 := List.idxOf_lt_length_of_mem (hmemo c ((hcm c).mpr hc))
    have hp : classes.length = (classesOf y idx).length := by
      have : classes.Perm (classesOf y idx) := by
        rw [List.perm_ext_iff_of_nodup hcn (classesOf_nodup y idx)]; exact hcm
      exact this.length_eq
    simp only [hrank]; omega
  · intro c hc d hd h
    have h1 := hmemo c ((hcm c).mpr hc)
    have h2 := hmemo d ((hcm d).mpr hd)
    have := hcmp _ _ (List.idxOf_lt_length_of_mem h1) (List.idxOf_lt_length_of_mem h2) h
    rw [List.getElem_idxOf, List.getElem_idxOf, hcountc c ((hcm c).mpr hc),
      hcountc d ((hcm d).mpr hd)] at this
    exact this
  · refine ⟨classes[order[0]'(by omega)], (hcm _).mp (List.getElem_mem _), ?_⟩
    rw [htop, hhead, hcount _ hh0]
  · intro c hc
    have h1 := hmemo c ((hcm c).mpr hc)
    rw [← hcountc c ((hcm c).mpr hc), htop, hhead]
    have hi := List.idxOf_lt_length_of_mem h1
    rcases Nat.eq_zero_or_pos (order.idxOf (classes.idxOf c)) with h0 | h0
    · have : order[0]'(by omega) = classes.idxOf c := by
        have := List.getElem_idxOf hi
        simp only [h0] at this
        exact this
      rw [this]
    · have := hcmp 0 _ (by omega) hi h0
      rwa [List.getElem_idxOf] at this
  · intro c hc
    have hcc := (hcm c).mpr hc
    refine ⟨pyRound ((top : Rat) * alpha ^ rank c), pyRound_nearest _, ?_⟩
    rw [classSize_eq (fun i hi => hy i (ok.mem i (mem_npSort.mp hi)).1),
      (npSort_perm _).countP_eq, ok.count c hcc, ← classSize_eq hy]
    have hi : classes.idxOf c < counts.length := by
      rw [hclen]; exact List.idxOf_lt_length_of_mem hcc
    rw [hdes, longTailDesired_getD _ _ _ _ hi, ← horder, ← htop, hcountc c hcc]
    have hpos : 0 ≤ pyRound ((top : Rat) * alpha ^ rank c) := by
      have hq : (0 : Rat) ≤ (top : Rat) * alpha ^ rank c := by positivity
      obtain ⟨-, h2, -⟩ := pyRound_nearest ((top : Rat) * alpha ^ rank c)
      have h3 : (-1 : Rat) < (pyRound ((top : Rat) * alpha ^ rank c) : Rat) := by linarith
      have : (-1 : Int) < pyRound ((top : Rat) * alpha ^ rank c) := by exact_mod_cast h3
      omega
    simp only [hrank] at hpos ⊢
    omega

/-- A concrete long tail: sizes 6, 4, 2 with alpha = 1/2 become 6, 3, 2. -/
example : (applyImbalance Rng.demo stableArgsort (List.range 12) [0,0,0,0,0,0,1,1,1,1,2,2]
    { kind := .longTail, alpha := some (1/2) } 0).map
      (fun r => [0, 1, 2].map (classSize [0,0,0,0,0,0,1,1,1,1,2,2] r.1)) = .ok [6, 3, 2] := by
  decide +kernel

end ModSSC.Sampling
