import Verif.Bench.ProtoSpec
import Verif.Bench.SliceProps
import Verif.Evaluation.Props
import Verif.Transductive.PropModel
import Verif.ListLemmas

/-!
# What a benchmarked method is given and what is measured (C124 to C127)
-/

namespace ModSSC.Bench
open ModSSC ModSSC.Bench.Spec

/-! ### Helpers -/

theorem rows_of_forall₂ {β : Type} {rows out : List β} {idx : List Nat}
    (h : List.Forall₂ (fun i r => rows[i]? = some r) idx out) : IsRows rows idx out := by
  induction h with
  | nil => exact ⟨rfl, fun j i h => by simp at h⟩
  | cons h _ ih =>
    refine ⟨by simp [ih.1], fun j i hj => ?_⟩
    cases j with
    | zero =>
      simp only [List.getElem?_cons_zero, Option.some.injEq] at hj
      subst hj
      exact ⟨_, h, by simp⟩
    | succ j =>
      simp only [List.getElem?_cons_succ] at hj ⊢
      exact ih.2 j i hj

theorem takeRows_isRows {β : Type} {rows out : List β} {idx : List Nat} (h : takeRows rows idx = .ok out) :
    IsRows rows idx out := rows_of_forall₂ (takeRows_ok.mp h)

theorem takeRows_total {β : Type} {rows : List β} {idx : List Nat} (h : ∀ i ∈ idx, i < rows.length) :
    ∃ out, takeRows rows idx = .ok out := by
  unfold takeRows
  refine mapM_total (fun i hi => ?_)
  rw [List.getElem?_eq_getElem (h i hi)]
  exact ⟨_, rfl⟩

theorem takeRows_lt {β : Type} {rows out : List β} {idx : List Nat} (h : takeRows rows idx = .ok out) :
    ∀ i ∈ idx, i < rows.length := by
  intro i hi
  obtain ⟨j, hj, hji⟩ := List.getElem_of_mem hi
  obtain ⟨r, h1, -⟩ := (takeRows_isRows h).2 j i (by rw [List.getElem?_eq_getElem hj, hji])
  by_contra hc
  rw [List.getElem?_eq_none (by omega)] at h1
  simp at h1

theorem takeRows_congr {β : Type} {rows rows' : List β} {idx : List Nat} (h : ∀ i ∈ idx, rows[i]? = rows'[i]?) :
    takeRows rows idx = takeRows rows' idx := by
  induction idx with
  | nil => rfl
  | cons i idx ih =>
    unfold takeRows at ih ⊢
    rw [List.mapM_cons, List.mapM_cons, h i List.mem_cons_self, ih (fun i hi => h i (List.mem_cons_of_mem _ hi))]

theorem foldl_max_lt {idx : List Nat} {a b : Int} :
    idx.foldl (fun (m : Int) (i : Nat) => max m (i : Int)) a < b ↔ a < b ∧ ∀ i ∈ idx, (i : Int) < b := by
  induction idx generalizing a with
  | nil => simp
  | cons i idx ih =>
    rw [List.foldl_cons, ih, max_lt_iff, List.forall_mem_cons]
    tauto

theorem idxMax_lt {idx : List Nat} {n : Nat} : idxMax idx < (n : Int) ↔ ∀ i ∈ idx, i < n := by
  unfold idxMax
  rw [foldl_max_lt]
  constructor
  · rintro ⟨-, h⟩ i hi
    have := h i hi
    omega
  · intro h
    exact ⟨by omega, fun i hi => by have := h i hi; omega⟩

theorem getKey_ok {β : Type} {l : List (String × β)} {k : String} {v : β} :
    getKey l k = .ok v ↔ Assoc.get l k = some v := by
  unfold getKey
  cases Assoc.get l k <;> simp

theorem labels_rows {strict : Bool} {α : Type} {pre : Prepared α} {idx : List Nat} {yl : List Int}
    (hy : ∀ i ∈ idx, i < pre.train.y.length) (hl : ∀ l, pre.trainLabels = some l → ∀ i ∈ idx, i < l.length)
    (h : labelsFor strict pre.trainLabels pre.train.y idx = .ok yl) :
    yl.length = idx.length ∧ ∀ j i : Nat, idx[j]? = some i → ∃ c, trainLabel pre i = some c ∧ yl[j]? = some c := by
  unfold labelsFor at h
  unfold trainLabel
  cases hp : pre.trainLabels with
  | none =>
    simp only [hp] at h ⊢
    unfold sliceOrAll at h
    rw [if_pos (idxMax_lt.mpr (by simpa using hy))] at h
    have h1 := takeRows_isRows h
    simpa only [IsRows, List.getElem?_map] using h1
  | some l =>
    simp only [hp] at h ⊢
    have hl' := idxMax_lt.mpr (hl l hp)
    rw [if_neg (by omega)] at h
    unfold sliceOrAll at h
    rw [if_pos hl'] at h
    exact takeRows_isRows h

theorem labels_total {strict : Bool} {labels : Option (List Int)} {y : List (Option Int)} {idx : List Nat}
    (hy : ∀ i ∈ idx, i < y.length) (hl : ∀ l, labels = some l → ∀ i ∈ idx, i < l.length) :
    ∃ yl, labelsFor strict labels y idx = .ok yl := by
  unfold labelsFor sliceOrAll
  cases labels with
  | none =>
    simp only
    rw [if_pos (idxMax_lt.mpr (by simpa using hy))]
    exact takeRows_total (by simpa using hy)
  | some l =>
    have hl' := idxMax_lt.mpr (hl l rfl)
    simp only
    rw [if_neg (by omega), if_pos hl']
    exact takeRows_total (hl l rfl)

theorem sliceOrAll_congr {l l' : List Int} {idx : List Nat} (h : AgreeAt idx l l') (hc : ∀ i ∈ idx, i < l.length) :
    sliceOrAll l idx = sliceOrAll l' idx := by
  unfold sliceOrAll
  rw [if_pos (idxMax_lt.mpr hc), if_pos (idxMax_lt.mpr (by rw [← h.1]; exact hc))]
  exact takeRows_congr h.2

/-- The labels handed to a method do not depend on labels outside the labeled positions. -/
theorem labels_congr {strict : Bool} {labels labels' : Option (List Int)} {y y' : List (Option Int)}
    {idx : List Nat} (hc : ∀ i ∈ idx, i < y.length) (hy : AgreeAt idx y y') (hl : AgreeAt? idx labels labels') :
    labelsFor strict labels y idx = labelsFor strict labels' y' idx := by
  have hraw : AgreeAt idx (y.map (fun v => v.getD (-1))) (y'.map (fun v => v.getD (-1))) := by
    refine ⟨by simpa using hy.1, fun i hi => ?_⟩
    rw [List.getElem?_map, List.getElem?_map, hy.2 i hi]
  have h1 := sliceOrAll_congr hraw (by simpa using hc)
  unfold labelsFor
  cases labels with
  | none =>
    cases labels' with
    | none => exact h1
    | some l' => exact hl.elim
  | some l =>
    cases labels' with
    | none => exact hl.elim
    | some l' =>
      have hl : AgreeAt idx l l' := hl
      simp only
      rw [hl.1, h1]
      by_cases h : 0 ≤ idxMax idx ∧ (l'.length : Int) ≤ idxMax idx
      · rw [if_pos h, if_pos h]
      · rw [if_neg h, if_neg h]
        by_cases h2 : idx = []
        · subst h2
          exact sliceOrAll_congr hl (by simp)
        · refine sliceOrAll_congr hl (idxMax_lt.mp ?_)
          rw [hl.1]
          have h3 : ¬ idxMax idx < 0 := by
            intro hh
            obtain ⟨i, hi⟩ := List.exists_mem_of_ne_nil _ h2
            have := idxMax_lt (n := 0) |>.mp (by simpa using hh) i hi
            omega
          omega

/-! ### C124 -/

/-- C124: what an inductive method is fitted on.  Row `j` of the labeled data is the training row at the `j`-th labeled
index, with the label of that same sample; the unlabeled rows are the training rows at the unlabeled indices, without
labels; every view is cut by the same indices. -/
theorem C124_data {α : Type} {strict : Bool} {pre : Prepared α} {s : IndexSplit}
    {views : Option (List (String × List α))} {mid : String} {w st st1 : Option (List α)} {d : FitData α}
    {idxL idxU : List Nat} (hL : Assoc.get s.indices "train_labeled" = some idxL)
    (hU : Assoc.get s.indices "train_unlabeled" = some idxU)
    (hy : pre.train.y.length = pre.train.X.length)
    (hl : ∀ l, pre.trainLabels = some l → l.length = pre.train.X.length)
    (h : fitData strict pre (.index s) views mid w st st1 = .ok d) :
    IsRows pre.train.X idxL d.Xl ∧ d.yl.length = idxL.length ∧
    (∀ j i : Nat, idxL[j]? = some i → ∃ c, trainLabel pre i = some c ∧ d.yl[j]? = some c) ∧
    IsRows pre.train.X idxU d.Xu ∧ d.idxU = idxU ∧ d.weak = w ∧ d.strong = st ∧
    (st1 = none ∨ mid ≠ "comatch" → ∀ vs, views = some vs → ∃ out, d.views = some out ∧
      List.Forall₂ (fun v o => o.1 = v.1 ∧ ∃ a b, o.2 = ViewData.rows a b ∧ IsRows v.2 idxL a ∧ IsRows v.2 idxU b)
        vs out) ∧
    (st1 = none → views = none → d.views = none) ∧
    (∀ x, st1 = some x → mid = "comatch" ∨ views = none → d.views = some [("X_u_s_1", ViewData.extra x)]) := by
  simp only [fitData, fitDataIdx, ebind_ok, getKey_ok, hL, hU, Option.some.injEq, pure, Except.pure,
    Except.ok.injEq] at h
  obtain ⟨_, rfl, _, rfl, Xl, hXl, Xu, hXu, yl, hyl, u, -, built, hb, rfl⟩ := h
  have hlt := takeRows_lt hXl
  have h1 := labels_rows (by rw [hy]; exact hlt) (fun l e => by rw [hl l e]; exact hlt) hyl
  refine ⟨takeRows_isRows hXl, h1.1, h1.2, takeRows_isRows hXu, rfl, rfl, rfl, ?_, ?_, ?_⟩
  · rintro hst vs rfl
    simp only [optViews] at hb
    cases hbv : buildViews vs idxL idxU with
    | error e => rw [hbv] at hb; simp [Except.map] at hb
    | ok out =>
      rw [hbv] at hb
      simp only [Except.map, Except.ok.injEq] at hb
      subst hb
      refine ⟨out, ?_, (mapM_ok.mp hbv).imp fun v o ho => ?_⟩
      · show viewsPayload mid (some out) st1 = some out
        unfold viewsPayload
        rcases hst with rfl | hm
        · rfl
        · cases st1 with
          | none => rfl
          | some x => simp only [if_neg hm]
      · simp only [ebind_ok, pure, Except.pure, Except.ok.injEq] at ho
        obtain ⟨a, ha, b, hb, rfl⟩ := ho
        exact ⟨rfl, a, b, rfl, takeRows_isRows ha, takeRows_isRows hb⟩
  · rintro rfl rfl
    simp only [optViews, Except.ok.injEq] at hb
    subst hb
    rfl
  · rintro x rfl hc
    show viewsPayload mid built (some x) = _
    unfold viewsPayload
    by_cases hm : mid = "comatch"
    · simp only [if_pos hm]
    · obtain rfl := hc.resolve_left hm
      simp only [optViews, Except.ok.injEq] at hb
      subst hb
      simp only [if_neg hm]

/-- C124: no label of a sample outside the labeled set reaches the method.  Two preparations with the same features
whose labels agree on the labeled samples give the method exactly the same data (or the same error). -/
theorem C124_no_leak {α : Type} {strict : Bool} {pre pre' : Prepared α} {s : IndexSplit}
    {views : Option (List (String × List α))} {mid : String} {w st st1 : Option (List α)} {idxL : List Nat}
    (hL : Assoc.get s.indices "train_labeled" = some idxL) (hX : pre.train.X = pre'.train.X)
    (hy : pre.train.y.length = pre.train.X.length) (hag : AgreeAt idxL pre.train.y pre'.train.y)
    (hagl : AgreeAt? idxL pre.trainLabels pre'.trainLabels) :
    fitData strict pre (.index s) views mid w st st1 = fitData strict pre' (.index s) views mid w st st1 := by
  have hk : getKey s.indices "train_labeled" = .ok idxL := getKey_ok.mpr hL
  simp only [fitData, fitDataIdx, ebind_of_ok hk, ← hX]
  cases hU : getKey s.indices "train_unlabeled" with
  | error e => rfl
  | ok idxU =>
    cases hXl : takeRows pre.train.X idxL with
    | error e => rfl
    | ok Xl =>
      have := labels_congr (strict := strict) (idx := idxL) (by rw [hy]; exact takeRows_lt hXl) hag hagl
      simp only [bind, Except.bind, this]

/-- C124: with indices in range and complete labels and views, data is always assembled. -/
theorem C124_accepts {α : Type} {strict : Bool} {pre : Prepared α} {s : IndexSplit}
    {views : Option (List (String × List α))} {mid : String} {w st st1 : Option (List α)} {idxL idxU : List Nat}
    (hL : Assoc.get s.indices "train_labeled" = some idxL)
    (hU : Assoc.get s.indices "train_unlabeled" = some idxU)
    (hLr : ∀ i ∈ idxL, i < pre.train.X.length) (hUr : ∀ i ∈ idxU, i < pre.train.X.length)
    (hy : pre.train.y.length = pre.train.X.length)
    (hl : ∀ l, pre.trainLabels = some l → l.length = pre.train.X.length)
    (hv : ∀ vs, views = some vs → ∀ v ∈ vs, v.2.length = pre.train.X.length) :
    ∃ d, fitData strict pre (.index s) views mid w st st1 = .ok d := by
  obtain ⟨Xl, hXl⟩ := takeRows_total hLr
  obtain ⟨Xu, hXu⟩ := takeRows_total hUr
  obtain ⟨yl, hyl⟩ := labels_total (strict := strict) (labels := pre.trainLabels) (y := pre.train.y) (idx := idxL)
    (by rw [hy]; exact hLr) (fun l e => by rw [hl l e]; exact hLr)
  have hb : ∃ b, optViews views idxL idxU = .ok b := by
    cases views with
    | none => exact ⟨none, rfl⟩
    | some vs =>
      have : ∃ b, buildViews vs idxL idxU = .ok b := by
        refine mapM_total (fun v hvm => ?_)
        obtain ⟨a, ha⟩ := takeRows_total (rows := v.2) (idx := idxL) (by rw [hv vs rfl v hvm]; exact hLr)
        obtain ⟨b, hb⟩ := takeRows_total (rows := v.2) (idx := idxU) (by rw [hv vs rfl v hvm]; exact hUr)
        exact ⟨_, by rw [ebind_of_ok ha, ebind_of_ok hb]; rfl⟩
      obtain ⟨b, hb⟩ := this
      exact ⟨some b, by simp [optViews, hb, Except.map]⟩
  obtain ⟨b, hb⟩ := hb
  have hr : strictRows strict Xl yl = .ok () := by
    unfold strictRows
    rw [if_neg]
    rintro ⟨-, h⟩
    exact h (by rw [(takeRows_isRows hXl).1, (labels_rows (by rw [hy]; exact hLr)
      (fun l e => by rw [hl l e]; exact hLr) hyl).1])
  refine ⟨⟨Xl, yl, Xu, w, st, viewsPayload mid b st1, idxU, pre.train.X.length⟩, ?_⟩
  simp only [fitData, fitDataIdx]
  rw [ebind_of_ok (getKey_ok.mpr hL), ebind_of_ok (getKey_ok.mpr hU), ebind_of_ok hXl, ebind_of_ok hXu,
    ebind_of_ok hyl, ebind_of_ok hr, ebind_of_ok hb]
  rfl

theorem whereTrue_positions (m : List Bool) : IsPositions m (whereTrue m) := by
  unfold whereTrue
  refine ⟨List.Pairwise.filter _ List.pairwise_lt_range, fun i => ?_⟩
  rw [List.mem_filter, List.mem_range]
  constructor
  · rintro ⟨h1, h2⟩
    rw [List.getD_eq_getElem _ _ h1] at h2
    rw [List.getElem?_eq_getElem h1, h2]
  · intro h
    obtain ⟨h1, h2⟩ := List.getElem?_eq_some_iff.mp h
    exact ⟨h1, by rw [List.getD_eq_getElem _ _ h1, h2]⟩

/-- C124: on a graph dataset the labeled and unlabeled index lists of an inductive method are exactly the nodes of the
corresponding masks, all of them referring to the training split. -/
theorem C124_graph (m : GraphSplit) :
    (∃ L, Assoc.get (toIndex (.graph m)).indices "train_labeled" = some L ∧ IsPositions m.labeled L) ∧
    (∃ U, Assoc.get (toIndex (.graph m)).indices "train_unlabeled" = some U ∧ IsPositions m.unlabeled U) ∧
    (∃ T, Assoc.get (toIndex (.graph m)).indices "train" = some T ∧ IsPositions m.train T) ∧
    (∃ T, Assoc.get (toIndex (.graph m)).indices "val" = some T ∧ IsPositions m.val T) ∧
    (∃ T, Assoc.get (toIndex (.graph m)).indices "test" = some T ∧ IsPositions m.test T) ∧
    ∀ name, refOf (toIndex (.graph m)).refs name = "train" := by
  refine ⟨⟨_, rfl, whereTrue_positions _⟩, ⟨_, rfl, whereTrue_positions _⟩, ⟨_, rfl, whereTrue_positions _⟩,
    ⟨_, rfl, whereTrue_positions _⟩, ⟨_, rfl, whereTrue_positions _⟩, fun name => ?_⟩
  simp only [toIndex, graphToIndex, refOf, List.map, Assoc.get_cons, Assoc.get_nil]
  repeat' split
  all_goals rfl

/-- C124, strict mode: the method never gets a label array of another length than its labeled rows. -/
theorem C124_strict {α : Type} {pre : Prepared α} {s : IndexSplit}
    {views : Option (List (String × List α))} {mid : String} {w st st1 : Option (List α)} {d : FitData α}
    (h : fitData true pre (.index s) views mid w st st1 = .ok d) : d.Xl.length = d.yl.length := by
  simp only [fitData, fitDataIdx, ebind_ok, pure, Except.pure, Except.ok.injEq] at h
  obtain ⟨idxL, -, idxU, -, Xl, hXl, Xu, hXu, yl, hyl, u, hu, built, hb, rfl⟩ := h
  unfold strictRows at hu
  by_contra hc
  rw [if_pos ⟨rfl, hc⟩] at hu
  simp at hu

def demoPre : Prepared String :=
  ⟨⟨["a", "b", "c", "d"], [some 0, some 1, none, some 7]⟩, some ⟨["t"], [some 1]⟩, none, none⟩

def demoSplit : IndexSplit :=
  ⟨[("train", [0, 1, 2]), ("val", [3]), ("test", [0]), ("train_labeled", [1, 0]), ("train_unlabeled", [2])],
    [("test", "test")]⟩

example : fitData true demoPre (.index demoSplit) (some [("v", ["A", "B", "C", "D"])]) "co_training" none none none =
    .ok ⟨["b", "a"], [1, 0], ["c"], none, none, some [("v", .rows ["B", "A"] ["C"])], [2], 4⟩ := by decide +kernel

example : fitData false demoPre (.index demoSplit) none "comatch" (some ["w"]) (some ["s"]) (some ["s1"]) =
    .ok ⟨["b", "a"], [1, 0], ["c"], some ["w"], some ["s"], some [("X_u_s_1", .extra ["s1"])], [2], 4⟩ := by
  decide +kernel

/-- The hypotheses of `C124_no_leak` are met by different labels of an unlabeled and of a validation sample. -/
example : AgreeAt [1, 0] demoPre.train.y [some 0, some 1, some 9, some 2] ∧ demoPre.train.y.length = demoPre.train.X.length := by
  refine ⟨⟨rfl, ?_⟩, rfl⟩
  decide +kernel

/-! ### C125 -/

theorem maskFrom_ok {n off : Nat} {idx : List Nat} {m : List Bool} (h : maskFrom n idx off = .ok m) :
    m.length = n ∧ ∀ p, m[p]? = some true ↔ ∃ i ∈ idx, i + off = p := by
  unfold maskFrom at h
  split at h
  · rename_i hall
    simp only [List.all_eq_true, decide_eq_true_eq] at hall
    simp only [Except.ok.injEq] at h
    subst h
    refine ⟨by simp, fun p => ?_⟩
    rw [List.getElem?_map]
    constructor
    · intro h
      by_cases hp : p < n
      · rw [List.getElem?_range hp] at h
        simpa using h
      · rw [List.getElem?_eq_none (by simpa using hp)] at h
        simp at h
    · rintro ⟨i, hi, rfl⟩
      rw [List.getElem?_range (hall i hi)]
      simpa using hi
  · simp at h

theorem maskOf_ok {nTrain : Nat} {nTest : Option Nat} {s : IndexSplit} {name : String} {m : List Bool}
    (h : maskOf nTrain nTest s name = .ok m) :
    m.length = nTrain + nTest.getD 0 ∧ ∀ p, m[p]? = some true ↔ InSplit nTrain s name p := by
  simp only [maskOf, ebind_ok, getKey_ok] at h
  obtain ⟨idx, h1, h2⟩ := h
  obtain ⟨h3, h4⟩ := maskFrom_ok h2
  refine ⟨h3, fun p => ?_⟩
  rw [h4]
  unfold InSplit place
  rw [h1]
  constructor
  · rintro ⟨i, hi, he⟩
    refine ⟨idx, rfl, i, hi, ?_⟩
    split at he <;> rename_i hr
    · rw [if_pos hr]; omega
    · rw [if_neg hr]; omega
  · rintro ⟨idx', e, i, hi, he⟩
    simp only [Option.some.injEq] at e
    subst e
    refine ⟨i, hi, ?_⟩
    split at he <;> rename_i hr
    · rw [if_pos hr]; omega
    · rw [if_neg hr]; omega

/-- C125: the masks of a transductive run mark exactly the samples of each split, test samples placed after the
training samples. -/
theorem C125_masks {nTrain : Nat} {nTest : Option Nat} {s : IndexSplit} {m : Masks}
    (h : buildMasks nTrain nTest s = .ok m) (mask : List Bool) (name : String)
    (hm : (mask, name) ∈ [(m.train, "train"), (m.val, "val"), (m.test, "test"), (m.labeled, "train_labeled"),
      (m.unlabeled, "train_unlabeled")]) :
    mask.length = nTrain + nTest.getD 0 ∧ ∀ p, mask[p]? = some true ↔ InSplit nTrain s name p := by
  simp only [buildMasks, ebind_ok, pure, Except.pure, Except.ok.injEq] at h
  obtain ⟨a, ha, b, hb, c, hc, d, hd, e, he, rfl⟩ := h
  simp only [List.mem_cons, Prod.mk.injEq, List.not_mem_nil, or_false] at hm
  rcases hm with ⟨rfl, rfl⟩ | ⟨rfl, rfl⟩ | ⟨rfl, rfl⟩ | ⟨rfl, rfl⟩ | ⟨rfl, rfl⟩
  · exact maskOf_ok ha
  · exact maskOf_ok hb
  · exact maskOf_ok hc
  · exact maskOf_ok hd
  · exact maskOf_ok he

theorem intLabels_ok {y : List (Option Int)} {l : List Int} (h : intLabels y = .ok l) : y = l.map some := by
  have := mapM_ok.mp h
  clear h
  induction this with
  | nil => rfl
  | cons h _ ih =>
    rw [List.map_cons, ← ih]
    congr 1
    split at h
    · simp only [Except.ok.injEq] at h; rw [h]
    · simp at h

theorem nodeDataFor_index {α : Type} {pre : Prepared α} {s : IndexSplit} {expected : Option Nat} {d : NodeData α}
    {m : Masks} (h : nodeDataFor pre (.index s) expected = .ok (d, m)) :
    buildMasks pre.train.y.length (if useTest (.index s) then pre.test.map (·.y.length) else none) s = .ok m ∧
    d.X = combine pre.train.X ((if useTest (.index s) then pre.test else none).map (·.X)) ∧
    combine pre.train.y ((if useTest (.index s) then pre.test else none).map (·.y)) = d.yTrue.map some ∧
    d.y = observed d.yTrue m ∧ d.masks = ⟨m.labeled, m.val, m.test, m.unlabeled, m.labeled⟩ := by
  simp only [nodeDataFor, maskMap, nodeData, ebind_ok, pure, Except.pure, Except.ok.injEq, Prod.mk.injEq] at h
  obtain ⟨m', h1, d', ⟨u, -, y, hy, rfl⟩, rfl, rfl⟩ := h
  exact ⟨h1, rfl, intLabels_ok hy, rfl, rfl⟩

theorem yTrue_length {α : Type} {pre : Prepared α} {s : IndexSplit} {y : List Int}
    (h : combine pre.train.y ((if useTest (.index s) then pre.test else none).map (·.y)) = y.map some) :
    y.length = pre.train.y.length + ((if useTest (.index s) then pre.test.map (·.y.length) else none) : Option Nat).getD 0 := by
  have := congrArg List.length h
  rw [List.length_map] at this
  rw [← this]
  unfold combine
  by_cases hu : useTest (.index s)
  · simp only [hu, if_true]
    cases pre.test <;> simp
  · simp [hu]

theorem observed_get {y : List Int} {m : Masks} (hl : m.labeled.length = y.length)
    (hu : m.unlabeled.length = y.length) (p : Nat) :
    (observed y m)[p]? = if m.unlabeled[p]? = some true then (y[p]?).map (fun _ => -1) else y[p]? := by
  unfold observed
  rw [if_pos hl.symm, if_pos hu, List.getElem?_zipWith]
  by_cases hp : p < y.length
  · rw [List.getElem?_eq_getElem hp, List.getElem?_eq_getElem (by omega : p < m.unlabeled.length)]
    cases m.unlabeled[p] <;> simp
  · rw [List.getElem?_eq_none (by omega : y.length ≤ p), List.getElem?_eq_none (by omega : m.unlabeled.length ≤ p)]
    simp

/-- C125, proved part: the labels of the unlabeled training samples are replaced by -1 before the method sees them, all
other labels are passed on as they are, and the labeled mask marks exactly the labeled samples.  Missing: validation
and test labels are not replaced (`C125_heldout_violated`), and the true labels of all samples are in `meta`. -/
theorem C125_hidden_partial {α : Type} {pre : Prepared α} {s : IndexSplit} {expected : Option Nat} {d : NodeData α}
    {m : Masks} (h : nodeDataFor pre (.index s) expected = .ok (d, m)) :
    d.y.length = d.yTrue.length ∧
    (∀ p, p < d.y.length → InSplit pre.train.y.length s "train_unlabeled" p → d.y[p]? = some (-1)) ∧
    (∀ p, ¬ InSplit pre.train.y.length s "train_unlabeled" p → d.y[p]? = d.yTrue[p]?) ∧
    (∀ p, d.masks.labeled[p]? = some true ↔ InSplit pre.train.y.length s "train_labeled" p) := by
  obtain ⟨h1, -, h3, h4, h5⟩ := nodeDataFor_index h
  have hlen := yTrue_length h3
  have hL := C125_masks h1 m.labeled "train_labeled" (by simp)
  have hU := C125_masks h1 m.unlabeled "train_unlabeled" (by simp)
  have hg := observed_get (y := d.yTrue) (m := m) (by rw [hL.1, hlen]) (by rw [hU.1, hlen])
  have hlen' : d.y.length = d.yTrue.length := by
    rw [h4]
    unfold observed
    rw [if_pos (by rw [hL.1, hlen]), if_pos (by rw [hU.1, hlen]), List.length_zipWith, hU.1, hlen]
    simp
  refine ⟨hlen', fun p hp hin => ?_, fun p hin => ?_, fun p => ?_⟩
  · rw [h4, hg p, if_pos ((hU.2 p).mpr hin), List.getElem?_eq_getElem (by omega)]
    rfl
  · rw [h4, hg p, if_neg (fun hc => hin ((hU.2 p).mp hc))]
  · rw [h5]
    exact hL.2 p

/-- C125, proved part, for a split given by masks: the masks reach the method as they are, and the labels of unlabeled
nodes are replaced by -1.  Missing: as in `C125_hidden_partial`. -/
theorem C125_graph_partial {α : Type} {pre : Prepared α} {g : GraphSplit} {expected : Option Nat} {d : NodeData α}
    {m : Masks} (hl : g.labeled.length = pre.train.y.length) (hu : g.unlabeled.length = pre.train.y.length)
    (h : nodeDataFor pre (.graph g) expected = .ok (d, m)) :
    d.X = pre.train.X ∧ d.yTrue.map some = pre.train.y ∧ d.trainAll = g.train ∧
    d.masks = ⟨g.labeled, g.val, g.test, g.unlabeled, g.labeled⟩ ∧ d.y.length = d.yTrue.length ∧
    (∀ p : Nat, g.unlabeled[p]? = some true → d.y[p]? = some (-1)) ∧
    (∀ p : Nat, g.unlabeled[p]? ≠ some true → d.y[p]? = d.yTrue[p]?) := by
  simp only [nodeDataFor, maskMap, nodeData, ebind_ok, pure, Except.pure, Except.ok.injEq, Prod.mk.injEq] at h
  obtain ⟨m', h1, d', ⟨u, -, y, hy, rfl⟩, rfl, rfl⟩ := h
  have hy' : pre.train.y = y.map some := intLabels_ok hy
  have hlen : y.length = pre.train.y.length := by rw [hy', List.length_map]
  subst h1
  have hg := fun p => observed_get (y := y) (m := ⟨g.train, g.val, g.test, g.unlabeled, g.labeled⟩)
    (by rw [hlen]; exact hl) (by rw [hlen]; exact hu) p
  refine ⟨rfl, hy'.symm, rfl, rfl, ?_, fun p hp => ?_, fun p hp => ?_⟩
  · show (observed y _).length = y.length
    unfold observed
    rw [if_pos (by rw [hlen]; exact hl.symm), if_pos (by rw [hlen]; exact hu), List.length_zipWith]
    simp [hlen, hu]
  · refine (hg p).trans ?_
    rw [if_pos hp]
    have : p < g.unlabeled.length := by
      by_contra hc
      rw [List.getElem?_eq_none (by omega)] at hp
      cases hp
    rw [List.getElem?_eq_getElem (by omega)]
    rfl
  · exact (hg p).trans (if_neg hp)

/-- Three nodes given by masks: one labeled, one unlabeled, one held out. -/
example : (nodeDataFor ⟨⟨["a", "b", "c"], [some 0, some 1, some 1]⟩, none, none, none⟩
      (.graph ⟨[true, true, false], [false, false, true], [false, false, false], [true, false, false],
        [false, true, false]⟩) (some 1)).toOption.map (fun dm => (dm.1.y, dm.1.masks.labeled)) =
    some ([0, -1, 1], [true, false, false]) := by decide +kernel

/-- C125: when a number of labeled nodes is expected, training only starts with exactly that many. -/
theorem C125_count {α : Type} {pre : Prepared α} {s : Sampling} {n : Nat} {d : NodeData α}
    {m : Masks} (h : nodeDataFor pre s (some n) = .ok (d, m)) : (d.masks.labeled.filter (· = true)).length = n := by
  simp only [nodeDataFor, nodeData, ebind_ok, pure, Except.pure, Except.ok.injEq, Prod.mk.injEq] at h
  obtain ⟨m', h1, d', ⟨u, hc, y, hy, rfl⟩, rfl, rfl⟩ := h
  unfold checkLabeledCount at hc
  simp only at hc
  split at hc
  · rename_i e
    rw [← e, List.count_eq_countP, List.countP_eq_length_filter]
    simp
  · cases hc

/-- C125: what the method sees depends only on the labels that are not hidden: two preparations whose labels differ on
unlabeled training samples only give the same features, observed labels and masks. -/
theorem C125_unlabeled_partial {α : Type} {pre pre' : Prepared α} {s : IndexSplit} {expected : Option Nat}
    {d d' : NodeData α} {m m' : Masks} (h : nodeDataFor pre (.index s) expected = .ok (d, m))
    (h' : nodeDataFor pre' (.index s) expected = .ok (d', m')) (hX : pre.train.X = pre'.train.X)
    (ht : pre.test = pre'.test) (hy : pre.train.y.length = pre'.train.y.length)
    (hag : ∀ p, ¬ InSplit pre.train.y.length s "train_unlabeled" p → d.yTrue[p]? = d'.yTrue[p]?) :
    d.X = d'.X ∧ d.y = d'.y ∧ d.masks = d'.masks := by
  obtain ⟨h1, h2, h3, h4, h5⟩ := nodeDataFor_index h
  obtain ⟨h1', h2', h3', h4', h5'⟩ := nodeDataFor_index h'
  rw [← hy, ← ht, h1] at h1'
  simp only [Except.ok.injEq] at h1'
  subst h1'
  have hl : d.yTrue.length = d'.yTrue.length := by rw [yTrue_length h3, yTrue_length h3', ← hy, ← ht]
  refine ⟨by rw [h2, h2', ← hX, ← ht], ?_, by rw [h5, h5']⟩
  obtain ⟨a1, a2, a3, -⟩ := C125_hidden_partial h
  obtain ⟨b1, b2, b3, -⟩ := C125_hidden_partial h'
  rw [← hy] at b2 b3
  refine List.ext_getElem? (fun p => ?_)
  by_cases hin : InSplit pre.train.y.length s "train_unlabeled" p
  · by_cases hp : p < d.y.length
    · rw [a2 p hp hin, b2 p (by omega) hin]
    · rw [List.getElem?_eq_none (by omega), List.getElem?_eq_none (by omega)]
  · rw [a3 p hin, b3 p hin, hag p hin]

/-- A small dataset: two labeled training samples, an unlabeled one and a validation sample; one test sample. -/
def demoGraphPre (testLabel : Int) : Prepared Nat :=
  ⟨⟨[10, 11, 12, 13], [some 0, some 1, some 1, some 0]⟩, some ⟨[14], [some testLabel]⟩, none, none⟩

def demoGraphSplit : IndexSplit :=
  ⟨[("train", [0, 1, 2]), ("val", [3]), ("test", [0]), ("train_labeled", [0, 1]), ("train_unlabeled", [2])],
    [("test", "test")]⟩

/-- The run of label propagation (`LabelPropagationSpec(max_iter=1)`) on what it is given. -/
def demoPropagate (testLabel : Int) : Except PyErr Bool := do
  let dm ← nodeDataFor (demoGraphPre testLabel) (.index demoGraphSplit) none
  let r ← Transductive.labelPropagation (K := Rat) (fun x => x) 1 5 [(0, 2), (1, 3), (0, 4)] none dm.1.y
    dm.1.masks.train ⟨"rw", 1, 0, false⟩
  pure (decide (r.F.length = 5))

/-- C125 is violated: the observed labels of validation and test samples are their true labels, and a run depends on
them: label propagation succeeds or fails according to the label of a test sample. -/
theorem C125_heldout_violated :
    (nodeDataFor (demoGraphPre 2) (.index demoGraphSplit) none).toOption.map (·.1.y) = some [0, 1, -1, 0, 2] ∧
    demoPropagate 1 = .ok true ∧ demoPropagate 2 = .error .valueError := by decide +kernel

/-! ### C126 -/

theorem evalLoop_ok {f : String → Except PyErr (List (String × Option Rat))} :
    ∀ {report : List String} {out0 out : List (String × List (String × Option Rat))},
      evalLoop f report out0 = .ok out →
      (∀ k, k ∈ report → ∃ r, f k = .ok r ∧ Assoc.get out k = some r) ∧
      (∀ k, k ∉ report → Assoc.get out k = Assoc.get out0 k)
  | [], out0, out, h => by
    simp only [evalLoop, Except.ok.injEq] at h
    subst h
    exact ⟨fun k hk => by simp at hk, fun k _ => rfl⟩
  | s :: rest, out0, out, h => by
    rw [evalLoop] at h
    cases hf : f s with
    | error e => rw [hf] at h; simp at h
    | ok r =>
      rw [hf] at h
      obtain ⟨h1, h2⟩ := evalLoop_ok h
      refine ⟨fun k hk => ?_, fun k hk => ?_⟩
      · by_cases hkr : k ∈ rest
        · exact h1 k hkr
        · have hks : k = s := by
            rcases List.mem_cons.mp hk with h | h
            · exact h
            · exact absurd h hkr
          subst hks
          exact ⟨r, hf, by rw [h2 k hkr, Assoc.get_set, if_pos rfl]⟩
      · rw [List.mem_cons, not_or] at hk
        rw [h2 k hk.2, Assoc.get_set, if_neg (fun e => hk.1 e)]

/-- C126: the scores reported for an inductive method.  For every reported split (and no other) the metrics compare
the true labels of exactly the samples of that split with the argmax of the scores the method gives to the features
of those same samples, in the same order. -/
theorem C126_inductive {α : Type} {predict : PredictInput α → Except PyErr (List (List Rat))} {pre : Prepared α}
    {s : IndexSplit} {report metrics : List String} {mid : String} {views : Option (List (String × View α))}
    {out : List (String × List (String × Option Rat))}
    (h : evaluateInductive predict pre (.index s) report metrics mid views = .ok out) :
    (∀ k, k ∈ Assoc.keys out ↔ k ∈ report) ∧
    ∀ split ∈ report, ∃ idx base labels Xs ys scores r,
      Assoc.get s.indices split = some idx ∧
      (if refOf s.refs split = "train" then base = pre.train else pre.test = some base) ∧
      ((if refOf s.refs split = "train" then pre.trainLabels else pre.testLabels) = some labels ∨
        ((if refOf s.refs split = "train" then pre.trainLabels else pre.testLabels) = none ∧
          base.y = labels.map some)) ∧
      IsRows base.X idx Xs ∧ IsRows labels idx ys ∧
      (mid ≠ "co_training" → predict (.rows Xs) = .ok scores) ∧
      (mid = "co_training" → ∃ vs vrows, views = some vs ∧ predict (.dataset Xs ys vrows) = .ok scores ∧
        List.Forall₂ (fun v o => o.1 = v.1 ∧ ∃ b, (if refOf s.refs split = "train" then b = v.2.train else v.2.test = some b) ∧
          IsRows b idx o.2) vs vrows) ∧
      Assoc.get out split = some r ∧
      Evaluation.computeMetrics ys (scores.map (fun row => ((Evaluation.argmax row : Nat) : Int))) metrics [] = .ok r := by
  obtain ⟨h1, h2⟩ := evalLoop_ok h
  refine ⟨fun k => ?_, fun split hs => ?_⟩
  · rw [Assoc.mem_keys_iff]
    constructor
    · rintro ⟨v, hv⟩
      by_contra hk
      rw [h2 k hk] at hv
      simp at hv
    · intro hk
      obtain ⟨r, -, hr⟩ := h1 k hk
      exact ⟨r, hr⟩
  · obtain ⟨r, hr, hg⟩ := h1 split hs
    simp only [evalSplit, splitData, ebind_ok, getKey_ok, pure, Except.pure, Except.ok.injEq] at hr
    obtain ⟨xy, ⟨idx, hi, base, hb, y, hy, Xs, hXs, ys, hys, rfl⟩, inp, hinp, scores, hsc, hm⟩ := hr
    refine ⟨idx, base, y, Xs, ys, scores, r, hi, ?_, ?_, takeRows_isRows hXs, takeRows_isRows hys, ?_, ?_, hg, hm⟩
    · unfold baseOf at hb
      split at hb <;> rename_i hr
      · rw [if_pos hr]; simp only [Except.ok.injEq] at hb; exact hb.symm
      · rw [if_neg hr]
        cases ht : pre.test with
        | none => rw [ht] at hb; simp at hb
        | some t => rw [ht] at hb; simp only [Except.ok.injEq] at hb; rw [hb]
    · unfold evalLabels at hy
      cases hl : (if refOf s.refs split = "train" then pre.trainLabels else pre.testLabels) with
      | none => rw [hl] at hy; exact .inr ⟨rfl, intLabels_ok hy⟩
      | some l => rw [hl] at hy; simp only [Except.ok.injEq] at hy; exact .inl (by rw [hy])
    · intro hmid
      unfold evalInput at hinp
      rw [if_neg hmid] at hinp
      simp only [Except.ok.injEq] at hinp
      rw [hinp]
      exact hsc
    · intro hmid
      unfold evalInput at hinp
      rw [if_pos hmid] at hinp
      cases hv : views with
      | none => rw [hv] at hinp; simp at hinp
      | some vs =>
        rw [hv] at hinp
        simp only at hinp
        cases hvs : viewsForSplit vs s split with
        | error e => rw [hvs] at hinp; simp [Except.map] at hinp
        | ok vrows =>
          rw [hvs] at hinp
          simp only [Except.map, Except.ok.injEq] at hinp
          subst hinp
          refine ⟨vs, vrows, rfl, hsc, ?_⟩
          simp only [viewsForSplit, ebind_ok, getKey_ok, hi, Option.some.injEq] at hvs
          obtain ⟨_, rfl, hvs⟩ := hvs
          refine (mapM_ok.mp hvs).imp fun v o ho => ?_
          simp only [ebind_ok, pure, Except.pure, Except.ok.injEq] at ho
          obtain ⟨b, hb, X, hX, rfl⟩ := ho
          refine ⟨rfl, b, ?_, takeRows_isRows hX⟩
          unfold viewBase at hb
          split at hb <;> rename_i hr
          · rw [if_pos hr]; simp only [Except.ok.injEq] at hb; exact hb.symm
          · rw [if_neg hr]
            cases ht : v.2.test with
            | none => rw [ht] at hb; simp at hb
            | some t => rw [ht] at hb; simp only [Except.ok.injEq] at hb; rw [hb]

theorem maskSelect_eq {β : Type} (dflt : β) : ∀ (x : List β) (m : List Bool), m.length = x.length →
    maskSelect x m = ((List.range x.length).filter (fun p => m.getD p false)).map (fun p => x.getD p dflt)
  | [], m, h => by simp [maskSelect]
  | a :: x, [], h => by simp at h
  | a :: x, b :: m, h => by
    have ih := maskSelect_eq dflt x m (by simpa using h)
    unfold maskSelect at ih ⊢
    rw [List.length_cons, List.range_succ_eq_map, List.zip_cons_cons, List.filter_cons, List.filter_cons]
    have hmap : ((List.range x.length).map Nat.succ).filter (fun p => (b :: m).getD p false) =
        ((List.range x.length).filter (fun p => m.getD p false)).map Nat.succ := by
      rw [List.filter_map]
      rfl
    rw [hmap]
    cases b
    · simp only [Bool.false_eq_true, if_false, List.getD_cons_zero]
      rw [ih, List.map_map]
      rfl
    · simp only [if_true, List.getD_cons_zero, List.map_cons]
      rw [ih, List.map_map]
      rfl

/-- C126: the scores reported for a transductive method.  For every reported split the metrics compare the true labels
of exactly the nodes of that split with the argmax of the scores of those nodes; a mask of the wrong size is refused. -/
theorem C126_transductive {α : Type} {predict : NodeData α → Except PyErr (List (List Rat))} {d : NodeData α}
    {m : Masks} {report metrics : List String} {out : List (String × List (String × Option Rat))}
    (h : evaluateTransductive predict d m report metrics = .ok out) :
    ∃ scores, predict d = .ok scores ∧ (∀ k, k ∈ Assoc.keys out ↔ k ∈ report) ∧
    ∀ split ∈ report, ∃ mask r, maskNamed m split = some mask ∧ mask.length = d.yTrue.length ∧
      scores.length = d.yTrue.length ∧ Assoc.get out split = some r ∧
      Evaluation.computeMetrics
        ((pairsOf (fun p => mask.getD p false) d.yTrue (scores.map (fun row => ((Evaluation.argmax row : Nat) : Int)))).map (·.1))
        ((pairsOf (fun p => mask.getD p false) d.yTrue (scores.map (fun row => ((Evaluation.argmax row : Nat) : Int)))).map (·.2))
        metrics [] = .ok r := by
  simp only [evaluateTransductive, ebind_ok] at h
  obtain ⟨scores, hs, h⟩ := h
  obtain ⟨h1, h2⟩ := evalLoop_ok h
  refine ⟨scores, hs, fun k => ?_, fun split hsp => ?_⟩
  · rw [Assoc.mem_keys_iff]
    constructor
    · rintro ⟨v, hv⟩
      by_contra hk
      rw [h2 k hk] at hv
      simp at hv
    · intro hk
      obtain ⟨r, -, hr⟩ := h1 k hk
      exact ⟨r, hr⟩
  · obtain ⟨r, hr, hg⟩ := h1 split hsp
    unfold evalMasked at hr
    cases hm : maskNamed m split with
    | none => rw [hm] at hr; simp at hr
    | some mask =>
      rw [hm] at hr
      simp only at hr
      split at hr
      · simp at hr
      rename_i hl
      split at hr
      · simp at hr
      rename_i hl2
      push Not at hl hl2
      have hl3 : scores.length = d.yTrue.length := by
        rw [← hl, hl2]; simp [Evaluation.labels1d]
      refine ⟨mask, r, rfl, hl, hl3, hg, ?_⟩
      rw [maskSelect_eq 0 _ _ hl, maskSelect_eq 0 _ _ hl2] at hr
      unfold pairsOf
      rw [List.map_map, List.map_map]
      rw [show (Evaluation.labels1d (.rows scores)).length = d.yTrue.length by simp [Evaluation.labels1d, hl3]] at hr
      exact hr

/-- C126, end to end for an index split: the nodes a transductive score is computed on are exactly the samples of the
reported split, and their labels are the true labels of the training and test splits. -/
theorem C126_transductive_nodes {α : Type} {pre : Prepared α} {s : IndexSplit} {expected : Option Nat} {d : NodeData α}
    {m : Masks} (h : nodeDataFor pre (.index s) expected = .ok (d, m)) {split : String}
    (hs : split ∈ ["train", "val", "test"]) :
    ∃ mask, maskNamed m split = some mask ∧ mask.length = d.yTrue.length ∧
      (∀ p, mask.getD p false = true ↔ InSplit pre.train.y.length s split p) ∧
      d.yTrue.map some = combine pre.train.y ((if useTest (.index s) then pre.test else none).map (·.y)) := by
  obtain ⟨h1, -, h3, -, -⟩ := nodeDataFor_index h
  have key : ∀ mask name, (mask, name) ∈ [(m.train, "train"), (m.val, "val"), (m.test, "test"),
      (m.labeled, "train_labeled"), (m.unlabeled, "train_unlabeled")] →
      mask.length = d.yTrue.length ∧ (∀ p, mask.getD p false = true ↔ InSplit pre.train.y.length s name p) := by
    intro mask name hm
    obtain ⟨a, b⟩ := C125_masks h1 mask name hm
    refine ⟨by rw [a, yTrue_length h3], fun p => ?_⟩
    rw [← b p, List.getD_eq_getElem?_getD]
    cases mask[p]? with
    | none => simp
    | some v => cases v <;> simp
  simp only [List.mem_cons, List.not_mem_nil, or_false] at hs
  rcases hs with rfl | rfl | rfl
  · obtain ⟨a, b⟩ := key m.train "train" (by simp)
    exact ⟨_, rfl, a, b, h3.symm⟩
  · obtain ⟨a, b⟩ := key m.val "val" (by simp)
    exact ⟨_, rfl, a, b, h3.symm⟩
  · obtain ⟨a, b⟩ := key m.test "test" (by simp)
    exact ⟨_, rfl, a, b, h3.symm⟩

/-- Scores that put all weight on the class given by a function of the row. -/
def demoPredict : PredictInput String → Except PyErr (List (List Rat))
  | .rows X => .ok (X.map (fun x => if x = "a" then [1, 0] else [0, 1]))
  | .dataset X _ _ => .ok (X.map (fun _ => [1, 0]))

example : evaluateInductive demoPredict
    ⟨⟨["a", "b", "c", "d"], [some 0, some 1, some 0, some 1]⟩, some ⟨["t"], [some 0]⟩, none, none⟩
    (.index demoSplit) ["train", "test"] ["accuracy"] "supervised" none =
    .ok [("train", [("accuracy", some (2 / 3))]), ("test", [("accuracy", some 0)])] := by decide +kernel

example : (nodeDataFor (demoGraphPre 1) (.index demoGraphSplit) (some 2)).toOption.bind (fun dm =>
    (evaluateTransductive (fun d => .ok (d.X.map (fun _ => [0, 1]))) dm.1 dm.2 ["train", "test"] ["accuracy"]).toOption) =
    some [("train", [("accuracy", some (2 / 3))]), ("test", [("accuracy", some 1)])] := by decide +kernel

end ModSSC.Bench
