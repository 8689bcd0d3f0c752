import Verif.Transductive.PLaplaceProps
import Verif.Transductive.DynamicProps
import Mathlib.Analysis.SpecialFunctions.Exp

/-!
# Runs of p-Laplace learning (C104)
-/

namespace ModSSC.Transductive
open ModSSC Spec

set_option linter.unusedSectionVars false

variable {K : Type} [Field K] [LinearOrder K] [IsStrictOrderedRing K]

/-- Edges between unlabeled nodes. -/
def uuOf (u : List Nat) (es : List (WEdge K)) : List (WEdge K) :=
  es.filter fun e => decide (e.src ∈ u) && decide (e.dst ∈ u)

/-- Edges from labeled to unlabeled nodes. -/
def ulOf (u : List Nat) (es : List (WEdge K)) : List (WEdge K) :=
  es.filter fun e => !decide (e.src ∈ u) && decide (e.dst ∈ u)

/-- What an accepted call has checked. -/
structure PRun (n : Int) (ei : List (Int × Int)) (ew : Option (List K)) (y : List Int) (mask : List Bool)
    (spec : PLaplaceSpec K) (es0 : List (WEdge K)) (k : Nat) (Y : Mat K) : Prop where
  p2 : ¬ spec.p < 2
  graph : validateGraph n ei ew = .ok es0
  ylen : (y.length : Int) = n
  mlen : (mask.length : Int) = n
  anyLab : mask.any id = true
  classes : plClasses y = .ok k
  all : ∀ c < k, ((c : Nat) : Int) ∈ labeledClasses y mask
  seed : seedMatrix y mask k = .ok Y

/-- The result when there are unlabeled nodes. -/
def plResult (sqrt exp pow : K → K) (tiny : K) (y : List Int) (mask : List Bool) (spec : PLaplaceSpec K) (k : Nat)
    (u : List Nat) (es : List (WEdge K)) (Y : Mat K) : Diffusion K :=
  let cls := fun c => plClass sqrt pow spec u (uuOf u es) (ulOf u es) fun j => Y.get j c
  ⟨(List.range y.length).map fun i =>
      if mask.getD i false then (List.range k).map (Y.get i)
      else softmaxRow exp tiny ((List.range k).map fun c => atNode u (cls c).1 i),
    (((List.range k).map fun c => (cls c).2.1).foldl max 0 : Nat),
    some (((List.range k).map fun c => (cls c).2.2).foldl max 0)⟩

theorem pLaplace_ok {sqrt exp pow : K → K} {tiny : K} {n : Int} {ei : List (Int × Int)} {ew : Option (List K)}
    {y : List Int} {mask : List Bool} {spec : PLaplaceSpec K} {r : Diffusion K} :
    pLaplace sqrt exp pow tiny n ei ew y mask spec = .ok r ↔
    ∃ es0 k Y, PRun n ei ew y mask spec es0 k Y ∧
      ((unlabeledIdx y.length mask = [] ∧ r = ⟨Y, 0, some 0⟩) ∨
       (unlabeledIdx y.length mask ≠ [] ∧ ulOf (unlabeledIdx y.length mask) (plEdges n.toNat spec es0) ≠ [] ∧
        r = plResult sqrt exp pow tiny y mask spec k (unlabeledIdx y.length mask) (plEdges n.toNat spec es0) Y)) := by
  unfold pLaplace
  by_cases h1 : spec.p < 2
  · rw [if_pos h1]
    exact ⟨fun h => by simp at h, fun ⟨_, _, _, P, _⟩ => absurd h1 P.p2⟩
  rw [if_neg h1, ebind_ok]
  constructor
  · rintro ⟨es0, hg, h⟩
    simp only at h
    by_cases h2 : (y.length : Int) ≠ n
    · rw [if_pos h2] at h; simp at h
    rw [if_neg h2] at h
    by_cases h3 : (mask.length : Int) ≠ n
    · rw [if_pos h3] at h; simp at h
    rw [if_neg h3] at h
    by_cases h4 : mask.any id = false
    · rw [if_pos h4] at h; simp at h
    rw [if_neg h4, ebind_ok] at h
    obtain ⟨k, hk, h⟩ := h
    by_cases h5 : (List.range k).any (fun (c : Nat) => decide ((c : Int) ∉ labeledClasses y mask)) = true
    · rw [if_pos h5] at h; simp at h
    rw [if_neg h5, ebind_ok] at h
    obtain ⟨Y, hY, h⟩ := h
    refine ⟨es0, k, Y, ⟨h1, hg, not_not.mp h2, not_not.mp h3, by simpa using h4, hk, ?_, hY⟩, ?_⟩
    · intro c hc
      by_contra hh
      exact h5 (List.any_eq_true.mpr ⟨c, List.mem_range.mpr hc, by simpa using hh⟩)
    · by_cases h6 : unlabeledIdx y.length mask = []
      · rw [if_pos h6] at h
        exact .inl ⟨h6, (Except.ok.inj h).symm⟩
      · rw [if_neg h6] at h
        by_cases h7 : ulOf (unlabeledIdx y.length mask) (plEdges n.toNat spec es0) = []
        · unfold ulOf at h7
          rw [if_pos h7] at h; simp at h
        · have h7' := h7
          unfold ulOf at h7
          rw [if_neg h7] at h
          exact .inr ⟨h6, h7', (Except.ok.inj h).symm⟩
  · rintro ⟨es0, k, Y, P, h⟩
    refine ⟨es0, P.graph, ?_⟩
    simp only
    have hk : ¬ (List.range k).any (fun (c : Nat) => decide ((c : Int) ∉ labeledClasses y mask)) = true := by
      intro h5
      obtain ⟨c, hc, hh⟩ := List.any_eq_true.mp h5
      exact (by simpa using hh : (c : Int) ∉ labeledClasses y mask) (P.all c (List.mem_range.mp hc))
    rw [if_neg (not_not.mpr P.ylen), if_neg (not_not.mpr P.mlen), if_neg (by rw [P.anyLab]; simp), ebind_of_ok P.classes,
      if_neg hk, ebind_of_ok P.seed]
    rcases h with ⟨h6, rfl⟩ | ⟨h6, h7, rfl⟩
    · rw [if_pos h6]
    · rw [if_neg h6]
      unfold ulOf at h7
      rw [if_neg h7]
      rfl

theorem plClasses_ok {y : List Int} {k : Nat} : plClasses y = .ok k ↔ LargestClass y k := by
  unfold plClasses LargestClass
  simp only
  obtain ⟨h1, h2, h3⟩ := foldl_max_gen (y.filter fun c => decide (0 ≤ c)) (0 : Int)
  generalize hm : (y.filter fun c => decide (0 ≤ c)).foldl max 0 = m at *
  by_cases he : y.filter (fun c => decide (0 ≤ c)) = []
  · rw [if_pos he]
    refine ⟨fun h => by simp at h, fun ⟨ha, hb, _⟩ => ?_⟩
    have : (k : Int) - 1 ∈ y.filter fun c => decide (0 ≤ c) := List.mem_filter.mpr ⟨ha, by simp; omega⟩
    rw [he] at this
    simp at this
  · rw [if_neg he]
    have hmem : m ∈ y := by
      rcases h3 with h3 | h3
      · obtain ⟨c, hc⟩ := List.exists_mem_of_ne_nil _ he
        have h0 : 0 ≤ c := by simpa using (List.mem_filter.mp hc).2
        have := h2 c hc
        obtain rfl : c = m := by omega
        exact (List.mem_filter.mp hc).1
      · exact (List.mem_filter.mp h3).1
    have hle : ∀ c ∈ y, c ≤ m := by
      intro c hc
      by_cases h0 : 0 ≤ c
      · exact h2 c (List.mem_filter.mpr ⟨hc, by simpa using h0⟩)
      · omega
    rw [Except.ok.injEq]
    constructor
    · rintro rfl
      refine ⟨?_, by omega, fun c hc => ?_⟩
      · have : ((m.toNat + 1 : Nat) : Int) - 1 = m := by omega
        rw [this]; exact hmem
      · have := hle c hc; omega
    · rintro ⟨ha, hb, hc⟩
      have h4 := hle _ ha
      have h5 := hc m hmem
      omega

theorem mem_unl {y : List Int} {mask : List Bool} (hm : mask.length = y.length) {i : Nat} :
    i ∈ unlabeledIdx y.length mask ↔ mask[i]? = some false := by
  unfold unlabeledIdx
  rw [List.mem_filter, List.mem_range, ← hm]
  constructor
  · rintro ⟨hi, h⟩
    rw [List.getD_eq_getElem _ _ hi] at h
    rw [List.getElem?_eq_getElem hi]
    simpa using h
  · intro h
    obtain ⟨hi, h⟩ := List.getElem?_eq_some_iff.mp h
    exact ⟨hi, by rw [List.getD_eq_getElem _ _ hi, h]; rfl⟩

namespace PRun
variable {n : Int} {ei : List (Int × Int)} {ew : Option (List K)} {y : List Int} {mask : List Bool}
  {spec : PLaplaceSpec K} {es0 : List (WEdge K)} {k : Nat} {Y : Mat K}

theorem len (P : PRun n ei ew y mask spec es0 k Y) : mask.length = y.length := by
  have := P.ylen; have := P.mlen; omega

theorem toNat (P : PRun n ei ew y mask spec es0 k Y) : n.toNat = y.length := by have := P.ylen; omega

theorem es0_range (P : PRun n ei ew y mask spec es0 k Y) : ∀ e ∈ es0, e.src < n.toNat ∧ e.dst < n.toNat := by
  intro e he
  have := (validateGraph_ok P.graph).2.2.2 e he
  omega

theorem range (P : PRun n ei ew y mask spec es0 k Y) :
    ∀ e ∈ plEdges n.toNat spec es0, e.src < n.toNat ∧ e.dst < n.toNat := plEdges_range spec P.es0_range

theorem parts (P : PRun n ei ew y mask spec es0 k Y) :
    Parts y.length (unlabeledIdx y.length mask) (uuOf (unlabeledIdx y.length mask) (plEdges n.toNat spec es0))
      (ulOf (unlabeledIdx y.length mask) (plEdges n.toNat spec es0)) := by
  refine ⟨unlabeledIdx_nodup _ _, fun a ha => List.mem_range.mp (List.mem_filter.mp ha).1, fun e he => ?_, fun e he => ?_⟩
  · obtain ⟨-, h⟩ := List.mem_filter.mp he
    simpa using h
  · obtain ⟨h0, h⟩ := List.mem_filter.mp he
    have h1 := (P.range e h0).1
    rw [P.toNat] at h1
    rw [Bool.and_eq_true, Bool.not_eq_true', decide_eq_false_iff_not, decide_eq_true_eq] at h
    exact ⟨h.1, h1, h.2⟩

theorem nonneg (P : PRun n ei ew y mask spec es0 k Y) (hw : ∀ e ∈ edgesOf ei ew, 0 ≤ e.2.2) : ∀ e ∈ es0, 0 ≤ e.w := by
  intro e he
  have := (validateGraph_ok P.graph).2.2.1
  exact hw ((e.src : Int), (e.dst : Int), e.w) (this ▸ List.mem_map.mpr ⟨e, he, rfl⟩)

/-- Weights between unlabeled nodes and weights from labeled nodes are together the weights in use. -/
theorem weights (P : PRun n ei ew y mask spec es0 k Y) {i j : Nat} (hi : i ∈ unlabeledIdx y.length mask) :
    affinity (uuOf (unlabeledIdx y.length mask) (plEdges n.toNat spec es0)) i j
      + affinity (ulOf (unlabeledIdx y.length mask) (plEdges n.toNat spec es0)) i j
      = usedWeight spec.symmetrize spec.zeroDiagonal (edgesOf ei ew) i j := by
  have hi' : i < n.toNat := by rw [P.toNat]; exact P.parts.range i hi
  rw [← used_spec spec (validateGraph_ok P.graph).2.2.1 P.es0_range hi']
  unfold uuOf ulOf
  rw [affinity_filter _ (fun a b => decide (a ∈ unlabeledIdx y.length mask) && decide (b ∈ unlabeledIdx y.length mask)),
    affinity_filter _ (fun a b => !decide (a ∈ unlabeledIdx y.length mask) && decide (b ∈ unlabeledIdx y.length mask))]
  by_cases hj : j ∈ unlabeledIdx y.length mask
  · simp [hi, hj]
  · simp [hi, hj]

theorem uu_sym (P : PRun n ei ew y mask spec es0 k Y) (hs : spec.symmetrize = true) (i j : Nat) :
    affinity (uuOf (unlabeledIdx y.length mask) (plEdges n.toNat spec es0)) i j
      = affinity (uuOf (unlabeledIdx y.length mask) (plEdges n.toNat spec es0)) j i := by
  unfold uuOf
  rw [affinity_filter _ (fun a b => decide (a ∈ unlabeledIdx y.length mask) && decide (b ∈ unlabeledIdx y.length mask)),
    affinity_filter _ (fun a b => decide (a ∈ unlabeledIdx y.length mask) && decide (b ∈ unlabeledIdx y.length mask))]
  by_cases hi : i ∈ unlabeledIdx y.length mask
  · by_cases hj : j ∈ unlabeledIdx y.length mask
    · have hi' : i < n.toNat := by rw [P.toNat]; exact P.parts.range i hi
      have hj' : j < n.toNat := by rw [P.toNat]; exact P.parts.range j hj
      rw [plEdges_affinity spec P.es0_range hi', plEdges_affinity spec P.es0_range hj', hs]
      simp only [hi, hj, decide_true, Bool.and_self, if_true]
      rw [add_comm (affinity es0 i j)]
      exact if_congr (by rw [eq_comm (a := i)]) rfl rfl
    · simp [hj]
  · simp [hi]

theorem labelValues (P : PRun n ei ew y mask spec es0 k Y) {c : Nat} (hc : c < k) {v : Nat → K}
    (hv : ∀ i, i ∉ unlabeledIdx y.length mask → v i = Y.get i c) : LabelValues y mask c v := by
  intro i hi
  have hiu : i ∉ unlabeledIdx y.length mask := by rw [mem_unl P.len, hi]; simp
  have hil : i < y.length := by
    rw [← P.len]
    exact (List.getElem?_eq_some_iff.mp hi).1
  rw [hv i hiu, (seedMatrix_ok P.seed).2.2, get_tab _ _ _ hil hc]
  constructor
  · intro h; rw [if_pos ((labeled_iff hil P.len).mpr h)]
  · intro h; rw [if_neg fun h' => h ((labeled_iff hil P.len).mp h')]

theorem gap_eq (P : PRun n ei ew y mask spec es0 k Y) {w w' : Nat → Nat → K} (eps : K) (v : Nat → K)
    (h : ∀ i ∈ unlabeledIdx y.length mask, ∀ j, w i j = w' i j) :
    balanceGap mask w eps v
      = ((unlabeledIdx y.length mask).map fun i => balance y.length w' eps v i * balance y.length w' eps v i).sum := by
  unfold balanceGap
  have e1 : (List.range mask.length).filter (fun i => decide (mask[i]? = some false)) = unlabeledIdx y.length mask := by
    unfold unlabeledIdx
    rw [P.len]
    apply List.filter_congr
    intro i hi
    have hi' : i < mask.length := by rw [P.len]; exact List.mem_range.mp hi
    rw [List.getElem?_eq_getElem hi', List.getD_eq_getElem _ _ hi']
    cases mask[i] <;> simp
  rw [e1, P.len]
  congr 1
  apply List.map_congr_left
  intro i hi
  have : balance y.length w eps v i = balance y.length w' eps v i := by
    unfold balance
    congr 2
    apply List.map_congr_left
    intro j _
    rw [h i hi j]
  rw [this]

end PRun

/-! ## Softmax -/

theorem softmax_spec {exp : K → K} (he : ExpLaw exp) {tiny : K} (ht : tiny ≤ 1) {k : Nat} (hk : 0 < k) (s : Nat → K) :
    ∃ M, (∀ c < k, s c ≤ M) ∧ (∃ c < k, s c = M) ∧
      softmaxRow exp tiny ((List.range k).map s)
        = (List.range k).map fun c => exp (s c - M) / ((List.range k).map fun c' => exp (s c' - M)).sum := by
  unfold softmaxRow
  simp only
  obtain ⟨h1, h2, h3⟩ := foldl_max_gen ((List.range k).map s) (((List.range k).map s).headD 0)
  generalize hM : ((List.range k).map s).foldl max (((List.range k).map s).headD 0) = M at *
  have hmem : ∃ c < k, s c = M := by
    rcases h3 with h3 | h3
    · refine ⟨0, hk, ?_⟩
      rw [h3]
      obtain ⟨k, rfl⟩ : ∃ k', k = k' + 1 := ⟨k - 1, by omega⟩
      rw [List.range_succ_eq_map]
      rfl
    · obtain ⟨c, hc, rfl⟩ := List.mem_map.mp h3
      exact ⟨c, List.mem_range.mp hc, rfl⟩
  refine ⟨M, fun c hc => h2 _ (List.mem_map.mpr ⟨c, List.mem_range.mpr hc, rfl⟩), hmem, ?_⟩
  rw [List.map_map, List.map_map]
  obtain ⟨c0, hc0, h0⟩ := hmem
  have hge : (1 : K) ≤ ((List.range k).map fun c' => exp (s c' - M)).sum := by
    have : exp (s c0 - M) ≤ ((List.range k).map fun c' => exp (s c' - M)).sum := by
      rw [sum_range_list]
      exact Finset.single_le_sum (f := fun c' => exp (s c' - M)) (fun c _ => (he.pos _).le) (Finset.mem_range.mpr hc0)
    rw [h0, sub_self, he.zero] at this
    exact this
  apply List.map_congr_left
  intro c _
  rw [List.map_map]
  show exp (s c - M) / max (((List.range k).map fun c' => exp (s c' - M)).sum) tiny = _
  rw [max_eq_left (le_trans ht hge)]

theorem get_of_row {F : Mat K} {i k : Nat} {f : Nat → K} (h : F.getD i [] = (List.range k).map f) {c : Nat} (hc : c < k) :
    F.get i c = f c := by
  unfold Mat.get
  rw [h, List.getD_eq_getElem _ _ (by simpa using hc), List.getElem_map, List.getElem_range]

/-- The rows of the result. -/
theorem plResult_rows {sqrt exp pow : K → K} {tiny : K} {y : List Int} {mask : List Bool} {spec : PLaplaceSpec K} {k : Nat}
    {es : List (WEdge K)} {Y : Mat K} (hm : mask.length = y.length) (he : ExpLaw exp) (ht : tiny ≤ 1) (hk : 0 < k)
    (u : List Nat) :
    HasShape (plResult sqrt exp pow tiny y mask spec k u es Y).F y.length k ∧
    (∀ i c, mask[i]? = some true → c < k → (plResult sqrt exp pow tiny y mask spec k u es Y).F.get i c = Y.get i c) ∧
    ∀ i, mask[i]? = some false → IsSoftmax exp k
      (fun c => atNode u (plClass sqrt pow spec u (uuOf u es) (ulOf u es) fun j => Y.get j c).1 i)
      (fun c => (plResult sqrt exp pow tiny y mask spec k u es Y).F.get i c) := by
  have hrow : ∀ i < y.length, (plResult sqrt exp pow tiny y mask spec k u es Y).F.getD i []
      = if mask.getD i false then (List.range k).map (Y.get i)
        else softmaxRow exp tiny ((List.range k).map fun c => atNode u
          (plClass sqrt pow spec u (uuOf u es) (ulOf u es) fun j => Y.get j c).1 i) := by
    intro i hi
    unfold plResult
    simp only
    rw [List.getD_eq_getElem _ _ (by simpa using hi), List.getElem_map, List.getElem_range]
  refine ⟨⟨by simp [plResult], ?_⟩, ?_, ?_⟩
  · intro r hr
    unfold plResult at hr
    simp only at hr
    obtain ⟨i, -, rfl⟩ := List.mem_map.mp hr
    by_cases h : mask.getD i false = true
    · rw [if_pos h]; simp
    · rw [if_neg h]; simp [softmaxRow]
  · intro i c hi hc
    obtain ⟨hi1, hi2⟩ := List.getElem?_eq_some_iff.mp hi
    have : mask.getD i false = true := by rw [List.getD_eq_getElem _ _ hi1, hi2]
    exact get_of_row (by rw [hrow i (by omega), if_pos this]) hc
  · intro i hi
    obtain ⟨hi1, hi2⟩ := List.getElem?_eq_some_iff.mp hi
    have : ¬ mask.getD i false = true := by rw [List.getD_eq_getElem _ _ hi1, hi2]; simp
    obtain ⟨M, h1, h2, h3⟩ := softmax_spec he ht hk fun c => atNode u
      (plClass sqrt pow spec u (uuOf u es) (ulOf u es) fun j => Y.get j c).1 i
    refine ⟨M, h1, h2, fun c hc => ?_⟩
    exact get_of_row (by rw [hrow i (by omega), if_neg this, h3]) hc

/-! ## Theorems -/

/-- A softmax row is a distribution ordered as its scores. -/
theorem softmax_row {exp : K → K} (he : ExpLaw exp) {k : Nat} {s p : Nat → K} (h : IsSoftmax exp k s p) :
    (∀ c < k, 0 < p c) ∧ ((List.range k).map p).sum = 1 ∧ ∀ c < k, ∀ c' < k, (s c < s c' ↔ p c < p c') := by
  obtain ⟨M, h1, ⟨c0, hc0, h2⟩, h3⟩ := h
  have hpos : 0 < ((List.range k).map fun c' => exp (s c' - M)).sum := by
    rw [sum_range_list]
    exact Finset.sum_pos (fun c _ => he.pos _) ⟨c0, Finset.mem_range.mpr hc0⟩
  refine ⟨fun c hc => ?_, ?_, fun c hc c' hc' => ?_⟩
  · rw [h3 c hc]; exact div_pos (he.pos _) hpos
  · have : (List.range k).map p = (List.range k).map fun c => exp (s c - M) / ((List.range k).map fun c' => exp (s c' - M)).sum :=
      List.map_congr_left fun c hc => h3 c (List.mem_range.mp hc)
    rw [this, sum_range_list, ← Finset.sum_div, ← sum_range_list]
    exact div_self hpos.ne'
  · rw [h3 c hc, h3 c' hc', div_lt_div_iff_of_pos_right hpos]
    constructor
    · intro h; exact he.mono _ _ (by linarith)
    · intro h
      by_contra hh
      rcases (not_lt.mp hh).lt_or_eq with h' | h'
      · exact absurd (he.mono (s c' - M) (s c - M) (by linarith)) (not_lt.mpr h.le)
      · rw [h'] at h; exact lt_irrefl _ h

/-! ## The Newton loop -/

theorem affinity_scale (es : List (WEdge K)) (f : Nat → Nat → K) (i j : Nat) :
    affinity (es.map fun e => (⟨e.src, e.dst, e.w * f e.src e.dst⟩ : WEdge K)) i j = affinity es i j * f j i := by
  unfold affinity
  rw [List.filter_map, List.map_map, ← List.sum_map_mul_right]
  congr 1
  have : (es.filter ((fun e : WEdge K => decide (e.dst = i ∧ e.src = j)) ∘
      fun e => (⟨e.src, e.dst, e.w * f e.src e.dst⟩ : WEdge K))) = es.filter fun e => decide (e.dst = i ∧ e.src = j) := rfl
  rw [this]
  apply List.map_congr_left
  intro e he
  have h := (List.mem_filter.mp he).2
  simp only [decide_eq_true_eq] at h
  show e.w * f e.src e.dst = e.w * f j i
  rw [h.1, h.2]

/-- One round. -/
def newtonStep (sqrt pow : K → K) (spec : PLaplaceSpec K) (u : List Nat) (uu ul : List (WEdge K)) (g : Nat → K)
    (x : Fin u.length → K) : Fin u.length → K := fun i =>
  (spec.p - 2) / (spec.p - 1) * x i
    + 1 / (spec.p - 1) * (plSolve sqrt spec u (plWeightsU pow u uu x) (plWeightsL pow u ul g x) g).x i

theorem newton_spec (sqrt pow : K → K) (spec : PLaplaceSpec K) (u : List Nat) (uu ul : List (WEdge K)) (g : Nat → K)
    (fuel it : Nat) (x : Fin u.length → K) (n0 : Nat) (r0 : K) :
    let R := plNewton sqrt pow spec u uu ul g (fuel + 1) it x n0 r0
    ∃ prev, R.1 = newtonStep sqrt pow spec u uu ul g prev ∧
      R.2.2 = ((List.finRange u.length).map fun i => |newtonStep sqrt pow spec u uu ul g prev i - prev i|).foldl max 0 ∧
      it < R.2.1 ∧ R.2.1 ≤ it + (fuel + 1) ∧ (R.2.2 ≤ spec.tol ∨ R.2.1 = it + (fuel + 1)) := by
  induction fuel generalizing it x n0 r0 with
  | zero =>
    refine ⟨x, ?_⟩
    rw [plNewton]
    simp only
    split
    · rename_i h
      exact ⟨rfl, rfl, by simp, by simp, .inl h⟩
    · rw [plNewton]
      exact ⟨rfl, rfl, by simp, by simp, .inr rfl⟩
  | succ fuel ih =>
    rw [plNewton]
    simp only
    split
    · rename_i h
      exact ⟨x, rfl, rfl, by simp, by simp, .inl h⟩
    · obtain ⟨prev, h1, h2, h3, h4, h5⟩ := ih (it + 1) (newtonStep sqrt pow spec u uu ul g x) (it + 1)
        (((List.finRange u.length).map fun i => |newtonStep sqrt pow spec u uu ul g x i - x i|).foldl max 0)
      refine ⟨prev, h1, h2, ?_, ?_, ?_⟩
      · exact lt_trans (Nat.lt_succ_self it) h3
      · refine le_trans h4 (by omega)
      · rcases h5 with h5 | h5
        · exact .inl h5
        · exact .inr (h5.trans (by omega))

/-- A property kept by every round holds at the end. -/
theorem newton_ind {sqrt pow : K → K} {spec : PLaplaceSpec K} {u : List Nat} {uu ul : List (WEdge K)} {g : Nat → K}
    {Q : (Fin u.length → K) → Prop} (hQ : ∀ x, Q x → Q (newtonStep sqrt pow spec u uu ul g x))
    (fuel it : Nat) (x : Fin u.length → K) (n0 : Nat) (r0 : K) (hx : Q x) :
    Q (plNewton sqrt pow spec u uu ul g fuel it x n0 r0).1 := by
  induction fuel generalizing it x n0 r0 with
  | zero => exact hx
  | succ fuel ih =>
    rw [plNewton]
    simp only
    split
    · exact hQ x hx
    · exact ih _ _ _ _ (hQ x hx)

theorem Parts.scaled {n : Nat} {u : List Nat} {uu ul : List (WEdge K)} (P : Parts n u uu ul) (f g : Nat → Nat → K) :
    Parts n u (uu.map fun e => ⟨e.src, e.dst, e.w * f e.src e.dst⟩)
      (ul.map fun e => ⟨e.src, e.dst, e.w * g e.src e.dst⟩) := by
  refine ⟨P.nodup, P.range, fun e he => ?_, fun e he => ?_⟩
  · obtain ⟨e', he', rfl⟩ := List.mem_map.mp he
    exact P.uu_mem e' he'
  · obtain ⟨e', he', rfl⟩ := List.mem_map.mp he
    exact P.ul_mem e' he'

theorem Parts.uu_zero {n : Nat} {u : List Nat} {uu ul : List (WEdge K)} (P : Parts n u uu ul) {i j : Nat} (hj : j ∉ u) :
    affinity uu i j = 0 := affinity_zero fun e he h => hj (h.2 ▸ (P.uu_mem e he).1)

theorem Parts.ul_zero {n : Nat} {u : List Nat} {uu ul : List (WEdge K)} (P : Parts n u uu ul) {i j : Nat} (hj : j ∈ u) :
    affinity ul i j = 0 := affinity_zero fun e he h => (P.ul_mem e he).1 (h.2 ▸ hj)

theorem extend_in {u : List Nat} {x : Fin u.length → K} {g : Nat → K} {i : Nat} (h : i ∈ u) :
    extend u x g i = atNode u x i := if_pos h

theorem extend_out {u : List Nat} {x : Fin u.length → K} {g : Nat → K} {i : Nat} (h : i ∉ u) :
    extend u x g i = g i := if_neg h

theorem atNode_map {u : List Nat} {x y : Fin u.length → K} {a b : K} {i : Nat} (hi : i ∈ u) :
    atNode u (fun j => a * x j + b * y j) i = a * atNode u x i + b * atNode u y i := by
  unfold atNode
  have := List.idxOf_lt_length_iff.mpr hi
  rw [look_lt _ this, look_lt _ this, look_lt _ this]

/-- The weights of a linearised system. -/
theorem PRun.newton_weights {n : Int} {ei : List (Int × Int)} {ew : Option (List K)} {y : List Int} {mask : List Bool}
    {spec : PLaplaceSpec K} {es0 : List (WEdge K)} {k : Nat} {Y : Mat K} (P : PRun n ei ew y mask spec es0 k Y)
    {pow : K → K} (hp : PowLaw pow) (g : Nat → K) (x : Fin (unlabeledIdx y.length mask).length → K) :
    ∀ i ∈ unlabeledIdx y.length mask, ∀ j,
      usedWeight spec.symmetrize spec.zeroDiagonal (edgesOf ei ew) i j
          * pow (extend (unlabeledIdx y.length mask) x g i - extend (unlabeledIdx y.length mask) x g j)
        = affinity (plWeightsU pow _ (uuOf (unlabeledIdx y.length mask) (plEdges n.toNat spec es0)) x) i j
          + affinity (plWeightsL pow _ (ulOf (unlabeledIdx y.length mask) (plEdges n.toNat spec es0)) g x) i j := by
  intro i hi j
  have h1 : affinity (plWeightsU pow _ (uuOf (unlabeledIdx y.length mask) (plEdges n.toNat spec es0)) x) i j = _ :=
    affinity_scale _ (fun a b => pow (atNode _ x a - atNode _ x b)) i j
  have h2 : affinity (plWeightsL pow _ (ulOf (unlabeledIdx y.length mask) (plEdges n.toNat spec es0)) g x) i j = _ :=
    affinity_scale _ (fun a b => pow (atNode _ x b - g a)) i j
  rw [h1, h2, ← P.weights hi]
  by_cases hj : j ∈ unlabeledIdx y.length mask
  · rw [P.parts.ul_zero hj, extend_in hi, extend_in hj, add_zero, zero_mul, add_zero, ← hp.even, neg_sub]
  · rw [P.parts.uu_zero hj, extend_in hi, extend_out hj, zero_add, zero_mul, zero_add]

/-! ## Theorems -/

/-- **C104**: an accepted call returns one row per node with the classes `0, …, k-1` up to the largest label, each of them
carried by a labeled node.  The row of a labeled node is its label (zero for the mark "no label"), and that of every other
node is a strictly positive distribution. -/
theorem C104_proba (sqrt exp pow : K → K) (he : ExpLaw exp) (tiny : K) (ht : tiny ≤ 1) (n : Int) (ei : List (Int × Int))
    (ew : Option (List K)) (y : List Int) (mask : List Bool) (spec : PLaplaceSpec K) (r : Diffusion K)
    (h : pLaplace sqrt exp pow tiny n ei ew y mask spec = .ok r) :
    ∃ k, LargestClass y k ∧ (∀ c < k, ClassLabeled y mask c) ∧ HasShape r.F y.length k ∧
      (∀ i : Nat, mask[i]? = some true → ∀ c < k, (Labeled y mask i c → r.F.get i c = 1) ∧
        (¬ Labeled y mask i c → r.F.get i c = 0)) ∧
      (∀ i : Nat, mask[i]? = some false → (∀ c < k, 0 < r.F.get i c) ∧ ((List.range k).map (r.F.get i)).sum = 1) := by
  obtain ⟨es0, k, Y, P, h⟩ := pLaplace_ok.mp h
  have hk : LargestClass y k := plClasses_ok.mp P.classes
  refine ⟨k, hk, fun c hc => ?_, ?_⟩
  · have := ((mem_labeledClasses P.len (c : Int)).mp (P.all c hc)).2
    rwa [Int.toNat_natCast] at this
  have hlab : ∀ i : Nat, mask[i]? = some true → ∀ c < k, (Labeled y mask i c → Y.get i c = 1) ∧
      (¬ Labeled y mask i c → Y.get i c = 0) :=
    fun i hi c hc => P.labelValues hc (v := fun j => Y.get j c) (fun _ _ => rfl) i hi
  rcases h with ⟨hu, rfl⟩ | ⟨hu, -, rfl⟩
  · refine ⟨?_, hlab, fun i hi => ?_⟩
    · rw [(seedMatrix_ok P.seed).2.2]; exact tab_shape _ _ _
    · have := (mem_unl P.len).mpr hi
      rw [hu] at this
      simp at this
  · obtain ⟨h1, h2, h3⟩ := plResult_rows (sqrt := sqrt) (pow := pow) (spec := spec) (Y := Y)
      (es := plEdges n.toNat spec es0) P.len he ht hk.2.1 (unlabeledIdx y.length mask)
    refine ⟨h1, fun i hi c hc => ?_, fun i hi => ?_⟩
    · rw [h2 i c hi hc]; exact hlab i hi c hc
    · obtain ⟨h4, h5, -⟩ := softmax_row he (h3 i hi)
      exact ⟨h4, h5⟩

theorem residual_max {k : Nat} (f : Nat → K) :
    (∀ c < k, f c ≤ ((List.range k).map f).foldl max 0) ∧ 0 ≤ ((List.range k).map f).foldl max 0 ∧
    (((List.range k).map f).foldl max 0 = 0 ∨ ∃ c < k, ((List.range k).map f).foldl max 0 = f c) := by
  obtain ⟨h1, h2, h3⟩ := foldl_max_gen ((List.range k).map f) (0 : K)
  refine ⟨fun c hc => h2 _ (List.mem_map.mpr ⟨c, List.mem_range.mpr hc, rfl⟩), h1, ?_⟩
  rcases h3 with h3 | h3
  · exact .inl h3
  · obtain ⟨c, hc, h⟩ := List.mem_map.mp h3
    exact .inr ⟨c, List.mem_range.mp hc, h.symm⟩

/-- **C104**: for `p = 2` (or without Newton rounds) on a symmetrised graph, with non-negative weights, `eps > 0` and enough
conjugate gradient rounds, the returned rows are the softmax of potentials that are harmonic: at every unlabeled node
`eps v_i + sum of w_ij (v_i - v_j)` vanishes up to the reported residual, which is at most `cg_tol`. -/
theorem C104_harmonic (sqrt exp pow : K → K) (hq : RootLaw sqrt) (he : ExpLaw exp) (tiny : K) (ht : tiny ≤ 1) (n : Int)
    (ei : List (Int × Int)) (ew : Option (List K)) (y : List Int) (mask : List Bool) (spec : PLaplaceSpec K)
    (hp : spec.p = 2 ∨ spec.maxIter ≤ 0) (hs : spec.symmetrize = true) (hw : ∀ e ∈ edgesOf ei ew, 0 ≤ e.2.2)
    (heps : 0 < spec.eps) (htol : 0 ≤ spec.cgTol) (hm : n ≤ spec.cgMaxIter) (r : Diffusion K)
    (h : pLaplace sqrt exp pow tiny n ei ew y mask spec = .ok r) :
    ∃ k v ρ, LargestClass y k ∧ Potentials exp y mask r k v ∧ r.residual = some ρ ∧ ρ ≤ spec.cgTol ∧
      ∀ c < k, balanceGap mask (usedWeight spec.symmetrize spec.zeroDiagonal (edgesOf ei ew)) spec.eps (v c) ≤ ρ * ρ := by
  obtain ⟨es0, k, Y, P, h⟩ := pLaplace_ok.mp h
  have hk : LargestClass y k := plClasses_ok.mp P.classes
  rcases h with ⟨hu, rfl⟩ | ⟨hu, -, rfl⟩
  · refine ⟨k, fun c i => Y.get i c, 0, hk, ⟨fun c hc => P.labelValues hc fun _ _ => rfl, fun i hi => ?_⟩, rfl, htol,
      fun c _ => ?_⟩
    · have := (mem_unl P.len).mpr hi
      rw [hu] at this
      simp at this
    · rw [P.gap_eq _ _ fun i _ j => rfl, hu]
      simp
  · obtain ⟨-, -, h3⟩ := plResult_rows (sqrt := sqrt) (pow := pow) (spec := spec) (Y := Y)
      (es := plEdges n.toNat spec es0) P.len he ht hk.2.1 (unlabeledIdx y.length mask)
    have hcls : ∀ g, plClass sqrt pow spec (unlabeledIdx y.length mask)
        (uuOf (unlabeledIdx y.length mask) (plEdges n.toNat spec es0))
        (ulOf (unlabeledIdx y.length mask) (plEdges n.toNat spec es0)) g
        = ((plSolve sqrt spec (unlabeledIdx y.length mask)
        (uuOf (unlabeledIdx y.length mask) (plEdges n.toNat spec es0))
        (ulOf (unlabeledIdx y.length mask) (plEdges n.toNat spec es0)) g).x, (plSolve sqrt spec (unlabeledIdx y.length mask)
        (uuOf (unlabeledIdx y.length mask) (plEdges n.toNat spec es0))
        (ulOf (unlabeledIdx y.length mask) (plEdges n.toNat spec es0)) g).nIter, (plSolve sqrt spec (unlabeledIdx y.length mask)
        (uuOf (unlabeledIdx y.length mask) (plEdges n.toNat spec es0))
        (ulOf (unlabeledIdx y.length mask) (plEdges n.toNat spec es0)) g).residualNorm) := by
      intro g
      unfold plClass
      rcases hp with hp | hp
      · rw [if_neg (by rw [hp]; exact lt_irrefl _)]
      · have : spec.maxIter.toNat = 0 := by omega
        rw [this]
        split <;> rfl
    have hnn := plEdges_nonneg (n := n.toNat) spec (P.nonneg hw)
    have S := fun g => P.parts.solved hq heps (P.uu_sym hs) (fun e he => hnn e (List.mem_filter.mp he).1)
      (fun e he => hnn e (List.mem_filter.mp he).1) htol (by rw [P.ylen]; exact hm) g
    refine ⟨k, fun c => extend _ (plSolve sqrt spec (unlabeledIdx y.length mask)
        (uuOf (unlabeledIdx y.length mask) (plEdges n.toNat spec es0))
        (ulOf (unlabeledIdx y.length mask) (plEdges n.toNat spec es0)) fun j => Y.get j c).x fun j => Y.get j c, _, hk,
      ⟨fun c hc => P.labelValues hc fun i hi => extend_out hi, fun i hi => ?_⟩, rfl, ?_, fun c hc => ?_⟩
    · have h := h3 i hi
      simp only [hcls] at h
      have hi' := (mem_unl P.len).mpr hi
      simpa only [extend_in hi'] using h
    · simp only [hcls]
      rcases (residual_max (k := k) fun c => (plSolve sqrt spec (unlabeledIdx y.length mask)
        (uuOf (unlabeledIdx y.length mask) (plEdges n.toNat spec es0))
        (ulOf (unlabeledIdx y.length mask) (plEdges n.toNat spec es0)) fun j => Y.get j c).residualNorm).2.2 with h | ⟨c, hc, h⟩
      · rw [h]; exact htol
      · rw [h]; exact (S _).2.2
    · simp only [hcls]
      rw [P.gap_eq _ _ fun i hi j => (P.weights hi).symm, (S _).1]
      have := (residual_max (k := k) fun c => (plSolve sqrt spec (unlabeledIdx y.length mask)
        (uuOf (unlabeledIdx y.length mask) (plEdges n.toNat spec es0))
        (ulOf (unlabeledIdx y.length mask) (plEdges n.toNat spec es0)) fun j => Y.get j c).residualNorm).1 c hc
      exact mul_self_le_mul_self (S _).2.1 this

/-- **C104**: for `p > 2` on a symmetrised graph, with non-negative weights, `eps > 0` and enough conjugate gradient rounds,
the returned rows are the softmax of potentials `v` obtained from the potentials `prev` of the round before by
`v = ((p-2) prev + lin) / (p-1)`, where `lin` balances, up to `cg_tol`, the graph whose weights are multiplied by
`|prev_i - prev_j| ** (p-2)`.  No value changed by more than the reported residual in that round; the number of rounds is at
most `max_iter`, and the residual is at most `tol` unless all rounds were used. -/
theorem C104_newton (sqrt exp pow : K → K) (hq : RootLaw sqrt) (he : ExpLaw exp) (hpow : PowLaw pow) (tiny : K) (ht : tiny ≤ 1)
    (n : Int) (ei : List (Int × Int)) (ew : Option (List K)) (y : List Int) (mask : List Bool) (spec : PLaplaceSpec K)
    (hp : 2 < spec.p) (hs : spec.symmetrize = true) (hw : ∀ e ∈ edgesOf ei ew, 0 ≤ e.2.2)
    (heps : 0 < spec.eps) (htol : 0 ≤ spec.cgTol) (hm : n ≤ spec.cgMaxIter) (hit : 1 ≤ spec.maxIter)
    (hun : ∃ i : Nat, mask[i]? = some false) (r : Diffusion K)
    (h : pLaplace sqrt exp pow tiny n ei ew y mask spec = .ok r) :
    ∃ (k : Nat) (v prev lin : Nat → Nat → K) (ρ : K), LargestClass y k ∧ Potentials exp y mask r k v ∧ r.residual = some ρ ∧
      (∀ c < k, LabelValues y mask c (prev c) ∧ LabelValues y mask c (lin c) ∧
        (∀ i : Nat, mask[i]? = some false → v c i = ((spec.p - 2) * prev c i + lin c i) / (spec.p - 1) ∧
          |v c i - prev c i| ≤ ρ) ∧
        balanceGap mask (fun i j => usedWeight spec.symmetrize spec.zeroDiagonal (edgesOf ei ew) i j
          * pow (prev c i - prev c j)) spec.eps (lin c) ≤ spec.cgTol * spec.cgTol) ∧
      1 ≤ r.nIter ∧ r.nIter ≤ spec.maxIter ∧ (ρ ≤ spec.tol ∨ r.nIter = spec.maxIter) := by
  obtain ⟨es0, k, Y, P, h⟩ := pLaplace_ok.mp h
  have hk : LargestClass y k := plClasses_ok.mp P.classes
  rcases h with ⟨hu, -⟩ | ⟨hu, -, rfl⟩
  · obtain ⟨i, hi⟩ := hun
    have := (mem_unl P.len).mpr hi
    rw [hu] at this
    simp at this
  obtain ⟨-, -, h3⟩ := plResult_rows (sqrt := sqrt) (pow := pow) (spec := spec) (Y := Y)
    (es := plEdges n.toNat spec es0) P.len he ht hk.2.1 (unlabeledIdx y.length mask)
  obtain ⟨fuel, hfuel⟩ : ∃ fuel, spec.maxIter.toNat = fuel + 1 := ⟨spec.maxIter.toNat - 1, by omega⟩
  unfold plResult at h3 ⊢
  simp only at h3 ⊢
  have hmem : ∀ {i : Nat}, mask[i]? = some false → i ∈ unlabeledIdx y.length mask := fun hi => (mem_unl P.len).mpr hi
  have hnn := plEdges_nonneg (n := n.toNat) spec (P.nonneg hw)
  have hnn1 : ∀ e ∈ uuOf (unlabeledIdx y.length mask) (plEdges n.toNat spec es0), 0 ≤ e.w :=
    fun e he => hnn e (List.mem_filter.mp he).1
  have hnn2 : ∀ e ∈ ulOf (unlabeledIdx y.length mask) (plEdges n.toNat spec es0), 0 ≤ e.w :=
    fun e he => hnn e (List.mem_filter.mp he).1
  have hparts := P.parts
  have hsym := P.uu_sym hs
  have hwt := fun g x => P.newton_weights hpow g x
  have hlv := fun (c : Nat) (hc : c < k) (v : Nat → K) hv => P.labelValues hc (v := v) hv
  have hgap := fun (w w' : Nat → Nat → K) (eps : K) (v : Nat → K) hh => P.gap_eq (w := w) (w' := w') eps v hh
  have hyn : (y.length : Int) = n := P.ylen
  clear hu
  generalize unlabeledIdx y.length mask = u at *
  generalize uuOf u (plEdges n.toNat spec es0) = uu at *
  generalize ulOf u (plEdges n.toNat spec es0) = ul at *
  have N := fun c => newton_spec sqrt pow spec u uu ul (fun j => Y.get j c) fuel 0
    (plSolve sqrt spec u uu ul fun j => Y.get j c).x (plSolve sqrt spec u uu ul fun j => Y.get j c).nIter
    (plSolve sqrt spec u uu ul fun j => Y.get j c).residualNorm
  have hcls : ∀ c, plClass sqrt pow spec u uu ul (fun j => Y.get j c) = plNewton sqrt pow spec u uu ul
      (fun j => Y.get j c) (fuel + 1) 0
      (plSolve sqrt spec u uu ul fun j => Y.get j c).x (plSolve sqrt spec u uu ul fun j => Y.get j c).nIter
      (plSolve sqrt spec u uu ul fun j => Y.get j c).residualNorm := by
    intro c
    unfold plClass
    rw [if_pos hp, hfuel]
  simp only [← hcls] at N
  choose prev h1 h2 h4 h5 h6 using N
  have hp1 : spec.p - 1 ≠ 0 := by linarith
  obtain ⟨m1, m2, m3⟩ := residual_max (k := k) fun c => (plClass sqrt pow spec u uu ul fun j => Y.get j c).2.2
  obtain ⟨q1, q2, q3⟩ := foldl_max_gen ((List.range k).map fun c => (plClass sqrt pow spec u uu ul fun j => Y.get j c).2.1) 0
  refine ⟨k, fun c => extend u (plClass sqrt pow spec u uu ul fun j => Y.get j c).1 fun j => Y.get j c,
    fun c => extend u (prev c) fun j => Y.get j c,
    fun c => extend u (plSolve sqrt spec u (plWeightsU pow u uu (prev c)) (plWeightsL pow u ul (fun j => Y.get j c) (prev c))
      fun j => Y.get j c).x fun j => Y.get j c, _, hk, ⟨fun c hc => hlv c hc _ fun i hi => extend_out hi, fun i hi => ?_⟩,
    rfl, fun c hc => ⟨hlv c hc _ fun i hi => extend_out hi, hlv c hc _ fun i hi => extend_out hi, fun i hi => ⟨?_, ?_⟩, ?_⟩,
    ?_, ?_, ?_⟩
  · simpa only [extend_in (hmem hi)] using h3 i hi
  · simp only [extend_in (hmem hi), h1 c]
    unfold newtonStep
    rw [atNode_map (hmem hi)]
    field_simp
  · simp only [extend_in (hmem hi)]
    refine le_trans ?_ (m1 c hc)
    simp only [h1 c, h2 c]
    have hlt := List.idxOf_lt_length_iff.mpr (hmem hi)
    refine (foldl_max_gen _ (0 : K)).2.1 _ (List.mem_map.mpr ⟨⟨u.idxOf i, hlt⟩, List.mem_finRange _, ?_⟩)
    unfold atNode
    rw [look_lt _ hlt, look_lt _ hlt]
  · rw [hgap _ _ _ _ (hwt (fun j => Y.get j c) (prev c))]
    have hpp : Parts y.length u (plWeightsU pow u uu (prev c)) (plWeightsL pow u ul (fun j => Y.get j c) (prev c)) :=
      hparts.scaled (fun a b => pow (atNode u (prev c) a - atNode u (prev c) b))
        (fun a b => pow (atNode u (prev c) b - Y.get a c))
    have hA : ∀ i j, affinity (plWeightsU pow u uu (prev c)) i j = _ :=
      affinity_scale uu (fun a b => pow (atNode u (prev c) a - atNode u (prev c) b))
    have g1 : ∀ i j, affinity (plWeightsU pow u uu (prev c)) i j = affinity (plWeightsU pow u uu (prev c)) j i := by
      intro i j
      rw [hA, hA, hsym i j, ← hpow.even, neg_sub]
    have g2 : ∀ e ∈ plWeightsU pow u uu (prev c), 0 ≤ e.w := by
      intro e he
      obtain ⟨e', he', rfl⟩ := List.mem_map.mp he
      exact mul_nonneg (hnn1 e' he') (hpow.nonneg _)
    have g3 : ∀ e ∈ plWeightsL pow u ul (fun j => Y.get j c) (prev c), 0 ≤ e.w := by
      intro e he
      obtain ⟨e', he', rfl⟩ := List.mem_map.mp he
      exact mul_nonneg (hnn2 e' he') (hpow.nonneg _)
    obtain ⟨s1, s2, s3⟩ := hpp.solved hq heps g1 g2 g3 htol (by rw [hyn]; exact hm) fun j => Y.get j c
    rw [s1]
    exact mul_self_le_mul_self s2 s3
  · have := q2 _ (List.mem_map.mpr ⟨0, List.mem_range.mpr hk.2.1, rfl⟩)
    have h7 := h4 0
    omega
  · rcases q3 with q3 | q3
    · rw [q3]; omega
    · obtain ⟨c, -, hc⟩ := List.mem_map.mp q3
      have := h5 c
      omega
  · by_cases hall : ∀ c < k, (plClass sqrt pow spec u uu ul fun j => Y.get j c).2.2 ≤ spec.tol
    · left
      rcases m3 with m3 | ⟨c, hc, m3⟩
      · have h8 := hall 0 hk.2.1
        have h9 : 0 ≤ (plClass sqrt pow spec u uu ul fun j => Y.get j 0).2.2 := by
          rw [h2 0]; exact (foldl_max_gen _ (0 : K)).1
        rw [m3]
        exact le_trans h9 h8
      · rw [m3]; exact hall c hc
    · right
      push Not at hall
      obtain ⟨c, hc, hlt⟩ := hall
      have h8 := (h6 c).resolve_left (not_le.mpr hlt)
      have h9 := q2 _ (List.mem_map.mpr ⟨c, List.mem_range.mpr hc, rfl⟩)
      have h10 : ((List.range k).map fun c => (plClass sqrt pow spec u uu ul fun j => Y.get j c).2.1).foldl max 0
          ≤ spec.maxIter.toNat := by
        rcases q3 with q3 | q3
        · rw [q3]; omega
        · obtain ⟨c, -, hc⟩ := List.mem_map.mp q3
          have := h5 c
          omega
      omega

/-! ## Parts of the graph without labels -/

theorem cgLoop_zero {m : Nat} {sqrt : K → K} {A : (Fin m → K) → (Fin m → K)} {tol : K} {Z : Fin m → Prop}
    (hA : ∀ v : Fin m → K, (∀ i, Z i → v i = 0) → ∀ i, Z i → A v i = 0) (fuel k : Nat) (x r p : Fin m → K) (rs : K)
    (hx : ∀ i, Z i → x i = 0) (hr : ∀ i, Z i → r i = 0) (hp : ∀ i, Z i → p i = 0) :
    ∀ i, Z i → (cgLoop sqrt A tol fuel k x r p rs).x i = 0 := by
  induction fuel generalizing k x r p rs with
  | zero => exact hx
  | succ fuel ih =>
    have hx' : ∀ i, Z i → x i + rs / dot p (A p) * p i = 0 := fun i hi => by rw [hx i hi, hp i hi]; ring
    have hr' : ∀ i, Z i → r i - rs / dot p (A p) * A p i = 0 := fun i hi => by rw [hr i hi, hA p hp i hi]; ring
    rw [cgLoop]
    simp only
    split
    · exact hx
    · split
      · exact hx'
      · exact ih _ _ _ _ _ hx' hr' fun i hi => by rw [hr' i hi, hp i hi]; ring

namespace Parts
variable {n : Nat} {u : List Nat} {uu ul : List (WEdge K)}

theorem solve_zero (P : Parts n u uu ul) (sqrt : K → K) (spec : PLaplaceSpec K) (g : Nat → K) {Z : Nat → Prop}
    (h1 : ∀ a b, Z a → affinity uu a b ≠ 0 → Z b) (h2 : ∀ a b, Z a → affinity ul a b = 0) :
    ∀ i : Fin u.length, Z u[i.val] → (plSolve sqrt spec u uu ul g).x i = 0 := by
  have hA : ∀ v : Fin u.length → K, (∀ i : Fin u.length, Z u[i.val] → v i = 0) → ∀ i : Fin u.length, Z u[i.val] →
      plOp u uu ul spec.eps v i = 0 := by
    intro v hv i hi
    rw [P.op_eq, hv i hi, mul_zero, zero_sub, neg_eq_zero]
    refine Finset.sum_eq_zero fun j _ => ?_
    by_cases hz : affinity uu u[i.val] u[j.val] = 0
    · rw [hz, zero_mul]
    · rw [hv j (h1 _ _ hi hz), mul_zero]
  have hb : ∀ i : Fin u.length, Z u[i.val] → plRhs u ul g i = 0 := by
    intro i hi
    unfold plRhs
    rw [← affinity_sum (fun e he => (P.ul_mem e he).2.1) u[i.val] g, sub_zero]
    exact Finset.sum_eq_zero fun j _ => by rw [h2 _ _ hi, zero_mul]
  have h0 : ∀ i : Fin u.length, Z u[i.val] → plRhs u ul g i - plOp u uu ul spec.eps (fun _ => 0) i = 0 := fun i hi => by
    rw [hb i hi, hA (fun _ => 0) (fun _ _ => rfl) i hi, sub_zero]
  unfold plSolve cgSolve
  simp only [Option.getD_none]
  split
  · intro i _; rfl
  · exact cgLoop_zero (Z := fun i : Fin u.length => Z u[i.val]) hA _ _ _ _ _ _ (fun i _ => rfl) h0 h0

theorem class_zero (P : Parts n u uu ul) (sqrt pow : K → K) (spec : PLaplaceSpec K) (g : Nat → K) {Z : Nat → Prop}
    (h1 : ∀ a b, Z a → affinity uu a b ≠ 0 → Z b) (h2 : ∀ a b, Z a → affinity ul a b = 0) :
    ∀ i : Fin u.length, Z u[i.val] → (plClass sqrt pow spec u uu ul g).1 i = 0 := by
  have h0 := P.solve_zero sqrt spec g h1 h2
  unfold plClass
  simp only
  split
  · refine newton_ind (Q := fun x => ∀ i : Fin u.length, Z u[i.val] → x i = 0) (fun x hx i hi => ?_) _ _ _ _ _ h0
    have hpp : Parts n u (plWeightsU pow u uu x) (plWeightsL pow u ul g x) :=
      P.scaled (fun a b => pow (atNode u x a - atNode u x b)) (fun a b => pow (atNode u x b - g a))
    have e1 : ∀ i j, affinity (plWeightsU pow u uu x) i j = _ :=
      affinity_scale uu (fun a b => pow (atNode u x a - atNode u x b))
    have e2 : ∀ i j, affinity (plWeightsL pow u ul g x) i j = _ := affinity_scale ul (fun a b => pow (atNode u x b - g a))
    unfold newtonStep
    rw [hx i hi, hpp.solve_zero sqrt spec g (fun a b ha hne => h1 a b ha fun hz => hne (by rw [e1, hz, zero_mul]))
      (fun a b ha => by rw [e2, h2 a b ha, zero_mul]) i hi]
    ring
  · exact h0

end Parts

theorem used_adjacent {es : List (Int × Int × K)} (hw : ∀ e ∈ es, 0 ≤ e.2.2) {a b : Bool} {i j : Nat} (hij : i ≠ j)
    (h : usedWeight a b es i j ≠ 0) : Adjacent es i j := by
  have key : ∀ i j : Nat, ((es.filter fun e => e.1 = (j : Int) ∧ e.2.1 = (i : Int)).map (·.2.2)).sum ≠ 0 →
      ∃ w, 0 < w ∧ ((j : Int), (i : Int), w) ∈ es := by
    intro i j hne
    by_contra hno
    push Not at hno
    apply hne
    apply List.sum_eq_zero
    intro x hx
    obtain ⟨e, he, rfl⟩ := List.mem_map.mp hx
    obtain ⟨he1, he2⟩ := List.mem_filter.mp he
    simp only [decide_eq_true_eq] at he2
    rcases (hw e he1).lt_or_eq with hlt | heq
    · exact absurd (he2.1 ▸ he2.2 ▸ he1) (hno _ hlt)
    · exact heq.symm
  unfold usedWeight at h
  rw [if_neg fun hh => hij hh.2] at h
  refine ⟨hij, ?_⟩
  by_cases h1 : ((es.filter fun e => e.1 = (j : Int) ∧ e.2.1 = (i : Int)).map (·.2.2)).sum = 0
  · rw [h1, zero_add] at h
    cases a
    · simp at h
    · obtain ⟨w, hw, hm⟩ := key j i (by simpa using h)
      exact ⟨w, hw, .inl hm⟩
  · obtain ⟨w, hw, hm⟩ := key i j h1
    exact ⟨w, hw, .inr hm⟩

/-- **C104**: a node that no path of edges joins to a labeled node gets the uniform distribution. -/
theorem C104_isolated (sqrt exp pow : K → K) (he : ExpLaw exp) (tiny : K) (ht : tiny ≤ 1) (n : Int) (ei : List (Int × Int))
    (ew : Option (List K)) (y : List Int) (mask : List Bool) (spec : PLaplaceSpec K)
    (hw : ∀ e ∈ edgesOf ei ew, 0 ≤ e.2.2) (r : Diffusion K)
    (h : pLaplace sqrt exp pow tiny n ei ew y mask spec = .ok r) (i : Nat) (hi : i < y.length)
    (hiso : ∀ j, Linked (edgesOf ei ew) i j → mask[j]? ≠ some true) :
    ∀ k, LargestClass y k → ∀ c < k, r.F.get i c = 1 / (k : K) := by
  intro k' hk' c hc
  obtain ⟨es0, k, Y, P, h⟩ := pLaplace_ok.mp h
  have hk : LargestClass y k := plClasses_ok.mp P.classes
  have hkk : plClasses y = .ok k' := plClasses_ok.mpr hk'
  obtain rfl : k = k' := Except.ok.inj (P.classes.symm.trans hkk)
  have hmi : mask[i]? = some false := by
    have hi' : i < mask.length := by rw [P.len]; exact hi
    have := hiso i .refl
    rw [List.getElem?_eq_getElem hi'] at this ⊢
    cases hmm : mask[i]
    · rfl
    · rw [hmm] at this; simp at this
  have hiu := (mem_unl P.len).mpr hmi
  rcases h with ⟨hu, -⟩ | ⟨hu, -, rfl⟩
  · rw [hu] at hiu; simp at hiu
  obtain ⟨-, -, h3⟩ := plResult_rows (sqrt := sqrt) (pow := pow) (spec := spec) (Y := Y)
    (es := plEdges n.toNat spec es0) P.len he ht hk.2.1 (unlabeledIdx y.length mask)
  have hunl : ∀ a, Linked (edgesOf ei ew) i a → a < y.length → a ∈ unlabeledIdx y.length mask := by
    intro a ha hal
    rw [mem_unl P.len]
    have hal' : a < mask.length := by rw [P.len]; exact hal
    have := hiso a ha
    rw [List.getElem?_eq_getElem hal'] at this ⊢
    cases hmm : mask[a]
    · rfl
    · rw [hmm] at this; simp at this
  have hz := fun c => P.parts.class_zero sqrt pow spec (fun j => Y.get j c)
    (Z := fun a => Linked (edgesOf ei ew) i a ∧ a ∈ unlabeledIdx y.length mask)
    (fun a b ha hne => by
      have hb : b ∈ unlabeledIdx y.length mask := by
        by_contra hb
        exact hne (P.parts.uu_zero hb)
      refine ⟨?_, hb⟩
      by_cases hab : a = b
      · exact hab ▸ ha.1
      · refine .step ha.1 (used_adjacent hw hab (a := spec.symmetrize) (b := spec.zeroDiagonal) ?_)
        rw [← P.weights ha.2, P.parts.ul_zero hb, add_zero]
        exact hne)
    (fun a b ha => by
      by_contra hne
      have hb : b ∉ unlabeledIdx y.length mask := fun hb => hne (P.parts.ul_zero hb)
      have hab : a ≠ b := fun hab => hb (hab ▸ ha.2)
      have hbl : b < y.length := by
        by_contra hbl
        exact hne (affinity_zero fun e he hh => hbl (hh.2 ▸ (P.parts.ul_mem e he).2.1))
      refine hb (hunl b (.step ha.1 (used_adjacent hw hab (a := spec.symmetrize) (b := spec.zeroDiagonal) ?_)) hbl)
      rw [← P.weights ha.2, P.parts.uu_zero hb, zero_add]
      exact hne)
  have hat : ∀ c, atNode (unlabeledIdx y.length mask) (plClass sqrt pow spec (unlabeledIdx y.length mask)
      (uuOf (unlabeledIdx y.length mask) (plEdges n.toNat spec es0))
      (ulOf (unlabeledIdx y.length mask) (plEdges n.toNat spec es0)) fun j => Y.get j c).1 i = 0 := by
    intro c
    have hlt := List.idxOf_lt_length_iff.mpr hiu
    unfold atNode
    rw [look_lt _ hlt]
    refine hz c ⟨_, hlt⟩ ?_
    rw [List.getElem_idxOf hlt]
    exact ⟨.refl, hiu⟩
  obtain ⟨M, -, ⟨c0, -, hM⟩, h5⟩ := h3 i hmi
  simp only [hat] at hM h5
  subst hM
  rw [h5 c hc]
  simp only [sub_zero, he.zero]
  rw [List.map_const', List.sum_replicate, List.length_range, nsmul_eq_mul, mul_one]

theorem edges_pairs {n : Int} {ei : List (Int × Int)} {ew : Option (List K)} {es : List (WEdge K)}
    (h : validateGraph n ei ew = .ok es) (a b : Nat) :
    (∃ e ∈ es, e.src = a ∧ e.dst = b) ↔ ((a : Int), (b : Int)) ∈ ei := by
  obtain ⟨-, hw, he, -⟩ := validateGraph_ok h
  have h1 : es.map (fun e => ((e.src : Int), (e.dst : Int))) = ei := by
    have : es.map (fun e => ((e.src : Int), (e.dst : Int)))
        = (es.map fun e => ((e.src : Int), (e.dst : Int), e.w)).map fun t => (t.1, t.2.1) := by rw [List.map_map]; rfl
    rw [this, he]
    cases ew with
    | none => simp [edgesOf, List.map_map, Function.comp_def]
    | some w =>
      have hl := hw w rfl
      simp only [edgesOf, List.map_map, Function.comp_def]
      exact List.map_fst_zip hl.ge
  rw [← h1, List.mem_map]
  constructor
  · rintro ⟨e, he, rfl, rfl⟩
    exact ⟨e, he, rfl⟩
  · rintro ⟨e, he, hh⟩
    obtain ⟨h2, h3⟩ := Prod.mk.inj hh
    exact ⟨e, he, by exact_mod_cast h2, by exact_mod_cast h3⟩

theorem PRun.linked_labels {n : Int} {ei : List (Int × Int)} {ew : Option (List K)} {y : List Int} {mask : List Bool}
    {spec : PLaplaceSpec K} {es0 : List (WEdge K)} {k : Nat} {Y : Mat K} (P : PRun n ei ew y mask spec es0 k Y) :
    ulOf (unlabeledIdx y.length mask) (plEdges n.toNat spec es0) ≠ [] ↔
      ∃ a b : Nat, mask[a]? = some true ∧ mask[b]? = some false ∧
        (((a : Int), (b : Int)) ∈ ei ∨ (spec.symmetrize = true ∧ ((b : Int), (a : Int)) ∈ ei)) := by
  have hcase : ∀ a : Nat, a < y.length → (a ∉ unlabeledIdx y.length mask ↔ mask[a]? = some true) := by
    intro a ha
    have ha' : a < mask.length := by rw [P.len]; exact ha
    rw [mem_unl P.len, List.getElem?_eq_getElem ha']
    cases mask[a] <;> simp
  constructor
  · intro h
    obtain ⟨e, he⟩ := List.exists_mem_of_ne_nil _ h
    obtain ⟨h1, h2, h3⟩ := P.parts.ul_mem e he
    obtain ⟨-, h4⟩ := (plEdges_mem spec P.es0_range e.src e.dst).mp ⟨e, (List.mem_filter.mp he).1, rfl, rfl⟩
    rw [edges_pairs P.graph, edges_pairs P.graph] at h4
    exact ⟨e.src, e.dst, (hcase _ h2).mp h1, (mem_unl P.len).mp h3, h4⟩
  · rintro ⟨a, b, ha, hb, h⟩ hnil
    have hal : a < y.length := by rw [← P.len]; exact (List.getElem?_eq_some_iff.mp ha).1
    rw [← edges_pairs P.graph, ← edges_pairs P.graph] at h
    have hab : a ≠ b := by
      rintro rfl
      rw [ha] at hb; simp at hb
    obtain ⟨e, he, rfl, rfl⟩ := (plEdges_mem spec P.es0_range a b).mpr ⟨fun hh => hab hh.2, h⟩
    have hm : e ∈ ulOf (unlabeledIdx y.length mask) (plEdges n.toNat spec es0) := by
      refine List.mem_filter.mpr ⟨he, ?_⟩
      rw [Bool.and_eq_true, Bool.not_eq_true', decide_eq_false_iff_not, decide_eq_true_eq]
      exact ⟨(hcase _ hal).mpr ha, (mem_unl P.len).mpr hb⟩
    rw [hnil] at hm
    simp at hm

/-- **C104**: exactly which calls are accepted: `p` at least 2, a graph on the nodes with one weight per edge, one label and
mask entry per node, some label, each class up to the largest label carried by a labeled node, and either no unlabeled node
or an edge from a labeled to an unlabeled one (in either direction with `symmetrize`); all others raise `ValueError`. -/
theorem C104_accepts (sqrt exp pow : K → K) (tiny : K) (n : Int) (ei : List (Int × Int)) (ew : Option (List K)) (y : List Int)
    (mask : List Bool) (spec : PLaplaceSpec K) :
    ((∃ r, pLaplace sqrt exp pow tiny n ei ew y mask spec = .ok r) ↔
      2 ≤ spec.p ∧ 0 < n ∧ (y.length : Int) = n ∧ (mask.length : Int) = n ∧ InRange n.toNat ei ∧
      (∀ w, ew = some w → w.length = ei.length) ∧
      (∃ k, LargestClass y k ∧ ∀ c < k, ClassLabeled y mask c) ∧
      ((∀ b ∈ mask, b = true) ∨ ∃ a b : Nat, mask[a]? = some true ∧ mask[b]? = some false ∧
        (((a : Int), (b : Int)) ∈ ei ∨ (spec.symmetrize = true ∧ ((b : Int), (a : Int)) ∈ ei)))) ∧
    ∀ e, pLaplace sqrt exp pow tiny n ei ew y mask spec = .error e → e = .valueError := by
  constructor
  · constructor
    · rintro ⟨r, h⟩
      obtain ⟨es0, k, Y, P, h⟩ := pLaplace_ok.mp h
      obtain ⟨hn, hw, -, -⟩ := validateGraph_ok P.graph
      refine ⟨not_lt.mp P.p2, hn, P.ylen, P.mlen, fun e he => ?_, hw, ⟨k, plClasses_ok.mp P.classes, fun c hc => ?_⟩, ?_⟩
      · have := validateGraph_range P.graph e he
        omega
      · have := ((mem_labeledClasses P.len (c : Int)).mp (P.all c hc)).2
        rwa [Int.toNat_natCast] at this
      · rcases h with ⟨hu, -⟩ | ⟨-, hul, -⟩
        · left
          intro b hb
          obtain ⟨i, hi, rfl⟩ := List.getElem_of_mem hb
          have : i ∉ unlabeledIdx y.length mask := by rw [hu]; simp
          rw [mem_unl P.len, List.getElem?_eq_getElem hi] at this
          cases hmm : mask[i]
          · rw [hmm] at this; simp at this
          · rfl
        · exact .inr (P.linked_labels.mp hul)
    · rintro ⟨hp, hn, hy, hm, hr, hw, ⟨k, hk, hall⟩, hc⟩
      obtain ⟨es0, hg⟩ := validateGraph_total hn hw fun e he => by
        have := hr e he
        omega
      have hlen : mask.length = y.length := by omega
      obtain ⟨Y, hY⟩ := seedMatrix_total (K := K) (mask := mask) hk.2.1 hk.2.2
      have P : PRun n ei ew y mask spec es0 k Y := by
        refine ⟨not_lt.mpr hp, hg, hy, hm, ?_, plClasses_ok.mpr hk, fun c hc => ?_, hY⟩
        · obtain ⟨i, hi, -⟩ := hall 0 hk.2.1
          exact List.any_eq_true.mpr ⟨true, List.mem_of_getElem? hi, rfl⟩
        · rw [mem_labeledClasses hlen, Int.toNat_natCast]
          exact ⟨by omega, hall c hc⟩
      by_cases hu : unlabeledIdx y.length mask = []
      · exact ⟨_, pLaplace_ok.mpr ⟨es0, k, Y, P, .inl ⟨hu, rfl⟩⟩⟩
      · refine ⟨_, pLaplace_ok.mpr ⟨es0, k, Y, P, .inr ⟨hu, ?_, rfl⟩⟩⟩
        rcases hc with hc | hc
        · obtain ⟨i, hi⟩ := List.exists_mem_of_ne_nil _ hu
          have := (mem_unl hlen).mp hi
          have := hc _ (List.mem_of_getElem? this)
          simp at this
        · exact P.linked_labels.mpr hc
  · have hv : ∀ e, validateGraph n ei ew = .error e → e = .valueError := by
      intro e h
      unfold validateGraph at h
      simp only at h
      repeat' split at h
      all_goals first
        | exact (Except.error.inj h).symm
        | simp at h
    intro e h
    unfold pLaplace at h
    split at h
    · exact (Except.error.inj h).symm
    cases hg : validateGraph n ei ew with
    | error e' =>
      rw [hg] at h
      obtain rfl : e' = e := Except.error.inj h
      exact hv _ hg
    | ok es0 =>
      rw [ebind_of_ok hg] at h
      simp only at h
      split at h
      · exact (Except.error.inj h).symm
      split at h
      · exact (Except.error.inj h).symm
      split at h
      · exact (Except.error.inj h).symm
      cases hk : plClasses y with
      | error e' =>
        rw [hk] at h
        obtain rfl : e' = e := Except.error.inj h
        unfold plClasses at hk
        simp only at hk
        split at hk
        · exact (Except.error.inj hk).symm
        · simp at hk
      | ok k =>
        rw [ebind_of_ok hk] at h
        split at h
        · exact (Except.error.inj h).symm
        obtain ⟨Y, hY⟩ := seedMatrix_total (K := K) (mask := mask) (plClasses_ok.mp hk).2.1 (plClasses_ok.mp hk).2.2
        rw [ebind_of_ok hY] at h
        split at h
        · simp at h
        split at h
        · exact (Except.error.inj h).symm
        · simp at h

/-! ## Examples -/

/-- Stand-in for the exponential function in the examples: positive, 1 at 0 and increasing, exact on rationals. -/
def demoExp (x : Rat) : Rat := if x < 0 then 1 / (1 - x) else 1 + x

theorem demoExp_law : ExpLaw demoExp := by
  constructor
  · intro x
    unfold demoExp
    split
    · exact div_pos one_pos (by linarith)
    · linarith
  · decide +kernel
  · intro x y h
    unfold demoExp
    split <;> split
    · exact one_div_lt_one_div_of_lt (by linarith) (by linarith)
    · rw [div_lt_iff₀ (by linarith)]
      nlinarith
    · linarith
    · linarith

theorem demoPow_law : PowLaw (fun d : Rat => |d|) := ⟨fun d => abs_neg d, fun d => abs_nonneg d⟩

/-- Four nodes: 0 and 1 labeled, 2 joined to both, 3 alone with a self-loop; `p = 2`. -/
def plDemo (p : Rat) : Except PyErr (Diffusion Rat) :=
  pLaplace (fun x => x) demoExp (fun d => |d|) (1 / 1000000000000) 4 [(0, 2), (2, 1), (3, 3)] (some [2, 1, 1]) [0, 1, 0, 1]
    [true, true, false, false] ⟨p, 3, 0, 1 / 1000, 10, 1, true, true⟩

example : (plDemo 2).map (fun r => (r.F, r.nIter)) = .ok ([[1, 0], [0, 1], [5 / 9, 4 / 9], [1 / 2, 1 / 2]], 1) := by
  decide +kernel

example : (plDemo 3).map (fun r => (r.F, r.nIter)) = .ok ([[1, 0], [0, 1],
    [1078293060567 / 2026970479927, 948677419360 / 2026970479927], [1 / 2, 1 / 2]], 3) := by
  decide +kernel

theorem real_exp : ExpLaw Real.exp := ⟨Real.exp_pos, Real.exp_zero, fun _ _ h => Real.exp_strictMono h⟩

/-- The hypotheses of `C104_proba`, `C104_harmonic`, `C104_newton` and `C104_isolated` are met together: with the real square
root, exponential and `|d|` (for `p = 3`), on the graph above; node 3 is joined to no labeled node. -/
example (p : ℝ) (hp : 2 ≤ p) :
    RootLaw Real.sqrt ∧ ExpLaw Real.exp ∧ PowLaw (fun d : ℝ => |d|) ∧
    (∃ r, pLaplace Real.sqrt Real.exp (fun d : ℝ => |d|) (1 / 1000000000000) 4 [(0, 2), (2, 1), (3, 3)] none [0, 1, 0, 1]
      [true, true, false, false] ⟨p, 3, 0, 1 / 1000, 10, 1, true, true⟩ = .ok r) ∧
    (∀ e ∈ edgesOf [(0, 2), (2, 1), (3, 3)] (none : Option (List ℝ)), 0 ≤ e.2.2) ∧
    ∀ j, Linked (edgesOf [(0, 2), (2, 1), (3, 3)] (none : Option (List ℝ))) 3 j → j = 3 := by
  refine ⟨real_root, real_exp, ⟨fun d => abs_neg d, fun d => abs_nonneg d⟩, ?_, ?_, ?_⟩
  · refine (C104_accepts _ _ _ _ _ _ _ _ _ _).1.mpr ⟨hp, by decide, by decide, by decide, ?_, by simp, ⟨2, ?_, ?_⟩, .inr
      ⟨0, 2, rfl, rfl, .inl (by simp)⟩⟩
    · unfold InRange; decide
    · unfold LargestClass; decide
    · intro c hc
      match c, hc with
      | 0, _ => exact ⟨0, rfl, rfl⟩
      | 1, _ => exact ⟨1, rfl, rfl⟩
  · simp [edgesOf]
  · intro j h
    induction h with
    | refl => rfl
    | step _ hadj ih =>
      subst ih
      obtain ⟨hne, w, -, hw⟩ := hadj
      simp [edgesOf] at hw
      omega

example : plDemo (3 / 2) = .error .valueError := by decide +kernel

end ModSSC.Transductive
