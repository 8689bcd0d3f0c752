import Verif.Transductive.MboSpec
import Verif.Transductive.PLaplaceRun
import Verif.Supervised.KnnProps

/-!
# Poisson MBO (C105)
-/

namespace ModSSC.Transductive
open ModSSC Spec

set_option linter.unusedSectionVars false

variable {K : Type} [Field K] [LinearOrder K] [IsStrictOrderedRing K]

/-! ## The edges -/

theorem mboEdges_affinity (spec : MboSpec K) (es : List (WEdge K)) (i j : Nat) :
    affinity (mboEdges spec es) i j = if spec.zeroDiagonal = true ∧ i = j then 0
      else affinity es i j + if spec.symmetrize then affinity es j i else 0 := by
  have h1 : affinity (if spec.symmetrize then es ++ es.map fun e => (⟨e.dst, e.src, e.w⟩ : WEdge K) else es) i j
      = affinity es i j + if spec.symmetrize then affinity es j i else 0 := by
    cases spec.symmetrize
    · simp
    · simp only [if_true]
      rw [affinity_append, affinity_rev]
  unfold mboEdges
  simp only
  cases hz : spec.zeroDiagonal
  · simp only [Bool.false_eq_true, if_false, false_and]
    exact h1
  · simp only [if_true, true_and]
    rw [affinity_filter _ (fun a b => decide (a ≠ b)), h1]
    by_cases hij : i = j
    · subst hij; simp
    · rw [if_pos (by simpa using Ne.symm hij), if_neg hij]

theorem mboEdges_range {n : Nat} (spec : MboSpec K) {es : List (WEdge K)} (hes : ∀ e ∈ es, e.src < n ∧ e.dst < n) :
    ∀ e ∈ mboEdges spec es, e.src < n ∧ e.dst < n := by
  have h1 : ∀ e ∈ (if spec.symmetrize then es ++ es.map fun e => (⟨e.dst, e.src, e.w⟩ : WEdge K) else es),
      e.src < n ∧ e.dst < n := by
    cases spec.symmetrize
    · simpa using hes
    · simp only [if_true]
      intro e he
      rcases List.mem_append.mp he with he | he
      · exact hes e he
      · obtain ⟨e', he', rfl⟩ := List.mem_map.mp he
        exact (hes e' he').symm
  intro e he
  unfold mboEdges at he
  simp only at he
  cases hz : spec.zeroDiagonal
  · rw [hz] at he
    exact h1 e (by simpa using he)
  · rw [hz, if_pos rfl] at he
    exact h1 e (List.mem_filter.mp he).1

/-! ## First maximum -/

theorem firstBest_iff {k : Nat} (hk : 0 < k) (v : Nat → K) (c : Nat) :
    Supervised.argmax ((List.range k).map v) = c ↔ FirstBest k v c := by
  have hget : ∀ j x, ((List.range k).map v)[j]? = some x ↔ j < k ∧ v j = x := by
    intro j x
    rw [List.getElem?_map]
    by_cases hj : j < k
    · rw [List.getElem?_range hj]; simp [hj]
    · rw [List.getElem?_eq_none (by simpa using hj)]; simp [hj]
  obtain ⟨m, h1, h2, h3⟩ := Supervised.argmax_firstMax (row := (List.range k).map v) (by simp; omega)
  generalize Supervised.argmax ((List.range k).map v) = a at *
  obtain ⟨ha, rfl⟩ := (hget _ _).mp h1
  have hbest : FirstBest k v a := ⟨ha, fun c' hc' => h2 c' _ ((hget _ _).mpr ⟨hc', rfl⟩),
    fun c' hc' => h3 c' _ ((hget _ _).mpr ⟨by omega, rfl⟩) hc'⟩
  constructor
  · rintro rfl; exact hbest
  · rintro ⟨hc, h4, h5⟩
    rcases lt_trichotomy a c with h | h | h
    · exact absurd (h5 a h) (not_lt.mpr (hbest.2.1 c hc))
    · exact h
    · exact absurd (hbest.2.2 c h) (not_lt.mpr (h4 a ha))

theorem firstBest_congr {k : Nat} {v v' : Nat → K} (h : ∀ c < k, v c = v' c) (c : Nat) :
    FirstBest k v c ↔ FirstBest k v' c := by
  unfold FirstBest
  refine and_congr_right fun hc => ?_
  constructor
  · rintro ⟨h1, h2⟩
    exact ⟨fun c' hc' => by rw [← h c' hc', ← h c hc]; exact h1 c' hc',
      fun c' hc' => by rw [← h c' (by omega), ← h c hc]; exact h2 c' hc'⟩
  · rintro ⟨h1, h2⟩
    exact ⟨fun c' hc' => by rw [h c' hc', h c hc]; exact h1 c' hc',
      fun c' hc' => by rw [h c' (by omega), h c hc]; exact h2 c' hc'⟩

theorem firstBest_unique {k : Nat} {v : Nat → K} {a c : Nat} (ha : FirstBest k v a) (hc : FirstBest k v c) : a = c := by
  have hk : 0 < k := by have := ha.1; omega
  exact ((firstBest_iff hk v a).mpr ha).symm.trans ((firstBest_iff hk v c).mpr hc)

theorem firstBest_exists {k : Nat} (hk : 0 < k) (v : Nat → K) : ∃ c, FirstBest k v c :=
  ⟨_, (firstBest_iff hk v _).mp rfl⟩

/-! ## Arrays and functions -/

/-- The array holds the values of the function. -/
def Agree (n k : Nat) (F : Mat K) (U : Nat → Nat → K) : Prop := ∀ i < n, ∀ c < k, F.get i c = U i c

theorem agree_tab {n k : Nat} {f U : Nat → Nat → K} (h : ∀ i < n, ∀ c < k, f i c = U i c) : Agree n k (tab n k f) U :=
  fun i hi c hc => by rw [get_tab _ _ _ hi hc]; exact h i hi c hc

/-- What is used of the edges. -/
structure IsGraph (n : Nat) (es : List (WEdge K)) (w : Nat → Nat → K) : Prop where
  src : ∀ e ∈ es, e.src < n
  weight : ∀ i < n, ∀ j, affinity es i j = w i j

namespace IsGraph
variable {n k : Nat} {es : List (WEdge K)} {w : Nat → Nat → K}

theorem deg (G : IsGraph n es w) {i : Nat} (hi : i < n) : degree es i = weightDegree n w i := by
  have := affinity_sum G.src i fun _ => (1 : K)
  simp only [mul_one] at this
  unfold degree weightDegree
  rw [← this, sum_range_list]
  exact Finset.sum_congr rfl fun j _ => G.weight i hi j

theorem lap (G : IsGraph n es w) {F : Mat K} {U : Nat → Nat → K} (h : Agree n k F U) {i c : Nat} (hi : i < n) (hc : c < k) :
    (mboLap n k es F).get i c = laplacianAt n w (fun j => U j c) i := by
  unfold mboLap spmm laplacianAt
  rw [get_tab _ _ _ hi hc, get_tab _ _ _ hi hc, ← affinity_sum G.src i fun j => F.get j c, G.deg hi, sum_range_list, h i hi c hc]
  unfold weightDegree
  rw [sum_range_list, Finset.sum_mul, ← Finset.sum_sub_distrib]
  refine Finset.sum_congr rfl fun j hj => ?_
  rw [G.weight i hi, h j (Finset.mem_range.mp hj) c hc]
  ring

theorem poisson (G : IsGraph n es w) {B src : Nat → Nat → K} (hB : ∀ i < n, ∀ c < k, B i c = src i c) {F : Mat K}
    {U : Nat → Nat → K} (h : Agree n k F U) :
    Agree n k (tab n k fun i c => F.get i c + (poissonUpdate n k es B F).get i c) (poissonStep n w src U) := by
  apply agree_tab
  intro i hi c hc
  unfold poissonUpdate poissonStep
  simp only
  rw [get_tab _ _ _ hi hc, G.lap h hi hc, h i hi c hc, hB i hi c hc, G.deg hi]
  by_cases hd : 0 < weightDegree n w i
  · rw [if_pos hd, if_pos hd]; ring
  · rw [if_neg hd, if_neg hd]; ring

theorem heat (G : IsGraph n es w) {B src : Nat → Nat → K} (hB : ∀ i < n, ∀ c < k, B i c = src i c) (dt mu : K) {F : Mat K}
    {U : Nat → Nat → K} (h : Agree n k F U) :
    Agree n k (tab n k fun i c => F.get i c + (heatUpdate n k es B dt mu F).get i c) (heatStep n w src dt mu U) := by
  apply agree_tab
  intro i hi c hc
  unfold heatUpdate heatStep
  simp only
  rw [get_tab _ _ _ hi hc, G.lap h hi hc, h i hi c hc, hB i hi c hc]
  ring

end IsGraph

theorem maxAbs_spec {n k : Nat} (hn : 0 < n) (hk : 0 < k) (A : Mat K) :
    (∀ i < n, ∀ c < k, |A.get i c| ≤ maxAbs n k A) ∧ ∃ i < n, ∃ c < k, |A.get i c| = maxAbs n k A := by
  have h := maxDiff_spec hn hk A []
  have h0 : ∀ i c, A.get i c - Mat.get ([] : Mat K) i c = A.get i c := by
    intro i c
    have : Mat.get ([] : Mat K) i c = 0 := by simp [Mat.get]
    rw [this, sub_zero]
  have he : maxDiff n k A [] = maxAbs n k A := by
    unfold maxDiff maxAbs
    simp only [h0]
  rw [he] at h
  simp only [h0] at h
  obtain ⟨h1, i, hi, c, hc, h2⟩ := h
  exact ⟨h1, i, hi, c, hc, h2.symm⟩

section Loops
variable {n k : Nat}

theorem mboLoop_agree {upd : Mat K → Mat K} {step : (Nat → Nat → K) → Nat → Nat → K}
    (hs : ∀ F U, Agree n k F U → Agree n k (tab n k fun i c => F.get i c + (upd F).get i c) (step U))
    (t : Nat) (s : Mat K × Option K) (U : Nat → Nat → K) (h : Agree n k s.1 U) :
    Agree n k (mboLoop n k upd t s).1 (step^[t] U) := by
  induction t generalizing s U with
  | zero => exact h
  | succ t ih => exact ih _ _ (hs _ _ h)

theorem mboLoop_residual (hn : 0 < n) (hk : 0 < k) {upd : Mat K → Mat K} {step : (Nat → Nat → K) → Nat → Nat → K}
    (hs : ∀ F U, Agree n k F U → Agree n k (tab n k fun i c => F.get i c + (upd F).get i c) (step U))
    (t : Nat) (s : Mat K × Option K) (U : Nat → Nat → K) (h : Agree n k s.1 U) :
    ∃ ρ, (mboLoop n k upd (t + 1) s).2 = some ρ ∧ LargestChange n k (step^[t + 1] U) (step^[t] U) ρ := by
  induction t generalizing s U with
  | zero =>
    refine ⟨_, rfl, ?_⟩
    obtain ⟨h1, i, hi, c, hc, h2⟩ := maxAbs_spec hn hk (upd s.1)
    have key : ∀ i < n, ∀ c < k, step U i c - U i c = (upd s.1).get i c := by
      intro i hi c hc
      rw [← hs s.1 U h i hi c hc, get_tab _ _ _ hi hc, h i hi c hc]
      ring
    refine ⟨fun i hi c hc => ?_, i, hi, c, hc, ?_⟩
    · show |step U i c - U i c| ≤ _
      rw [key i hi c hc]; exact h1 i hi c hc
    · show |step U i c - U i c| = _
      rw [key i hi c hc]; exact h2
  | succ t ih => exact ih _ _ (hs _ _ h)

theorem proj_agree (hk : 0 < k) {F : Mat K} {V : Nat → Nat → K} (h : Agree n k F V) {l : List K} {s : Nat → K}
    (hl : ∀ c < k, l.getD c 0 = s c) :
    Agree n k (projVertices n k F l) fun i c => if FirstBest k (fun c => V i c * s c) c then 1 else 0 := by
  apply agree_tab
  intro i hi c hc
  refine if_congr ?_ rfl rfl
  rw [firstBest_iff hk]
  exact firstBest_congr (fun c hc => by rw [h i hi c hc, hl c hc]) c

theorem sum_ind (l : List Nat) (p : Nat → Prop) [DecidablePred p] :
    (l.map fun i => if p i then (1 : K) else 0).sum = ((l.filter fun i => decide (p i)).length : K) := by
  rw [← filter_sum_ite, List.map_const', List.sum_replicate, nsmul_eq_mul, mul_one]

theorem volume_agree (hk : 0 < k) {F : Mat K} {V : Nat → Nat → K} (h : Agree n k F V) (b : Nat → K) (spec : MboSpec K)
    (t : Nat) {l : List K} {s : Nat → K} (hl : ∀ c < k, l.getD c 0 = s c) :
    ∀ c < k, (volumeLoop n k F b spec t l).getD c 0
      = (volumeStep n k V b spec.dTau spec.smin spec.smax)^[t] s c := by
  induction t generalizing l s with
  | zero => exact hl
  | succ t ih =>
    refine ih (l := _) (s := volumeStep n k V b spec.dTau spec.smin spec.smax s) ?_
    intro c hc
    rw [List.getD_eq_getElem _ _ (by simpa using hc), List.getElem_map, List.getElem_range, hl c hc]
    unfold volumeStep volume
    have : (List.range n).map (fun i => (projVertices n k F l).get i c)
        = (List.range n).map fun i => if FirstBest k (fun c => V i c * s c) c then (1 : K) else 0 :=
      List.map_congr_left fun i hi => proj_agree hk h hl i (List.mem_range.mp hi) c hc
    rw [this, sum_ind]

theorem outer_agree (hk : 0 < k) {es : List (WEdge K)} {w : Nat → Nat → K} (G : IsGraph n es w) {B src : Nat → Nat → K}
    (hB : ∀ i < n, ∀ c < k, B i c = src i c) (b : Nat → K) (dt : K) (spec : MboSpec K)
    (t : Nat) (s : Mat K × Option K) (U : Nat → Nat → K) (h : Agree n k s.1 U) :
    Agree n k (mboOuter n k es B b dt spec t s).1
      ((mboRound n k w src b dt spec.mu spec.dTau spec.smin spec.smax spec.nInner.toNat spec.nVolume.toNat)^[t] U) := by
  induction t generalizing s U with
  | zero => exact h
  | succ t ih =>
    have h1 := mboLoop_agree (step := heatStep n w src dt spec.mu) (fun F U hF => G.heat hB dt spec.mu hF)
      spec.nInner.toNat s U h
    refine ih _ _ ?_
    exact proj_agree hk h1 (volume_agree hk h1 b spec spec.nVolume.toNat (s := fun _ => 1) fun c hc => by
      rw [List.getD_eq_getElem _ _ (by simpa using hc), List.getElem_replicate])

theorem outer_residual (hn : 0 < n) (hk : 0 < k) {es : List (WEdge K)} {w : Nat → Nat → K} (G : IsGraph n es w)
    {B src : Nat → Nat → K} (hB : ∀ i < n, ∀ c < k, B i c = src i c) (b : Nat → K) (dt : K) (spec : MboSpec K)
    {m : Nat} (hm : spec.nInner.toNat = m + 1) (t : Nat) (s : Mat K × Option K) (U : Nat → Nat → K) (h : Agree n k s.1 U) :
    ∃ ρ, (mboOuter n k es B b dt spec (t + 1) s).2 = some ρ ∧
      LargestChange n k
        ((heatStep n w src dt spec.mu)^[m + 1]
          ((mboRound n k w src b dt spec.mu spec.dTau spec.smin spec.smax spec.nInner.toNat spec.nVolume.toNat)^[t] U))
        ((heatStep n w src dt spec.mu)^[m]
          ((mboRound n k w src b dt spec.mu spec.dTau spec.smin spec.smax spec.nInner.toNat spec.nVolume.toNat)^[t] U)) ρ := by
  induction t generalizing s U with
  | zero =>
    obtain ⟨ρ, h1, h2⟩ := mboLoop_residual hn hk (step := heatStep n w src dt spec.mu)
      (fun F U hF => G.heat hB dt spec.mu hF) m s U h
    refine ⟨ρ, ?_, h2⟩
    show (mboLoop n k (heatUpdate n k es B dt spec.mu) spec.nInner.toNat s).2 = _
    rw [hm]; exact h1
  | succ t ih =>
    have h1 := mboLoop_agree (step := heatStep n w src dt spec.mu) (fun F U hF => G.heat hB dt spec.mu hF)
      spec.nInner.toNat s U h
    refine ih _ _ ?_
    exact proj_agree hk h1 (volume_agree hk h1 b spec spec.nVolume.toNat (s := fun _ => 1) fun c hc => by
      rw [List.getD_eq_getElem _ _ (by simpa using hc), List.getElem_replicate])

theorem mboLoop_shape {upd : Mat K → Mat K} (t : Nat) (s : Mat K × Option K) (h : HasShape s.1 n k) :
    HasShape (mboLoop n k upd t s).1 n k := by
  induction t generalizing s with
  | zero => exact h
  | succ t ih => exact ih _ (tab_shape _ _ _)

theorem outer_shape {es : List (WEdge K)} {B : Nat → Nat → K} {b : Nat → K} {dt : K} {spec : MboSpec K} (t : Nat)
    (s : Mat K × Option K) (h : HasShape s.1 n k) : HasShape (mboOuter n k es B b dt spec t s).1 n k := by
  induction t generalizing s with
  | zero => exact h
  | succ t ih => exact ih _ (tab_shape _ _ _)

end Loops

end ModSSC.Transductive
