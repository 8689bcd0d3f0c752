import Verif.Transductive.DynamicSpec
import Verif.Transductive.LazyProps
import Mathlib.Algebra.BigOperators.Field
import Mathlib.Data.List.Sort

/-!
# Dynamic label propagation (C103)
-/

namespace ModSSC.Transductive
open ModSSC Spec

set_option linter.unusedSectionVars false

variable {K : Type} [Field K] [LinearOrder K] [IsStrictOrderedRing K]

/-! ## Arrays as matrices -/

/-- The matrix of an array. -/
def toM (n d : Nat) (A : Mat K) : Matrix (Fin n) (Fin d) K := fun i j => A.get i.val j.val

theorem toM_tab (n d : Nat) (f : Nat → Nat → K) : toM n d (tab n d f) = fun i j => f i.val j.val := by
  funext i j
  exact get_tab n d f i.isLt j.isLt

theorem sum_range_fin (n : Nat) (f : Nat → K) : ((List.range n).map f).sum = ∑ j : Fin n, f j.val := by
  rw [sum_range_list, Finset.sum_range]

theorem toM_mmul (n m d : Nat) (A B : Mat K) : toM n d (mmul n m d A B) = toM n m A * toM m d B := by
  unfold mmul
  rw [toM_tab]
  funext i c
  rw [Matrix.mul_apply, sum_range_fin]
  rfl

theorem toM_transp (n m : Nat) (A : Mat K) : toM m n (transp n m A) = (toM n m A).transpose := by
  unfold transp
  rw [toM_tab]
  rfl

theorem toM_dynMatrix (n d : Nat) (P : Mat K) (alpha lambda : K) (Pt Yt : Mat K) :
    toM n n (dynMatrix n d P alpha lambda Pt Yt)
      = toM n n P * (toM n n Pt + alpha • (toM n d Yt * (toM n d Yt).transpose)) * (toM n n P).transpose
        + lambda • (1 : Matrix (Fin n) (Fin n) K) := by
  have hM : toM n n (tab n n fun i j => Pt.get i j + alpha * (mmul n d n Yt (transp n d Yt)).get i j)
      = toM n n Pt + alpha • (toM n d Yt * (toM n d Yt).transpose) := by
    rw [toM_tab, ← toM_transp, ← toM_mmul]
    rfl
  have hQ : toM n n (mmul n n n (mmul n n n P
        (tab n n fun i j => Pt.get i j + alpha * (mmul n d n Yt (transp n d Yt)).get i j)) (transp n n P))
      = toM n n P * (toM n n Pt + alpha • (toM n d Yt * (toM n d Yt).transpose)) * (toM n n P).transpose := by
    rw [toM_mmul, toM_mmul, hM, toM_transp]
  unfold dynMatrix
  simp only
  by_cases hl : lambda ≠ 0
  · rw [if_pos hl, toM_tab, ← hQ]
    funext i j
    rw [Matrix.add_apply, Matrix.smul_apply, Matrix.one_apply]
    simp only [smul_eq_mul, Fin.ext_iff]
    rfl
  · rw [if_neg hl, hQ]
    push Not at hl
    rw [hl, zero_smul, add_zero]

theorem toM_dynLabels (n d : Nat) (mask : List Bool) (Y0 Pt Yt : Mat K) :
    toM n d (dynLabels n d mask Y0 Pt Yt)
      = fun i c => if mask.getD i.val false = true then toM n d Y0 i c else (toM n n Pt * toM n d Yt) i c := by
  unfold dynLabels clampRows
  rw [toM_tab, ← toM_mmul]
  rfl

/-! ## The loop -/

theorem dynLoop_rounds (n d : Nat) (mask : List Bool) (Y0 P P0 : Mat K) (alpha lambda : K) (fuel : Nat) :
    ∀ (t : Nat) (Pt Yt : Mat K) (res : Option K),
      (toM n n Pt, toM n d Yt) = dynamicRounds (fun i : Fin n => mask.getD i.val false = true) (toM n d Y0)
        (toM n n P0) (toM n n P) alpha lambda t →
      HasShape Yt n d →
      HasShape (dynLoop n d mask Y0 P alpha lambda fuel Pt Yt res).1 n d ∧
      toM n d (dynLoop n d mask Y0 P alpha lambda fuel Pt Yt res).1
        = (dynamicRounds (fun i : Fin n => mask.getD i.val false = true) (toM n d Y0)
            (toM n n P0) (toM n n P) alpha lambda (t + fuel)).2 := by
  induction fuel with
  | zero =>
    intro t Pt Yt res h hs
    refine ⟨hs, ?_⟩
    rw [Nat.add_zero, ← h]
    rfl
  | succ fuel ih =>
    intro t Pt Yt res h hs
    have hnext := ih (t + 1) (dynMatrix n d P alpha lambda Pt Yt) (dynLabels n d mask Y0 Pt Yt)
      (some (maxDiff n d (dynLabels n d mask Y0 Pt Yt) Yt)) (by
        simp only [dynamicRounds]
        rw [← h, toM_dynMatrix, toM_dynLabels]) (tab_shape _ _ _)
    rw [show t + (fuel + 1) = t + 1 + fuel by omega]
    exact hnext

theorem foldl_max_list (l : List K) (m : K) :
    m ≤ l.foldl max m ∧ (∀ x ∈ l, x ≤ l.foldl max m) ∧ (l.foldl max m = m ∨ l.foldl max m ∈ l) := by
  induction l generalizing m with
  | nil => simp
  | cons a l ih =>
    obtain ⟨h1, h2, h3⟩ := ih (max m a)
    simp only [List.foldl_cons]
    refine ⟨le_trans (le_max_left _ _) h1, ?_, ?_⟩
    · intro x hx
      rcases List.mem_cons.mp hx with rfl | hx
      · exact le_trans (le_max_right _ _) h1
      · exact h2 x hx
    · rcases h3 with h3 | h3
      · rcases max_choice m a with h | h
        · left; rw [h3, h]
        · right; rw [h3, h]; simp
      · right; exact List.mem_cons_of_mem _ h3

theorem maxDiff_spec {n d : Nat} (hn : 0 < n) (hd : 0 < d) (A B : Mat K) :
    (∀ i < n, ∀ c < d, |A.get i c - B.get i c| ≤ maxDiff n d A B) ∧
    ∃ i < n, ∃ c < d, maxDiff n d A B = |A.get i c - B.get i c| := by
  obtain ⟨h1, h2, h3⟩ := foldl_max_list
    ((List.range n).flatMap fun i => (List.range d).map fun c => |A.get i c - B.get i c|) 0
  have hall : ∀ i < n, ∀ c < d, |A.get i c - B.get i c| ≤ maxDiff n d A B := by
    intro i hi c hc
    exact h2 _ (List.mem_flatMap.mpr ⟨i, List.mem_range.mpr hi, List.mem_map.mpr ⟨c, List.mem_range.mpr hc, rfl⟩⟩)
  refine ⟨hall, ?_⟩
  rcases h3 with h3 | h3
  · refine ⟨0, hn, 0, hd, le_antisymm ?_ (hall 0 hn 0 hd)⟩
    unfold maxDiff
    rw [h3]
    exact abs_nonneg _
  · obtain ⟨i, hi, h4⟩ := List.mem_flatMap.mp h3
    obtain ⟨c, hc, h5⟩ := List.mem_map.mp h4
    exact ⟨i, List.mem_range.mp hi, c, List.mem_range.mp hc, h5.symm⟩

theorem dynLoop_residual (n d : Nat) (mask : List Bool) (Y0 P P0 : Mat K) (alpha lambda : K) (fuel : Nat) :
    ∀ (t : Nat) (Pt Yt : Mat K) (res : Option K),
      (toM n n Pt, toM n d Yt) = dynamicRounds (fun i : Fin n => mask.getD i.val false = true) (toM n d Y0)
        (toM n n P0) (toM n n P) alpha lambda t →
      ∃ A B : Mat K, (dynLoop n d mask Y0 P alpha lambda (fuel + 1) Pt Yt res).2 = some (maxDiff n d A B) ∧
        toM n d A = (dynamicRounds (fun i : Fin n => mask.getD i.val false = true) (toM n d Y0)
            (toM n n P0) (toM n n P) alpha lambda (t + fuel + 1)).2 ∧
        toM n d B = (dynamicRounds (fun i : Fin n => mask.getD i.val false = true) (toM n d Y0)
            (toM n n P0) (toM n n P) alpha lambda (t + fuel)).2 := by
  induction fuel with
  | zero =>
    intro t Pt Yt res h
    refine ⟨dynLabels n d mask Y0 Pt Yt, Yt, rfl, ?_, ?_⟩
    · rw [toM_dynLabels]
      simp only [dynamicRounds, Nat.add_zero]
      rw [← h]
    · rw [Nat.add_zero, ← h]
  | succ fuel ih =>
    intro t Pt Yt res h
    have hnext := ih (t + 1) (dynMatrix n d P alpha lambda Pt Yt) (dynLabels n d mask Y0 Pt Yt)
      (some (maxDiff n d (dynLabels n d mask Y0 Pt Yt) Yt)) (by
        simp only [dynamicRounds]
        rw [← h, toM_dynMatrix, toM_dynLabels])
    rw [show t + (fuel + 1) = t + 1 + fuel by omega]
    exact hnext

/-! ## The neighbour matrix -/

theorem toM_step (n : Nat) {ei : List (Int × Int)} {ew : Option (List K)} {es : List (WEdge K)}
    (he : es.map (fun e => ((e.src : Int), (e.dst : Int), e.w)) = edgesOf ei ew) :
    toM n n (stepMatrix n es) = walk n (edgesOf ei ew) := by
  unfold stepMatrix
  rw [toM_tab]
  funext i j
  rw [symAffinity_spec he, symDegree_spec he]
  rfl

/-- The positions picked in row `i`. -/
theorem picked {top : TopK K} (ht : IsTopK top) {n k : Nat} (hk : k < n) (P0 : Mat K) {i : Nat} (hi : i < n) :
    (top k ((List.range n).map fun j => if j = i then none else some (P0.get i j))).Nodup ∧
    (top k ((List.range n).map fun j => if j = i then none else some (P0.get i j))).length = k ∧
    (∀ j ∈ top k ((List.range n).map fun j => if j = i then none else some (P0.get i j)), j < n) ∧
    i ∉ top k ((List.range n).map fun j => if j = i then none else some (P0.get i j)) ∧
    ∀ a ∈ top k ((List.range n).map fun j => if j = i then none else some (P0.get i j)), ∀ b < n,
      b ∉ top k ((List.range n).map fun j => if j = i then none else some (P0.get i j)) → b ≠ i →
      P0.get i b ≤ P0.get i a := by
  have hget : ∀ j < n, ((List.range n).map fun j => if j = i then none else some (P0.get i j)).getD j none
      = if j = i then none else some (P0.get i j) := by
    intro j hj
    rw [List.getD_eq_getElem _ _ (by simpa using hj), List.getElem_map, List.getElem_range]
  obtain ⟨h1, h2, h3, h4⟩ := ht k ((List.range n).map fun j => if j = i then none else some (P0.get i j))
    (by simp; omega)
  simp only [List.length_map, List.length_range] at h3 h4
  generalize top k ((List.range n).map fun j => if j = i then none else some (P0.get i j)) = S at *
  have hi' : i ∉ S := by
    intro hS
    obtain ⟨b, hb, hbS⟩ : ∃ b < n, b ∉ S := by
      by_contra hno
      push Not at hno
      have hsub : List.range n ⊆ S := fun b hb => hno b (List.mem_range.mp hb)
      have := (List.nodup_range (n := n)).length_le_of_subset hsub
      simp at this
      omega
    have := h4 i hS b hb hbS
    rw [hget b hb, hget i hi, if_pos rfl] at this
    by_cases hbi : b = i
    · rw [hbi] at hbS; exact hbS hS
    · rw [if_neg hbi] at this
      exact this
  refine ⟨h1, h2, h3, hi', ?_⟩
  intro a ha b hb hbS hbi
  have := h4 a ha b hb hbS
  rw [hget b hb, hget a (h3 a ha), if_neg hbi, if_neg (fun (h : a = i) => hi' (h ▸ ha))] at this
  exact this

theorem sum_fin_list {n : Nat} {S : List Nat} (hn : S.Nodup) (hS : ∀ j ∈ S, j < n) (f : Nat → K) :
    ∑ a ∈ (Finset.univ.filter fun a : Fin n => a.val ∈ S), f a.val = (S.map f).sum := by
  rw [← List.sum_toFinset _ hn]
  refine Finset.sum_bij (fun a _ => a.val) ?_ ?_ ?_ ?_
  · intro a ha
    simpa using ha
  · intro a _ b _ h
    exact Fin.ext h
  · intro b hb
    rw [List.mem_toFinset] at hb
    exact ⟨⟨b, hS b hb⟩, by simpa using hb, rfl⟩
  · intro a _
    rfl

theorem knnMatrix_ok {top : TopK K} (ht : IsTopK top) {n : Nat} {P0 P : Mat K} {k : Int} (hk : 0 < k)
    (h : knnMatrix top n P0 k = .ok P) : NearestSteps k.toNat (toM n n P0) (toM n n P) := by
  unfold knnMatrix at h
  unfold NearestSteps
  by_cases hn : (n : Int) ≤ k
  · rw [if_pos (Or.inr hn), Except.ok.injEq] at h
    rw [if_pos (by omega), h]
  · rw [if_neg (by omega)] at h
    rw [if_neg (by omega)]
    intro i
    have hF := mapM_ok.mp h
    have hlen := hF.length_eq
    rw [List.length_range] at hlen
    have hrow := (List.forall₂_iff_get.mp hF).2 i.val (by simp) (by rw [← hlen]; exact i.isLt)
    simp only [List.get_eq_getElem, List.getElem_range] at hrow
    unfold knnRow at hrow
    simp only at hrow
    obtain ⟨h1, h2, h3, h4, h5⟩ := picked ht (show k.toNat < n by omega) P0 i.isLt
    generalize top k.toNat ((List.range n).map fun j => if j = i.val then none else some (P0.get i.val j)) = S at *
    split at hrow
    · cases hrow
    · rw [Except.ok.injEq] at hrow
      refine ⟨Finset.univ.filter fun a : Fin n => a.val ∈ S, ?_, ?_, ?_, ?_⟩
      · have hone := sum_fin_list h1 h3 (fun _ => (1 : ℚ))
        rw [Finset.sum_const, List.map_const', List.sum_replicate, h2] at hone
        simpa using hone
      · simpa using h4
      · intro a ha b hb hbi
        simp only [Finset.mem_filter, Finset.mem_univ, true_and] at ha hb
        exact h5 a.val ha b.val b.isLt hb (fun hh => hbi (Fin.ext hh))
      · intro j
        have hs := sum_fin_list h1 h3 (fun a => P0.get i.val a)
        have hP : toM n n P i j = if j.val ∈ S then P0.get i.val j.val / (S.map fun j => P0.get i.val j).sum else 0 := by
          show (P.getD i.val []).getD j.val 0 = _
          have hPi : P.getD i.val [] = P[i.val]'(by rw [← hlen]; exact i.isLt) :=
            List.getD_eq_getElem _ _ (by rw [← hlen]; exact i.isLt)
          rw [hPi, ← hrow, List.getD_eq_getElem _ _ (by simp), List.getElem_map, List.getElem_range]
        rw [hP, ← hs]
        simp only [Finset.mem_filter, Finset.mem_univ, true_and]
        rfl

/-! ## The run -/

/-- What a successful run has gone through. -/
structure DynRun (top : TopK K) (n : Int) (ei : List (Int × Int)) (ew : Option (List K)) (y : List Int)
    (mask : List Bool) (spec : DynamicSpec K) (es : List (WEdge K)) (Y0 : Mat K) : Prop where
  neighbours : 0 < spec.kNeighbors
  alpha_nonneg : 0 ≤ spec.alpha
  valid : validateGraph n ei ew = .ok es
  ylen : (y.length : Int) = n
  mlen : (mask.length : Int) = n
  some_label : mask.any id = true
  seeds : seedMatrix y mask (inferNumClasses y) = .ok Y0

namespace DynRun
variable {top : TopK K} {n : Int} {ei : List (Int × Int)} {ew : Option (List K)} {y : List Int}
    {mask : List Bool} {spec : DynamicSpec K} {es : List (WEdge K)} {Y0 : Mat K}

theorem lens (R : DynRun top n ei ew y mask spec es Y0) : mask.length = y.length := by
  have := R.ylen; have := R.mlen; omega

theorem edges (R : DynRun top n ei ew y mask spec es Y0) :
    es.map (fun e => ((e.src : Int), (e.dst : Int), e.w)) = edgesOf ei ew := (validateGraph_ok R.valid).2.2.1

theorem seed_shape (R : DynRun top n ei ew y mask spec es Y0) : HasShape Y0 y.length (inferNumClasses y) := by
  rw [(seedMatrix_ok R.seeds).2.2]; exact tab_shape _ _ _

theorem seed_get (R : DynRun top n ei ew y mask spec es Y0) (i : Fin y.length) (c : Fin (inferNumClasses y))
    [Decidable (Labeled y mask i.val c.val)] :
    toM y.length (inferNumClasses y) Y0 i c = if Labeled y mask i.val c.val then 1 else 0 := by
  rw [(seedMatrix_ok R.seeds).2.2, toM_tab]
  exact if_congr (labeled_iff i.isLt R.lens) rfl rfl

theorem eq (R : DynRun top n ei ew y mask spec es Y0) :
    dynamicPropagation top n ei ew y mask spec =
      if (List.range y.length).any (fun i => decide (symDegree y.length es i ≤ 0)) then .error .valueError
      else knnMatrix top y.length (stepMatrix y.length es) spec.kNeighbors >>= fun P =>
        .ok ⟨(dynLoop y.length (inferNumClasses y) mask Y0 P spec.alpha spec.lambda spec.maxIter.toNat
          (stepMatrix y.length es) Y0 none).1, spec.maxIter,
          (dynLoop y.length (inferNumClasses y) mask Y0 P spec.alpha spec.lambda spec.maxIter.toNat
          (stepMatrix y.length es) Y0 none).2⟩ := by
  unfold dynamicPropagation
  rw [if_neg (by have := R.neighbours; omega), if_neg (not_not.mpr R.alpha_nonneg), ebind_of_ok R.valid,
    if_neg (not_not.mpr R.ylen), if_neg (not_not.mpr R.mlen), if_neg (by simp [R.some_label]), ebind_of_ok R.seeds]

end DynRun

theorem dyn_cases (top : TopK K) (n : Int) (ei : List (Int × Int)) (ew : Option (List K)) (y : List Int)
    (mask : List Bool) (spec : DynamicSpec K) :
    (∃ es Y0, DynRun top n ei ew y mask spec es Y0) ∨
      ((¬ ∃ es Y0, DynRun top n ei ew y mask spec es Y0) ∧
        dynamicPropagation top n ei ew y mask spec = .error .valueError) := by
  by_cases hP : ∃ es Y0, DynRun top n ei ew y mask spec es Y0
  · exact .inl hP
  · refine .inr ⟨hP, ?_⟩
    unfold dynamicPropagation
    by_cases h1 : spec.kNeighbors ≤ 0
    · rw [if_pos h1]
    by_cases h2 : ¬ 0 ≤ spec.alpha
    · rw [if_neg h1, if_pos h2]
    rw [if_neg h1, if_neg h2]
    cases hv : validateGraph n ei ew with
    | error e =>
      have : e = .valueError := by
        unfold validateGraph at hv
        simp only at hv
        repeat' split at hv
        all_goals first | (cases hv; rfl) | cases hv
      rw [this]
      rfl
    | ok es =>
      rw [ebind_of_ok rfl]
      by_cases h3 : (y.length : Int) ≠ n
      · rw [if_pos h3]
      by_cases h4 : (mask.length : Int) ≠ n
      · rw [if_neg h3, if_pos h4]
      by_cases h5 : mask.any id = false
      · rw [if_neg h3, if_neg h4, if_pos h5]
      exfalso
      obtain ⟨s1, s2, -⟩ := inferNumClasses_spec y
      obtain ⟨Y0, hY⟩ := seedMatrix_total (K := K) (mask := mask) s1 s2
      exact hP ⟨es, Y0, by omega, not_not.mp h2, hv, not_not.mp h3, not_not.mp h4, by simpa using h5, hY⟩

theorem dyn_ok {top : TopK K} {n : Int} {ei : List (Int × Int)} {ew : Option (List K)} {y : List Int}
    {mask : List Bool} {spec : DynamicSpec K} {r : Diffusion K}
    (h : dynamicPropagation top n ei ew y mask spec = .ok r) :
    ∃ es Y0 P, DynRun top n ei ew y mask spec es Y0 ∧ (∀ i < y.length, 0 < symDegree y.length es i) ∧
      knnMatrix top y.length (stepMatrix y.length es) spec.kNeighbors = .ok P ∧
      r = ⟨(dynLoop y.length (inferNumClasses y) mask Y0 P spec.alpha spec.lambda spec.maxIter.toNat
          (stepMatrix y.length es) Y0 none).1, spec.maxIter, (dynLoop y.length (inferNumClasses y) mask Y0 P spec.alpha spec.lambda spec.maxIter.toNat
          (stepMatrix y.length es) Y0 none).2⟩ := by
  rcases dyn_cases top n ei ew y mask spec with ⟨es, Y0, R⟩ | ⟨-, h'⟩
  · rw [R.eq] at h
    split at h
    · cases h
    · rename_i hd
      obtain ⟨P, hP, h⟩ := ebind_ok.mp h
      rw [Except.ok.injEq] at h
      refine ⟨es, Y0, P, R, ?_, hP, h.symm⟩
      simpa only [List.any_eq_true, List.mem_range, decide_eq_true_eq, not_exists, not_and, not_le] using hd
  · rw [h'] at h; cases h

/-- **C103 (rounds).**  A result of dynamic label propagation has one row per node and one column per class, and is
exactly the state after `max_iter` rounds: every round moves the labels one step, puts the given labels back, and
replaces the transition matrix `P_t` by `P (P_t + alpha Y Y^T) P^T + lambda I`, where `P` keeps `k` most probable steps of
every node.  The reported change is the largest one of the last round. -/
theorem C103_rounds (top : TopK K) (ht : IsTopK top) (n : Int) (ei : List (Int × Int)) (ew : Option (List K))
    (y : List Int) (mask : List Bool) (spec : DynamicSpec K) (r : Diffusion K)
    (h : dynamicPropagation top n ei ew y mask spec = .ok r)
    [DecidablePred fun i : Fin y.length => mask[i.val]? = some true]
    (Y0 : Matrix (Fin y.length) (Fin (inferNumClasses y)) K)
    (hY : ∀ i c, (Labeled y mask i.val c.val → Y0 i c = 1) ∧ (¬ Labeled y mask i.val c.val → Y0 i c = 0)) :
    HasShape r.F n.toNat (inferNumClasses y) ∧ r.nIter = spec.maxIter ∧
    ∃ P, NearestSteps spec.kNeighbors.toNat (walk y.length (edgesOf ei ew)) P ∧
      (∀ i c, r.F.get i.val c.val = (dynamicRounds (fun i => mask[i.val]? = some true) Y0
        (walk y.length (edgesOf ei ew)) P spec.alpha spec.lambda spec.maxIter.toNat).2 i c) ∧
      ∀ t : Nat, spec.maxIter = (t : Int) + 1 → ∃ x, r.residual = some x ∧
        (∀ i c, |(dynamicRounds (fun i => mask[i.val]? = some true) Y0 (walk y.length (edgesOf ei ew)) P spec.alpha
            spec.lambda (t + 1)).2 i c - (dynamicRounds (fun i => mask[i.val]? = some true) Y0
            (walk y.length (edgesOf ei ew)) P spec.alpha spec.lambda t).2 i c| ≤ x) ∧
        ∃ i c, x = |(dynamicRounds (fun i => mask[i.val]? = some true) Y0 (walk y.length (edgesOf ei ew)) P spec.alpha
            spec.lambda (t + 1)).2 i c - (dynamicRounds (fun i => mask[i.val]? = some true) Y0
            (walk y.length (edgesOf ei ew)) P spec.alpha spec.lambda t).2 i c| := by
  classical
  obtain ⟨es, Y, P, R, -, hP, rfl⟩ := dyn_ok h
  have hY0 : toM y.length (inferNumClasses y) Y = Y0 := by
    funext i c
    rw [R.seed_get]
    by_cases hl : Labeled y mask i.val c.val
    · rw [if_pos hl, (hY i c).1 hl]
    · rw [if_neg hl, (hY i c).2 hl]
  have hW := toM_step y.length R.edges
  have hmask : ∀ (W' P' : Matrix (Fin y.length) (Fin y.length) K) (t : Nat),
      dynamicRounds (fun i : Fin y.length => mask.getD i.val false = true) Y0 W' P' spec.alpha spec.lambda t
        = dynamicRounds (fun i : Fin y.length => mask[i.val]? = some true) Y0 W' P' spec.alpha spec.lambda t := by
    intro W' P' t
    have hiff : ∀ i : Fin y.length, mask.getD i.val false = true ↔ mask[i.val]? = some true := by
      intro i
      have := R.lens
      have hi : i.val < mask.length := by have := i.isLt; omega
      rw [List.getD_eq_getElem _ _ hi, List.getElem?_eq_getElem hi, Option.some.injEq]
    induction t with
    | zero => rfl
    | succ t ih =>
      simp only [dynamicRounds]
      rw [ih]
      congr 1
      funext i c
      exact if_congr (hiff i) rfl rfl
  obtain ⟨h1, h2⟩ := dynLoop_rounds y.length (inferNumClasses y) mask Y P (stepMatrix y.length es) spec.alpha
    spec.lambda spec.maxIter.toNat 0 (stepMatrix y.length es) Y none rfl R.seed_shape
  have hn : n.toNat = y.length := by have := R.ylen; omega
  refine ⟨by rw [hn]; exact h1, rfl, toM y.length y.length P, ?_, ?_, ?_⟩
  · rw [← hW]
    exact knnMatrix_ok ht R.neighbours hP
  · intro i c
    have := congrFun (congrFun h2 i) c
    rw [Nat.zero_add, hY0, hW, hmask] at this
    exact this
  · intro t hT
    have hT' : spec.maxIter.toNat = t + 1 := by omega
    obtain ⟨A, B, h3, h4, h5⟩ := dynLoop_residual y.length (inferNumClasses y) mask Y P (stepMatrix y.length es)
      spec.alpha spec.lambda t 0 (stepMatrix y.length es) Y none rfl
    rw [Nat.zero_add, hY0, hW, hmask] at h4 h5
    rw [hT']
    have hy : 0 < y.length := by
      have := (validateGraph_ok R.valid).1
      have := R.ylen
      omega
    obtain ⟨h6, i, hi, c, hc, h7⟩ := maxDiff_spec hy (inferNumClasses_spec y).1 A B
    refine ⟨_, h3, ?_, ⟨i, hi⟩, ⟨c, hc⟩, ?_⟩
    · intro i c
      rw [← h4, ← h5]
      exact h6 i.val i.isLt c.val c.isLt
    · rw [← h4, ← h5]
      exact h7

/-- **C103 (given labels).**  After any number of rounds a labeled node has score 1 for its label and 0 for every other
class. -/
theorem C103_labeled (top : TopK K) (n : Int) (ei : List (Int × Int)) (ew : Option (List K))
    (y : List Int) (mask : List Bool) (spec : DynamicSpec K) (r : Diffusion K)
    (h : dynamicPropagation top n ei ew y mask spec = .ok r) :
    ∀ i l, Labeled y mask i l → ∀ c, r.F.get i c = if c = l then 1 else 0 := by
  classical
  obtain ⟨es, Y, P, R, -, -, rfl⟩ := dyn_ok h
  intro i l hl c
  have hi : i < y.length := (List.getElem?_eq_some_iff.mp hl.2).1
  have hm : mask.getD i false = true := ((labeled_iff hi R.lens).mpr hl).1
  have hlt : l < inferNumClasses y := by
    have := (inferNumClasses_spec y).2.1 (l : Int) (List.mem_of_getElem? hl.2)
    omega
  obtain ⟨h1, h2⟩ := dynLoop_rounds y.length (inferNumClasses y) mask Y P (stepMatrix y.length es) spec.alpha
    spec.lambda spec.maxIter.toNat 0 (stepMatrix y.length es) Y none rfl R.seed_shape
  by_cases hc : c < inferNumClasses y
  · have h3 := congrFun (congrFun h2 ⟨i, hi⟩) ⟨c, hc⟩
    have hkeep : ∀ t, (dynamicRounds (fun i : Fin y.length => mask.getD i.val false = true)
        (toM y.length (inferNumClasses y) Y) (toM y.length y.length (stepMatrix y.length es))
        (toM y.length y.length P) spec.alpha spec.lambda t).2 ⟨i, hi⟩ ⟨c, hc⟩
        = toM y.length (inferNumClasses y) Y ⟨i, hi⟩ ⟨c, hc⟩ := by
      intro t
      cases t with
      | zero => rfl
      | succ t => simp only [dynamicRounds]; rw [if_pos hm]
    rw [hkeep, R.seed_get] at h3
    have hiff : Labeled y mask i c ↔ c = l := by
      constructor
      · intro hc'
        have := hc'.2.symm.trans hl.2
        simpa using this
      · rintro rfl; exact hl
    exact h3.trans (if_congr hiff rfl rfl)
  · rw [get_outside h1 (by omega), if_neg (by omega)]

theorem mul_nonneg_entries {a b c : Type} [Fintype b] {A : Matrix a b K} {B : Matrix b c K} (hA : ∀ i j, 0 ≤ A i j)
    (hB : ∀ i j, 0 ≤ B i j) (i : a) (j : c) : 0 ≤ (A * B) i j := by
  rw [Matrix.mul_apply]
  exact Finset.sum_nonneg fun k _ => mul_nonneg (hA i k) (hB k j)

theorem rounds_nonneg {n d : Nat} {labeled : Fin n → Prop} [DecidablePred labeled] {Y0 : Matrix (Fin n) (Fin d) K}
    {W P : Matrix (Fin n) (Fin n) K} {alpha lambda : K} (ha : 0 ≤ alpha) (hl : 0 ≤ lambda) (hY : ∀ i c, 0 ≤ Y0 i c)
    (hW : ∀ i j, 0 ≤ W i j) (hP : ∀ i j, 0 ≤ P i j) (t : Nat) :
    (∀ i j, 0 ≤ (dynamicRounds labeled Y0 W P alpha lambda t).1 i j) ∧
    ∀ i c, 0 ≤ (dynamicRounds labeled Y0 W P alpha lambda t).2 i c := by
  induction t with
  | zero => exact ⟨hW, hY⟩
  | succ t ih =>
    obtain ⟨h1, h2⟩ := ih
    simp only [dynamicRounds]
    refine ⟨fun i j => ?_, fun i c => ?_⟩
    · rw [Matrix.add_apply]
      refine add_nonneg (mul_nonneg_entries (mul_nonneg_entries hP fun i j => ?_) (fun i j => hP j i) i j) ?_
      · rw [Matrix.add_apply, Matrix.smul_apply, smul_eq_mul]
        exact add_nonneg (h1 i j) (mul_nonneg ha (mul_nonneg_entries h2 (fun i j => h2 j i) i j))
      · rw [Matrix.smul_apply, smul_eq_mul, Matrix.one_apply]
        split
        · rw [mul_one]; exact hl
        · rw [mul_zero]
    · split
      · exact hY i c
      · exact mul_nonneg_entries h1 h2 i c

theorem rounds_column {n d : Nat} {labeled : Fin n → Prop} [DecidablePred labeled] {Y0 : Matrix (Fin n) (Fin d) K}
    {W P : Matrix (Fin n) (Fin n) K} {alpha lambda : K} {c : Fin d} (hY : ∀ i, Y0 i c = 0) (t : Nat) :
    ∀ i, (dynamicRounds labeled Y0 W P alpha lambda t).2 i c = 0 := by
  induction t with
  | zero => exact hY
  | succ t ih =>
    intro i
    simp only [dynamicRounds]
    split
    · exact hY i
    · rw [Matrix.mul_apply]
      exact Finset.sum_eq_zero fun j _ => by rw [ih j, mul_zero]

theorem link_nonneg {es : List (Int × Int × K)} (hw : ∀ e ∈ es, 0 ≤ e.2.2) (i j : Int) : 0 ≤ linkWeight es i j := by
  unfold linkWeight
  split
  · exact le_refl _
  · have h1 := sum_nonneg' (es.filter fun e => e.1 = i ∧ e.2.1 = j) (·.2.2) fun e he => hw e (List.mem_filter.mp he).1
    have h2 := sum_nonneg' (es.filter fun e => e.1 = j ∧ e.2.1 = i) (·.2.2) fun e he => hw e (List.mem_filter.mp he).1
    linarith

theorem walk_nonneg {n : Nat} {es : List (Int × Int × K)} (hw : ∀ e ∈ es, 0 ≤ e.2.2) (i j : Fin n) :
    0 ≤ walk n es i j := by
  unfold walk
  exact div_nonneg (link_nonneg hw _ _) (sum_nonneg' _ _ fun j _ => link_nonneg hw _ _)

theorem nearest_nonneg {n k : Nat} {W P : Matrix (Fin n) (Fin n) K} (hW : ∀ i j, 0 ≤ W i j) (h : NearestSteps k W P) :
    ∀ i j, 0 ≤ P i j := by
  unfold NearestSteps at h
  split at h
  · rw [h]; exact hW
  · intro i j
    obtain ⟨S, -, -, -, h4⟩ := h i
    rw [h4]
    split
    · exact div_nonneg (hW i j) (Finset.sum_nonneg fun a _ => hW i a)
    · exact le_refl _

/-- **C103 (scores).**  A class that no labeled node has gets score 0 everywhere, and when no edge weight and not
`lambda_value` is negative, no score is negative. -/
theorem C103_scores (top : TopK K) (ht : IsTopK top) (n : Int) (ei : List (Int × Int)) (ew : Option (List K))
    (y : List Int) (mask : List Bool) (spec : DynamicSpec K) (r : Diffusion K)
    (h : dynamicPropagation top n ei ew y mask spec = .ok r) :
    (∀ c, (∀ i, ¬ Labeled y mask i c) → ∀ i, r.F.get i c = 0) ∧
    ((∀ e ∈ edgesOf ei ew, 0 ≤ e.2.2) → 0 ≤ spec.lambda → ∀ i c, 0 ≤ r.F.get i c) := by
  classical
  have ha : 0 ≤ spec.alpha := by
    obtain ⟨es, Y, P, R, -⟩ := dyn_ok h
    exact R.alpha_nonneg
  have hn : n.toNat = y.length := by
    obtain ⟨es, Y, P, R, -⟩ := dyn_ok h
    have := R.ylen; omega
  obtain ⟨hs, -, P, h1, h2, -⟩ := C103_rounds top ht n ei ew y mask spec r h
    (fun i c => if Labeled y mask i.val c.val then 1 else 0)
    (fun i c => ⟨fun hl => if_pos hl, fun hl => if_neg hl⟩)
  have hout : ∀ i c, ¬ (i < y.length ∧ c < inferNumClasses y) → r.F.get i c = 0 := by
    intro i c hic
    by_cases hc : c < inferNumClasses y
    · have hi : r.F.length ≤ i := by rw [hs.1, hn]; omega
      unfold Mat.get
      rw [List.getD_eq_default _ _ hi]
      rfl
    · exact get_outside hs (by omega)
  refine ⟨fun c hc i => ?_, fun hw hl i c => ?_⟩
  · by_cases hic : i < y.length ∧ c < inferNumClasses y
    · rw [h2 ⟨i, hic.1⟩ ⟨c, hic.2⟩]
      exact rounds_column (c := ⟨c, hic.2⟩) (fun j => if_neg (hc j.val)) _ _
    · exact hout i c hic
  · by_cases hic : i < y.length ∧ c < inferNumClasses y
    · rw [h2 ⟨i, hic.1⟩ ⟨c, hic.2⟩]
      refine (rounds_nonneg ha hl (fun i c => ?_) (walk_nonneg hw) (nearest_nonneg (walk_nonneg hw) h1) _).2 _ _
      split
      · exact zero_le_one
      · exact le_refl _
    · rw [hout i c hic]

theorem adjacent_symm {es : List (Int × Int × K)} {i j : Nat} (h : Adjacent es i j) : Adjacent es j i := by
  obtain ⟨h1, w, h2, h3⟩ := h
  exact ⟨Ne.symm h1, w, h2, h3.symm⟩

theorem linked_trans {es : List (Int × Int × K)} {i j k : Nat} (h : Linked es i j) (h' : Linked es j k) : Linked es i k := by
  induction h' with
  | refl => exact h
  | step _ ha ih => exact .step ih ha

theorem linked_symm {es : List (Int × Int × K)} {i j : Nat} (h : Linked es i j) : Linked es j i := by
  induction h with
  | refl => exact .refl
  | step _ ha ih => exact linked_trans (.step .refl (adjacent_symm ha)) ih

theorem mul_linked {n m d : Type} [Fintype m] {A : Matrix n m K} {B : Matrix m d K} {i : n} {c : d}
    (h : (A * B) i c ≠ 0) : ∃ j, A i j ≠ 0 ∧ B j c ≠ 0 := by
  rw [Matrix.mul_apply] at h
  obtain ⟨j, -, hj⟩ := Finset.exists_ne_zero_of_sum_ne_zero h
  exact ⟨j, left_ne_zero_of_mul hj, right_ne_zero_of_mul hj⟩

theorem link_adjacent {n : Nat} {es : List (Int × Int × K)} (hw : ∀ e ∈ es, 0 ≤ e.2.2) {i j : Fin n}
    (h : walk n es i j ≠ 0) : Adjacent es i.val j.val := by
  have h1 : linkWeight es (i.val : Int) (j.val : Int) ≠ 0 := by
    intro h0
    apply h
    unfold walk
    rw [h0, zero_div]
  unfold linkWeight at h1
  split at h1
  · exact absurd rfl h1
  · rename_i hij
    have hij' : i.val ≠ j.val := fun h => hij (by rw [h])
    have hpos : ∀ a b : Int, ((es.filter fun e => e.1 = a ∧ e.2.1 = b).map (·.2.2)).sum ≠ 0 →
        ∃ w, 0 < w ∧ (a, b, w) ∈ es := by
      intro a b hab
      have hnn : ∀ e ∈ es.filter (fun e => decide (e.1 = a ∧ e.2.1 = b)), 0 ≤ e.2.2 := fun e he =>
        hw e (List.mem_filter.mp he).1
      have := lt_of_le_of_ne (sum_nonneg' _ _ hnn) (Ne.symm hab)
      obtain ⟨e, he, hp⟩ := (sum_pos_iff _ _ hnn).mp this
      obtain ⟨h2, h3⟩ := List.mem_filter.mp he
      simp only [decide_eq_true_eq] at h3
      refine ⟨e.2.2, hp, ?_⟩
      rw [← h3.1, ← h3.2]
      exact h2
    refine ⟨hij', ?_⟩
    by_cases h2 : ((es.filter fun e => e.1 = (i.val : Int) ∧ e.2.1 = (j.val : Int)).map (·.2.2)).sum = 0
    · obtain ⟨w, hw1, hw2⟩ := hpos (j.val : Int) (i.val : Int) (fun h3 => h1 (by rw [h2, h3]; norm_num))
      exact ⟨w, hw1, .inr hw2⟩
    · obtain ⟨w, hw1, hw2⟩ := hpos _ _ h2
      exact ⟨w, hw1, .inl hw2⟩

/-- **C103 (components).**  With non-negative weights and `alpha = 0` a class has a non-zero score at a node only if a
node of the same connected component is labeled with it. -/
theorem C103_component (top : TopK K) (ht : IsTopK top) (n : Int) (ei : List (Int × Int)) (ew : Option (List K))
    (y : List Int) (mask : List Bool) (spec : DynamicSpec K) (r : Diffusion K)
    (h : dynamicPropagation top n ei ew y mask spec = .ok r) (hw : ∀ e ∈ edgesOf ei ew, 0 ≤ e.2.2)
    (ha : spec.alpha = 0) (i c : Nat) (hic : r.F.get i c ≠ 0) :
    ∃ j, Linked (edgesOf ei ew) i j ∧ Labeled y mask j c := by
  classical
  have hn : n.toNat = y.length := by
    obtain ⟨es, Y, P, R, -⟩ := dyn_ok h
    have := R.ylen; omega
  obtain ⟨hs, -, P, h1, h2, -⟩ := C103_rounds top ht n ei ew y mask spec r h
    (fun i c => if Labeled y mask i.val c.val then 1 else 0)
    (fun i c => ⟨fun hl => if_pos hl, fun hl => if_neg hl⟩)
  have hc : c < inferNumClasses y := by
    by_contra hc
    exact hic (get_outside hs (by omega))
  have hi : i < y.length := by
    by_contra hi
    have hlen : r.F.length ≤ i := by rw [hs.1, hn]; omega
    apply hic
    unfold Mat.get
    rw [List.getD_eq_default r.F _ hlen]
    rfl
  have hP : ∀ a b, P a b ≠ 0 → Linked (edgesOf ei ew) a.val b.val := by
    intro a b hab
    unfold NearestSteps at h1
    split at h1
    · rw [h1] at hab
      exact .step .refl (link_adjacent hw hab)
    · obtain ⟨S, -, -, -, h4⟩ := h1 a
      rw [h4] at hab
      split at hab
      · refine .step .refl (link_adjacent hw (j := b) (i := a) fun h0 => hab ?_)
        rw [h0, zero_div]
      · exact absurd rfl hab
  have key : ∀ t : Nat, ∀ s, dynamicRounds (fun i : Fin y.length => mask[i.val]? = some true)
        (fun i c => if Labeled y mask i.val (c : Fin (inferNumClasses y)).val then (1 : K) else 0)
        (walk y.length (edgesOf ei ew)) P spec.alpha spec.lambda t = s →
      (∀ a b, s.1 a b ≠ 0 → Linked (edgesOf ei ew) a.val b.val) ∧
      ∀ a c, s.2 a c ≠ 0 → ∃ j, Linked (edgesOf ei ew) a.val j ∧ Labeled y mask j c.val := by
    intro t
    induction t with
    | zero =>
      rintro s rfl
      refine ⟨fun a b hab => .step .refl (link_adjacent hw hab), fun a c hac => ?_⟩
      simp only [dynamicRounds] at hac
      split at hac
      · rename_i hl; exact ⟨a.val, .refl, hl⟩
      · exact absurd rfl hac
    | succ t ih =>
      rintro s rfl
      obtain ⟨ih1, ih2⟩ := ih _ rfl
      simp only [dynamicRounds, ha, zero_smul, add_zero]
      rw [ha] at ih1 ih2
      refine ⟨fun a b hab => ?_, fun a c hac => ?_⟩
      · rw [Matrix.add_apply] at hab
        by_cases hone : (spec.lambda • (1 : Matrix (Fin y.length) (Fin y.length) K)) a b = 0
        · rw [hone, add_zero] at hab
          obtain ⟨d, h3, h4⟩ := mul_linked hab
          obtain ⟨e, h5, h6⟩ := mul_linked h3
          exact linked_trans (linked_trans (hP _ _ h5) (ih1 _ _ h6)) (linked_symm (hP _ _ h4))
        · rw [Matrix.smul_apply, Matrix.one_apply] at hone
          split at hone
          · rename_i hab'; rw [hab']; exact .refl
          · exact absurd (smul_zero _) hone
      · split at hac
        · split at hac
          · rename_i hl; exact ⟨a.val, .refl, hl⟩
          · exact absurd rfl hac
        · obtain ⟨d, h3, h4⟩ := mul_linked hac
          obtain ⟨j, h5, h6⟩ := ih2 _ _ h4
          exact ⟨j, linked_trans (ih1 _ _ h3) h5, h6⟩
  rw [h2 ⟨i, hi⟩ ⟨c, hc⟩] at hic
  exact (key _ _ rfl).2 ⟨i, hi⟩ ⟨c, hc⟩ hic

theorem knnMatrix_total {top : TopK K} (ht : IsTopK top) {n : Nat} {es : List (WEdge K)} (hes : ∀ e ∈ es, 0 ≤ e.w)
    (hd : ∀ i < n, 0 < symDegree n es i) {k : Int} (hk : 0 < k) :
    ∃ P, knnMatrix top n (stepMatrix n es) k = .ok P := by
  unfold knnMatrix
  by_cases hn : (n : Int) ≤ k
  · exact ⟨_, if_pos (Or.inr hn)⟩
  · rw [if_neg (by omega)]
    refine mapM_total fun i hi => ?_
    have hi' := List.mem_range.mp hi
    unfold knnRow
    simp only
    obtain ⟨h1, h2, h3, h4, h5⟩ := picked ht (show k.toNat < n by omega) (stepMatrix n es) hi'
    generalize top k.toNat ((List.range n).map fun j => if j = i then none else some ((stepMatrix n es).get i j))
      = S at *
    have hget : ∀ j < n, (stepMatrix n es).get i j = symAffinity es i j / symDegree n es i := fun j hj =>
      get_tab n n _ hi' hj
    have hnn : ∀ j ∈ S, 0 ≤ (stepMatrix n es).get i j := by
      intro j hj
      rw [hget j (h3 j hj)]
      exact div_nonneg (symAffinity_nonneg hes i j) (hd i hi').le
    rw [if_neg]
    · exact ⟨_, rfl⟩
    · rw [not_le, sum_pos_iff _ _ hnn]
      obtain ⟨b, hb, hpos⟩ := (sum_pos_iff _ _ fun j _ => symAffinity_nonneg hes i j).mp (hd i hi')
      have hb' := List.mem_range.mp hb
      have hp : 0 < (stepMatrix n es).get i b := by
        rw [hget b hb']
        exact div_pos hpos (hd i hi')
      by_cases hbS : b ∈ S
      · exact ⟨b, hbS, hp⟩
      · have hne : S ≠ [] := by
          intro h0
          rw [h0] at h2
          simp at h2
          omega
        obtain ⟨a, ha⟩ := List.exists_mem_of_ne_nil S hne
        refine ⟨a, ha, lt_of_lt_of_le hp (h5 a ha b hb' hbS ?_)⟩
        rintro rfl
        rw [symAffinity_self] at hpos
        exact lt_irrefl _ hpos

/-- **C103 (acceptance).**  With non-negative weights the method answers exactly when `k_neighbors` is positive and
`alpha` not negative, the graph is well formed, labels and mask have one entry per node, some node is labeled and every
node has a neighbour; otherwise it raises `ValueError`. -/
theorem C103_accepts (top : TopK K) (ht : IsTopK top) (n : Int) (ei : List (Int × Int)) (ew : Option (List K))
    (y : List Int) (mask : List Bool) (spec : DynamicSpec K) (hw : ∀ e ∈ edgesOf ei ew, 0 ≤ e.2.2) :
    ((∃ r, dynamicPropagation top n ei ew y mask spec = .ok r) ↔
      0 < spec.kNeighbors ∧ 0 ≤ spec.alpha ∧ 0 < n ∧ (∀ w, ew = some w → w.length = ei.length) ∧
      (∀ e ∈ ei, 0 ≤ e.1 ∧ 0 ≤ e.2 ∧ e.1 < n ∧ e.2 < n) ∧ (y.length : Int) = n ∧ (mask.length : Int) = n ∧
      true ∈ mask ∧ ∀ i < y.length, ∃ j, Adjacent (edgesOf ei ew) i j) ∧
    ((¬ ∃ r, dynamicPropagation top n ei ew y mask spec = .ok r) →
      dynamicPropagation top n ei ew y mask spec = .error .valueError) := by
  have hany : mask.any id = true ↔ true ∈ mask := by simp
  rcases dyn_cases top n ei ew y mask spec with ⟨es, Y0, R⟩ | ⟨hno, herr⟩
  · have hnn : ∀ e ∈ es, 0 ≤ e.w := by
      intro e hee
      exact hw ((e.src : Int), (e.dst : Int), e.w) (by rw [← R.edges]; exact List.mem_map.mpr ⟨e, hee, rfl⟩)
    have hdeg : ∀ i < y.length, (0 < symDegree y.length es i ↔ ∃ j, Adjacent (edgesOf ei ew) i j) := by
      intro i hi
      unfold symDegree
      rw [sum_pos_iff _ _ fun j _ => symAffinity_nonneg hnn i j]
      constructor
      · rintro ⟨j, -, hj⟩
        exact ⟨j, (symAffinity_pos R.edges hnn i j).mp hj⟩
      · rintro ⟨j, hj⟩
        refine ⟨j, List.mem_range.mpr ?_, (symAffinity_pos R.edges hnn i j).mpr hj⟩
        obtain ⟨-, w, -, hm⟩ := hj
        have hr := (validateGraph_ok R.valid).2.2.2
        have hyl := R.ylen
        rw [← R.edges] at hm
        rcases hm with hm | hm
        · obtain ⟨e, he, heq⟩ := List.mem_map.mp hm
          have := hr e he
          simp only [Prod.mk.injEq] at heq
          omega
        · obtain ⟨e, he, heq⟩ := List.mem_map.mp hm
          have := hr e he
          simp only [Prod.mk.injEq] at heq
          omega
    by_cases hd : ∀ i < y.length, 0 < symDegree y.length es i
    · obtain ⟨P, hP⟩ := knnMatrix_total ht hnn hd R.neighbours
      have hok : ∃ r, dynamicPropagation top n ei ew y mask spec = .ok r := by
        rw [R.eq, if_neg, ebind_of_ok hP]
        · exact ⟨_, rfl⟩
        · simp only [List.any_eq_true, List.mem_range, decide_eq_true_eq, not_exists, not_and, not_le]
          exact hd
      refine ⟨⟨fun _ => ?_, fun _ => hok⟩, fun h => absurd hok h⟩
      obtain ⟨h1, h2, -, -⟩ := validateGraph_ok R.valid
      exact ⟨R.neighbours, R.alpha_nonneg, h1, h2, validateGraph_range R.valid, R.ylen, R.mlen,
        hany.mp R.some_label, fun i hi => (hdeg i hi).mp (hd i hi)⟩
    · have herr : dynamicPropagation top n ei ew y mask spec = .error .valueError := by
        rw [R.eq, if_pos]
        simp only [List.any_eq_true, List.mem_range, decide_eq_true_eq]
        push Not at hd
        exact hd
      refine ⟨⟨?_, ?_⟩, fun _ => herr⟩
      · rintro ⟨r, hr⟩
        rw [herr] at hr; cases hr
      · rintro ⟨-, -, -, -, -, -, -, -, h⟩
        exact absurd (fun i hi => (hdeg i hi).mpr (h i hi)) hd
  · refine ⟨⟨?_, ?_⟩, fun _ => herr⟩
    · rintro ⟨r, hr⟩
      rw [herr] at hr; cases hr
    · rintro ⟨h1, h2, h3, h4, h5, h6, h7, h8, -⟩
      obtain ⟨es, hes⟩ := validateGraph_total h3 h4 h5
      obtain ⟨s1, s2, -⟩ := inferNumClasses_spec y
      obtain ⟨Y0, hY⟩ := seedMatrix_total (K := K) (mask := mask) s1 s2
      exact absurd ⟨es, Y0, h1, h2, hes, h6, h7, hany.mpr h8, hY⟩ hno

/-! ## Examples and a violation -/

/-- `row[b] ≤ row[a]`, with `none` below everything. -/
def below : Option Rat → Option Rat → Bool
  | none, _ => true
  | some _, none => false
  | some a, some b => decide (a ≤ b)

/-- Positions of the largest entries, by sorting. -/
def demoTop : TopK Rat := fun k row =>
  ((List.range row.length).insertionSort fun a b => below (row.getD b none) (row.getD a none) = true).take k

theorem demoTop_law : IsTopK demoTop := by
  intro k row hk
  have hperm := List.perm_insertionSort (fun a b => below (row.getD b none) (row.getD a none) = true)
    (List.range row.length)
  have htot : Std.Total fun a b => below (row.getD b none) (row.getD a none) = true := ⟨by
    intro a b
    cases row.getD a none <;> cases row.getD b none <;> simp [below]
    exact le_total _ _⟩
  have htr : IsTrans Nat fun a b => below (row.getD b none) (row.getD a none) = true := ⟨by
    intro a b c
    cases row.getD a none <;> cases row.getD b none <;> cases row.getD c none <;> simp [below]
    intro h1 h2
    exact le_trans h2 h1⟩
  have hsort := List.pairwise_insertionSort (fun a b => below (row.getD b none) (row.getD a none) = true)
    (List.range row.length)
  unfold demoTop
  generalize (List.range row.length).insertionSort (fun a b => below (row.getD b none) (row.getD a none) = true) = S at *
  have hnd : S.Nodup := hperm.nodup_iff.mpr List.nodup_range
  have hmem : ∀ j, j ∈ S ↔ j < row.length := fun j => hperm.mem_iff.trans List.mem_range
  refine ⟨hnd.sublist (List.take_sublist k S), ?_, fun j hj => (hmem j).mp (List.mem_of_mem_take hj), ?_⟩
  · rw [List.length_take, hperm.length_eq, List.length_range]
    omega
  · intro a ha b hb hbS
    have hb' : b ∈ S.drop k := by
      have := (hmem b).mpr hb
      rw [← List.take_append_drop k S, List.mem_append] at this
      exact this.resolve_left hbS
    rw [← List.take_append_drop k S, List.pairwise_append] at hsort
    have := hsort.2.2 a ha b hb'
    revert this
    cases row.getD a none <;> cases row.getD b none <;> simp [below, BelowEq]

/-- A path with a label at each end. -/
def dynPath : NodeData Rat :=
  ⟨[4, 1], .labels (.ints [0, -1, -1, 1]), some [(0, 1), (1, 2), (2, 3)], none,
    [("train_mask", [true, false, false, true])]⟩

/-- A star with two labeled leaves. -/
def dynStar : NodeData Rat :=
  ⟨[3, 1], .labels (.ints [0, 0, -1]), some [(0, 2), (1, 2)], none, [("train_mask", [true, true, false])]⟩

example : (fitDynamic demoTop ⟨1, 1 / 20, 1 / 10, 1⟩ dynPath).map (fun r => (r.F, r.nIter, r.residual))
    = .ok ([[1, 0], [1 / 2, 0], [0, 1 / 2], [0, 1]], 1, some (1 / 2)) := by decide +kernel

example : ∀ r, fitDynamic demoTop ⟨1, 0, 1 / 10, 3⟩ dynPath = .ok r → r.F.length = 4 ∧ r.nIter = 3 := by
  intro r h
  have : (fitDynamic demoTop ⟨1, 0, 1 / 10, 3⟩ dynPath).map (fun r => (r.F.length, r.nIter)) = .ok (4, 3) := by
    decide +kernel
  rw [h] at this
  simpa [Except.map] using this

/-- With at least as many neighbours as nodes nothing is selected. -/
theorem dyn_top (top top' : TopK K) (n : Int) (ei : List (Int × Int)) (ew : Option (List K)) (y : List Int)
    (mask : List Bool) (spec : DynamicSpec K) (h : n ≤ spec.kNeighbors) :
    dynamicPropagation top n ei ew y mask spec = dynamicPropagation top' n ei ew y mask spec := by
  unfold dynamicPropagation
  by_cases hy : (y.length : Int) ≠ n
  · simp only [if_pos hy]
  · have hk : ∀ (top : TopK K) P0, knnMatrix top y.length P0 spec.kNeighbors = .ok P0 := by
      intro top P0
      unfold knnMatrix
      rw [if_pos (Or.inr (by omega))]
    simp only [hk]

theorem fit_top (top top' : TopK K) (spec : DynamicSpec K) (d : NodeData K) (h : (d.y.length : Int) ≤ spec.kNeighbors) :
    fitDynamic top spec d = fitDynamic top' spec d := by
  unfold fitDynamic fitWith
  cases validateNodeDataset d with
  | error e => rfl
  | ok u =>
    cases Assoc.get d.masks "train_mask" with
    | none => rfl
    | some mask => exact dyn_top top top' _ _ _ _ _ _ h

theorem star_score : (fitDynamic demoTop ⟨10, 1 / 20, 1 / 10, 2⟩ dynStar).map (fun r => r.F.get 2 0) = .ok (43 / 20) := by
  decide +kernel

/-- **C103 (violated: probabilities).**  `predict_proba` returns the scores, which are no probabilities: the centre of a
star with two labeled leaves is given score 43/20 with the default parameters and two rounds. -/
theorem C103_proba_violated (top : TopK Rat) : validateNodeDataset dynStar = .ok () ∧
    ∃ r, fitDynamic top ⟨10, 1 / 20, 1 / 10, 2⟩ dynStar = .ok r ∧ 1 < r.F.get 2 0 := by
  refine ⟨by decide +kernel, ?_⟩
  rw [fit_top top demoTop _ _ (by decide)]
  have h := star_score
  revert h
  generalize fitDynamic demoTop ⟨10, 1 / 20, 1 / 10, 2⟩ dynStar = q
  intro h
  cases q with
  | error e => simp [Except.map] at h
  | ok r =>
    refine ⟨r, rfl, ?_⟩
    simp only [Except.map, Except.ok.injEq] at h
    rw [h]
    norm_num

end ModSSC.Transductive
