import Verif.Transductive.PropProps
import Mathlib.LinearAlgebra.FiniteDimensional.Basic
import Mathlib.Analysis.Real.Sqrt

/-!
# Convergence of label spreading
-/

set_option linter.unusedSectionVars false

namespace ModSSC.Transductive
open ModSSC Spec

section
variable {K : Type} [Field K] [LinearOrder K] [IsStrictOrderedRing K]

theorem sum_sub' {β : Type} (L : List β) (f g : β → K) :
    (L.map f).sum - (L.map g).sum = (L.map fun e => f e - g e).sum := by
  induction L with
  | nil => simp
  | cons a L ih => simp only [List.map_cons, List.sum_cons]; rw [← ih]; ring

theorem abs_sum_le {β : Type} (L : List β) (f g : β → K) (h : ∀ e ∈ L, |f e| ≤ g e) :
    |(L.map f).sum| ≤ (L.map g).sum := by
  induction L with
  | nil => simp
  | cons a L ih =>
    simp only [List.map_cons, List.sum_cons]
    exact (abs_add_le _ _).trans (add_le_add (h a (by simp)) (ih fun e he => h e (by simp [he])))

/-- Applying the edges to a difference bounded by `B v` gives a difference bounded by `B v`. -/
theorem edges_contract {n : Nat} {es : List (WEdge K)} {v : Nat → K}
    (hes : ∀ e ∈ es, 0 ≤ e.w ∧ e.src < n)
    (hv : ∀ i, i < n → ((es.filter fun e => e.dst = i).map fun e => e.w * v e.src).sum ≤ v i)
    {B : K} (hB : 0 ≤ B) {F G : Nat → K} (h : ∀ i, i < n → |F i - G i| ≤ B * v i) (i : Nat) (hi : i < n) :
    |((es.filter fun e => e.dst = i).map fun e => e.w * F e.src).sum
      - ((es.filter fun e => e.dst = i).map fun e => e.w * G e.src).sum| ≤ B * v i := by
  rw [sum_sub']
  refine (abs_sum_le _ _ (fun e => B * (e.w * v e.src)) ?_).trans ?_
  · intro e he
    obtain ⟨h1, h2⟩ := hes e (List.mem_of_mem_filter he)
    rw [← mul_sub, abs_mul, abs_of_nonneg h1]
    calc e.w * |F e.src - G e.src| ≤ e.w * (B * v e.src) := mul_le_mul_of_nonneg_left (h _ h2) h1
      _ = B * (e.w * v e.src) := by ring
  · rw [List.sum_map_mul_left]
    exact mul_le_mul_of_nonneg_left (hv i hi) hB

theorem lsStep_get_all {n d : Nat} {es : List (WEdge K)} {a : K} {Y F : Mat K} (hY : HasShape Y n d)
    (hF : HasShape F n d) {i : Nat} (hi : i < n) (c : Nat) :
    (lsStep n d es a Y false F).get i c
      = a * ((es.filter fun e => e.dst = i).map fun e => e.w * F.get e.src c).sum + (1 - a) * Y.get i c := by
  by_cases hc : c < d
  · rw [lsStep_get hi _ (fun _ _ => rfl) hc]
    simp
  · rw [not_lt] at hc
    rw [get_outside (lsStep_shape _ _ _ _ _ _ _) hc, get_outside hY hc]
    rw [List.sum_eq_zero]
    · simp
    · intro x hx
      obtain ⟨e, -, rfl⟩ := List.mem_map.mp hx
      rw [get_outside hF hc, mul_zero]

/-- The iterates approach every solution of the fixed-point equation geometrically. -/
theorem ls_approach {n d : Nat} {es : List (WEdge K)} {a : K} (ha : 0 ≤ a) {Y : Mat K} (hY : HasShape Y n d)
    {v : Nat → K} (hes : ∀ e ∈ es, 0 ≤ e.w ∧ e.src < n)
    (hv : ∀ i, i < n → ((es.filter fun e => e.dst = i).map fun e => e.w * v e.src).sum ≤ v i)
    {G : Nat → Nat → K}
    (hG : ∀ i, i < n → ∀ c, G i c = a * ((es.filter fun e => e.dst = i).map fun e => e.w * G e.src c).sum
      + (1 - a) * Y.get i c)
    {B : K} (hB : 0 ≤ B) (h0 : ∀ i, i < n → ∀ c, |Y.get i c - G i c| ≤ B * v i) (t : Nat) :
    HasShape ((lsStep n d es a Y false)^[t] Y) n d ∧
    ∀ i, i < n → ∀ c, |((lsStep n d es a Y false)^[t] Y).get i c - G i c| ≤ a ^ t * B * v i := by
  induction t with
  | zero => exact ⟨hY, fun i hi c => by simpa using h0 i hi c⟩
  | succ t ih =>
    rw [Function.iterate_succ_apply']
    refine ⟨lsStep_shape _ _ _ _ _ _ _, fun i hi c => ?_⟩
    rw [lsStep_get_all hY ih.1 hi, hG i hi c]
    have := edges_contract hes hv (B := a ^ t * B) (mul_nonneg (pow_nonneg ha t) hB)
      (F := fun i => ((lsStep n d es a Y false)^[t] Y).get i c) (G := fun i => G i c)
      (fun i hi => ih.2 i hi c) i hi
    rw [add_sub_add_right_eq_sub, ← mul_sub, abs_mul, abs_of_nonneg ha]
    calc _ ≤ a * (a ^ t * B * v i) := mul_le_mul_of_nonneg_left this ha
      _ = a ^ (t + 1) * B * v i := by rw [pow_succ]; ring

/-- Consecutive iterates get closer geometrically. -/
theorem ls_steps {n d : Nat} {es : List (WEdge K)} {a : K} (ha : 0 ≤ a) {Y : Mat K} (hY : HasShape Y n d)
    {v : Nat → K} (hes : ∀ e ∈ es, 0 ≤ e.w ∧ e.src < n)
    (hv : ∀ i, i < n → ((es.filter fun e => e.dst = i).map fun e => e.w * v e.src).sum ≤ v i)
    {B : K} (hB : 0 ≤ B)
    (h0 : ∀ i, i < n → ∀ c, |(lsStep n d es a Y false Y).get i c - Y.get i c| ≤ B * v i) (t : Nat) :
    HasShape ((lsStep n d es a Y false)^[t] Y) n d ∧
    ∀ i, i < n → ∀ c, |((lsStep n d es a Y false)^[t + 1] Y).get i c - ((lsStep n d es a Y false)^[t] Y).get i c|
      ≤ a ^ t * B * v i := by
  induction t with
  | zero => exact ⟨hY, fun i hi c => by simpa using h0 i hi c⟩
  | succ t ih =>
    rw [Function.iterate_succ_apply' _ (t + 1), Function.iterate_succ_apply' _ t]
    refine ⟨lsStep_shape _ _ _ _ _ _ _, fun i hi c => ?_⟩
    have h1 := ih.2
    rw [Function.iterate_succ_apply' _ t] at h1
    rw [lsStep_get_all hY (lsStep_shape _ _ _ _ _ _ _) hi, lsStep_get_all hY ih.1 hi]
    have := edges_contract hes hv (B := a ^ t * B) (mul_nonneg (pow_nonneg ha t) hB)
      (F := fun i => (lsStep n d es a Y false ((lsStep n d es a Y false)^[t] Y)).get i c)
      (G := fun i => ((lsStep n d es a Y false)^[t] Y).get i c)
      (fun i hi => h1 i hi c) i hi
    rw [add_sub_add_right_eq_sub, ← mul_sub, abs_mul, abs_of_nonneg ha]
    calc _ ≤ a * (a ^ t * B * v i) := mul_le_mul_of_nonneg_left this ha
      _ = a ^ (t + 1) * B * v i := by rw [pow_succ]; ring

/-! ### The edges of a run -/

namespace Parsed
variable {sqrt : K → K} {eps : K} {n : Int} {ei : List (Int × Int)} {ew : Option (List K)} {y : List Int}
  {mask : List Bool} {norm : String} {es es' : List (WEdge K)} {Y : Mat K}

theorem degree_eq (P : Parsed sqrt eps n ei ew y mask norm es es' Y) (i : Nat) :
    degree es i = inWeight (edgesOf ei ew) i := by
  unfold degree inWeight
  rw [← P.edges, List.filter_map, List.map_map]
  congr 1
  have : ((fun e : Int × Int × K => decide (e.2.1 = (i : Int))) ∘ fun e : WEdge K => ((e.src : Int), (e.dst : Int), e.w))
      = fun e => decide (e.dst = i) := by
    funext e
    simp
  rw [this]
  rfl

/-- The sums over the normalised edges, in terms of the caller's graph. -/
theorem transition_sum (P : Parsed sqrt eps n ei ew y mask norm es es' Y) (i : Nat) (g : Nat → K) :
    ((es'.filter fun e => e.dst = i).map fun e => e.w * g e.src).sum
      = (((edgesOf ei ew).filter fun e => e.2.1 = (i : Int)).map fun e =>
        transition sqrt eps norm (edgesOf ei ew) e * g e.1.toNat).sum := by
  obtain ⟨q, rfl, hq⟩ := P.norm
  rw [← P.edges, List.filter_map, List.map_map, List.filter_map, List.map_map, P.edges]
  have : ((fun e : Int × Int × K => decide (e.2.1 = (i : Int))) ∘ fun e : WEdge K => ((e.src : Int), (e.dst : Int), e.w))
      = ((fun e : WEdge K => decide (e.dst = i)) ∘ fun e => ⟨e.src, e.dst, e.w / q e.src e.dst⟩) := by
    funext e
    simp
  rw [this]
  congr 1
  apply List.map_congr_left
  intro e _
  simp only [Function.comp, Int.toNat_natCast]
  congr 1
  unfold transition
  simp only
  rw [← P.degree_eq, ← P.degree_eq]
  rcases hq with ⟨h1, h2⟩ | ⟨h1, h2⟩
  · rw [if_pos h1, h2]
  · rw [if_neg (by rw [h1]; decide), h2]

theorem equilibrium_get (P : Parsed sqrt eps n ei ew y mask norm es es' Y) {alpha : K} {G : Nat → Nat → K}
    (hG : Equilibrium sqrt eps norm (edgesOf ei ew) y mask alpha G) :
    ∀ i, i < y.length → ∀ c, G i c = alpha * ((es'.filter fun e => e.dst = i).map fun e => e.w * G e.src c).sum
      + (1 - alpha) * Y.get i c := by
  classical
  intro i hi c
  have hY : Y.get i c = if Labeled y mask i c then 1 else 0 := by
    by_cases hc : c < numClasses y mask
    · exact P.seed_get hi hc
    · rw [get_outside P.seed_shape (by omega), if_neg]
      intro hl
      exact hc (lp_labeled P false 0 i c hl).1
  rw [P.transition_sum i (fun j => G j c), hY]
  by_cases hl : Labeled y mask i c
  · rw [if_pos hl, mul_one]
    exact (hG i hi c).1 hl
  · rw [if_neg hl, mul_zero, add_zero]
    exact (hG i hi c).2 hl

theorem seed_abs (P : Parsed sqrt eps n ei ew y mask norm es es' Y) [∀ i c, Decidable (Labeled y mask i c)]
    {i : Nat} (hi : i < y.length) (c : Nat) : Y.get i c = if Labeled y mask i c then 1 else 0 := by
  by_cases hc : c < numClasses y mask
  · exact P.seed_get hi hc
  · rw [get_outside P.seed_shape (by omega), if_neg]
    intro hl
    exact hc (lp_labeled P false 0 i c hl).1

/-- In symmetric mode the square roots of the degrees are a sub-invariant vector. -/
theorem sym_sum (P : Parsed sqrt eps n ei ew y mask norm es es' Y) (heps : 0 < eps) (hn : norm = "sym")
    (hs0 : ∀ x, 0 < x → 0 < sqrt x) (hsm : ∀ a b, 0 < a → 0 < b → sqrt (a * b) = sqrt a * sqrt b)
    (hss : ∀ x, 0 < x → sqrt x * sqrt x = x) (i : Nat) :
    ((es'.filter fun e => e.dst = i).map fun e => e.w * sqrt (max (degree es e.src) eps)).sum
      ≤ sqrt (max (degree es i) eps) := by
  obtain ⟨q, rfl, h⟩ := P.norm
  have hq : ∀ i j, q i j = sqrt (max (degree es i) eps * max (degree es j) eps) := by
    rcases h with ⟨h, -⟩ | ⟨-, h⟩
    · rw [hn] at h; simp at h
    · exact h
  have hd : ∀ i, 0 < max (degree es i) eps := fun i => lt_of_lt_of_le heps (le_max_right _ _)
  rw [List.filter_map, List.map_map]
  have : (((es.filter ((fun e : WEdge K => decide (e.dst = i)) ∘ fun e => ⟨e.src, e.dst, e.w / q e.src e.dst⟩)).map
      ((fun e : WEdge K => e.w * sqrt (max (degree es e.src) eps)) ∘ fun e => ⟨e.src, e.dst, e.w / q e.src e.dst⟩)).sum)
      = degree es i * (sqrt (max (degree es i) eps))⁻¹ := by
    conv_rhs => unfold degree
    rw [← List.sum_map_mul_right]
    congr 1
    apply List.map_congr_left
    intro e he
    have : e.dst = i := by simpa using (List.mem_filter.mp he).2
    simp only [Function.comp, hq, this]
    rw [hsm _ _ (hd _) (hd _)]
    have h1 := (hs0 _ (hd e.src)).ne'
    have h2 := (hs0 _ (hd i)).ne'
    unfold degree at h1 h2 ⊢
    field_simp
  rw [this, ← div_eq_mul_inv, div_le_iff₀ (hs0 _ (hd i)), hss _ (hd i)]
  exact le_max_left _ _

end Parsed

/-- **C87 (distance to the solution, random-walk mode).**  Without row normalisation, label spreading approaches
every solution of `G = alpha S G + (1 - alpha) Y` geometrically: after `t` iterations the scores are within
`alpha ^ t` times the initial distance. -/
theorem C87_random_walk (sqrt : K → K) (hsqrt : ∀ x, 0 < x → 0 < sqrt x) (eps : K) (heps : 0 < eps) (n : Int)
    (ei : List (Int × Int)) (ew : Option (List K)) (hw : ∀ e ∈ edgesOf ei ew, 0 ≤ e.2.2)
    (y : List Int) (mask : List Bool) (alpha : K) (spec : PropSpec K) (hmax : 0 ≤ spec.maxIter)
    (hnorm : spec.norm = "rw") (hrows : spec.normalizeRows = false)
    (r : Diffusion K) (h : labelSpreading sqrt eps n ei ew y mask alpha spec = .ok r)
    (G : Nat → Nat → K) (hG : Equilibrium sqrt eps "rw" (edgesOf ei ew) y mask alpha G)
    (B : K) (hB : ∀ i : Nat, (i : Int) < n → ∀ c, (Labeled y mask i c → |1 - G i c| ≤ B) ∧
      (¬ Labeled y mask i c → |G i c| ≤ B)) :
    ∀ i : Nat, (i : Int) < n → ∀ c, |r.F.get i c - G i c| ≤ alpha ^ r.nIter.toNat * B := by
  classical
  obtain ⟨ha0, ha1, es, es', Y, P, rfl⟩ := labelSpreading_ok h
  rw [(diffuse_stopped (lsStep y.length (numClasses y mask) es' alpha Y spec.normalizeRows)
    (maxDiff y.length (numClasses y mask)) spec.tol spec.maxIter Y).2 hmax, hrows]
  generalize (diffuse (lsStep y.length (numClasses y mask) es' alpha Y false)
    (maxDiff y.length (numClasses y mask)) spec.tol spec.maxIter spec.maxIter.toNat 0 Y none).nIter.toNat = t
  have hn : ∀ i, i < y.length ↔ (i : Int) < n := fun i => by have := P.ylen; omega
  have h0 : ∀ i, i < y.length → ∀ c, |Y.get i c - G i c| ≤ B := by
    intro i hi c
    rw [P.seed_abs hi c]
    by_cases hl : Labeled y mask i c
    · rw [if_pos hl]; exact (hB i ((hn i).mp hi) c).1 hl
    · rw [if_neg hl, zero_sub, abs_neg]; exact (hB i ((hn i).mp hi) c).2 hl
  have hBp : 0 ≤ B := (abs_nonneg _).trans (h0 0 (by have := P.pos; have := P.ylen; omega) 0)
  rw [hnorm] at P
  have := (ls_approach ha0 P.seed_shape (v := fun _ => 1)
    (fun e he => ⟨P.norm_nonneg heps hsqrt hw e he, (P.norm_range e he).1⟩)
    (fun i _ => by simpa using P.rw_sum heps rfl i) (P.equilibrium_get hG) hBp
    (fun i hi c => by simpa using h0 i hi c) t).2
  intro i hi c
  simpa using this i ((hn i).mpr hi) c

theorem foldl_max_le {l : List K} {a B : K} (ha : a ≤ B) (h : ∀ x ∈ l, x ≤ B) : l.foldl max a ≤ B := by
  induction l generalizing a with
  | nil => exact ha
  | cons x l ih =>
    exact ih (max_le ha (h x (by simp))) fun z hz => h z (by simp [hz])

theorem maxDiff_le {n d : Nat} {A C : Mat K} {B : K} (hB : 0 ≤ B)
    (h : ∀ i, i < n → ∀ c, c < d → |A.get i c - C.get i c| ≤ B) : maxDiff n d A C ≤ B := by
  unfold maxDiff
  apply foldl_max_le hB
  intro x hx
  obtain ⟨i, hi, hx⟩ := List.mem_flatMap.mp hx
  obtain ⟨c, hc, rfl⟩ := List.mem_map.mp hx
  exact h i (List.mem_range.mp hi) c (List.mem_range.mp hc)

/-- **C87 (the reported residual).**  In random-walk mode without row normalisation the residual reported after
`t` iterations is at most `alpha ^ t`; so with `alpha ^ max_iter ≤ tol` the run always ends converged. -/
theorem C87_residual (sqrt : K → K) (hsqrt : ∀ x, 0 < x → 0 < sqrt x) (eps : K) (heps : 0 < eps) (n : Int)
    (ei : List (Int × Int)) (ew : Option (List K)) (hw : ∀ e ∈ edgesOf ei ew, 0 ≤ e.2.2)
    (y : List Int) (mask : List Bool) (alpha : K) (spec : PropSpec K) (hmax : 0 < spec.maxIter)
    (hnorm : spec.norm = "rw") (hrows : spec.normalizeRows = false)
    (r : Diffusion K) (h : labelSpreading sqrt eps n ei ew y mask alpha spec = .ok r) :
    ∃ x, r.residual = some x ∧ x ≤ alpha ^ r.nIter.toNat ∧ (alpha ^ spec.maxIter.toNat ≤ spec.tol → x ≤ spec.tol) := by
  classical
  obtain ⟨ha0, ha1, es, es', Y, P, rfl⟩ := labelSpreading_ok h
  obtain ⟨j, hj, -, hc, hres, -⟩ := diffuse_run (lsStep y.length (numClasses y mask) es' alpha Y spec.normalizeRows)
    (maxDiff y.length (numClasses y mask)) spec.tol spec.maxIter spec.maxIter.toNat 0 Y none
  have hj0 : 0 < j := by
    rcases hc with ⟨a, -⟩ | ⟨a, -⟩
    · omega
    · exact a
  have hes : ∀ e ∈ es', 0 ≤ e.w ∧ e.src < y.length := fun e he =>
    ⟨P.norm_nonneg heps hsqrt hw e he, (P.norm_range e he).1⟩
  have hY01 : ∀ i, i < y.length → ∀ c, 0 ≤ Y.get i c ∧ Y.get i c ≤ 1 := by
    intro i hi c
    rw [P.seed_abs hi c]
    split
    · exact ⟨zero_le_one, le_refl _⟩
    · exact ⟨le_refl _, zero_le_one⟩
  have hfirst : ∀ i, i < y.length → ∀ c,
      |(lsStep y.length (numClasses y mask) es' alpha Y false Y).get i c - Y.get i c| ≤ alpha * (fun _ => (1 : K)) i := by
    intro i hi c
    rw [lsStep_get_all P.seed_shape P.seed_shape hi]
    have hs0 : 0 ≤ ((es'.filter fun e => e.dst = i).map fun e => e.w * Y.get e.src c).sum :=
      sum_nonneg' _ _ fun e he => by
        obtain ⟨h1, h2⟩ := hes e (List.mem_of_mem_filter he)
        exact mul_nonneg h1 (hY01 _ h2 c).1
    have hs1 : ((es'.filter fun e => e.dst = i).map fun e => e.w * Y.get e.src c).sum ≤ 1 := by
      refine (sum_le_sum' _ _ (fun e => e.w) fun e he => ?_).trans (P.rw_sum heps hnorm i)
      obtain ⟨h1, h2⟩ := hes e (List.mem_of_mem_filter he)
      exact mul_le_of_le_one_right h1 (hY01 _ h2 c).2
    have h3 := hY01 i hi c
    have : alpha * ((es'.filter fun e => e.dst = i).map fun e => e.w * Y.get e.src c).sum + (1 - alpha) * Y.get i c
        - Y.get i c = alpha * (((es'.filter fun e => e.dst = i).map fun e => e.w * Y.get e.src c).sum - Y.get i c) := by
      ring
    rw [this, abs_mul, abs_of_nonneg ha0, mul_one]
    exact mul_le_of_le_one_right ha0 (abs_le.mpr ⟨by linarith, by linarith⟩)
  have hstep := (ls_steps ha0 P.seed_shape (v := fun _ => 1) hes (fun i _ => by simpa using P.rw_sum heps hnorm i)
    ha0 hfirst (j - 1)).2
  have hx : maxDiff y.length (numClasses y mask)
      ((lsStep y.length (numClasses y mask) es' alpha Y spec.normalizeRows)^[j] Y)
      ((lsStep y.length (numClasses y mask) es' alpha Y spec.normalizeRows)^[j - 1] Y) ≤ alpha ^ j := by
    apply maxDiff_le (pow_nonneg ha0 _)
    intro i hi c _
    have h5 := hstep i hi c
    rw [Nat.sub_add_cancel hj0] at h5
    rw [hrows]
    refine h5.trans (le_of_eq ?_)
    rw [mul_one, ← pow_succ, Nat.sub_add_cancel hj0]
  refine ⟨_, hres hj0, ?_, ?_⟩
  · have : (diffuse (lsStep y.length (numClasses y mask) es' alpha Y spec.normalizeRows)
        (maxDiff y.length (numClasses y mask)) spec.tol spec.maxIter spec.maxIter.toNat 0 Y none).nIter.toNat = j := by
      rcases hc with ⟨a, b⟩ | ⟨a, b, -⟩
      · rw [b]; omega
      · rw [b]; omega
    rw [this]
    exact hx
  · intro htol
    rcases hc with ⟨a, b⟩ | ⟨a, b, x, h6, h7⟩
    · rw [← a] at htol
      exact hx.trans htol
    · rw [hres hj0] at h6
      obtain rfl := Option.some.inj h6
      exact h7

/-- The equation `x = a S x + b` has a solution when `S` has non-negative row sums at most one and `a < 1`. -/
theorem exists_solution {n : Nat} {es : List (WEdge K)} {a : K} (ha : 0 ≤ a) (ha1 : a < 1)
    (hes : ∀ e ∈ es, 0 ≤ e.w ∧ e.src < n)
    (hv : ∀ i, i < n → ((es.filter fun e => e.dst = i).map (·.w)).sum ≤ 1) (b : Nat → K) :
    ∃ x : Nat → K, ∀ i, i < n → x i = a * ((es.filter fun e => e.dst = i).map fun e => e.w * x e.src).sum + b i := by
  let ext : (Fin n → K) → Nat → K := fun x j => if h : j < n then x ⟨j, h⟩ else 0
  let T : (Fin n → K) →ₗ[K] (Fin n → K) :=
    { toFun := fun x i => x i - a * ((es.filter fun e => e.dst = i.val).map fun e => e.w * ext x e.src).sum
      map_add' := by
        intro x z
        funext i
        have : ∀ j, ext (x + z) j = ext x j + ext z j := by
          intro j
          simp only [ext]
          split <;> simp
        simp only [Pi.add_apply, this, mul_add, List.sum_map_add]
        ring
      map_smul' := by
        intro k x
        funext i
        have : ∀ j, ext (k • x) j = k * ext x j := by
          intro j
          simp only [ext]
          split <;> simp
        have h2 : ((es.filter fun e => e.dst = i.val).map fun e => e.w * (k * ext x e.src)).sum
            = k * ((es.filter fun e => e.dst = i.val).map fun e => e.w * ext x e.src).sum := by
          rw [← List.sum_map_mul_left]
          congr 1
          apply List.map_congr_left
          intro e _
          ring
        simp only [Pi.smul_apply, smul_eq_mul, this, RingHom.id_apply, h2]
        ring }
  have hinj : Function.Injective T := by
    rw [← LinearMap.ker_eq_bot, LinearMap.ker_eq_bot']
    intro x hx
    by_cases hn : n = 0
    · subst hn
      funext i
      exact i.elim0
    obtain ⟨m, -, hm⟩ := Finset.exists_max_image Finset.univ (fun i : Fin n => |x i|) ⟨⟨0, by omega⟩, Finset.mem_univ _⟩
    have hB : ∀ i, i < n → |ext x i - (fun _ => (0 : K)) i| ≤ |x m| * (fun _ => (1 : K)) i := by
      intro i hi
      simp only [ext, dif_pos hi, sub_zero, mul_one]
      exact hm _ (Finset.mem_univ _)
    have hc := edges_contract hes (v := fun _ => (1 : K)) (fun i hi => by simpa using hv i hi) (abs_nonneg (x m))
      hB m m.2
    simp only [mul_zero, List.map_const', List.sum_replicate, smul_zero, sub_zero, mul_one] at hc
    have hxm : x m = a * ((es.filter fun e => e.dst = m.val).map fun e => e.w * ext x e.src).sum := by
      have := congrFun hx m
      exact sub_eq_zero.mp this
    have h1 : |x m| ≤ a * |x m| := by
      conv_lhs => rw [hxm, abs_mul, abs_of_nonneg ha]
      exact mul_le_mul_of_nonneg_left hc ha
    have h0 : |x m| = 0 := by
      have := abs_nonneg (x m)
      by_contra hne
      have hp : 0 < |x m| := lt_of_le_of_ne this (Ne.symm hne)
      have := mul_lt_of_lt_one_left hp ha1
      exact absurd h1 (not_le.mpr this)
    funext i
    have := hm i (Finset.mem_univ _)
    rw [h0] at this
    exact abs_eq_zero.mp (le_antisymm this (abs_nonneg _))
  obtain ⟨x, hx⟩ := (LinearMap.injective_iff_surjective.mp hinj) (fun i => b i)
  refine ⟨ext x, fun i hi => ?_⟩
  have := congrFun hx ⟨i, hi⟩
  have h2 : x ⟨i, hi⟩ - a * ((es.filter fun e => e.dst = i).map fun e => e.w * ext x e.src).sum = b i := this
  have h3 : ext x i = x ⟨i, hi⟩ := by simp only [ext, dif_pos hi]
  rw [h3]
  linarith

/-- **C87 (there is a solution).**  In random-walk mode the equation of the previous theorems has a solution for
every accepted input. -/
theorem C87_solution (sqrt : K → K) (hsqrt : ∀ x, 0 < x → 0 < sqrt x) (eps : K) (heps : 0 < eps) (n : Int)
    (ei : List (Int × Int)) (ew : Option (List K)) (hw : ∀ e ∈ edgesOf ei ew, 0 ≤ e.2.2)
    (y : List Int) (mask : List Bool) (alpha : K) (spec : PropSpec K) (hnorm : spec.norm = "rw")
    (r : Diffusion K) (h : labelSpreading sqrt eps n ei ew y mask alpha spec = .ok r) :
    ∃ G, Equilibrium sqrt eps "rw" (edgesOf ei ew) y mask alpha G := by
  classical
  obtain ⟨ha0, ha1, es, es', Y, P, -⟩ := labelSpreading_ok h
  rw [hnorm] at P
  have := fun c : Nat => exists_solution ha0 ha1
    (fun e he => ⟨P.norm_nonneg heps hsqrt hw e he, (P.norm_range e he).1⟩)
    (fun i _ => P.rw_sum heps rfl i) (n := y.length) (fun i => (1 - alpha) * Y.get i c)
  choose g hg using this
  refine ⟨fun i c => g c i, fun i hi c => ?_⟩
  have h1 := hg c i hi
  rw [P.transition_sum i (g c), P.seed_abs hi c] at h1
  refine ⟨fun hl => ?_, fun hl => ?_⟩
  · rw [if_pos hl, mul_one] at h1; exact h1
  · rw [if_neg hl, mul_zero, add_zero] at h1; exact h1

/-- **C87 (distance to the solution, symmetric mode).**  The same in the norm weighted by the square roots of the
degrees. -/
theorem C87_symmetric (sqrt : K → K) (hs0 : ∀ x, 0 < x → 0 < sqrt x)
    (hsm : ∀ a b, 0 < a → 0 < b → sqrt (a * b) = sqrt a * sqrt b) (hss : ∀ x, 0 < x → sqrt x * sqrt x = x)
    (eps : K) (heps : 0 < eps) (n : Int)
    (ei : List (Int × Int)) (ew : Option (List K)) (hw : ∀ e ∈ edgesOf ei ew, 0 ≤ e.2.2)
    (y : List Int) (mask : List Bool) (alpha : K) (spec : PropSpec K) (hmax : 0 ≤ spec.maxIter)
    (hnorm : spec.norm = "sym") (hrows : spec.normalizeRows = false)
    (r : Diffusion K) (h : labelSpreading sqrt eps n ei ew y mask alpha spec = .ok r)
    (G : Nat → Nat → K) (hG : Equilibrium sqrt eps "sym" (edgesOf ei ew) y mask alpha G)
    (B : K) (hB : ∀ i : Nat, (i : Int) < n → ∀ c,
      (Labeled y mask i c → |1 - G i c| ≤ B * sqrt (max (inWeight (edgesOf ei ew) i) eps)) ∧
      (¬ Labeled y mask i c → |G i c| ≤ B * sqrt (max (inWeight (edgesOf ei ew) i) eps))) :
    ∀ i : Nat, (i : Int) < n → ∀ c,
      |r.F.get i c - G i c| ≤ alpha ^ r.nIter.toNat * B * sqrt (max (inWeight (edgesOf ei ew) i) eps) := by
  classical
  obtain ⟨ha0, ha1, es, es', Y, P, rfl⟩ := labelSpreading_ok h
  rw [(diffuse_stopped (lsStep y.length (numClasses y mask) es' alpha Y spec.normalizeRows)
    (maxDiff y.length (numClasses y mask)) spec.tol spec.maxIter Y).2 hmax, hrows]
  generalize (diffuse (lsStep y.length (numClasses y mask) es' alpha Y false)
    (maxDiff y.length (numClasses y mask)) spec.tol spec.maxIter spec.maxIter.toNat 0 Y none).nIter.toNat = t
  have hn : ∀ i, i < y.length ↔ (i : Int) < n := fun i => by have := P.ylen; omega
  have hv : ∀ i : Nat, sqrt (max (inWeight (edgesOf ei ew) i) eps) = sqrt (max (degree es i) eps) := fun i => by
    rw [P.degree_eq]
  have h0 : ∀ i, i < y.length → ∀ c, |Y.get i c - G i c| ≤ B * sqrt (max (degree es i) eps) := by
    intro i hi c
    rw [P.seed_abs hi c, ← hv i]
    by_cases hl : Labeled y mask i c
    · rw [if_pos hl]; exact (hB i ((hn i).mp hi) c).1 hl
    · rw [if_neg hl, zero_sub, abs_neg]; exact (hB i ((hn i).mp hi) c).2 hl
  have hBp : 0 ≤ B := by
    have h1 := (abs_nonneg _).trans (h0 0 (by have := P.pos; have := P.ylen; omega) 0)
    exact nonneg_of_mul_nonneg_left h1 (hs0 _ (lt_of_lt_of_le heps (le_max_right _ _)))
  rw [hnorm] at P
  have := (ls_approach ha0 P.seed_shape (v := fun i => sqrt (max (degree es i) eps))
    (fun e he => ⟨P.norm_nonneg heps hs0 hw e he, (P.norm_range e he).1⟩)
    (fun i _ => P.sym_sum heps rfl hs0 hsm hss i) (P.equilibrium_get hG) hBp h0 t).2
  intro i hi c
  rw [hv i]
  exact this i ((hn i).mpr hi) c

end

/-- **C87 for the real numbers**: `math.sqrt` meets the assumptions on the square root. -/
theorem C87_symmetric_real (eps : ℝ) (heps : 0 < eps) (n : Int)
    (ei : List (Int × Int)) (ew : Option (List ℝ)) (hw : ∀ e ∈ edgesOf ei ew, 0 ≤ e.2.2)
    (y : List Int) (mask : List Bool) (alpha : ℝ) (spec : PropSpec ℝ) (hmax : 0 ≤ spec.maxIter)
    (hnorm : spec.norm = "sym") (hrows : spec.normalizeRows = false)
    (r : Diffusion ℝ) (h : labelSpreading Real.sqrt eps n ei ew y mask alpha spec = .ok r)
    (G : Nat → Nat → ℝ) (hG : Equilibrium Real.sqrt eps "sym" (edgesOf ei ew) y mask alpha G)
    (B : ℝ) (hB : ∀ i : Nat, (i : Int) < n → ∀ c,
      (Labeled y mask i c → |1 - G i c| ≤ B * √(max (inWeight (edgesOf ei ew) i) eps)) ∧
      (¬ Labeled y mask i c → |G i c| ≤ B * √(max (inWeight (edgesOf ei ew) i) eps))) :
    ∀ i : Nat, (i : Int) < n → ∀ c,
      |r.F.get i c - G i c| ≤ alpha ^ r.nIter.toNat * B * √(max (inWeight (edgesOf ei ew) i) eps) :=
  C87_symmetric Real.sqrt (fun _ h => Real.sqrt_pos.mpr h) (fun _ _ h _ => Real.sqrt_mul h.le _)
    (fun _ h => Real.mul_self_sqrt h.le) eps heps n ei ew hw y mask alpha spec hmax hnorm hrows r h G hG B hB

/-! ### Concrete runs -/

/-- A line of three nodes with the ends labeled: the run meets the hypotheses of the C52 and C86 theorems. -/
example : (labelPropagation (fun x => x) (1 / 1000 : Rat) 3 [(0, 1), (1, 0), (1, 2), (2, 1)] none [0, -1, 1]
    [true, false, true] ⟨"rw", 3, 0, true⟩).map (fun r => (r.F, r.nIter, r.residual))
    = .ok ([[1, 0], [1 / 2, 1 / 2], [0, 1]], 2, some 0) := by decide +kernel

example : ∀ e ∈ edgesOf (K := Rat) [(0, 1), (1, 0), (1, 2), (2, 1)] none, 0 < e.2.2 := by decide +kernel

/-- A pair of nodes and the solution `(2/3, 1/3)` of its equation: the hypotheses of the C87 theorems. -/
example : (labelSpreading (fun x => x) (1 / 1000 : Rat) 2 [(0, 1), (1, 0)] none [0, -1] [true, false] (1 / 2)
    ⟨"rw", 3, 0, false⟩).map (fun r => (r.F, r.nIter, r.residual)) = .ok ([[5 / 8], [3 / 8]], 3, some (1 / 8)) := by
  decide +kernel

example : Equilibrium (fun x => x) (1 / 1000 : Rat) "rw" (edgesOf [(0, 1), (1, 0)] none) [0, -1] [true, false] (1 / 2)
    (fun i c => if c = 0 then (if i = 0 then 2 / 3 else 1 / 3) else 0) := by
  intro i hi c
  have hi' : i = 0 ∨ i = 1 := by simp at hi; omega
  by_cases hc : c = 0
  · subst hc
    rcases hi' with rfl | rfl
    · exact ⟨fun _ => by decide +kernel, fun h => absurd ⟨rfl, rfl⟩ h⟩
    · exact ⟨fun h => by simp [Labeled] at h, fun _ => by decide +kernel⟩
  · simp only [if_neg hc, mul_zero]
    refine ⟨fun h => ?_, fun _ => ?_⟩
    · rcases hi' with rfl | rfl <;> simp [Labeled] at h; omega
    · rw [List.sum_eq_zero]
      · simp
      · intro x hx
        obtain ⟨e, -, rfl⟩ := List.mem_map.mp hx
        rfl

/-- **C52: the weights must not be negative.**  A negative edge weight is accepted and gives a negative score, even
with row normalisation, and a row that is neither a distribution nor zero. -/
theorem C52_needs_nonnegative_weights :
    ∃ r : Diffusion Rat, labelPropagation (fun x => x) (1 / 1000) 2 [(0, 1)] (some [-1]) [0, -1] [true, false]
      ⟨"rw", 3, 0, true⟩ = .ok r ∧ r.F.get 1 0 < 0 ∧ ¬ StochasticRows r.F := by
  refine ⟨⟨[[1], [-1000]], 2, some 0⟩, by decide +kernel, by decide +kernel, ?_⟩
  intro h
  have := (h [-1000] (by simp)).1 (-1000) (by simp)
  exact absurd this (by decide +kernel)

end ModSSC.Transductive
