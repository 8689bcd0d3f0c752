import Verif.Transductive.FixedModel
import Verif.Transductive.PropConv

/-!
# The fixed-point diffusion solver solves the clamped diffusion equation
-/

set_option linter.unusedSectionVars false

namespace ModSSC.Transductive
open ModSSC Spec

namespace Spec
variable {K : Type} [Field K] [LinearOrder K]

/-- The graph the caller passes: every edge weighs 1 when there are no weights. -/
def graphOf (ei : List (Nat × Nat)) (ew : Option (List K)) : List (WEdge K) :=
  match ew with
  | none => ei.map fun e => ⟨e.1, e.2, 1⟩
  | some w => (ei.zip w).map fun p => ⟨p.1.1, p.1.2, p.2⟩

/-- The edges into node `i`. -/
def into (es : List (WEdge K)) (i : Nat) : List (WEdge K) := es.filter fun e => e.dst = i

/-- Total weight into node `i`, at least `eps`. -/
def load (eps : K) (es : List (WEdge K)) (i : Nat) : K := max (((into es i).map (·.w)).sum) eps

/-- The coefficient of an edge in each normalisation mode. -/
def coef (sqrt : K → K) (eps : K) (mode : String) (es : List (WEdge K)) (e : WEdge K) : K :=
  if mode = "none" then e.w
  else if mode = "rw" then e.w / load eps es e.dst
  else e.w / sqrt (load eps es e.dst * load eps es e.src)

/-- `G` is `Y` at the labeled nodes and the mixture of the incoming average and `Y` at the others. -/
def Diffused (sqrt : K → K) (eps : K) (mode : String) (es : List (WEdge K)) (n : Nat) (Y : Mat K) (mask : List Bool) (alpha : K)
    (G : Nat → Nat → K) : Prop :=
  ∀ i < n, ∀ c, (mask[i]? = some true → G i c = Y.get i c) ∧
    (mask[i]? = some false →
      G i c = alpha * ((into es i).map fun e => coef sqrt eps mode es e * G e.src c).sum + (1 - alpha) * Y.get i c)

/-- One round: from `P` to `F`. -/
def Round (sqrt : K → K) (eps : K) (n d : Nat) (es : List (WEdge K)) (Y : Mat K) (mask : List Bool) (mode : String) (alpha : K)
    (rows : Bool) (P F : Mat K) : Prop :=
  HasShape F n d ∧ ∀ i < n, ∃ u : Nat → K,
    (∀ c, (mask[i]? = some true → u c = Y.get i c) ∧
      (mask[i]? = some false → u c = alpha * ((into es i).map fun e => coef sqrt eps mode es e * P.get e.src c).sum
        + (1 - alpha) * Y.get i c)) ∧
    ∀ c < d, F.get i c = if rows then u c / max ((List.range d).map u).sum eps else u c

/-- `F` is reached from `Y` by `t` rounds. -/
inductive Rounds (sqrt : K → K) (eps : K) (n d : Nat) (es : List (WEdge K)) (Y : Mat K) (mask : List Bool) (mode : String)
    (alpha : K) (rows : Bool) : Nat → Mat K → Prop
  | start : Rounds sqrt eps n d es Y mask mode alpha rows 0 Y
  | next {t : Nat} {P F : Mat K} : Rounds sqrt eps n d es Y mask mode alpha rows t P →
      Round sqrt eps n d es Y mask mode alpha rows P F → Rounds sqrt eps n d es Y mask mode alpha rows (t + 1) F

end Spec

section
variable {K : Type} [Field K] [LinearOrder K]

/-! ### Parsing -/

theorem pairWeights_ok {ei : List (Nat × Nat)} {ew : Option (List K)} {es : List (WEdge K)}
    (h : pairWeights ei ew = .ok es) : es = graphOf ei ew := by
  unfold pairWeights at h
  unfold graphOf
  cases ew with
  | none => simp only [Except.ok.injEq] at h ⊢; exact h.symm
  | some w =>
    simp only at h ⊢
    by_cases hl : w.length ≠ ei.length
    · rw [if_pos hl] at h; simp at h
    · rw [if_neg hl] at h; exact (Except.ok.inj h).symm

theorem normalizeOp_fixed {sqrt : K → K} {eps : K} {mode : String} {es es' : List (WEdge K)}
    (h : normalizeOp sqrt eps mode es = .ok es') :
    es' = es.map (fun e => ⟨e.src, e.dst, coef sqrt eps mode es e⟩) ∧ (es = [] ∨ mode = "none" ∨ mode = "rw" ∨ mode = "sym") := by
  unfold normalizeOp at h
  simp only at h
  by_cases h0 : es.length = 0
  · rw [if_pos h0] at h
    have : es = [] := List.length_eq_zero_iff.mp h0
    subst this
    exact ⟨(Except.ok.inj h).symm, .inl rfl⟩
  rw [if_neg h0] at h
  by_cases h1 : mode = "none"
  · rw [if_pos h1] at h
    refine ⟨?_, .inr (.inl h1)⟩
    rw [← Except.ok.inj h]
    conv_lhs => rw [← List.map_id es]
    apply List.map_congr_left
    intro e _
    simp [coef, h1]
  rw [if_neg h1] at h
  by_cases h2 : mode = "rw"
  · rw [if_pos h2] at h
    refine ⟨?_, .inr (.inr (.inl h2))⟩
    rw [← Except.ok.inj h]
    apply List.map_congr_left
    intro e _
    simp only [coef, if_neg h1, if_pos h2]
    rfl
  rw [if_neg h2] at h
  by_cases h3 : mode = "sym"
  · rw [if_pos h3] at h
    refine ⟨?_, .inr (.inr (.inr h3))⟩
    rw [← Except.ok.inj h]
    apply List.map_congr_left
    intro e _
    simp only [coef, if_neg h1, if_neg h2]
    rfl
  · rw [if_neg h3] at h; simp at h

/-- What an accepted call of the solver is. -/
structure Ran (sqrt : K → K) (eps : K) (n d : Nat) (ei : List (Nat × Nat)) (ew : Option (List K)) (Y : Mat K)
    (mask : List Bool) (s : FixedSpec K) (r : Diffusion K) (es' : List (WEdge K)) : Prop where
  norm : es' = (graphOf ei ew).map (fun e => ⟨e.src, e.dst, coef sqrt eps s.mode (graphOf ei ew) e⟩)
  dst : ∀ e ∈ graphOf ei ew, e.dst < n
  src : 0 < s.maxIter → ∀ e ∈ graphOf ei ew, e.src < n
  maskLen : 0 < s.maxIter → mask.length = n
  mode : graphOf ei ew = [] ∨ s.mode = "none" ∨ s.mode = "rw" ∨ s.mode = "sym"
  out : r = diffuse (fpStep (spmm n d es') n d eps s.alpha Y mask s.rows) (frobDiff sqrt n d) s.tol s.maxIter
    s.maxIter.toNat 0 Y none

theorem fixedPoint_ok {sqrt : K → K} {eps : K} {n d : Nat} {ei : List (Nat × Nat)} {ew : Option (List K)} {Y : Mat K}
    {mask : List Bool} {s : FixedSpec K} {r : Diffusion K} (h : fixedPoint sqrt eps n d ei ew Y mask s = .ok r) :
    ∃ es', normalizeOp sqrt eps s.mode (graphOf ei ew) = .ok es' ∧ Ran sqrt eps n d ei ew Y mask s r es' := by
  unfold fixedPoint at h
  obtain ⟨es, h1, h⟩ := ebind_ok.mp h
  obtain rfl := pairWeights_ok h1
  by_cases hd : (graphOf ei ew).any (fun e => decide (n ≤ e.dst)) = true
  · rw [if_pos hd] at h; simp at h
  rw [if_neg hd] at h
  by_cases hs : s.mode = "sym" ∧ (graphOf ei ew).any (fun e => decide (n ≤ e.src)) = true
  · rw [if_pos hs] at h; simp at h
  rw [if_neg hs] at h
  obtain ⟨es', h2, h⟩ := ebind_ok.mp h
  by_cases hm : 0 < s.maxIter ∧ ((graphOf ei ew).any (fun e => decide (n ≤ e.src)) = true ∨ mask.length ≠ n)
  · rw [if_pos hm] at h; simp at h
  rw [if_neg hm] at h
  refine ⟨es', h2, (normalizeOp_fixed h2).1, ?_, ?_, ?_, (normalizeOp_fixed h2).2, (Except.ok.inj h).symm⟩
  · intro e he
    by_contra hc
    exact hd (List.any_eq_true.mpr ⟨e, he, by simpa using hc⟩)
  · intro hp e he
    by_contra hc
    exact hm ⟨hp, .inl (List.any_eq_true.mpr ⟨e, he, by simpa using hc⟩)⟩
  · intro hp
    by_contra hc
    exact hm ⟨hp, .inr hc⟩

/-! ### One round -/

theorem fpStep_shape (mm : Mat K → Mat K) (n d : Nat) (eps a : K) (Y : Mat K) (mask : List Bool) (rows : Bool) (F : Mat K) :
    HasShape (fpStep mm n d eps a Y mask rows F) n d := by
  unfold fpStep
  simp only
  cases rows
  · exact tab_shape _ _ _
  · exact tab_shape _ _ _

/-- The row before normalisation. -/
def mixed (es : List (WEdge K)) (a : K) (Y : Mat K) (mask : List Bool) (F : Mat K) (i c : Nat) : K :=
  if mask.getD i false then Y.get i c
  else a * ((es.filter fun e => e.dst = i).map fun e => e.w * F.get e.src c).sum + (1 - a) * Y.get i c

theorem clamp_get {n d : Nat} {es : List (WEdge K)} {a : K} {Y : Mat K} {mask : List Bool} {F : Mat K} {i c : Nat}
    (hi : i < n) (hc : c < d) :
    (clampRows n d mask (tab n d fun i c => a * (spmm n d es F).get i c + (1 - a) * Y.get i c) Y).get i c
      = mixed es a Y mask F i c := by
  unfold clampRows mixed
  rw [get_tab n d _ hi hc, get_tab n d _ hi hc, spmm_get hi hc]

theorem fpStep_get {n d : Nat} {eps : K} {es : List (WEdge K)} {a : K} {Y : Mat K} {mask : List Bool} {rows : Bool} {F : Mat K}
    {i c : Nat} (hi : i < n) (hc : c < d) :
    (fpStep (spmm n d es) n d eps a Y mask rows F).get i c
      = mixed es a Y mask F i c / (if rows then max ((List.range d).map (mixed es a Y mask F i)).sum eps else 1) := by
  unfold fpStep
  simp only
  cases rows
  · simp only [Bool.false_eq_true, if_false, div_one]
    exact clamp_get hi hc
  · simp only [if_true]
    unfold rowNormalizeEps
    rw [get_tab n d _ hi hc, clamp_get hi hc]
    congr 3
    apply List.map_congr_left
    intro c' hc'
    exact clamp_get hi (List.mem_range.mp hc')

end

section
variable {K : Type} [Field K] [LinearOrder K] [IsStrictOrderedRing K]

/-! ### The normalised graph -/

theorem fpStep_get_all {n d : Nat} {eps : K} {es : List (WEdge K)} {a : K} {Y : Mat K} {mask : List Bool} {F : Mat K}
    (hY : HasShape Y n d) (hF : HasShape F n d) {i : Nat} (hi : i < n) (c : Nat) :
    (fpStep (spmm n d es) n d eps a Y mask false F).get i c = mixed es a Y mask F i c := by
  by_cases hc : c < d
  · rw [fpStep_get hi hc]; simp
  · rw [not_lt] at hc
    rw [get_outside (fpStep_shape _ _ _ _ _ _ _ _ _) hc]
    unfold mixed
    rw [get_outside hY hc, List.sum_eq_zero]
    · simp
    · intro x hx
      obtain ⟨e, -, rfl⟩ := List.mem_map.mp hx
      rw [get_outside hF hc, mul_zero]

theorem load_pos {eps : K} (heps : 0 < eps) (es : List (WEdge K)) (i : Nat) : 0 < load eps es i :=
  lt_of_lt_of_le heps (le_max_right _ _)

/-- What the weights of the normalised graph have in common: they are non-negative and, summed over the edges into a node with
the factors `v`, at most `v`. -/
def Contracts (n : Nat) (es : List (WEdge K)) (v : Nat → K) : Prop :=
  (∀ e ∈ es, 0 ≤ e.w ∧ e.src < n) ∧
  ∀ i, i < n → ((es.filter fun e => e.dst = i).map fun e => e.w * v e.src).sum ≤ v i

theorem into_map (es : List (WEdge K)) (q : WEdge K → K) (g : WEdge K → K) (i : Nat) :
    (((es.map fun e => (⟨e.src, e.dst, q e⟩ : WEdge K)).filter fun e => e.dst = i).map g).sum
      = ((into es i).map fun e => g ⟨e.src, e.dst, q e⟩).sum := by
  rw [List.filter_map, List.map_map]
  rfl

theorem contracts_rw {eps : K} (heps : 0 < eps) {n : Nat} {es : List (WEdge K)} (sqrt : K → K) (hw : ∀ e ∈ es, 0 ≤ e.w)
    (hs : ∀ e ∈ es, e.src < n) :
    Contracts n (es.map fun e => ⟨e.src, e.dst, coef sqrt eps "rw" es e⟩) (fun _ => 1) := by
  have hc : ∀ e, coef sqrt eps "rw" es e = e.w / load eps es e.dst := fun e => by
    unfold coef; rw [if_neg (by decide), if_pos rfl]
  refine ⟨fun e he => ?_, fun i _ => ?_⟩
  · obtain ⟨e', he', rfl⟩ := List.mem_map.mp he
    refine ⟨?_, hs e' he'⟩
    simp only [hc]
    exact div_nonneg (hw e' he') (load_pos heps _ _).le
  · rw [into_map]
    have : ((into es i).map fun e => coef sqrt eps "rw" es e * 1).sum
        = ((into es i).map (·.w)).sum * (load eps es i)⁻¹ := by
      rw [← List.sum_map_mul_right]
      congr 1
      apply List.map_congr_left
      intro e he
      have : e.dst = i := by simpa using (List.mem_filter.mp he).2
      rw [hc, this, mul_one, div_eq_mul_inv]
    rw [this, ← div_eq_mul_inv, div_le_one (load_pos heps _ _)]
    exact le_max_left _ _

theorem contracts_sym {eps : K} (heps : 0 < eps) {n : Nat} {es : List (WEdge K)} (sqrt : K → K) (hw : ∀ e ∈ es, 0 ≤ e.w)
    (hs : ∀ e ∈ es, e.src < n) (hs0 : ∀ x, 0 < x → 0 < sqrt x)
    (hsm : ∀ a b, 0 < a → 0 < b → sqrt (a * b) = sqrt a * sqrt b) (hss : ∀ x, 0 < x → sqrt x * sqrt x = x) :
    Contracts n (es.map fun e => ⟨e.src, e.dst, coef sqrt eps "sym" es e⟩) (fun i => sqrt (load eps es i)) := by
  have hc : ∀ e, coef sqrt eps "sym" es e = e.w / sqrt (load eps es e.dst * load eps es e.src) := fun e => by
    unfold coef; rw [if_neg (by decide), if_neg (by decide)]
  have hl := load_pos heps es
  refine ⟨fun e he => ?_, fun i _ => ?_⟩
  · obtain ⟨e', he', rfl⟩ := List.mem_map.mp he
    refine ⟨?_, hs e' he'⟩
    simp only [hc]
    exact div_nonneg (hw e' he') (hs0 _ (mul_pos (hl _) (hl _))).le
  · rw [into_map]
    have : ((into es i).map fun e => coef sqrt eps "sym" es e * sqrt (load eps es e.src)).sum
        = ((into es i).map (·.w)).sum * (sqrt (load eps es i))⁻¹ := by
      rw [← List.sum_map_mul_right]
      congr 1
      apply List.map_congr_left
      intro e he
      have : e.dst = i := by simpa using (List.mem_filter.mp he).2
      rw [hc, this, hsm _ _ (hl _) (hl _)]
      have h1 := (hs0 _ (hl e.src)).ne'
      have h2 := (hs0 _ (hl i)).ne'
      field_simp
    rw [this, ← div_eq_mul_inv, div_le_iff₀ (hs0 _ (hl i)), hss _ (hl i)]
    exact le_max_left _ _

/-! ### Approach -/

/-- One round brings two arrays closer by the factor `a`. -/
theorem mixed_contract {n : Nat} {es : List (WEdge K)} {a : K} (ha : 0 ≤ a) {v : Nat → K} (hv : ∀ i, i < n → 0 ≤ v i)
    (hes : Contracts n es v) {Y : Mat K} {mask : List Bool} {F : Mat K} {G : Nat → K} {c : Nat} {B : K} (hB : 0 ≤ B)
    (h : ∀ i, i < n → |F.get i c - G i| ≤ B * v i) {i : Nat} (hi : i < n) {g : K}
    (hg : g = if mask.getD i false then Y.get i c
      else a * ((es.filter fun e => e.dst = i).map fun e => e.w * G e.src).sum + (1 - a) * Y.get i c) :
    |mixed es a Y mask F i c - g| ≤ a * B * v i := by
  unfold mixed
  rw [hg]
  by_cases hm : mask.getD i false = true
  · rw [if_pos hm, if_pos hm, sub_self, abs_zero]
    exact mul_nonneg (mul_nonneg ha hB) (hv i hi)
  · rw [if_neg hm, if_neg hm, add_sub_add_right_eq_sub, ← mul_sub, abs_mul, abs_of_nonneg ha, mul_assoc]
    exact mul_le_mul_of_nonneg_left (edges_contract hes.1 hes.2 hB (F := fun i => F.get i c) (G := G) h i hi) ha

theorem fp_approach {n d : Nat} {eps : K} {es : List (WEdge K)} {a : K} (ha : 0 ≤ a) {Y : Mat K} (hY : HasShape Y n d)
    {mask : List Bool} {v : Nat → K} (hv : ∀ i, i < n → 0 ≤ v i) (hes : Contracts n es v) {G : Nat → Nat → K}
    (hG : ∀ i, i < n → ∀ c, G i c = if mask.getD i false then Y.get i c
      else a * ((es.filter fun e => e.dst = i).map fun e => e.w * G e.src c).sum + (1 - a) * Y.get i c)
    {B : K} (hB : 0 ≤ B) (h0 : ∀ i, i < n → ∀ c, |Y.get i c - G i c| ≤ B * v i) (t : Nat) :
    HasShape ((fpStep (spmm n d es) n d eps a Y mask false)^[t] Y) n d ∧
    ∀ i, i < n → ∀ c, |((fpStep (spmm n d es) n d eps a Y mask false)^[t] Y).get i c - G i c| ≤ a ^ t * B * v i := by
  induction t with
  | zero => exact ⟨hY, fun i hi c => by simpa using h0 i hi c⟩
  | succ t ih =>
    rw [Function.iterate_succ_apply']
    refine ⟨fpStep_shape _ _ _ _ _ _ _ _ _, fun i hi c => ?_⟩
    rw [fpStep_get_all hY ih.1 hi]
    refine (mixed_contract ha hv hes (mul_nonneg (pow_nonneg ha t) hB) (fun i hi => ih.2 i hi c) hi (hG i hi c)).trans
      (le_of_eq ?_)
    rw [pow_succ]; ring

theorem diffused_get {sqrt : K → K} {eps : K} {n d : Nat} {ei : List (Nat × Nat)} {ew : Option (List K)} {Y : Mat K}
    {mask : List Bool} {s : FixedSpec K} {r : Diffusion K} {es' : List (WEdge K)} (R : Ran sqrt eps n d ei ew Y mask s r es')
    (hm : mask.length = n) {G : Nat → Nat → K}
    (hG : Diffused sqrt eps s.mode (graphOf ei ew) n Y mask s.alpha G) :
    ∀ i, i < n → ∀ c, G i c = if mask.getD i false then Y.get i c
      else s.alpha * ((es'.filter fun e => e.dst = i).map fun e => e.w * G e.src c).sum + (1 - s.alpha) * Y.get i c := by
  intro i hi c
  have hget : mask[i]? = some (mask.getD i false) := by
    rw [List.getD_eq_getElem _ _ (by omega), List.getElem?_eq_getElem (by omega)]
  cases hb : mask.getD i false with
  | true =>
    rw [hb] at hget
    simpa using (hG i hi c).1 hget
  | false =>
    rw [hb] at hget
    rw [R.norm, into_map (g := fun e => e.w * G e.src c)]
    simpa using (hG i hi c).2 hget

theorem Ran.contracts {sqrt : K → K} {eps : K} {n d : Nat} {ei : List (Nat × Nat)} {ew : Option (List K)} {Y : Mat K}
    {mask : List Bool} {s : FixedSpec K} {r : Diffusion K} {es' : List (WEdge K)} (R : Ran sqrt eps n d ei ew Y mask s r es')
    (heps : 0 < eps) (hw : ∀ e ∈ graphOf ei ew, 0 ≤ e.w) (hp : 0 < s.maxIter) (hmode : s.mode = "rw") :
    Contracts n es' (fun _ => 1) := by
  rw [R.norm, hmode]
  exact contracts_rw heps sqrt hw (R.src hp)

theorem Ran.round {sqrt : K → K} {eps : K} {n d : Nat} {ei : List (Nat × Nat)} {ew : Option (List K)} {Y : Mat K}
    {mask : List Bool} {s : FixedSpec K} {r : Diffusion K} {es' : List (WEdge K)} (R : Ran sqrt eps n d ei ew Y mask s r es')
    (P : Mat K) : Round sqrt eps n d (graphOf ei ew) Y mask s.mode s.alpha s.rows P
      (fpStep (spmm n d es') n d eps s.alpha Y mask s.rows P) := by
  refine ⟨fpStep_shape _ _ _ _ _ _ _ _ _, fun i hi => ⟨mixed es' s.alpha Y mask P i, fun c => ?_, fun c hc => ?_⟩⟩
  · unfold mixed
    refine ⟨fun hb => ?_, fun hb => ?_⟩
    · rw [if_pos (by rw [List.getD_eq_getElem?_getD, hb]; rfl)]
    · rw [if_neg (by rw [List.getD_eq_getElem?_getD, hb]; simp), R.norm, into_map (g := fun e => e.w * P.get e.src c)]
  · rw [fpStep_get hi hc]
    cases s.rows <;> simp

theorem Ran.rounds {sqrt : K → K} {eps : K} {n d : Nat} {ei : List (Nat × Nat)} {ew : Option (List K)} {Y : Mat K}
    {mask : List Bool} {s : FixedSpec K} {r : Diffusion K} {es' : List (WEdge K)} (R : Ran sqrt eps n d ei ew Y mask s r es')
    (t : Nat) : Rounds sqrt eps n d (graphOf ei ew) Y mask s.mode s.alpha s.rows t
      ((fpStep (spmm n d es') n d eps s.alpha Y mask s.rows)^[t] Y) := by
  induction t with
  | zero => exact .start
  | succ t ih => rw [Function.iterate_succ_apply']; exact .next ih (R.round _)

/-- The run ended after `t + 1` rounds with the reported residual. -/
theorem Ran.last {sqrt : K → K} {eps : K} {n d : Nat} {ei : List (Nat × Nat)} {ew : Option (List K)} {Y : Mat K}
    {mask : List Bool} {s : FixedSpec K} {r : Diffusion K} {es' : List (WEdge K)} (R : Ran sqrt eps n d ei ew Y mask s r es')
    (hp : 0 < s.maxIter) : ∃ t : Nat, r.nIter = (t : Int) + 1 ∧
      r.F = (fpStep (spmm n d es') n d eps s.alpha Y mask s.rows)^[t + 1] Y ∧
      r.residual = some (frobDiff sqrt n d r.F ((fpStep (spmm n d es') n d eps s.alpha Y mask s.rows)^[t] Y)) ∧
      (r.nIter = s.maxIter ∨ ∃ x, r.residual = some x ∧ x ≤ s.tol) := by
  obtain ⟨j, hj, hF, hc, hres, -⟩ := diffuse_run (fpStep (spmm n d es') n d eps s.alpha Y mask s.rows) (frobDiff sqrt n d)
    s.tol s.maxIter s.maxIter.toNat 0 Y none
  rw [← R.out] at hF hc hres
  have hj0 : 0 < j := by
    rcases hc with ⟨a, -⟩ | ⟨a, -⟩
    · omega
    · exact a
  refine ⟨j - 1, ?_, ?_, ?_, ?_⟩
  · rcases hc with ⟨a, b⟩ | ⟨a, b, -⟩ <;> omega
  · rw [hF, Nat.sub_add_cancel hj0]
  · rw [hF]; exact hres hj0
  · rcases hc with ⟨a, b⟩ | ⟨a, b, c⟩
    · exact .inl b
    · exact .inr c

/-- **C178 (what it returns).**  The scores are those after `n_iter` rounds from `Y`, the reported residual is the Euclidean norm
of the change of the last round, and fewer than `max_iter` rounds run only when that is at most `tol`. -/
theorem C178_report (sqrt : K → K) (eps : K) (n d : Nat) (ei : List (Nat × Nat)) (ew : Option (List K)) (Y : Mat K)
    (mask : List Bool) (s : FixedSpec K) (r : Diffusion K)
    (h : fixedPoint sqrt eps n d ei ew Y mask s = .ok r) :
    Stopped s.maxIter s.tol r ∧
    (s.maxIter ≤ 0 → r.F = Y ∧ r.residual = none ∧ r.nIter = s.maxIter) ∧
    (0 < s.maxIter → ∃ (t : Nat) (P : Mat K), r.nIter = (t : Int) + 1 ∧
      Rounds sqrt eps n d (graphOf ei ew) Y mask s.mode s.alpha s.rows t P ∧
      Round sqrt eps n d (graphOf ei ew) Y mask s.mode s.alpha s.rows P r.F ∧
      r.residual = some (sqrt (((List.range n).map fun i =>
        ((List.range d).map fun c => (r.F.get i c - P.get i c) * (r.F.get i c - P.get i c)).sum).sum))) := by
  obtain ⟨es', -, R⟩ := fixedPoint_ok h
  refine ⟨?_, ?_, ?_⟩
  · rw [R.out]; exact (diffuse_stopped _ _ _ _ _).1
  · intro hle
    have h0 : s.maxIter.toNat = 0 := by omega
    rw [R.out, h0]
    exact ⟨rfl, rfl, rfl⟩
  · intro hp
    obtain ⟨t, h1, h2, h3, -⟩ := R.last hp
    refine ⟨t, _, h1, R.rounds t, ?_, h3⟩
    rw [h2, Function.iterate_succ_apply']
    exact R.round _

/-- **C178 (labels are kept).**  Labeled nodes keep their row of `Y`; with row normalisation when that row sums to one. -/
theorem C178_labels (sqrt : K → K) (eps : K) (heps1 : eps ≤ 1) (n d : Nat) (ei : List (Nat × Nat)) (ew : Option (List K))
    (Y : Mat K) (mask : List Bool) (s : FixedSpec K) (r : Diffusion K)
    (h : fixedPoint sqrt eps n d ei ew Y mask s = .ok r) (i : Nat) (hi : i < n) (hm : mask[i]? = some true)
    (hr : s.rows = true → ((List.range d).map (Y.get i)).sum = 1) (c : Nat) (hc : c < d) : r.F.get i c = Y.get i c := by
  obtain ⟨-, h1, h2⟩ := C178_report sqrt eps n d ei ew Y mask s r h
  by_cases hp : 0 < s.maxIter
  · obtain ⟨t, P, -, -, ⟨-, hR⟩, -⟩ := h2 hp
    obtain ⟨u, hu, hF⟩ := hR i hi
    have hu' : ∀ c, u c = Y.get i c := fun c => (hu c).1 hm
    rw [hF c hc, hu' c]
    cases hrow : s.rows with
    | false => simp
    | true =>
      have : (List.range d).map u = (List.range d).map (Y.get i) := by
        apply List.map_congr_left; intro c _; exact hu' c
      rw [if_pos rfl, this, hr hrow, max_eq_left heps1, div_one]
  · rw [(h1 (by omega)).1]

/-- **C178 (the scores stay distributions).**  With random-walk normalisation, non-negative weights and `alpha` in `[0, 1]`,
the scores are non-negative with row sums at most one if those of `Y` are. -/
theorem C178_rows (sqrt : K → K) (eps : K) (heps : 0 < eps) (n d : Nat) (ei : List (Nat × Nat)) (ew : Option (List K))
    (hw : ∀ e ∈ graphOf ei ew, 0 ≤ e.w) (Y : Mat K) (hY : HasShape Y n d) (hY1 : SubstochasticRows Y)
    (mask : List Bool) (s : FixedSpec K) (hmode : s.mode = "rw") (ha : 0 ≤ s.alpha) (ha1 : s.alpha ≤ 1) (r : Diffusion K)
    (h : fixedPoint sqrt eps n d ei ew Y mask s = .ok r) : SubstochasticRows r.F := by
  obtain ⟨es', -, R⟩ := fixedPoint_ok h
  have hYe : ∀ i, i < n → (∀ c, 0 ≤ Y.get i c) ∧ ((List.range d).map (Y.get i)).sum ≤ 1 := by
    intro i hi
    obtain ⟨h1, h2⟩ := hY1 _ (get_row hY hi)
    refine ⟨fun c => ?_, h2⟩
    by_cases hc : c < d
    · exact h1 _ (List.mem_map.mpr ⟨c, List.mem_range.mpr hc, rfl⟩)
    · rw [get_outside hY (by omega)]
  by_cases hp : 0 < s.maxIter
  · have hes := R.contracts heps hw hp hmode
    have key : ∀ t, HasShape ((fpStep (spmm n d es') n d eps s.alpha Y mask s.rows)^[t] Y) n d ∧
        ∀ i, i < n → (∀ c, c < d → 0 ≤ ((fpStep (spmm n d es') n d eps s.alpha Y mask s.rows)^[t] Y).get i c) ∧
          ((List.range d).map (((fpStep (spmm n d es') n d eps s.alpha Y mask s.rows)^[t] Y).get i)).sum ≤ 1 := by
      intro t
      induction t with
      | zero => exact ⟨hY, fun i hi => ⟨fun c _ => (hYe i hi).1 c, (hYe i hi).2⟩⟩
      | succ t ih =>
        rw [Function.iterate_succ_apply']
        generalize (fpStep (spmm n d es') n d eps s.alpha Y mask s.rows)^[t] Y = F at ih
        refine ⟨fpStep_shape _ _ _ _ _ _ _ _ _, fun i hi => ?_⟩
        have hF0 : ∀ j, j < n → ∀ c, c < d → 0 ≤ F.get j c := fun j hj => (ih.2 j hj).1
        have hmix : (∀ c, c < d → 0 ≤ mixed es' s.alpha Y mask F i c) ∧
            ((List.range d).map (mixed es' s.alpha Y mask F i)).sum ≤ 1 := by
          by_cases hm : mask.getD i false = true
          · have : mixed es' s.alpha Y mask F i = Y.get i := by
              funext c; unfold mixed; rw [if_pos hm]
            rw [this]
            exact ⟨fun c _ => (hYe i hi).1 c, (hYe i hi).2⟩
          · have hfun : mixed es' s.alpha Y mask F i = fun c =>
                s.alpha * ((es'.filter fun e => e.dst = i).map fun e => e.w * F.get e.src c).sum
                  + (1 - s.alpha) * Y.get i c := by
              funext c; unfold mixed; rw [if_neg hm]
            rw [hfun]
            refine ⟨fun c hc => ?_, ?_⟩
            · refine add_nonneg (mul_nonneg ha (sum_nonneg' _ _ fun e he => ?_))
                (mul_nonneg (sub_nonneg.mpr ha1) ((hYe i hi).1 c))
              obtain ⟨h1, h2⟩ := hes.1 e (List.mem_of_mem_filter he)
              exact mul_nonneg h1 (hF0 _ h2 c hc)
            · rw [List.sum_map_add, List.sum_map_mul_left, List.sum_map_mul_left, sum_comm]
              have h1 : ((es'.filter fun e => e.dst = i).map fun e => ((List.range d).map fun c => e.w * F.get e.src c).sum).sum
                  ≤ 1 := by
                refine (sum_le_sum' _ _ (fun e => e.w * 1) fun e he => ?_).trans (hes.2 i hi)
                obtain ⟨h1, h2⟩ := hes.1 e (List.mem_of_mem_filter he)
                rw [List.sum_map_mul_left]
                exact mul_le_mul_of_nonneg_left (ih.2 _ h2).2 h1
              have h2 := (hYe i hi).2
              have h3 := mul_le_mul_of_nonneg_left h1 ha
              have h4 := mul_le_mul_of_nonneg_left h2 (sub_nonneg.mpr ha1)
              simp only [mul_one] at h3 h4
              calc _ ≤ s.alpha + (1 - s.alpha) := add_le_add h3 h4
                _ = 1 := by ring
        cases hrow : s.rows with
        | false =>
          have hg : ∀ c, c < d → (fpStep (spmm n d es') n d eps s.alpha Y mask false F).get i c
              = mixed es' s.alpha Y mask F i c := fun c hc => by rw [fpStep_get hi hc]; simp
          refine ⟨fun c hc => by rw [hg c hc]; exact hmix.1 c hc, ?_⟩
          rw [show (List.range d).map ((fpStep (spmm n d es') n d eps s.alpha Y mask false F).get i)
            = (List.range d).map (mixed es' s.alpha Y mask F i) from
              List.map_congr_left fun c hc => hg c (List.mem_range.mp hc)]
          exact hmix.2
        | true =>
          have hpos : 0 < max ((List.range d).map (mixed es' s.alpha Y mask F i)).sum eps :=
            lt_of_lt_of_le heps (le_max_right _ _)
          have hg : ∀ c, c < d → (fpStep (spmm n d es') n d eps s.alpha Y mask true F).get i c
              = mixed es' s.alpha Y mask F i c * (max ((List.range d).map (mixed es' s.alpha Y mask F i)).sum eps)⁻¹ :=
            fun c hc => by rw [fpStep_get hi hc]; simp [div_eq_mul_inv]
          refine ⟨fun c hc => by rw [hg c hc]; exact mul_nonneg (hmix.1 c hc) (inv_nonneg.mpr hpos.le), ?_⟩
          rw [show (List.range d).map ((fpStep (spmm n d es') n d eps s.alpha Y mask true F).get i)
            = (List.range d).map (fun c => mixed es' s.alpha Y mask F i c
                * (max ((List.range d).map (mixed es' s.alpha Y mask F i)).sum eps)⁻¹) from
              List.map_congr_left fun c hc => hg c (List.mem_range.mp hc), List.sum_map_mul_right, ← div_eq_mul_inv,
            div_le_one hpos]
          exact le_max_left _ _
    obtain ⟨t, -, hF, -⟩ := R.last hp
    rw [hF]
    exact subrows_of_entries (key _).1 (key _).2
  · rw [((C178_report sqrt eps n d ei ew Y mask s r h).2.1 (by omega)).1]
    exact hY1

/-- **C178 (distance to the solution).**  With random-walk normalisation, non-negative weights, `alpha ≥ 0` and no row
normalisation, after `t` rounds the scores are within `alpha ^ t` times the initial distance of every solution. -/
theorem C178_approach (sqrt : K → K) (eps : K) (heps : 0 < eps) (n d : Nat) (ei : List (Nat × Nat)) (ew : Option (List K))
    (hw : ∀ e ∈ graphOf ei ew, 0 ≤ e.w) (Y : Mat K) (hY : HasShape Y n d) (mask : List Bool) (s : FixedSpec K)
    (hmode : s.mode = "rw") (ha : 0 ≤ s.alpha) (hrows : s.rows = false) (hp : 0 < s.maxIter) (r : Diffusion K)
    (h : fixedPoint sqrt eps n d ei ew Y mask s = .ok r)
    (G : Nat → Nat → K) (hG : Diffused sqrt eps "rw" (graphOf ei ew) n Y mask s.alpha G)
    (B : K) (hB0 : 0 ≤ B) (hB : ∀ i < n, ∀ c, |Y.get i c - G i c| ≤ B) :
    ∀ i < n, ∀ c, |r.F.get i c - G i c| ≤ s.alpha ^ r.nIter.toNat * B := by
  obtain ⟨es', -, R⟩ := fixedPoint_ok h
  obtain ⟨t, h1, hF, -⟩ := R.last hp
  rw [← hmode] at hG
  have := (fp_approach (eps := eps) ha hY (v := fun _ => 1) (fun _ _ => zero_le_one) (R.contracts heps hw hp hmode)
    (diffused_get R (R.maskLen hp) hG) hB0 (fun i hi c => by simpa using hB i hi c) (t + 1)).2
  intro i hi c
  rw [hF, hrows, h1, show ((t : Int) + 1).toNat = t + 1 by omega]
  simpa using this i hi c

/-- **C178 (the same in symmetric mode)**, in the norm weighted by the square roots of the total weights. -/
theorem C178_approach_sym (sqrt : K → K) (hs0 : ∀ x, 0 < x → 0 < sqrt x)
    (hsm : ∀ a b, 0 < a → 0 < b → sqrt (a * b) = sqrt a * sqrt b) (hss : ∀ x, 0 < x → sqrt x * sqrt x = x)
    (eps : K) (heps : 0 < eps) (n d : Nat) (ei : List (Nat × Nat)) (ew : Option (List K))
    (hw : ∀ e ∈ graphOf ei ew, 0 ≤ e.w) (Y : Mat K) (hY : HasShape Y n d) (mask : List Bool) (s : FixedSpec K)
    (hmode : s.mode = "sym") (ha : 0 ≤ s.alpha) (hrows : s.rows = false) (hp : 0 < s.maxIter) (r : Diffusion K)
    (h : fixedPoint sqrt eps n d ei ew Y mask s = .ok r)
    (G : Nat → Nat → K) (hG : Diffused sqrt eps "sym" (graphOf ei ew) n Y mask s.alpha G)
    (B : K) (hB0 : 0 ≤ B) (hB : ∀ i < n, ∀ c, |Y.get i c - G i c| ≤ B * sqrt (load eps (graphOf ei ew) i)) :
    ∀ i < n, ∀ c, |r.F.get i c - G i c| ≤ s.alpha ^ r.nIter.toNat * B * sqrt (load eps (graphOf ei ew) i) := by
  obtain ⟨es', -, R⟩ := fixedPoint_ok h
  obtain ⟨t, h1, hF, -⟩ := R.last hp
  rw [← hmode] at hG
  have hes : Contracts n es' (fun i => sqrt (load eps (graphOf ei ew) i)) := by
    rw [R.norm, hmode]
    exact contracts_sym heps sqrt hw (R.src hp) hs0 hsm hss
  have := (fp_approach (eps := eps) ha hY (fun i _ => (hs0 _ (load_pos heps _ _)).le) hes
    (diffused_get R (R.maskLen hp) hG) hB0 hB (t + 1)).2
  intro i hi c
  rw [hF, hrows, h1, show ((t : Int) + 1).toNat = t + 1 by omega]
  exact this i hi c

theorem single_le_frob {sqrt : K → K} (hsq : ∀ a b, a * a ≤ b → |a| ≤ sqrt b) {n d : Nat} {A B : Mat K} {i c : Nat}
    (hi : i < n) (hc : c < d) : |A.get i c - B.get i c| ≤ frobDiff sqrt n d A B := by
  unfold frobDiff
  apply hsq
  have h1 : (A.get i c - B.get i c) * (A.get i c - B.get i c)
      ≤ ((List.range d).map fun c => (A.get i c - B.get i c) * (A.get i c - B.get i c)).sum :=
    List.single_le_sum (fun x hx => by obtain ⟨c, -, rfl⟩ := List.mem_map.mp hx; exact mul_self_nonneg _) _
      (List.mem_map.mpr ⟨c, List.mem_range.mpr hc, rfl⟩)
  refine h1.trans (List.single_le_sum (fun x hx => ?_) _ (List.mem_map.mpr ⟨i, List.mem_range.mpr hi, rfl⟩))
  obtain ⟨i, -, rfl⟩ := List.mem_map.mp hx
  exact sum_nonneg' _ _ fun c _ => mul_self_nonneg _

/-- **C178 (the residual bounds the error).**  In the same setting with `alpha < 1` the scores are within
`alpha / (1 - alpha)` times the reported residual of the solution.  `hsq` holds for the square root. -/
theorem C178_error (sqrt : K → K) (hsq : ∀ a b, a * a ≤ b → |a| ≤ sqrt b) (eps : K) (heps : 0 < eps) (n d : Nat)
    (ei : List (Nat × Nat)) (ew : Option (List K))
    (hw : ∀ e ∈ graphOf ei ew, 0 ≤ e.w) (Y : Mat K) (hY : HasShape Y n d) (mask : List Bool) (s : FixedSpec K)
    (hmode : s.mode = "rw") (ha : 0 ≤ s.alpha) (ha1 : s.alpha < 1) (hrows : s.rows = false) (r : Diffusion K)
    (h : fixedPoint sqrt eps n d ei ew Y mask s = .ok r) (x : K) (hx : r.residual = some x)
    (G : Nat → Nat → K) (hG : Diffused sqrt eps "rw" (graphOf ei ew) n Y mask s.alpha G) :
    ∀ i < n, ∀ c < d, |r.F.get i c - G i c| ≤ s.alpha / (1 - s.alpha) * x := by
  have hp : 0 < s.maxIter := by
    by_contra hc
    rw [((C178_report sqrt eps n d ei ew Y mask s r h).2.1 (by omega)).2.1] at hx
    simp at hx
  obtain ⟨es', -, R⟩ := fixedPoint_ok h
  obtain ⟨t, h1, hF, hres, -⟩ := R.last hp
  rw [hres] at hx
  have hx := Option.some.inj hx
  rw [← hmode] at hG
  have hG' := diffused_get R (R.maskLen hp) hG
  have hes := R.contracts heps hw hp hmode
  rw [hrows] at hF hx
  have hsh : HasShape ((fpStep (spmm n d es') n d eps s.alpha Y mask false)^[t] Y) n d :=
    iterate_ind (P := fun F => HasShape F n d) hY (fun F _ => fpStep_shape _ _ _ _ _ _ _ _ _) t
  rw [Function.iterate_succ_apply'] at hF
  generalize (fpStep (spmm n d es') n d eps s.alpha Y mask false)^[t] Y = P at hF hx hsh
  intro i0 hi0 c hc
  obtain ⟨m, hm, hmax⟩ := Finset.exists_max_image (Finset.range n) (fun i => |r.F.get i c - G i c|)
    ⟨i0, Finset.mem_range.mpr hi0⟩
  have hm := Finset.mem_range.mp hm
  have hle : ∀ i, i < n → |P.get i c - G i c| ≤ (x + |r.F.get m c - G m c|) * (fun _ => (1 : K)) i := by
    intro i hi
    have e1 : |r.F.get i c - P.get i c| ≤ x := hx ▸ single_le_frob hsq hi hc
    have e2 := hmax i (Finset.mem_range.mpr hi)
    have : P.get i c - G i c = -(r.F.get i c - P.get i c) + (r.F.get i c - G i c) := by ring
    rw [this, mul_one]
    exact (abs_add_le _ _).trans (by rw [abs_neg]; exact add_le_add e1 e2)
  have hx0 : 0 ≤ x := (abs_nonneg _).trans (hx ▸ single_le_frob hsq hi0 hc)
  have h2 := mixed_contract ha (fun _ _ => zero_le_one) hes (Y := Y) (mask := mask) (c := c)
    (add_nonneg hx0 (abs_nonneg _)) hle hm (hG' m hm c)
  have h3 : r.F.get m c = mixed es' s.alpha Y mask P m c := by rw [hF, fpStep_get_all hY hsh hm]
  rw [← h3, mul_one] at h2
  refine (hmax i0 (Finset.mem_range.mpr hi0)).trans ?_
  rw [div_mul_eq_mul_div, le_div_iff₀ (sub_pos.mpr ha1)]
  linarith

/-- **C178 (there is exactly one solution)** with random-walk normalisation, non-negative weights and `0 ≤ alpha < 1`. -/
theorem C178_solution (sqrt : K → K) (eps : K) (heps : 0 < eps) (n d : Nat) (ei : List (Nat × Nat)) (ew : Option (List K))
    (hw : ∀ e ∈ graphOf ei ew, 0 ≤ e.w) (Y : Mat K) (mask : List Bool) (s : FixedSpec K)
    (hmode : s.mode = "rw") (ha : 0 ≤ s.alpha) (ha1 : s.alpha < 1) (hp : 0 < s.maxIter) (r : Diffusion K)
    (h : fixedPoint sqrt eps n d ei ew Y mask s = .ok r) :
    ∃ G, Diffused sqrt eps "rw" (graphOf ei ew) n Y mask s.alpha G ∧
      ∀ G', Diffused sqrt eps "rw" (graphOf ei ew) n Y mask s.alpha G' → ∀ i < n, ∀ c, G' i c = G i c := by
  obtain ⟨es', -, R⟩ := fixedPoint_ok h
  have hes := R.contracts heps hw hp hmode
  have hmask := R.maskLen hp
  have hget : ∀ i, i < n → mask[i]? = some (mask.getD i false) := fun i hi => by
    rw [List.getD_eq_getElem _ _ (by omega), List.getElem?_eq_getElem (by omega)]
  -- the edges that end in unlabeled nodes
  have hes2 : ∀ e ∈ es'.filter (fun e => !mask.getD e.dst false), 0 ≤ e.w ∧ e.src < n :=
    fun e he => hes.1 e (List.mem_of_mem_filter he)
  have hfil : ∀ i, (es'.filter (fun e => !mask.getD e.dst false)).filter (fun e => e.dst = i)
      = if mask.getD i false then [] else es'.filter fun e => e.dst = i := by
    intro i
    rw [List.filter_filter]
    by_cases hm : mask.getD i false = true
    · rw [if_pos hm]
      apply List.filter_eq_nil_iff.mpr
      intro e _
      simp only [Bool.and_eq_true, decide_eq_true_eq, Bool.not_eq_true', not_and, Bool.not_eq_false]
      rintro rfl; exact hm
    · rw [if_neg hm]
      apply List.filter_congr
      intro e _
      by_cases hd : e.dst = i
      · subst hd; simpa using hm
      · simp [hd]
  have hv : ∀ i, i < n → (((es'.filter (fun e => !mask.getD e.dst false)).filter fun e => e.dst = i).map (·.w)).sum ≤ 1 := by
    intro i hi
    rw [hfil]
    split
    · simp
    · simpa using hes.2 i hi
  have := fun c : Nat => exists_solution ha ha1 hes2 hv
    (fun i => if mask.getD i false then Y.get i c else (1 - s.alpha) * Y.get i c)
  choose g hg using this
  have hsol : Diffused sqrt eps "rw" (graphOf ei ew) n Y mask s.alpha (fun i c => g c i) := by
    intro i hi c
    have h1 := hg c i hi
    rw [hfil] at h1
    refine ⟨fun hb => ?_, fun hb => ?_⟩
    · have hb' : mask.getD i false = true := by have := hget i hi; rw [hb] at this; exact (Option.some.inj this).symm
      rw [if_pos hb', if_pos hb'] at h1
      simpa using h1
    · have hb' : mask.getD i false = false := by have := hget i hi; rw [hb] at this; exact (Option.some.inj this).symm
      rw [hb', R.norm, hmode] at h1
      simp only [Bool.false_eq_true, if_false] at h1
      rw [into_map (g := fun e => e.w * g c e.src)] at h1
      exact h1
  refine ⟨_, hsol, fun G' hG' i hi c => ?_⟩
  rw [← hmode] at hsol hG'
  have hA := diffused_get R hmask hsol
  have hB := diffused_get R hmask hG'
  -- the largest difference shrinks
  obtain ⟨m, hm, hmax⟩ := Finset.exists_max_image (Finset.range n) (fun i => |G' i c - g c i|) ⟨i, Finset.mem_range.mpr hi⟩
  have hm := Finset.mem_range.mp hm
  have h1 : |G' m c - g c m| ≤ s.alpha * |G' m c - g c m| := by
    conv_lhs => rw [hB m hm c, hA m hm c]
    by_cases hb : mask.getD m false = true
    · rw [if_pos hb, if_pos hb, sub_self, abs_zero]; exact mul_nonneg ha (abs_nonneg _)
    · rw [if_neg hb, if_neg hb, add_sub_add_right_eq_sub, ← mul_sub, abs_mul, abs_of_nonneg ha]
      have := edges_contract (v := fun _ => 1) hes.1 hes.2 (abs_nonneg (G' m c - g c m)) (F := fun i => G' i c) (G := fun i => g c i)
        (fun i hi => by simpa using hmax i (Finset.mem_range.mpr hi)) m hm
      rw [mul_one] at this
      exact mul_le_mul_of_nonneg_left this ha
  have h0 : |G' m c - g c m| = 0 := by
    by_contra hne
    have hpos : 0 < |G' m c - g c m| := lt_of_le_of_ne (abs_nonneg _) (Ne.symm hne)
    exact absurd h1 (not_le.mpr (mul_lt_of_lt_one_left hpos ha1))
  have h2 := hmax i (Finset.mem_range.mpr hi)
  rw [h0] at h2
  exact sub_eq_zero.mp (abs_eq_zero.mp (le_antisymm h2 (abs_nonneg _)))

/-- The torch product is the numpy product. -/
theorem spmmTorch_eq {n d : Nat} {es : List (WEdge K)} (hs : ∀ e ∈ es, e.src < n) (X : Mat K) :
    spmmTorch n d es X = spmm n d es X := by
  unfold spmmTorch spmm tab
  apply List.map_congr_left
  intro i _
  apply List.map_congr_left
  intro c _
  simp only
  induction es with
  | nil => simp
  | cons e es ih =>
    have ih := ih fun e he => hs e (List.mem_cons_of_mem _ he)
    have hsrc := hs e (by simp)
    by_cases hd : e.dst = i
    · rw [List.filter_cons_of_pos (by simpa using hd), List.map_cons, List.sum_cons, ← ih]
      have : ∀ j, (((e :: es).filter fun e => decide (e.dst = i) && decide (e.src = j)).map (·.w)).sum * X.get j c
          = (if e.src = j then e.w else 0) * X.get j c
            + ((es.filter fun e => decide (e.dst = i) && decide (e.src = j)).map (·.w)).sum * X.get j c := by
        intro j
        by_cases hj : e.src = j
        · rw [List.filter_cons_of_pos (by simp [hd, hj]), if_pos hj, List.map_cons, List.sum_cons, add_mul]
        · rw [List.filter_cons_of_neg (by simp [hj]), if_neg hj, zero_mul, zero_add]
      simp only [this]
      rw [List.sum_map_add]
      congr 1
      have h2 : ∀ m, ((List.range m).map fun j => (if e.src = j then e.w else 0) * X.get j c).sum
          = if e.src < m then e.w * X.get e.src c else 0 := by
        intro m
        induction m with
        | zero => simp
        | succ m ihm =>
          rw [List.range_succ, List.map_append, List.sum_append, ihm]
          by_cases h3 : e.src = m
          · subst h3; simp
          · by_cases h4 : e.src < m
            · rw [if_pos h4, if_pos (by omega)]; simp [h3]
            · rw [if_neg h4, if_neg (by omega)]; simp [h3]
      rw [h2, if_pos hsrc]
    · rw [List.filter_cons_of_neg (by simpa using hd), ← ih]
      congr 1
      apply List.map_congr_left
      intro j _
      rw [List.filter_cons_of_neg (by simp [hd])]

/-- **C178 (the backends agree).**  Every call the numpy solver answers is answered the same by the torch solver, up to
rounding. -/
theorem C178_backends (sqrt : K → K) (eps : K) (n d : Nat) (ei : List (Nat × Nat)) (ew : Option (List K)) (Y : Mat K)
    (mask : List Bool) (s : FixedSpec K) (r : Diffusion K) :
    fixedPoint sqrt eps n d ei ew Y mask s = .ok r ↔ fixedPointTorch sqrt eps n d ei ew Y mask s = .ok r := by
  unfold fixedPoint fixedPointTorch
  rw [ebind_ok, ebind_ok]
  refine exists_congr fun es => and_congr_right fun h1 => ?_
  by_cases hd : es.any (fun e => decide (n ≤ e.dst)) = true
  · rw [if_pos hd, if_pos hd]; simp
  rw [if_neg hd, if_neg hd]
  by_cases hs : s.mode = "sym" ∧ es.any (fun e => decide (n ≤ e.src)) = true
  · rw [if_pos hs, if_pos hs]
  rw [if_neg hs, if_neg hs, ebind_ok, ebind_ok]
  refine exists_congr fun es' => and_congr_right fun h2 => ?_
  by_cases hp : 0 < s.maxIter
  · by_cases hsrc : es.any (fun e => decide (n ≤ e.src)) = true
    · rw [if_pos ⟨hp, .inl hsrc⟩, if_pos ⟨hp, hsrc⟩]; simp
    · by_cases hm : mask.length = n
      · rw [if_neg (by rintro ⟨-, h | h⟩; exacts [hsrc h, h hm]), if_neg (by rintro ⟨-, h⟩; exact hsrc h),
          if_neg (by rintro ⟨-, h⟩; exact h hm)]
        have hr : ∀ e ∈ es', e.src < n := by
          intro e he
          rw [(normalizeOp_fixed h2).1] at he
          obtain ⟨e', he', rfl⟩ := List.mem_map.mp he
          by_contra hc
          exact hsrc (List.any_eq_true.mpr ⟨e', he', by simpa using hc⟩)
        have : spmmTorch n d es' = spmm n d es' := funext fun X => spmmTorch_eq hr X
        rw [this]
      · rw [if_pos ⟨hp, .inr hm⟩, if_neg (by rintro ⟨-, h⟩; exact hsrc h), if_pos ⟨hp, hm⟩]
  · have h0 : s.maxIter.toNat = 0 := by omega
    rw [if_neg (fun h => hp h.1), if_neg (fun h => hp h.1), if_neg (fun h => hp h.1), h0]
    simp only [diffuse]

end

/-! ### Concrete runs -/

/-- The solver on a path whose first node is labeled. -/
def demoFixed (alpha : Rat) (mode : String) (rows : Bool) : Except PyErr (Diffusion Rat) :=
  fixedPoint (fun x => x) (1 / 1000) 3 2 [(1, 2), (2, 1), (0, 1)] none [[1, 0], [0, 0], [0, 1]] [true, false, true]
    ⟨alpha, 2, 0, rows, mode⟩

example : (demoFixed (1 / 2) "rw" false).map (fun r => (r.F, r.nIter, r.residual))
    = .ok ([[1, 0], [1 / 4, 1 / 4], [0, 1]], 2, some 0) := by decide +kernel

example : (demoFixed (1 / 2) "rw" true).map (fun r => (r.F, r.nIter, r.residual))
    = .ok ([[1, 0], [1 / 2, 1 / 2], [0, 1]], 2, some 0) := by decide +kernel

example : SubstochasticRows (K := Rat) [[1, 0], [0, 0], [0, 1]] ∧ HasShape (K := Rat) [[1, 0], [0, 0], [0, 1]] 3 2
    ∧ ∀ e ∈ graphOf (K := Rat) [(1, 2), (2, 1), (0, 1)] none, 0 ≤ e.w := by
  refine ⟨?_, ?_, ?_⟩
  · unfold SubstochasticRows; decide +kernel
  · unfold HasShape; decide +kernel
  · decide +kernel

/-- The solution of that system: the hypothesis of the distance theorems. -/
example : Diffused (fun x => x) (1 / 1000 : Rat) "rw" (graphOf [(1, 2), (2, 1), (0, 1)] none) 3 [[1, 0], [0, 0], [0, 1]]
    [true, false, true] (1 / 2)
    (fun i c => if c = 0 then [1, 1 / 4, 0].getD i 0 else if c = 1 then [0, 1 / 4, 1].getD i 0 else 0) := by
  intro i hi c
  have hc : c = 0 ∨ c = 1 ∨ 2 ≤ c := by omega
  have hi' : i = 0 ∨ i = 1 ∨ i = 2 := by omega
  rcases hc with rfl | rfl | hc
  · rcases hi' with rfl | rfl | rfl <;> decide +kernel
  · rcases hi' with rfl | rfl | rfl <;> decide +kernel
  · have hY : ∀ i, Mat.get (K := Rat) [[1, 0], [0, 0], [0, 1]] i c = 0 := fun i =>
      get_outside (n := 3) (d := 2) (by unfold HasShape; decide) hc
    rw [hY]
    have h0 : ¬ c = 0 := by omega
    have h1 : ¬ c = 1 := by omega
    simp [h0, h1]

/-- `Real.sqrt` meets the assumption of `C178_error`. -/
example : ∀ a b : ℝ, a * a ≤ b → |a| ≤ √b := fun a b h => by
  rw [← Real.sqrt_mul_self_eq_abs]
  exact Real.sqrt_le_sqrt h

/-- **C178: nothing checks `alpha` or the weights.**  With `alpha = 3` the solver answers, and scores leave `[0, 1]`; with
`mode="none"` they do so for `alpha = 1 / 2` (four edges into the same node). -/
theorem C178_needs_hypotheses :
    (∃ r, demoFixed 3 "rw" false = .ok r ∧ ¬ SubstochasticRows r.F) ∧
    (∃ r : Diffusion Rat, fixedPoint (fun x => x) (1 / 1000) 2 1 [(0, 1), (0, 1), (0, 1), (0, 1)] none [[1], [0]] [true, false]
      ⟨1 / 2, 2, 0, false, "none"⟩ = .ok r ∧ ¬ SubstochasticRows r.F) := by
  refine ⟨⟨⟨[[1, 0], [3 / 2, 3 / 2], [0, 1]], 2, some 0⟩, by decide +kernel, ?_⟩,
    ⟨⟨[[1], [2]], 2, some 0⟩, by decide +kernel, ?_⟩⟩
  · intro h
    exact absurd (h [3 / 2, 3 / 2] (by simp)).2 (by decide +kernel)
  · intro h
    exact absurd (h [2] (by simp)).2 (by decide +kernel)

end ModSSC.Transductive
