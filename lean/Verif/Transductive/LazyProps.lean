import Verif.Transductive.LazyModel
import Verif.Transductive.LazySpec
import Verif.Transductive.LaplaceProps
import Mathlib.Analysis.Real.Sqrt
import Mathlib.Tactic.FieldSimp

/-!
# C100: lazy random walks
-/

set_option linter.unusedSectionVars false

namespace ModSSC.Transductive
open ModSSC Spec

/-! ### The two classes -/

theorem lazy_unique_pair {l : List Int} {a b : Int} :
    npUnique l = [a, b] ↔ a < b ∧ ∀ c, c ∈ l ↔ c = a ∨ c = b := by
  constructor
  · intro h
    have hs := unique_strict l
    rw [h] at hs
    refine ⟨by simpa using hs, fun c => ?_⟩
    rw [← mem_npUnique, h]
    simp
  · rintro ⟨hab, h⟩
    have hs := unique_strict l
    have h2 : [a, b].Pairwise (· < ·) := by simpa using hab
    have hp : (npUnique l).Perm [a, b] := by
      rw [List.perm_ext_iff_of_nodup (hs.imp (fun h => ne_of_lt h)) (h2.imp (fun h => ne_of_lt h))]
      intro c
      rw [mem_npUnique, h c]
      simp
    exact hp.eq_of_pairwise (fun a b _ _ h1 h2 => absurd h1 (lt_asymm h2)) hs h2

theorem lazy_unique_two {l : List Int} :
    (npUnique l).length = 2 ↔ ∃ a b : Int, a < b ∧ ∀ c, c ∈ l ↔ c = a ∨ c = b := by
  constructor
  · intro h
    match hl : npUnique l, h with
    | [a, b], _ => exact ⟨a, b, lazy_unique_pair.mp hl⟩
  · rintro ⟨a, b, h⟩
    rw [lazy_unique_pair.mpr h]
    rfl

theorem binaryClasses_iff {y : List Int} {mask : List Bool} (hm : mask.length = y.length) {a b : Int} :
    binaryClasses y mask = .ok (a, b) ↔ TwoClasses y mask a b := by
  have hlab : ∀ c, c ∈ labeledClasses y mask ↔ 0 ≤ c ∧ ∃ i : Nat, mask[i]? = some true ∧ y[i]? = some c := by
    intro c
    rw [mem_labeledClasses hm]
    unfold ClassLabeled Labeled
    constructor
    · rintro ⟨h0, i, h1, h2⟩
      refine ⟨h0, i, h1, ?_⟩
      rw [h2, Int.toNat_of_nonneg h0]
    · rintro ⟨h0, i, h1, h2⟩
      refine ⟨h0, i, h1, ?_⟩
      rw [h2, Int.toNat_of_nonneg h0]
  have hpool : ∀ c, c ∈ (y.filter fun c => decide (0 ≤ c)) ↔ 0 ≤ c ∧ c ∈ y := by
    intro c
    rw [List.mem_filter]
    simp [and_comm]
  have hmatch : ∀ l : List Int, pairOf l = .ok (a, b) ↔ l = [a, b] := by
    intro l
    match l with
    | [] => simp [pairOf]
    | [_] => simp [pairOf]
    | [x, z] => simp [pairOf]
    | _ :: _ :: _ :: _ => simp [pairOf]
  unfold binaryClasses TwoClasses
  simp only
  rw [hmatch]
  by_cases h2 : (npUnique (labeledClasses y mask)).length = 2
  · rw [if_neg (not_not.mpr h2), lazy_unique_pair]
    have h2' := lazy_unique_two.mp h2
    simp only [hlab] at h2' ⊢
    constructor
    · rintro ⟨h, h'⟩; exact ⟨h, .inl h'⟩
    · rintro ⟨h, h' | ⟨h', -⟩⟩
      · exact ⟨h, h'⟩
      · exact absurd h2' h'
  · rw [if_pos h2, lazy_unique_pair]
    have h2' := fun h => h2 (lazy_unique_two.mpr h)
    simp only [hlab, hpool] at h2' ⊢
    constructor
    · rintro ⟨h, h'⟩; exact ⟨h, .inr ⟨h2', h'⟩⟩
    · rintro ⟨h, h' | ⟨-, h'⟩⟩
      · exact absurd ⟨a, b, h, h'⟩ h2'
      · exact ⟨h, h'⟩

theorem binaryClasses_err {y : List Int} {mask : List Bool} {e : PyErr} (h : binaryClasses y mask = .error e) :
    e = .valueError := by
  unfold binaryClasses at h
  simp only at h
  unfold pairOf at h
  split at h
  · cases h
  · cases h; rfl

section
variable {K : Type} [Field K] [LinearOrder K] 

theorem signedLabels_eq {y : List Int} {mask : List Bool} (hm : mask.length = y.length) {a b : Int} {i : Nat}
    (hi : i < y.length) : (signedLabels y mask (a, b) i : K) = sign y mask a b i := by
  have h1 : mask[i]? = some (mask.getD i false) := by
    have : i < mask.length := by omega
    rw [List.getElem?_eq_getElem this, List.getD_eq_getElem _ _ this]
  have h2 : y[i]? = some (y.getD i (-1)) := by
    rw [List.getElem?_eq_getElem hi, List.getD_eq_getElem _ _ hi]
  unfold signedLabels sign
  rw [h1, h2]
  cases mask.getD i false
  · simp
  · simp

/-! ### Weights -/

theorem affinity_spec {ei : List (Int × Int)} {ew : Option (List K)} {es : List (WEdge K)}
    (he : es.map (fun e => ((e.src : Int), (e.dst : Int), e.w)) = edgesOf ei ew) (i j : Nat) :
    affinity es i j = (((edgesOf ei ew).filter fun e => e.1 = (j : Int) ∧ e.2.1 = (i : Int)).map (·.2.2)).sum := by
  unfold affinity
  rw [← he, List.filter_map, List.map_map]
  congr 1
  have hf : es.filter (fun e => decide (e.dst = i ∧ e.src = j))
      = es.filter ((fun e : Int × Int × K => decide (e.1 = (j : Int) ∧ e.2.1 = (i : Int))) ∘
          fun e : WEdge K => ((e.src : Int), (e.dst : Int), e.w)) := by
    apply List.filter_congr
    intro e _
    simp [Bool.and_comm]
  rw [hf]
  rfl

theorem symAffinity_spec {ei : List (Int × Int)} {ew : Option (List K)} {es : List (WEdge K)}
    (he : es.map (fun e => ((e.src : Int), (e.dst : Int), e.w)) = edgesOf ei ew) (i j : Nat) :
    symAffinity es i j = linkWeight (edgesOf ei ew) (i : Int) (j : Int) := by
  unfold symAffinity linkWeight
  rw [affinity_spec he, affinity_spec he, add_comm]
  simp

theorem symDegree_spec {ei : List (Int × Int)} {ew : Option (List K)} {es : List (WEdge K)}
    (he : es.map (fun e => ((e.src : Int), (e.dst : Int), e.w)) = edgesOf ei ew) (n i : Nat) :
    symDegree n es i = linkDegree n (edgesOf ei ew) (i : Int) := by
  unfold symDegree linkDegree
  congr 1
  exact List.map_congr_left fun j _ => symAffinity_spec he i j

theorem symAffinity_self (es : List (WEdge K)) (i : Nat) : symAffinity es i i = 0 := by
  unfold symAffinity; simp

theorem walk_row (sqrt : K → K) (alpha : K) (n : Nat) (es : List (WEdge K)) (v : Nat → K) {i : Nat} (hi : i < n) :
    ((List.range n).map fun j => (walkMatrix sqrt alpha n es).get i j * v j).sum
      = v i - alpha * ∑ j ∈ Finset.range n,
          symAffinity es i j / (sqrt (symDegree n es i) * sqrt (symDegree n es j)) * v j := by
  rw [sum_range_list]
  have h : ∀ j ∈ Finset.range n, (walkMatrix sqrt alpha n es).get i j * v j
      = (if i = j then v j else 0) -
        alpha * (symAffinity es i j / (sqrt (symDegree n es i) * sqrt (symDegree n es j)) * v j) := by
    intro j hj
    unfold walkMatrix
    rw [get_tab _ _ _ hi (Finset.mem_range.mp hj)]
    have e : 1 / sqrt (symDegree n es i) * symAffinity es i j * (1 / sqrt (symDegree n es j))
        = symAffinity es i j / (sqrt (symDegree n es i) * sqrt (symDegree n es j)) := by
      rw [div_eq_mul_inv, div_eq_mul_inv, div_eq_mul_inv, mul_inv]
      ring
    rw [e]
    by_cases hij : i = j
    · simp only [hij, if_true]; ring
    · simp only [if_neg hij]; ring
  rw [Finset.sum_congr rfl h, Finset.sum_sub_distrib, ← Finset.mul_sum]
  congr 1
  rw [Finset.sum_ite_eq, if_pos (Finset.mem_range.mpr hi)]

/-! ### Runs -/

/-- What a call that gets to the linear system means. -/
structure LazyRun (alpha : K) (n : Int) (ei : List (Int × Int)) (ew : Option (List K)) (y : List Int)
    (mask : List Bool) (es : List (WEdge K)) (a b : Int) : Prop where
  alpha_pos : 0 < alpha
  alpha_lt : alpha < 1
  valid : validateGraph n ei ew = .ok es
  ylen : (y.length : Int) = n
  mlen : (mask.length : Int) = n
  some_label : mask.any id = true
  classes : binaryClasses y mask = .ok (a, b)

theorem lazy_eq {sqrt : K → K} {solve : LinSolve K} {alpha : K} {n : Int} {ei : List (Int × Int)}
    {ew : Option (List K)} {y : List Int} {mask : List Bool} {es : List (WEdge K)} {a b : Int}
    (P : LazyRun alpha n ei ew y mask es a b) :
    lazyRandomWalk sqrt solve alpha n ei ew y mask
      = lazySolve sqrt solve alpha y.length es (signedLabels y mask (a, b)) := by
  unfold lazyRandomWalk
  rw [if_neg (not_not.mpr ⟨P.alpha_pos, P.alpha_lt⟩), P.valid]
  refine Eq.trans (ebind_of_ok rfl) ?_
  rw [if_neg (not_not.mpr P.ylen), if_neg (not_not.mpr P.mlen), if_neg (by rw [P.some_label]; simp), P.classes]
  rfl

theorem lazy_cases (sqrt : K → K) (solve : LinSolve K) (alpha : K) (n : Int) (ei : List (Int × Int))
    (ew : Option (List K)) (y : List Int) (mask : List Bool) :
    (∃ es a b, LazyRun alpha n ei ew y mask es a b) ∨
      ((¬ ∃ es a b, LazyRun alpha n ei ew y mask es a b) ∧
        lazyRandomWalk sqrt solve alpha n ei ew y mask = .error .valueError) := by
  by_cases hP : ∃ es a b, LazyRun alpha n ei ew y mask es a b
  · exact .inl hP
  refine .inr ⟨hP, ?_⟩
  unfold lazyRandomWalk
  by_cases h0 : 0 < alpha ∧ alpha < 1
  · rw [if_neg (not_not.mpr h0)]
    cases hv : validateGraph n ei ew with
    | error e =>
      have : e = .valueError := by
        unfold validateGraph at hv
        simp only at hv
        split at hv
        · cases hv; rfl
        · split at hv
          · cases hv; rfl
          · split at hv
            · cases hv; rfl
            · split at hv
              · cases hv; rfl
              · cases hv
      rw [this]; rfl
    | ok es =>
      refine Eq.trans (ebind_of_ok rfl) ?_
      by_cases h1 : (y.length : Int) = n
      · rw [if_neg (not_not.mpr h1)]
        by_cases h2 : (mask.length : Int) = n
        · rw [if_neg (not_not.mpr h2)]
          by_cases h3 : mask.any id = true
          · rw [if_neg (by rw [h3]; simp)]
            cases hc : binaryClasses y mask with
            | error e => rw [binaryClasses_err hc]; rfl
            | ok c =>
              obtain ⟨a, b⟩ := c
              exact absurd ⟨es, a, b, h0.1, h0.2, hv, h1, h2, h3, hc⟩ hP
          · rw [if_pos (by simpa using h3)]
        · rw [if_pos h2]
      · rw [if_pos h1]
  · rw [if_pos h0]

theorem lazy_ok {sqrt : K → K} {solve : LinSolve K} {alpha : K} {n : Int} {ei : List (Int × Int)}
    {ew : Option (List K)} {y : List Int} {mask : List Bool} {r : Diffusion K}
    (h : lazyRandomWalk sqrt solve alpha n ei ew y mask = .ok r) :
    ∃ es a b, LazyRun alpha n ei ew y mask es a b ∧
      lazySolve sqrt solve alpha y.length es (signedLabels y mask (a, b)) = .ok r := by
  rcases lazy_cases sqrt solve alpha n ei ew y mask with ⟨es, a, b, P⟩ | ⟨-, h'⟩
  · exact ⟨es, a, b, P, by rw [← lazy_eq P]; exact h⟩
  · rw [h'] at h; cases h

namespace LazyRun
variable {alpha : K} {n : Int} {ei : List (Int × Int)} {ew : Option (List K)} {y : List Int} {mask : List Bool}
  {es : List (WEdge K)} {a b : Int}

theorem lens (P : LazyRun alpha n ei ew y mask es a b) : mask.length = y.length := by
  have := P.ylen; have := P.mlen; omega

theorem edges (P : LazyRun alpha n ei ew y mask es a b) :
    es.map (fun e => ((e.src : Int), (e.dst : Int), e.w)) = edgesOf ei ew := (validateGraph_ok P.valid).2.2.1

theorem two (P : LazyRun alpha n ei ew y mask es a b) : TwoClasses y mask a b := (binaryClasses_iff P.lens).mp P.classes

end LazyRun

theorem lazySolve_ok {sqrt : K → K} {solve : LinSolve K} {alpha : K} {n : Nat} {es : List (WEdge K)} {yv : Nat → K}
    {r : Diffusion K} (h : lazySolve sqrt solve alpha n es yv = .ok r) :
    (∀ i < n, 0 < symDegree n es i) ∧ ∃ f : Mat K,
      solve (walkMatrix sqrt alpha n es) (tab n 1 fun i _ => yv i) = some f ∧
      r.F = tab n 2 (fun i c => if c = (if 0 ≤ f.get i 0 then 1 else 0) then 1 else 0) := by
  unfold lazySolve at h
  split at h
  · cases h
  · rename_i hd
    refine ⟨fun i hi => ?_, ?_⟩
    · simp only [List.any_eq_true, List.mem_range, decide_eq_true_eq, not_exists, not_and, not_le] at hd
      exact hd i hi
    · split at h
      · cases h
      · rename_i f hf
        cases h
        exact ⟨f, hf, rfl⟩

theorem walk_shape (sqrt : K → K) (alpha : K) (n : Nat) (es : List (WEdge K)) :
    HasShape (walkMatrix sqrt alpha n es) n n := tab_shape ..

/-- The solution behind a result. -/
theorem lazy_solution {sqrt : K → K} {solve : LinSolve K} (hs : Solver solve) {alpha : K} {n : Int}
    {ei : List (Int × Int)} {ew : Option (List K)} {y : List Int} {mask : List Bool} {r : Diffusion K}
    (h : lazyRandomWalk sqrt solve alpha n ei ew y mask = .ok r) :
    ∃ (es : List (WEdge K)) (a b : Int) (f : Nat → K), LazyRun alpha n ei ew y mask es a b ∧
      (∀ i < y.length, 0 < symDegree y.length es i) ∧
      (∀ i < y.length, f i = alpha * (∑ j ∈ Finset.range y.length,
        symAffinity es i j / (sqrt (symDegree y.length es i) * sqrt (symDegree y.length es j)) * f j) +
          sign y mask a b i) ∧
      Nonsingular y.length (walkMatrix sqrt alpha y.length es) ∧
      r.F = tab y.length 2 (fun i c => if c = (if 0 ≤ f i then 1 else 0) then 1 else 0) := by
  obtain ⟨es, a, b, P, h⟩ := lazy_ok h
  obtain ⟨hd, f, hf, hF⟩ := lazySolve_ok h
  refine ⟨es, a, b, fun i => f.get i 0, P, hd, fun i hi => ?_, ?_, hF⟩
  · have := hs.sound y.length 1 _ _ _ (walk_shape ..) (tab_shape ..) hf i hi 0 (by decide)
    rw [walk_row sqrt alpha y.length es (fun j => f.get j 0) hi, get_tab _ _ _ hi (by decide),
      signedLabels_eq P.lens hi] at this
    rw [← this]; ring
  · exact (hs.answers y.length 1 _ _ (walk_shape ..) (tab_shape ..)).mp ⟨f, hf⟩

/-- **C100 (the walk).**  The classes `a < b` being the two classes of the labels, the scores are given by the only
solution of the lazy random walk equation with the labels as signs: class `b` where it is non-negative, class `a` where
it is negative, for arbitrary weights. -/
theorem C100_scores (sqrt : K → K) (solve : LinSolve K) (hs : Solver solve) (alpha : K) (n : Int)
    (ei : List (Int × Int)) (ew : Option (List K)) (y : List Int) (mask : List Bool) (r : Diffusion K)
    (h : lazyRandomWalk sqrt solve alpha n ei ew y mask = .ok r) :
    ∃ (a b : Int) (f : Nat → K), TwoClasses y mask a b ∧
      WalkSolution sqrt alpha y.length (edgesOf ei ew) (sign y mask a b) f ∧
      (∀ g, WalkSolution sqrt alpha y.length (edgesOf ei ew) (sign y mask a b) g → ∀ i < y.length, g i = f i) ∧
      r.F = (List.range y.length).map fun i => if 0 ≤ f i then [0, 1] else [1, 0] := by
  obtain ⟨es, a, b, f, P, hd, hf, hns, hF⟩ := lazy_solution hs h
  have hsol : ∀ g : Nat → K, WalkSolution sqrt alpha y.length (edgesOf ei ew) (sign y mask a b) g ↔
      ∀ i < y.length, g i = alpha * (∑ j ∈ Finset.range y.length,
        symAffinity es i j / (sqrt (symDegree y.length es i) * sqrt (symDegree y.length es j)) * g j) +
          sign y mask a b i := by
    intro g
    unfold WalkSolution
    simp only [sum_range_list, ← symAffinity_spec P.edges, ← symDegree_spec P.edges]
  refine ⟨a, b, f, P.two, (hsol f).mpr hf, fun g hg i hi => ?_, ?_⟩
  · have hg := (hsol g).mp hg
    have := hns (fun i => g i - f i) (fun i hi => ?_) i hi
    · exact sub_eq_zero.mp this
    · rw [walk_row sqrt alpha _ es _ hi]
      have e1 := hg i hi
      have e2 := hf i hi
      simp only [mul_sub, Finset.sum_sub_distrib]
      have := sub_eq_zero.mpr (congrArg₂ (· - ·) e1 e2)
      refine Eq.trans ?_ this
      ring
  · rw [hF]
    unfold tab
    apply List.map_congr_left
    intro i _
    by_cases h0 : 0 ≤ f i
    · simp [h0, List.range_succ]
    · simp [h0, List.range_succ]

end

/-! ### Non-negative weights -/

section
variable {K : Type} [Field K] [LinearOrder K] [IsStrictOrderedRing K]

theorem symAffinity_nonneg {es : List (WEdge K)} (h : ∀ e ∈ es, 0 ≤ e.w) (i j : Nat) : 0 ≤ symAffinity es i j := by
  unfold symAffinity
  split
  · exact le_refl _
  · have := affinity_nonneg h i j
    have := affinity_nonneg h j i
    linarith

theorem symAffinity_pos {ei : List (Int × Int)} {ew : Option (List K)} {es : List (WEdge K)}
    (he : es.map (fun e => ((e.src : Int), (e.dst : Int), e.w)) = edgesOf ei ew) (h : ∀ e ∈ es, 0 ≤ e.w) (i j : Nat) :
    0 < symAffinity es i j ↔ Adjacent (edgesOf ei ew) i j := by
  have hedge : ∀ i j, 0 < affinity es i j ↔ ∃ w, 0 < w ∧ ((j : Int), (i : Int), w) ∈ edgesOf ei ew := by
    intro i j
    rw [affinity_pos h, ← he]
    constructor
    · rintro ⟨e, he, rfl, rfl, hp⟩
      exact ⟨e.w, hp, List.mem_map.mpr ⟨e, he, rfl⟩⟩
    · rintro ⟨w, hp, hm⟩
      obtain ⟨e, he, heq⟩ := List.mem_map.mp hm
      simp only [Prod.mk.injEq] at heq
      exact ⟨e, he, by omega, by omega, by rw [heq.2.2]; exact hp⟩
  unfold symAffinity Adjacent
  by_cases hij : i = j
  · rw [if_pos hij]
    simp [hij]
  · rw [if_neg hij]
    have h1 := affinity_nonneg h i j
    have h2 := affinity_nonneg h j i
    constructor
    · intro hp
      refine ⟨hij, ?_⟩
      by_cases hp1 : 0 < affinity es i j
      · obtain ⟨w, hw, hm⟩ := (hedge i j).mp hp1
        exact ⟨w, hw, .inr hm⟩
      · have : 0 < affinity es j i := by linarith
        obtain ⟨w, hw, hm⟩ := (hedge j i).mp this
        exact ⟨w, hw, .inl hm⟩
    · rintro ⟨-, w, hw, hm | hm⟩
      · have := (hedge j i).mpr ⟨w, hw, hm⟩
        linarith
      · have := (hedge i j).mpr ⟨w, hw, hm⟩
        linarith

theorem symDegree_sum (n : Nat) (es : List (WEdge K)) {i : Nat} (hi : i < n) :
    symDegree n es i = ∑ j ∈ (Finset.range n).erase i, symAffinity es i j := by
  unfold symDegree
  rw [sum_range_list, ← Finset.add_sum_erase _ _ (Finset.mem_range.mpr hi), symAffinity_self, zero_add]

theorem walk_regular {alpha : K} (h0 : 0 < alpha) (h1 : alpha < 1) {n : Nat} {es : List (WEdge K)}
    (hes : ∀ e ∈ es, 0 ≤ e.w) {S : Finset Nat} (hS : S ⊆ Finset.range n) (hd : ∀ i ∈ S, 0 < symDegree n es i) :
    MM.Regular (Finset.range n) S (symDegree n es) (fun i j => alpha * symAffinity es i j) := by
  have hsum : ∀ i ∈ S, ∑ j ∈ (Finset.range n).erase i, alpha * symAffinity es i j = alpha * symDegree n es i := by
    intro i hi
    rw [← Finset.mul_sum, symDegree_sum n es (Finset.mem_range.mp (hS hi))]
  have hlt : ∀ i ∈ S, ∑ j ∈ (Finset.range n).erase i, alpha * symAffinity es i j < symDegree n es i := by
    intro i hi
    rw [hsum i hi]
    have := mul_lt_mul_of_pos_right h1 (hd i hi)
    linarith
  exact (MM.regular_iff hS (fun i j => mul_nonneg h0.le (symAffinity_nonneg hes i j)) (fun i hi => (hlt i hi).le)).mpr
    fun i hi => .slack hi (hlt i hi)

/-- The equation for `g = D^-1/2 f`. -/
theorem walk_scaled {sqrt : K → K} (hq : SqrtLaw sqrt) {alpha : K} {n : Nat} {es : List (WEdge K)}
    (hd : ∀ i < n, 0 < symDegree n es i) {f y0 : Nat → K}
    (hf : ∀ i < n, f i = alpha * (∑ j ∈ Finset.range n,
        symAffinity es i j / (sqrt (symDegree n es i) * sqrt (symDegree n es j)) * f j) + y0 i) :
    ∀ i < n, symDegree n es i * (f i / sqrt (symDegree n es i))
      = MM.others (Finset.range n) (fun i j => alpha * symAffinity es i j) (fun j => f j / sqrt (symDegree n es j)) i
        + sqrt (symDegree n es i) * y0 i := by
  intro i hi
  obtain ⟨hp, hsq⟩ := hq _ (hd i hi)
  have e1 : symDegree n es i * (f i / sqrt (symDegree n es i)) = sqrt (symDegree n es i) * f i := by
    have hne := hp.ne'
    generalize sqrt (symDegree n es i) = s at *
    rw [← hsq]
    field_simp
  rw [e1]
  unfold MM.others
  have e2 : ∑ j ∈ (Finset.range n).erase i, alpha * symAffinity es i j * (f j / sqrt (symDegree n es j))
      = ∑ j ∈ Finset.range n, alpha * symAffinity es i j * (f j / sqrt (symDegree n es j)) := by
    rw [← Finset.add_sum_erase _ _ (Finset.mem_range.mpr hi), symAffinity_self]
    ring
  rw [e2]
  conv_lhs => rw [hf i hi]
  rw [mul_add]
  congr 1
  rw [← mul_assoc, Finset.mul_sum]
  apply Finset.sum_congr rfl
  intro j hj
  have hj := (hq _ (hd j (Finset.mem_range.mp hj))).1.ne'
  have hne := hp.ne'
  field_simp

/-- The walk matrix can always be inverted. -/
theorem walk_nonsingular {sqrt : K → K} (hq : SqrtLaw sqrt) {alpha : K} (h0 : 0 < alpha) (h1 : alpha < 1) {n : Nat}
    {es : List (WEdge K)} (hes : ∀ e ∈ es, 0 ≤ e.w) (hd : ∀ i < n, 0 < symDegree n es i) :
    Nonsingular n (walkMatrix sqrt alpha n es) := by
  intro v hv i hi
  have hv' : ∀ i < n, v i = alpha * (∑ j ∈ Finset.range n,
        symAffinity es i j / (sqrt (symDegree n es i) * sqrt (symDegree n es j)) * v j) + 0 := by
    intro i hi
    have := hv i hi
    rw [walk_row sqrt alpha n es v hi] at this
    rw [add_zero]
    exact sub_eq_zero.mp this
  have hsc := walk_scaled hq hd hv'
  have hreg := walk_regular h0 h1 hes (Finset.Subset.refl (Finset.range n)) (fun i hi => hd i (Finset.mem_range.mp hi))
  have := hreg (fun j => if j < n then v j / sqrt (symDegree n es j) else 0)
    (fun j hj => if_neg (fun h => hj (Finset.mem_range.mpr h))) (fun j hj => ?_) i
  · rw [if_pos hi] at this
    rcases div_eq_zero_iff.mp this with h | h
    · exact h
    · exact absurd h (hq _ (hd i hi)).1.ne'
  · have hj' := Finset.mem_range.mp hj
    rw [if_pos hj', hsc j hj', mul_zero, add_zero]
    unfold MM.others
    apply Finset.sum_congr rfl
    intro k hk
    simp only
    rw [if_pos (Finset.mem_range.mp (Finset.mem_erase.mp hk).2)]

/-- **C100 (when it answers).**  With non-negative weights the method answers exactly when `0 < alpha < 1`, the inputs
fit together, some node is labeled, the labels have exactly two classes and every node has an edge of positive weight
from or to another node; otherwise it raises `ValueError`.  In particular the linear system never fails. -/
theorem C100_accepts (sqrt : K → K) (hq : SqrtLaw sqrt) (solve : LinSolve K) (hs : Solver solve) (alpha : K) (n : Int)
    (ei : List (Int × Int)) (ew : Option (List K)) (y : List Int) (mask : List Bool)
    (hw : ∀ e ∈ edgesOf ei ew, 0 ≤ e.2.2) :
    ((∃ r, lazyRandomWalk sqrt solve alpha n ei ew y mask = .ok r) ↔
      (0 < alpha ∧ alpha < 1) ∧ 0 < n ∧ (∀ w, ew = some w → w.length = ei.length) ∧
      (∀ e ∈ ei, 0 ≤ e.1 ∧ 0 ≤ e.2 ∧ e.1 < n ∧ e.2 < n) ∧ (y.length : Int) = n ∧ (mask.length : Int) = n ∧
      true ∈ mask ∧ (∃ a b, TwoClasses y mask a b) ∧ ∀ i < y.length, ∃ j, Adjacent (edgesOf ei ew) i j) ∧
    ((¬ ∃ r, lazyRandomWalk sqrt solve alpha n ei ew y mask = .ok r) →
      lazyRandomWalk sqrt solve alpha n ei ew y mask = .error .valueError) := by
  have hany : mask.any id = true ↔ true ∈ mask := by simp
  have hnn : ∀ {es : List (WEdge K)}, es.map (fun e => ((e.src : Int), (e.dst : Int), e.w)) = edgesOf ei ew →
      ∀ e ∈ es, 0 ≤ e.w := by
    intro es he e hee
    exact hw ((e.src : Int), (e.dst : Int), e.w) (by rw [← he]; exact List.mem_map.mpr ⟨e, hee, rfl⟩)
  have hdeg : ∀ {es a b}, LazyRun alpha n ei ew y mask es a b → ∀ i < y.length,
      (0 < symDegree y.length es i ↔ ∃ j, Adjacent (edgesOf ei ew) i j) := by
    intro es a b P i hi
    have h1 := hnn P.edges
    unfold symDegree
    rw [sum_pos_iff _ _ fun j _ => symAffinity_nonneg h1 i j]
    constructor
    · rintro ⟨j, -, hj⟩
      exact ⟨j, (symAffinity_pos P.edges h1 i j).mp hj⟩
    · rintro ⟨j, hj⟩
      refine ⟨j, List.mem_range.mpr ?_, (symAffinity_pos P.edges h1 i j).mpr hj⟩
      obtain ⟨-, w, -, hm⟩ := hj
      have hr := (validateGraph_ok P.valid).2.2.2
      have hyl := P.ylen
      rw [← P.edges] at hm
      rcases hm with hm | hm
      · obtain ⟨e, he, heq⟩ := List.mem_map.mp hm
        have := hr e he
        simp only [Prod.mk.injEq] at heq
        omega
      · obtain ⟨e, he, heq⟩ := List.mem_map.mp hm
        have := hr e he
        simp only [Prod.mk.injEq] at heq
        omega
  rcases lazy_cases sqrt solve alpha n ei ew y mask with ⟨es, a, b, P⟩ | ⟨hno, herr⟩
  · rw [lazy_eq P]
    have hsolve : (∃ r, lazySolve sqrt solve alpha y.length es (signedLabels y mask (a, b)) = .ok r) ↔
        ∀ i < y.length, 0 < symDegree y.length es i := by
      constructor
      · rintro ⟨r, hr⟩; exact (lazySolve_ok hr).1
      · intro hd
        obtain ⟨f, hf⟩ := (hs.answers y.length 1 _ (tab y.length 1 fun i _ => signedLabels y mask (a, b) i)
          (walk_shape sqrt alpha y.length es) (tab_shape ..)).mpr
          (walk_nonsingular hq P.alpha_pos P.alpha_lt (hnn P.edges) hd)
        unfold lazySolve
        rw [if_neg, hf]
        · exact ⟨_, rfl⟩
        · simp only [List.any_eq_true, List.mem_range, decide_eq_true_eq, not_exists, not_and, not_le]
          exact hd
    refine ⟨?_, ?_⟩
    · rw [hsolve]
      constructor
      · intro hd
        obtain ⟨h1, h2, -, -⟩ := validateGraph_ok P.valid
        exact ⟨⟨P.alpha_pos, P.alpha_lt⟩, h1, h2, validateGraph_range P.valid, P.ylen, P.mlen,
          hany.mp P.some_label, ⟨a, b, P.two⟩, fun i hi => (hdeg P i hi).mp (hd i hi)⟩
      · rintro ⟨-, -, -, -, -, -, -, -, h⟩ i hi
        exact (hdeg P i hi).mpr (h i hi)
    · intro hn
      unfold lazySolve at hn ⊢
      split
      · rfl
      · rename_i hd
        rw [if_neg hd] at hn
        split
        · rfl
        · rename_i f hf
          rw [hf] at hn
          exact absurd ⟨_, rfl⟩ hn
  · refine ⟨⟨?_, ?_⟩, fun _ => herr⟩
    · rintro ⟨r, hr⟩
      rw [herr] at hr; cases hr
    · rintro ⟨h1, h2, h3, h4, h5, h6, h7, ⟨a, b, h8⟩, -⟩
      obtain ⟨es, hes⟩ := validateGraph_total h2 h3 h4
      exact absurd ⟨es, a, b, h1.1, h1.2, hes, h5, h6, hany.mpr h7, (binaryClasses_iff (by omega)).mpr h8⟩ hno

/-- **C100 (components).**  With non-negative weights, a node whose connected component has labels of class `a` only, at
least one of them, is given class `a`; a node whose component has no label of class `a` -- labels of class `b` only, or no
label at all -- is given class `b`. -/
theorem C100_component (sqrt : K → K) (hq : SqrtLaw sqrt) (solve : LinSolve K) (hs : Solver solve) (alpha : K) (n : Int)
    (ei : List (Int × Int)) (ew : Option (List K)) (y : List Int) (mask : List Bool) (r : Diffusion K)
    (hw : ∀ e ∈ edgesOf ei ew, 0 ≤ e.2.2) (h : lazyRandomWalk sqrt solve alpha n ei ew y mask = .ok r) (a b : Int)
    (hc : TwoClasses y mask a b) (i : Nat) (hi : i < y.length) :
    ((∀ j : Nat, Linked (edgesOf ei ew) i j → mask[j]? = some true → y[j]? ≠ some b) →
      (∃ j : Nat, Linked (edgesOf ei ew) i j ∧ mask[j]? = some true ∧ y[j]? = some a) → r.F[i]? = some [1, 0]) ∧
    ((∀ j : Nat, Linked (edgesOf ei ew) i j → mask[j]? = some true → y[j]? ≠ some a) → r.F[i]? = some [0, 1]) := by
  obtain ⟨es, a', b', f, P, hd, hf, hns, hF⟩ := lazy_solution hs h
  have hab : a' = a ∧ b' = b := by
    have h1 := (binaryClasses_iff P.lens).mpr hc
    rw [P.classes] at h1
    simpa using h1
  obtain ⟨rfl, rfl⟩ := hab
  have hnn : ∀ e ∈ es, 0 ≤ e.w := by
    intro e hee
    exact hw ((e.src : Int), (e.dst : Int), e.w) (by rw [← P.edges]; exact List.mem_map.mpr ⟨e, hee, rfl⟩)
  have hrow : r.F[i]? = some (if 0 ≤ f i then [0, 1] else [1, 0]) := by
    rw [hF]
    unfold tab
    rw [List.getElem?_map, List.getElem?_range hi]
    by_cases h0 : 0 ≤ f i
    · simp [h0, List.range_succ]
    · simp [h0, List.range_succ]
  -- the component
  classical
  let S := (Finset.range y.length).filter fun j => Linked (edgesOf ei ew) i j
  have hS : S ⊆ Finset.range y.length := Finset.filter_subset _ _
  have hmem : ∀ j, j ∈ S ↔ j < y.length ∧ Linked (edgesOf ei ew) i j := by
    intro j; simp [S]
  have hiS : i ∈ S := (hmem i).mpr ⟨hi, .refl⟩
  have hclosed : ∀ j ∈ S, ∀ k < y.length, k ∉ S → symAffinity es j k = 0 := by
    intro j hj k hk hkS
    by_contra hne
    have := (symAffinity_pos P.edges hnn j k).mp (lt_of_le_of_ne (symAffinity_nonneg hnn j k) (Ne.symm hne))
    exact hkS ((hmem k).mpr ⟨hk, .step ((hmem j).mp hj).2 this⟩)
  have hreg := walk_regular P.alpha_pos P.alpha_lt hnn hS (fun j hj => hd j ((hmem j).mp hj).1)
  have hsc := walk_scaled hq hd hf
  have hWn : ∀ j k, 0 ≤ alpha * symAffinity es j k := fun j k =>
    mul_nonneg P.alpha_pos.le (symAffinity_nonneg hnn j k)
  have hDn : ∀ j ∈ S, ∑ k ∈ (Finset.range y.length).erase j, alpha * symAffinity es j k ≤ symDegree y.length es j := by
    intro j hj
    have hj' := ((hmem j).mp hj).1
    rw [← Finset.mul_sum, ← symDegree_sum _ _ hj']
    have := mul_lt_mul_of_pos_right P.alpha_lt (hd j hj')
    linarith
  -- sign of the solution on the component, for either orientation
  have hsign : ∀ t : K, (∀ j ∈ S, 0 ≤ t * sign y mask a' b' j) →
      ∀ j ∈ S, 0 ≤ t * (f j / sqrt (symDegree y.length es j)) := by
    intro t ht
    have := MM.nonneg (x := fun j => if j ∈ S then t * (f j / sqrt (symDegree y.length es j)) else 0) hS hreg hWn hDn
      (fun j _ hj => by rw [if_neg hj]) (fun j hj => ?_)
    · intro j hj
      have := this j hj
      rwa [if_pos hj] at this
    · have hj' := ((hmem j).mp hj).1
      have e := hsc j hj'
      rw [if_pos hj]
      have e2 : MM.others (Finset.range y.length) (fun i j => alpha * symAffinity es i j)
          (fun j => if j ∈ S then t * (f j / sqrt (symDegree y.length es j)) else 0) j
          = t * MM.others (Finset.range y.length) (fun i j => alpha * symAffinity es i j)
            (fun j => f j / sqrt (symDegree y.length es j)) j := by
        unfold MM.others
        rw [Finset.mul_sum]
        apply Finset.sum_congr rfl
        intro k hk
        have hk' := Finset.mem_range.mp (Finset.mem_erase.mp hk).2
        simp only
        by_cases hkS : k ∈ S
        · rw [if_pos hkS]; ring
        · rw [if_neg hkS, hclosed j hj k hk' hkS]; ring
      rw [e2]
      have e3 : symDegree y.length es j * (t * (f j / sqrt (symDegree y.length es j)))
          = t * (symDegree y.length es j * (f j / sqrt (symDegree y.length es j))) := by ring
      rw [e3, e, mul_add]
      have e4 : 0 ≤ t * (sqrt (symDegree y.length es j) * sign y mask a' b' j) := by
        have := mul_nonneg (hq _ (hd j hj')).1.le (ht j hj)
        calc (0 : K) ≤ sqrt (symDegree y.length es j) * (t * sign y mask a' b' j) := this
          _ = _ := by ring
      linarith
  have hspos : ∀ j < y.length, 0 < sqrt (symDegree y.length es j) := fun j hj => (hq _ (hd j hj)).1
  constructor
  · intro hnob hexa
    rw [hrow, if_neg]
    intro hfi
    have hle : ∀ j ∈ S, 0 ≤ (-1 : K) * sign y mask a' b' j := by
      intro j hj
      unfold sign
      rw [if_neg (fun h => hnob j ((hmem j).mp hj).2 h.1 h.2)]
      split
      · norm_num
      · norm_num
    have hg := hsign (-1) hle
    -- zero spreads over the component
    have hzero : ∀ j, Linked (edgesOf ei ew) i j → j < y.length ∧ f j / sqrt (symDegree y.length es j) = 0 ∧
        sign y mask a' b' j = (0 : K) := by
      have hstep : ∀ j ∈ S, f j / sqrt (symDegree y.length es j) = 0 →
          sign y mask a' b' j = (0 : K) ∧ ∀ k, Adjacent (edgesOf ei ew) j k →
            k < y.length ∧ f k / sqrt (symDegree y.length es k) = 0 := by
        intro j hj hz
        have hj' := ((hmem j).mp hj).1
        have e := hsc j hj'
        rw [hz, mul_zero] at e
        have hterm : ∀ k ∈ (Finset.range y.length).erase j,
            alpha * symAffinity es j k * (f k / sqrt (symDegree y.length es k)) ≤ 0 := by
          intro k hk
          have hk' := Finset.mem_range.mp (Finset.mem_erase.mp hk).2
          by_cases hkS : k ∈ S
          · have := hg k hkS
            exact mul_nonpos_of_nonneg_of_nonpos (hWn j k) (by linarith)
          · rw [hclosed j hj k hk' hkS]; simp
        have hsum := Finset.sum_nonpos hterm
        have hsg : sqrt (symDegree y.length es j) * sign y mask a' b' j ≤ 0 :=
          mul_nonpos_of_nonneg_of_nonpos (hspos j hj').le (by have := hle j hj; linarith)
        unfold MM.others at e
        have e1 : sqrt (symDegree y.length es j) * sign y mask a' b' j = 0 := by linarith
        have e2 : ∑ k ∈ (Finset.range y.length).erase j,
            alpha * symAffinity es j k * (f k / sqrt (symDegree y.length es k)) = 0 := by linarith
        refine ⟨(mul_eq_zero.mp e1).resolve_left (hspos j hj').ne', fun k hk => ?_⟩
        have hpos := (symAffinity_pos P.edges hnn j k).mpr hk
        have hkl : k < y.length := by
          obtain ⟨-, w, -, hm⟩ := hk
          have hr := (validateGraph_ok P.valid).2.2.2
          have hyl := P.ylen
          rw [← P.edges] at hm
          rcases hm with hm | hm
          · obtain ⟨e, he, heq⟩ := List.mem_map.mp hm
            have := hr e he
            simp only [Prod.mk.injEq] at heq
            omega
          · obtain ⟨e, he, heq⟩ := List.mem_map.mp hm
            have := hr e he
            simp only [Prod.mk.injEq] at heq
            omega
        refine ⟨hkl, ?_⟩
        have hkm : k ∈ (Finset.range y.length).erase j := Finset.mem_erase.mpr ⟨fun e => hk.1 e.symm, Finset.mem_range.mpr hkl⟩
        have := (Finset.sum_eq_zero_iff_of_nonpos hterm).mp e2 k hkm
        rcases mul_eq_zero.mp this with h1 | h1
        · exact absurd h1 (mul_pos P.alpha_pos hpos).ne'
        · exact h1
      have h0 : f i / sqrt (symDegree y.length es i) = 0 := by
        have h1 := hg i hiS
        have h2 : 0 ≤ f i / sqrt (symDegree y.length es i) := div_nonneg hfi (hspos i hi).le
        linarith
      intro j hj
      induction hj with
      | refl => exact ⟨hi, h0, (hstep i hiS h0).1⟩
      | @step j k hij hjk ih =>
        have hjS := (hmem j).mpr ⟨ih.1, hij⟩
        obtain ⟨hkl, hkz⟩ := (hstep j hjS ih.2.1).2 k hjk
        exact ⟨hkl, hkz, (hstep k ((hmem k).mpr ⟨hkl, .step hij hjk⟩) hkz).1⟩
    obtain ⟨j, hj, hm, hy⟩ := hexa
    have := (hzero j hj).2.2
    unfold sign at this
    rw [if_neg (fun h => hnob j hj h.1 h.2), if_pos ⟨hm, hy⟩] at this
    norm_num at this
  · intro hnoa
    rw [hrow, if_pos]
    have hge : ∀ j ∈ S, 0 ≤ (1 : K) * sign y mask a' b' j := by
      intro j hj
      unfold sign
      split
      · norm_num
      · rw [if_neg (fun h => hnoa j ((hmem j).mp hj).2 h.1 h.2)]; norm_num
    have := hsign 1 hge i hiS
    rw [one_mul] at this
    by_contra hn
    have := div_neg_of_neg_of_pos (not_le.mp hn) (hspos i hi)
    linarith

/-- **C100 (columns), partial.**  When the classes of the dataset are 0 and 1, the two columns are the class ids: a node
whose component has labels of one class `l` only is given the score 1 in column `l`.  Missing: datasets with more
classes of which two are labeled, see `C100_columns_violated`. -/
theorem C100_columns_partial (sqrt : K → K) (hq : SqrtLaw sqrt) (solve : LinSolve K) (hs : Solver solve) (alpha : K)
    (n : Int) (ei : List (Int × Int)) (ew : Option (List K)) (y : List Int) (mask : List Bool) (r : Diffusion K)
    (hw : ∀ e ∈ edgesOf ei ew, 0 ≤ e.2.2) (h : lazyRandomWalk sqrt solve alpha n ei ew y mask = .ok r)
    (hy : ClassesUpTo y 2) (i : Nat) (hi : i < y.length) (l : Nat)
    (hex : ∃ j : Nat, Linked (edgesOf ei ew) i j ∧ Labeled y mask j l)
    (hall : ∀ j l' : Nat, Linked (edgesOf ei ew) i j → Labeled y mask j l' → l' = l) :
    l < 2 ∧ r.F.get i l = 1 ∧ ∀ c, c ≠ l → r.F.get i c = 0 := by
  have hc01 : TwoClasses y mask 0 1 := by
    obtain ⟨es, a, b, P, -⟩ := lazy_ok h
    have hc := P.two
    have key : 0 ≤ a ∧ a < 2 ∧ 0 ≤ b ∧ b < 2 := by
      have hin : ∀ c, c = a ∨ c = b → 0 ≤ c ∧ c ∈ y := by
        rcases hc.2 with h1 | ⟨-, h1⟩
        · intro c hc'
          obtain ⟨h0, i, -, hi⟩ := (h1 c).mpr hc'
          exact ⟨h0, List.mem_of_getElem? hi⟩
        · intro c hc'
          exact (h1 c).mpr hc'
      obtain ⟨a0, a1⟩ := hin a (.inl rfl)
      obtain ⟨b0, b1⟩ := hin b (.inr rfl)
      exact ⟨a0, (hy a a0).mp a1, b0, (hy b b0).mp b1⟩
    have := hc.1
    have ha : a = 0 := by omega
    have hb : b = 1 := by omega
    rwa [ha, hb] at hc
  have hcomp := C100_component sqrt hq solve hs alpha n ei ew y mask r hw h 0 1 hc01 i hi
  obtain ⟨j, hj, hm, hyj⟩ := hex
  have hl : l < 2 := by
    have := (hy (l : Int) (by omega)).mp (List.mem_of_getElem? hyj)
    omega
  have hget : ∀ (row : List K) (c : Nat), r.F[i]? = some row → r.F.get i c = row.getD c 0 := by
    intro row c hr
    unfold Mat.get
    have : r.F.getD i [] = row := by rw [List.getD_eq_getElem?_getD, hr]; rfl
    rw [this]
  refine ⟨hl, ?_⟩
  have hcases : l = 0 ∨ l = 1 := by omega
  rcases hcases with rfl | rfl
  · have hr := hcomp.1 (fun k hk h1 h2 => by have := hall k 1 hk ⟨h1, h2⟩; omega) ⟨j, hj, hm, hyj⟩
    refine ⟨by rw [hget _ _ hr]; rfl, fun c hc => ?_⟩
    rw [hget _ _ hr]
    match c, hc with
    | 1, _ => rfl
    | c + 2, _ => rfl
  · have hr := hcomp.2 (fun k hk h1 h2 => by have := hall k 0 hk ⟨h1, h2⟩; omega)
    refine ⟨by rw [hget _ _ hr]; rfl, fun c hc => ?_⟩
    rw [hget _ _ hr]
    match c, hc with
    | 0, _ => rfl
    | c + 2, _ => rfl

/-! ### A dataset with three classes, two of them labeled -/

/-- Four nodes, classes 1, 2, 0, 0, the first two labeled; edges `0 → 2` and `1 → 3`. -/
def threeClasses : NodeData K :=
  ⟨[4, 1], .labels (.ints [1, 2, 0, 0]), some [(0, 2), (1, 3)], none, [("train_mask", [true, true, false, false])]⟩

theorem three_two : TwoClasses [1, 2, 0, 0] [true, true, false, false] 1 2 :=
  (binaryClasses_iff rfl).mp (by decide +kernel)

theorem three_linked {i j : Nat} (h : Linked (edgesOf [(0, 2), (1, 3)] (none : Option (List K))) i j) :
    i = 0 → j = 0 ∨ j = 2 := by
  intro hi
  induction h with
  | refl => exact .inl hi
  | @step j k _ hjk ih =>
    obtain ⟨-, w, -, hm⟩ := hjk
    simp only [edgesOf, List.map_cons, List.map_nil, List.mem_cons, Prod.mk.injEq, List.not_mem_nil, or_false] at hm
    omega

theorem three_run (sqrt : K → K) (hq : SqrtLaw sqrt) (solve : LinSolve K) (hs : Solver solve) :
    ∃ r, lazyRandomWalk sqrt solve (1 / 2) 4 [(0, 2), (1, 3)] none [1, 2, 0, 0] [true, true, false, false] = .ok r := by
  refine (C100_accepts sqrt hq solve hs (1 / 2) 4 [(0, 2), (1, 3)] none [1, 2, 0, 0] [true, true, false, false]
    ?_).1.mpr ⟨⟨by norm_num, by norm_num⟩, by decide, by simp, by decide, rfl, rfl, by simp, ⟨1, 2, three_two⟩, ?_⟩
  · intro e he
    simp only [edgesOf, List.map_cons, List.map_nil, List.mem_cons, List.not_mem_nil, or_false] at he
    rcases he with rfl | rfl <;> norm_num
  · intro i hi
    simp only [List.length_cons, List.length_nil] at hi
    have h02 : ((0 : Int), (2 : Int), (1 : K)) ∈ edgesOf [(0, 2), (1, 3)] (none : Option (List K)) := by simp [edgesOf]
    have h13 : ((1 : Int), (3 : Int), (1 : K)) ∈ edgesOf [(0, 2), (1, 3)] (none : Option (List K)) := by simp [edgesOf]
    interval_cases i
    · exact ⟨2, by decide, 1, by norm_num, .inl h02⟩
    · exact ⟨3, by decide, 1, by norm_num, .inl h13⟩
    · exact ⟨0, by decide, 1, by norm_num, .inr h02⟩
    · exact ⟨1, by decide, 1, by norm_num, .inr h13⟩

/-- **C100 (columns), counterexample.**  On a validated dataset with classes 0, 1, 2 of which 1 and 2 are labeled, the
two columns stand for classes 1 and 2: the node labeled 1 is given its score in column 0. -/
theorem C100_columns_violated (sqrt : K → K) (hq : SqrtLaw sqrt) (solve : LinSolve K) (hs : Solver solve) :
    validateNodeDataset (threeClasses (K := K)) = .ok () ∧
    ∃ r, fitLazy sqrt solve (1 / 2) (threeClasses (K := K)) = .ok r ∧ Labeled [1, 2, 0, 0] [true, true, false, false] 0 1 ∧
      r.F.get 0 0 = 1 ∧ r.F.get 0 1 = 0 := by
  have hval : validateNodeDataset (threeClasses (K := K)) = .ok () := by
    unfold validateNodeDataset threeClasses
    rfl
  refine ⟨hval, ?_⟩
  obtain ⟨r, hr⟩ := three_run sqrt hq solve hs
  have hfit : fitLazy sqrt solve (1 / 2) (threeClasses (K := K)) = .ok r := by
    unfold fitLazy fitWith
    rw [hval]
    exact hr
  refine ⟨r, hfit, ⟨rfl, rfl⟩, ?_⟩
  have hw : ∀ e ∈ edgesOf [(0, 2), (1, 3)] (none : Option (List K)), 0 ≤ e.2.2 := by
    intro e he
    simp only [edgesOf, List.map_cons, List.map_nil, List.mem_cons, List.not_mem_nil, or_false] at he
    rcases he with rfl | rfl <;> norm_num
  have h0 := (C100_component sqrt hq solve hs (1 / 2) 4 _ none _ _ r hw hr 1 2 three_two 0 (by decide)).1 ?_ ⟨0, .refl, rfl, rfl⟩
  · unfold Mat.get
    have : r.F.getD 0 [] = [1, 0] := by rw [List.getD_eq_getElem?_getD, h0]; rfl
    rw [this]
    exact ⟨rfl, rfl⟩
  · intro j hj hm
    rcases three_linked hj rfl with rfl | rfl
    · simp
    · simp at hm

end

/-- The hypotheses on the square root and the solver are met by the real square root and exact solving, and a result is
returned. -/
example : ∃ (sqrt : ℝ → ℝ) (solve : LinSolve ℝ), SqrtLaw sqrt ∧ Solver solve ∧ ∃ r,
    lazyRandomWalk sqrt solve (1 / 2) 4 [(0, 2), (1, 3)] none [1, 2, 0, 0] [true, true, false, false] = .ok r := by
  have hq : SqrtLaw Real.sqrt := fun x hx => ⟨Real.sqrt_pos.mpr hx, Real.mul_self_sqrt hx.le⟩
  exact ⟨Real.sqrt, idealSolve, hq, idealSolve_solver, three_run _ hq _ idealSolve_solver⟩

end ModSSC.Transductive
