import Verif.Transductive.PoissonModel
import Verif.Transductive.PoissonSpec
import Verif.Transductive.CgProps
import Verif.Transductive.LazyProps
import Mathlib.Algebra.BigOperators.Field

/-!
# Proofs for Poisson learning (C102)
-/

namespace ModSSC.Transductive
open ModSSC Spec

set_option linter.unusedSectionVars false

section
variable {K : Type} [Field K] [LinearOrder K] [IsStrictOrderedRing K] {n : Nat}

/-! ## The operator -/

theorem look_val (x : Fin n → K) (i : Fin n) : look x i.val = x i := by
  unfold look; rw [dif_pos i.isLt]

theorem look_lt (x : Fin n → K) {i : Nat} (hi : i < n) : look x i = x ⟨i, hi⟩ := by
  unfold look; rw [dif_pos hi]

theorem spmv_eq {es : List (WEdge K)} (hes : ∀ e ∈ es, e.src < n) (x : Fin n → K) (i : Fin n) :
    spmv es x i = ∑ j : Fin n, affinity es i.val j.val * x j := by
  unfold spmv
  rw [← affinity_sum hes i.val (look x), Finset.sum_range]
  exact Finset.sum_congr rfl fun j _ => by rw [look_val]

theorem poissonOp_eq {es : List (WEdge K)} (hes : ∀ e ∈ es, e.src < n) (eps : K) (x : Fin n → K) (i : Fin n) :
    poissonOp es eps x i = x i - ∑ j : Fin n, affinity es i.val j.val * x j + eps * x i + (∑ j, x j) / n := by
  unfold poissonOp lapOp
  rw [spmv_eq hes]
  by_cases h : eps = 0
  · rw [if_neg (not_not.2 h), h]; ring
  · rw [if_pos h]

theorem poissonOp_lin {es : List (WEdge K)} (hes : ∀ e ∈ es, e.src < n) (eps : K) :
    LinOp (poissonOp (n := n) es eps) := by
  intro u v a i
  have h1 : ∑ j : Fin n, affinity es i.val j.val * (u j + a * v j) =
      ∑ j : Fin n, affinity es i.val j.val * u j + a * ∑ j : Fin n, affinity es i.val j.val * v j := by
    rw [Finset.mul_sum, ← Finset.sum_add_distrib]
    exact Finset.sum_congr rfl fun j _ => by ring
  have h2 : ∑ j : Fin n, (u j + a * v j) = ∑ j, u j + a * ∑ j, v j := by
    rw [Finset.mul_sum, ← Finset.sum_add_distrib]
  rw [poissonOp_eq hes, poissonOp_eq hes, poissonOp_eq hes, h1, h2]
  ring

theorem poissonOp_inner {es : List (WEdge K)} (hes : ∀ e ∈ es, e.src < n) (eps : K) (u v : Fin n → K) :
    ∑ i, u i * poissonOp es eps v i = ∑ i, u i * v i - ∑ i, ∑ j, affinity es i.val j.val * u i * v j
      + eps * ∑ i, u i * v i + (∑ i, u i) * (∑ i, v i) / n := by
  simp only [poissonOp_eq hes]
  have h1 : ∀ i : Fin n, u i * (v i - ∑ j : Fin n, affinity es i.val j.val * v j + eps * v i + (∑ j, v j) / n) =
      u i * v i - ∑ j, affinity es i.val j.val * u i * v j + eps * (u i * v i) + u i * ((∑ j, v j) / n) := by
    intro i
    have : u i * ∑ j : Fin n, affinity es i.val j.val * v j = ∑ j, affinity es i.val j.val * u i * v j := by
      rw [Finset.mul_sum]
      exact Finset.sum_congr rfl fun j _ => by ring
    rw [← this]; ring
  simp only [h1]
  rw [Finset.sum_add_distrib, Finset.sum_add_distrib, Finset.sum_sub_distrib, ← Finset.mul_sum, ← Finset.sum_mul]
  ring

theorem poissonOp_sym {es : List (WEdge K)} (hes : ∀ e ∈ es, e.src < n) (eps : K)
    (hs : ∀ i j : Fin n, affinity es i.val j.val = affinity es j.val i.val) : SymOp (poissonOp (n := n) es eps) := by
  intro u v
  have e : ∑ i, poissonOp es eps u i * v i = ∑ i, v i * poissonOp es eps u i :=
    Finset.sum_congr rfl fun i _ => mul_comm _ _
  rw [e, poissonOp_inner hes, poissonOp_inner hes]
  have h1 : ∑ i, v i * u i = ∑ i, u i * v i := Finset.sum_congr rfl fun i _ => mul_comm _ _
  have h2 : ∑ i, ∑ j, affinity es i.val j.val * v i * u j = ∑ i, ∑ j, affinity es i.val j.val * u i * v j := by
    rw [Finset.sum_comm]
    exact Finset.sum_congr rfl fun i _ => Finset.sum_congr rfl fun j _ => by rw [hs]; ring
  rw [h1, h2]
  ring

/-- Arithmetic and geometric mean. -/
theorem agm {x y a b q : K} (ha : 0 < a) (hb : 0 < b) (hq : 0 < q) (h : q * q = a * b) :
    2 * (x * y / q) ≤ x * x / a + y * y / b := by
  have h1 : 2 * (x * y) * q ≤ x * x * b + y * y * a := by
    apply le_of_sq_le_sq
    · have e : (2 * (x * y) * q) ^ 2 = 4 * (x * x * b) * (y * y * a) := by
        calc (2 * (x * y) * q) ^ 2 = 4 * (x * x) * (y * y) * (q * q) := by ring
          _ = _ := by rw [h]; ring
      rw [e]
      nlinarith [sq_nonneg (x * x * b - y * y * a)]
    · have := mul_nonneg (mul_self_nonneg x) hb.le
      have := mul_nonneg (mul_self_nonneg y) ha.le
      linarith
  have e1 : x * y / q = x * y * q / (a * b) := by
    rw [← h, mul_div_mul_right _ _ hq.ne']
  have e2 : x * x / a + y * y / b = (x * x * b + y * y * a) / (a * b) := by
    rw [div_add_div _ _ ha.ne' hb.ne']; ring
  rw [e1, e2, ← mul_div_assoc]
  have hab := mul_pos ha hb
  apply (div_le_div_iff_of_pos_right hab).2
  linarith

theorem form_le {W q : Fin n → Fin n → K} {D : Fin n → K} (hW : ∀ i j, 0 ≤ W i j) (hs : ∀ i j, W i j = W j i)
    (hD : ∀ i, 0 < D i) (hr : ∀ i, ∑ j, W i j ≤ D i) (hq : ∀ i j, 0 < q i j) (hqq : ∀ i j, q i j * q i j = D i * D j)
    (x : Fin n → K) : ∑ i, ∑ j, W i j / q i j * x i * x j ≤ ∑ i, x i * x i := by
  have h1 : 2 * ∑ i, ∑ j, W i j / q i j * x i * x j ≤
      ∑ i, ∑ j, (W i j * (x i * x i / D i) + W i j * (x j * x j / D j)) := by
    rw [Finset.mul_sum]
    apply Finset.sum_le_sum
    intro i _
    rw [Finset.mul_sum]
    apply Finset.sum_le_sum
    intro j _
    have := mul_le_mul_of_nonneg_left (agm (x := x i) (y := x j) (hD i) (hD j) (hq i j) (hqq i j)) (hW i j)
    calc 2 * (W i j / q i j * x i * x j) = W i j * (2 * (x i * x j / q i j)) := by ring
      _ ≤ W i j * (x i * x i / D i + x j * x j / D j) := this
      _ = _ := by ring
  have h2 : ∑ i, ∑ j, (W i j * (x i * x i / D i) + W i j * (x j * x j / D j)) =
      2 * ∑ i, (∑ j, W i j) * (x i * x i / D i) := by
    simp only [Finset.sum_add_distrib]
    rw [Finset.sum_comm (f := fun i j => W i j * (x j * x j / D j))]
    have e1 : ∑ i, ∑ j, W j i * (x i * x i / D i) = ∑ i, (∑ j, W i j) * (x i * x i / D i) := by
      refine Finset.sum_congr rfl fun i _ => ?_
      rw [Finset.sum_mul]
      exact Finset.sum_congr rfl fun j _ => by rw [hs]
    have e2 : ∑ i, ∑ j, W i j * (x i * x i / D i) = ∑ i, (∑ j, W i j) * (x i * x i / D i) :=
      Finset.sum_congr rfl fun i _ => by rw [Finset.sum_mul]
    rw [e1, e2]; ring
  have h3 : ∑ i, (∑ j, W i j) * (x i * x i / D i) ≤ ∑ i, x i * x i := by
    apply Finset.sum_le_sum
    intro i _
    have := mul_le_mul_of_nonneg_right (hr i) (div_nonneg (mul_self_nonneg (x i)) (hD i).le)
    rwa [mul_div_cancel₀ _ (hD i).ne'] at this
  linarith

/-! ## Normalised weights -/

theorem normalizeOp_ok {sqrt : K → K} {eps : K} {mode : String} (hm : mode = "rw" ∨ mode = "sym")
    {es es' : List (WEdge K)} (h : normalizeOp sqrt eps mode es = .ok es') :
    ∃ q : Nat → Nat → K, es' = es.map (fun e => ⟨e.src, e.dst, e.w / q e.src e.dst⟩) ∧
      ((mode = "rw" ∧ ∀ i j, q i j = max (degree es j) eps) ∨
       (mode = "sym" ∧ ∀ i j, q i j = sqrt (max (degree es i) eps * max (degree es j) eps))) := by
  unfold normalizeOp at h
  simp only at h
  by_cases h0 : es.length = 0
  · rw [if_pos h0] at h
    obtain rfl := Except.ok.inj h
    rw [List.length_eq_zero_iff] at h0
    subst h0
    rcases hm with rfl | rfl
    · exact ⟨fun _ j => max (degree [] j) eps, rfl, .inl ⟨rfl, fun _ _ => rfl⟩⟩
    · exact ⟨fun i j => sqrt (max (degree [] i) eps * max (degree [] j) eps), rfl, .inr ⟨rfl, fun _ _ => rfl⟩⟩
  rw [if_neg h0] at h
  rcases hm with rfl | rfl
  · rw [if_neg (by decide), if_pos rfl] at h
    obtain rfl := Except.ok.inj h
    exact ⟨fun _ j => max (degree es j) eps, rfl, .inl ⟨rfl, fun _ _ => rfl⟩⟩
  · rw [if_neg (by decide), if_neg (by decide), if_pos rfl] at h
    obtain rfl := Except.ok.inj h
    refine ⟨fun i j => sqrt (max (degree es i) eps * max (degree es j) eps), ?_, .inr ⟨rfl, fun _ _ => rfl⟩⟩
    exact List.map_congr_left fun e _ => by rw [mul_comm]

theorem normalizeOp_total {sqrt : K → K} {eps : K} {mode : String} (es : List (WEdge K)) :
    (∃ es', normalizeOp sqrt eps mode es = .ok es') ↔ es = [] ∨ mode = "none" ∨ mode = "rw" ∨ mode = "sym" := by
  unfold normalizeOp
  simp only
  by_cases h0 : es.length = 0
  · rw [if_pos h0]
    exact ⟨fun _ => .inl (List.length_eq_zero_iff.1 h0), fun _ => ⟨_, rfl⟩⟩
  rw [if_neg h0]
  have h0' : es ≠ [] := fun e => h0 (by rw [e]; rfl)
  by_cases h1 : mode = "none"
  · rw [if_pos h1]; exact ⟨fun _ => .inr (.inl h1), fun _ => ⟨_, rfl⟩⟩
  rw [if_neg h1]
  by_cases h2 : mode = "rw"
  · rw [if_pos h2]; exact ⟨fun _ => .inr (.inr (.inl h2)), fun _ => ⟨_, rfl⟩⟩
  rw [if_neg h2]
  by_cases h3 : mode = "sym"
  · rw [if_pos h3]; exact ⟨fun _ => .inr (.inr (.inr h3)), fun _ => ⟨_, rfl⟩⟩
  rw [if_neg h3]
  constructor
  · rintro ⟨_, h⟩; simp at h
  · rintro (h | h | h | h)
    · exact absurd h h0'
    · exact absurd h h1
    · exact absurd h h2
    · exact absurd h h3

theorem affinity_scaled (es : List (WEdge K)) (q : Nat → Nat → K) (i j : Nat) :
    affinity (es.map fun e => (⟨e.src, e.dst, e.w / q e.src e.dst⟩ : WEdge K)) i j = affinity es i j / q j i := by
  unfold affinity
  rw [List.filter_map, List.map_map]
  induction es with
  | nil => simp
  | cons e es ih =>
    by_cases h : e.dst = i ∧ e.src = j
    · rw [List.filter_cons, List.filter_cons, if_pos (by simpa using h), if_pos (by simpa using h), List.map_cons,
        List.sum_cons, List.map_cons, List.sum_cons, ih, add_div]
      simp only [Function.comp, h.1, h.2]
    · rw [List.filter_cons, List.filter_cons, if_neg (by simpa using h), if_neg (by simpa using h), ih]

theorem degree_eq {es : List (WEdge K)} (hes : ∀ e ∈ es, e.src < n) (i : Nat) :
    degree es i = ∑ j : Fin n, affinity es i j.val := by
  have := affinity_sum hes i fun _ => 1
  simp only [mul_one] at this
  rw [Finset.sum_range] at this
  rw [this]
  rfl

/-! ## Counting -/

theorem range_zip {β : Type} (y : List Int) (mask : List Bool) (hm : mask.length = y.length) (f : Int → Bool → β) :
    (List.range y.length).map (fun j => f (y.getD j (-1)) (mask.getD j false)) =
      (y.zip mask).map fun p => f p.1 p.2 := by
  apply List.ext_getElem
  · simp [hm]
  · intro i h1 h2
    have hi : i < y.length := by simpa using h1
    have hi' : i < mask.length := by omega
    rw [List.getElem_map, List.getElem_range, List.getElem_map, List.getElem_zip, List.getD_eq_getElem _ _ hi,
      List.getD_eq_getElem _ _ hi']

theorem sum_indicator (l : List (Int × Bool)) (c : Nat) :
    (l.map fun p => if p.2 = true ∧ p.1 = (c : Int) then (1 : K) else 0).sum = (l.count ((c : Int), true) : K) := by
  induction l with
  | nil => simp
  | cons p l ih =>
    rw [List.map_cons, List.sum_cons, ih, List.count_cons]
    by_cases h : p.2 = true ∧ p.1 = (c : Int)
    · rw [if_pos h, if_pos (by simp only [beq_iff_eq]; exact Prod.ext h.2 h.1)]
      push_cast; ring
    · rw [if_neg h, if_neg (by simp only [beq_iff_eq]; rintro rfl; exact h ⟨rfl, rfl⟩)]
      push_cast; ring

theorem labeled_len (mask : List Bool) :
    ((List.range mask.length).filter fun i => mask.getD i false).length = mask.count true := by
  have h : (List.range mask.length).map (fun i => mask.getD i false) = mask := by
    apply List.ext_getElem
    · simp
    · intro i h1 h2
      rw [List.getElem_map, List.getElem_range, List.getD_eq_getElem _ _ h2]
  conv_rhs => rw [← h]
  rw [List.count, List.countP_map, List.countP_eq_length_filter]
  congr 1
  apply List.filter_congr
  intro i _
  simp

/-! ## A run -/

/-- What a returned result means. -/
structure PoissonParsed (sqrt : K → K) (floor : K) (n : Int) (ei : List (Int × Int)) (ew : Option (List K))
    (y : List Int) (mask : List Bool) (spec : PoissonSpec K) (es es' : List (WEdge K)) (Y : Mat K)
    (B : Nat → Nat → K) : Prop where
  valid : validateGraph n ei ew = .ok es
  ylen : (y.length : Int) = n
  mlen : (mask.length : Int) = n
  some_label : mask.any id = true
  seed : seedMatrix y mask (poissonClasses y mask) = .ok Y
  sources : buildSources y.length Y mask spec.center = .ok B
  norm : normalizeOp sqrt floor spec.kind es = .ok es'

/-- The solver call for class `c` (poisson_learning.py:149-150). -/
def poissonCg (sqrt : K → K) (y : List Int) (spec : PoissonSpec K) (es' : List (WEdge K)) (B : Nat → Nat → K)
    (c : Nat) : CGResult y.length K :=
  cgSolve sqrt (poissonOp (n := y.length) es' spec.eps) (fun i => B i.val c) none spec.tol spec.maxIter

theorem poissonRun_ok {sqrt : K → K} {floor : K} {n : Int} {ei : List (Int × Int)} {ew : Option (List K)}
    {y : List Int} {mask : List Bool} {spec : PoissonSpec K} {r : Diffusion K}
    (h : poissonRun sqrt floor n ei ew y mask spec = .ok r) :
    ∃ es es' Y B, PoissonParsed sqrt floor n ei ew y mask spec es es' Y B ∧
      r = ⟨tab y.length (poissonClasses y mask) fun i c => look (poissonCg sqrt y spec es' B c).x i,
        (((List.range (poissonClasses y mask)).map fun c => (poissonCg sqrt y spec es' B c).nIter).foldl max 0 : Nat),
        some (((List.range (poissonClasses y mask)).map fun c =>
          (poissonCg sqrt y spec es' B c).residualNorm).foldl max 0)⟩ := by
  unfold poissonRun at h
  obtain ⟨es, hes, h⟩ := ebind_ok.mp h
  simp only at h
  by_cases h1 : (y.length : Int) ≠ n
  · rw [if_pos h1] at h; simp at h
  rw [if_neg h1] at h
  by_cases h2 : (mask.length : Int) ≠ n
  · rw [if_pos h2] at h; simp at h
  rw [if_neg h2] at h
  by_cases h3 : mask.any id = false
  · rw [if_pos h3] at h; simp at h
  rw [if_neg h3] at h
  obtain ⟨Y, hY, h⟩ := ebind_ok.mp h
  obtain ⟨B, hB, h⟩ := ebind_ok.mp h
  obtain ⟨es', hes', h⟩ := ebind_ok.mp h
  exact ⟨es, es', Y, B, ⟨hes, not_not.mp h1, not_not.mp h2, by simpa using h3, hY, hB, hes'⟩,
    (Except.ok.inj h).symm⟩

theorem count_pos_of_any {mask : List Bool} (h : mask.any id = true) : 0 < mask.count true := by
  rw [List.count_pos_iff]
  obtain ⟨b, hb, e⟩ := List.any_eq_true.1 h
  simp only [id] at e
  rwa [e] at hb

theorem any_of_count {mask : List Bool} (h : mask.count true ≠ 0) : mask.any id = true := by
  rw [List.any_eq_true]
  exact ⟨true, List.count_pos_iff.1 (by omega), rfl⟩

theorem buildSources_ok {y : List Int} {mask : List Bool} (hm : mask.length = y.length) {k : Nat} {Y : Mat K}
    (hY : seedMatrix y mask k = .ok Y) {center : Bool} {B : Nat → Nat → K}
    (h : buildSources y.length Y mask center = .ok B) {i c : Nat} (hi : i < y.length) (hc : c < k) :
    B i c = source center y mask c i := by
  obtain ⟨-, -, hY⟩ := seedMatrix_ok hY
  have hget : ∀ j, j < y.length → Y.get j c = if mask.getD j false = true ∧ y.getD j (-1) = (c : Int) then 1 else 0 :=
    fun j hj => by rw [hY, get_tab _ _ _ hj hc]
  unfold buildSources at h
  simp only at h
  by_cases h0 : ((List.range y.length).filter fun i => mask.getD i false).length = 0
  · rw [if_pos h0] at h; simp at h
  rw [if_neg h0] at h
  obtain rfl := Except.ok.inj h
  have hlen : ((List.range y.length).filter fun i => mask.getD i false).length = labeledCount mask := by
    rw [← hm]; exact labeled_len mask
  have hall : ((List.range y.length).map fun j =>
      if mask.getD j false = true ∧ y.getD j (-1) = (c : Int) then (1 : K) else 0).sum = (classCount y mask c : K) := by
    have := range_zip (β := K) y mask hm fun a b => if b = true ∧ a = (c : Int) then 1 else 0
    rw [this, sum_indicator]
    rfl
  have hlab : (((List.range y.length).filter fun i => mask.getD i false).map fun j => Y.get j c).sum =
      (classCount y mask c : K) := by
    rw [← hall, sum_filter_list, sum_range_list, Finset.sum_filter]
    refine Finset.sum_congr rfl fun j hj => ?_
    by_cases hmj : mask.getD j false = true
    · rw [if_pos hmj, hget j (Finset.mem_range.1 hj)]
    · rw [if_neg hmj, if_neg (fun e => hmj e.1)]
  have hmi : mask[i]? = some (mask.getD i false) := by
    rw [List.getD_eq_getElem _ _ (by omega), List.getElem?_eq_getElem (by omega)]
  have hyi : y[i]? = some (y.getD i (-1)) := by
    rw [List.getD_eq_getElem _ _ hi, List.getElem?_eq_getElem hi]
  unfold source
  simp only
  rw [hmi, hyi, hlab, hlen, hget i hi]
  simp only [Option.some.injEq]
  by_cases hc' : center = true
  · rw [if_pos hc', if_pos hc']
    by_cases hb : mask.getD i false = true
    · by_cases hy : y.getD i (-1) = (c : Int)
      · rw [if_pos hb, if_pos ⟨hb, hy⟩, if_pos ⟨hb, hy⟩]; ring
      · rw [if_pos hb, if_neg (fun e => hy e.2), if_neg (fun e => hy e.2), if_pos hb]; ring
    · rw [if_neg hb, if_neg (fun e => hb e.1), if_neg (fun e => hb e.1), if_neg hb]; ring
  · rw [if_neg hc', if_neg hc']
    have e : ((List.range y.length).map fun j => (if mask.getD j false = true then (1 : K) else 0) * Y.get j c).sum =
        (classCount y mask c : K) := by
      rw [← hall]
      congr 1
      apply List.map_congr_left
      intro j hj
      rw [hget j (List.mem_range.1 hj)]
      by_cases hb : mask.getD j false = true
      · rw [if_pos hb, one_mul]
      · rw [if_neg hb, if_neg (fun e => hb e.1), zero_mul]
    rw [e]
    by_cases hb : mask.getD i false = true
    · rw [if_pos hb, one_mul]
    · rw [if_neg hb, if_neg (fun e => hb e.1), zero_mul]

namespace PoissonParsed
variable {sqrt : K → K} {floor : K} {n : Int} {ei : List (Int × Int)} {ew : Option (List K)}
    {y : List Int} {mask : List Bool} {spec : PoissonSpec K} {es es' : List (WEdge K)} {Y : Mat K}
    {B : Nat → Nat → K}

theorem lens (P : PoissonParsed sqrt floor n ei ew y mask spec es es' Y B) : mask.length = y.length := by
  have := P.ylen; have := P.mlen; omega

theorem edges (P : PoissonParsed sqrt floor n ei ew y mask spec es es' Y B) :
    es.map (fun e => ((e.src : Int), (e.dst : Int), e.w)) = edgesOf ei ew := (validateGraph_ok P.valid).2.2.1

theorem src_lt (P : PoissonParsed sqrt floor n ei ew y mask spec es es' Y B) : ∀ e ∈ es, e.src < y.length := by
  intro e he
  have := ((validateGraph_ok P.valid).2.2.2 e he).1
  have := P.ylen
  omega

theorem src_lt' (P : PoissonParsed sqrt floor n ei ew y mask spec es es' Y B)
    (hk : spec.kind = "rw" ∨ spec.kind = "sym") : ∀ e ∈ es', e.src < y.length := by
  obtain ⟨q, rfl, -⟩ := normalizeOp_ok hk P.norm
  intro e he
  obtain ⟨e', he', rfl⟩ := List.mem_map.1 he
  exact P.src_lt e' he'

theorem in_weight (P : PoissonParsed sqrt floor n ei ew y mask spec es es' Y B) (j : Nat) :
    inWeight (edgesOf ei ew) (j : Int) = degree es j := by
  unfold inWeight degree
  rw [← P.edges, List.filter_map, List.map_map]
  have hf : es.filter ((fun e : Int × Int × K => decide (e.2.1 = (j : Int))) ∘
      fun e : WEdge K => ((e.src : Int), (e.dst : Int), e.w)) = es.filter fun e => decide (e.dst = j) := by
    apply List.filter_congr
    intro e _
    simp
  rw [hf]
  rfl

/-- The left-hand side of the equation is the operator. -/
theorem lhs_eq (P : PoissonParsed sqrt floor n ei ew y mask spec es es' Y B)
    (hk : spec.kind = "rw" ∨ spec.kind = "sym") (x : Fin y.length → K) (i : Fin y.length) :
    poissonLhs sqrt floor spec.kind (edgesOf ei ew) spec.eps y.length (look x) i.val = poissonOp es' spec.eps x i := by
  rw [poissonOp_eq (P.src_lt' hk)]
  unfold poissonLhs
  rw [look_val, sum_range_list, Finset.sum_range]
  have e1 : ∑ j : Fin y.length, look x j.val = ∑ j, x j := Finset.sum_congr rfl fun j _ => look_val x j
  have e2 : (((edgesOf ei ew).filter fun e => e.2.1 = (i.val : Int)).map fun e =>
      transition sqrt floor spec.kind (edgesOf ei ew) e * look x e.1.toNat).sum =
      ∑ j : Fin y.length, affinity es' i.val j.val * x j := by
    have h0 : ∑ j : Fin y.length, affinity es' i.val j.val * x j = spmv es' x i := (spmv_eq (P.src_lt' hk) x i).symm
    rw [h0]
    unfold spmv
    obtain ⟨q, rfl, hq⟩ := normalizeOp_ok hk P.norm
    conv_lhs => rw [← P.edges]
    rw [List.filter_map, List.map_map, List.filter_map, List.map_map]
    have hf : es.filter ((fun e : Int × Int × K => decide (e.2.1 = (i.val : Int))) ∘
        fun e : WEdge K => ((e.src : Int), (e.dst : Int), e.w)) = es.filter ((fun e : WEdge K => decide (e.dst = i.val)) ∘
          fun e : WEdge K => ⟨e.src, e.dst, e.w / q e.src e.dst⟩) := by
      apply List.filter_congr
      intro e _
      simp
    rw [hf]
    congr 1
    apply List.map_congr_left
    intro e _
    simp only [Function.comp, Int.toNat_natCast]
    congr 1
    unfold transition
    simp only
    rw [P.edges, P.in_weight, P.in_weight]
    rcases hq with ⟨h1, h2⟩ | ⟨h1, h2⟩
    · rw [if_pos h1, h2]
    · rw [if_neg (by rw [h1]; decide), h2]
  rw [e1, e2]

/-- The gap of the equation is the residual of the solver. -/
theorem gap_eq (P : PoissonParsed sqrt floor n ei ew y mask spec es es' Y B)
    (hk : spec.kind = "rw" ∨ spec.kind = "sym") {F : Mat K} {x : Nat → Fin y.length → K}
    (hF : F = tab y.length (poissonClasses y mask) fun i c => look (x c) i) {c : Nat}
    (hc : c < poissonClasses y mask) :
    poissonGap sqrt floor spec.kind (edgesOf ei ew) spec.eps spec.center y mask F c =
      residualSq (poissonOp es' spec.eps) (fun i => B i.val c) (x c) := by
  unfold poissonGap residualSq
  rw [sum_range_list, Finset.sum_range]
  refine Finset.sum_congr rfl fun i _ => ?_
  have e1 : ∀ j, j < y.length → F.get j c = look (x c) j := fun j hj => by rw [hF, get_tab _ _ _ hj hc]
  have e2 : poissonLhs sqrt floor spec.kind (edgesOf ei ew) spec.eps y.length (fun j => F.get j c) i.val =
      poissonLhs sqrt floor spec.kind (edgesOf ei ew) spec.eps y.length (look (x c)) i.val := by
    unfold poissonLhs
    have e3 : (List.range y.length).map (fun j => F.get j c) = (List.range y.length).map (look (x c)) :=
      List.map_congr_left fun j hj => e1 j (List.mem_range.1 hj)
    have e4 : ((edgesOf ei ew).filter fun e => e.2.1 = (i.val : Int)).map (fun e =>
          transition sqrt floor spec.kind (edgesOf ei ew) e * F.get e.1.toNat c) =
        ((edgesOf ei ew).filter fun e => e.2.1 = (i.val : Int)).map (fun e =>
          transition sqrt floor spec.kind (edgesOf ei ew) e * look (x c) e.1.toNat) := by
      apply List.map_congr_left
      intro e he
      have he := (List.mem_filter.1 he).1
      rw [← P.edges] at he
      obtain ⟨e', he', rfl⟩ := List.mem_map.1 he
      simp only [Int.toNat_natCast]
      rw [e1 _ (P.src_lt e' he')]
    simp only
    rw [e3, e4, e1 _ i.isLt]
  simp only
  rw [e2, P.lhs_eq hk, buildSources_ok P.lens P.seed P.sources i.isLt hc]

/-- The operator of a symmetric graph is symmetric and positive. -/
theorem spd (P : PoissonParsed sqrt floor n ei ew y mask spec es es' Y B) (hq : RootLaw sqrt) (hf : 0 < floor)
    (hk : spec.kind = "sym") (hw : ∀ e ∈ edgesOf ei ew, 0 ≤ e.2.2) (hs : SymmetricGraph (edgesOf ei ew))
    (heps : 0 < spec.eps) :
    SymOp (poissonOp (n := y.length) es' spec.eps) ∧ PosOp (poissonOp (n := y.length) es' spec.eps) := by
  have hes' := P.src_lt' (.inr hk)
  obtain ⟨q, rfl, hq'⟩ := normalizeOp_ok (.inr hk) P.norm
  have hq' : ∀ i j, q i j = sqrt (max (degree es i) floor * max (degree es j) floor) := by
    rcases hq' with ⟨h, _⟩ | ⟨_, h⟩
    · rw [hk] at h; exact absurd h (by decide)
    · exact h
  have hW : ∀ i j, 0 ≤ affinity es i j := by
    intro i j
    apply affinity_nonneg
    intro e he
    exact hw _ (by rw [← P.edges]; exact List.mem_map.2 ⟨e, he, rfl⟩)
  have hWs : ∀ i j, affinity es i j = affinity es j i := by
    intro i j
    rw [affinity_spec P.edges, affinity_spec P.edges]
    exact hs _ _
  have hD : ∀ i, 0 < max (degree es i) floor := fun i => lt_of_lt_of_le hf (le_max_right _ _)
  have hqs : ∀ i j, q i j = q j i := fun i j => by rw [hq', hq', mul_comm]
  have hqq : ∀ i j, q i j * q i j = max (degree es i) floor * max (degree es j) floor := fun i j => by
    rw [hq']; exact (hq _ (mul_pos (hD i) (hD j)).le).2
  have hqp : ∀ i j, 0 < q i j := fun i j => by
    have h1 : 0 ≤ q i j := by rw [hq']; exact (hq _ (mul_pos (hD i) (hD j)).le).1
    rcases h1.lt_or_eq with h | h
    · exact h
    · have := hqq i j
      rw [← h, zero_mul] at this
      exact absurd this (mul_pos (hD i) (hD j)).ne
  refine ⟨poissonOp_sym hes' _ fun i j => ?_, fun u hu => ?_⟩
  · rw [affinity_scaled, affinity_scaled, hWs, hqs]
  · rw [poissonOp_inner hes']
    have h1 : ∑ i, ∑ j, affinity (es.map fun e => (⟨e.src, e.dst, e.w / q e.src e.dst⟩ : WEdge K))
        (i : Fin y.length).val (j : Fin y.length).val * u i * u j ≤ ∑ i, u i * u i := by
      simp only [affinity_scaled]
      refine form_le (W := fun i j => affinity es i.val j.val) (q := fun i j => q j.val i.val)
        (D := fun i => max (degree es i.val) floor) (fun i j => hW _ _) (fun i j => hWs _ _) (fun i => hD _)
        (fun i => ?_) (fun i j => hqp _ _) (fun i j => ?_) u
      · rw [← degree_eq P.src_lt]; exact le_max_left _ _
      · rw [hqq, mul_comm]
    have h2 : 0 < ∑ i, u i * u i := by
      obtain ⟨i, hi⟩ := hu
      exact Finset.sum_pos' (fun i _ => mul_self_nonneg _) ⟨i, Finset.mem_univ i, mul_self_pos.2 hi⟩
    have h3 : 0 ≤ (∑ i, u i) * (∑ i, u i) / (y.length : K) := div_nonneg (mul_self_nonneg _) (Nat.cast_nonneg _)
    have h4 := mul_pos heps h2
    linarith

end PoissonParsed

/-! ## C102 -/

theorem foldl_max_gen {α : Type} [LinearOrder α] (l : List α) (a : α) :
    a ≤ l.foldl max a ∧ (∀ c ∈ l, c ≤ l.foldl max a) ∧ (l.foldl max a = a ∨ l.foldl max a ∈ l) := by
  induction l generalizing a with
  | nil => exact ⟨le_refl _, fun _ h => by simp at h, .inl rfl⟩
  | cons b l ih =>
    rw [List.foldl_cons]
    obtain ⟨h1, h2, h3⟩ := ih (max a b)
    refine ⟨le_trans (le_max_left _ _) h1, fun c hc => ?_, ?_⟩
    · rcases List.mem_cons.1 hc with rfl | hc
      · exact le_trans (le_max_right _ _) h1
      · exact h2 c hc
    · rcases h3 with h3 | h3
      · rcases max_choice a b with h | h
        · rw [h3]; exact .inl h
        · rw [h3, h]; exact .inr (List.mem_cons_self ..)
      · exact .inr (List.mem_cons_of_mem _ h3)

theorem poissonLearning_run {th : Bool} {sqrt : K → K} {floor : K} {n : Int} {ei : List (Int × Int)}
    {ew : Option (List K)} {y : List Int} {mask : List Bool} {spec : PoissonSpec K} {r : Diffusion K}
    (h : poissonLearning th sqrt floor n ei ew y mask spec = .ok r) :
    poissonRun sqrt floor n ei ew y mask spec = .ok r := by
  unfold poissonLearning at h
  simp only at h
  generalize (if spec.backend = "auto" then (if th then "torch" else "numpy") else spec.backend) = b at h
  by_cases h1 : b = "numpy"
  · rwa [if_pos h1] at h
  rw [if_neg h1] at h
  by_cases h2 : b = "torch"
  · rw [if_pos h2] at h
    by_cases h3 : th = false
    · rw [if_pos h3] at h; simp at h
    rw [if_neg h3] at h
    by_cases h4 : ew.isNone = true
    · rw [if_pos h4] at h; simp at h
    rwa [if_neg h4] at h
  · rw [if_neg h2] at h; simp at h

theorem mem_labeledAll {y : List Int} {mask : List Bool} {c : Int} :
    c ∈ ((y.zip mask).filter fun p => p.2).map (·.1) ↔ ∃ i : Nat, mask[i]? = some true ∧ y[i]? = some c := by
  simp only [List.mem_map, List.mem_filter]
  constructor
  · rintro ⟨p, ⟨hp, hb⟩, rfl⟩
    obtain ⟨i, hi⟩ := List.mem_iff_getElem?.1 hp
    obtain ⟨h1, h2⟩ := List.getElem?_zip_eq_some.1 hi
    exact ⟨i, by rw [h2, hb], h1⟩
  · rintro ⟨i, h1, h2⟩
    exact ⟨(c, true), ⟨List.mem_iff_getElem?.2 ⟨i, List.getElem?_zip_eq_some.2 ⟨h2, h1⟩⟩, rfl⟩, rfl⟩

theorem poissonClasses_spec (y : List Int) (mask : List Bool) : DistinctLabels y mask (poissonClasses y mask) := by
  refine ⟨npUnique (((y.zip mask).filter fun p => p.2).map (·.1)), ?_, rfl, fun c => ?_⟩
  · exact nodup_npUnique _
  · rw [mem_npUnique]; exact mem_labeledAll

theorem distinct_unique {y : List Int} {mask : List Bool} {k k' : Nat} (h : DistinctLabels y mask k)
    (h' : DistinctLabels y mask k') : k = k' := by
  obtain ⟨L, h1, rfl, h3⟩ := h
  obtain ⟨L', h1', rfl, h3'⟩ := h'
  exact (List.perm_of_nodup_nodup_toFinset_eq h1 h1' (by ext c; rw [List.mem_toFinset, List.mem_toFinset, h3, h3'])).length_eq

/-- **C102**: the scores are a matrix with one row per node and one column per different label of the labeled nodes; the
residual returned bounds the error of every column in the Poisson equation and is that of one of them; no more than
`max_iter` rounds are made. -/
theorem C102_system (th : Bool) (sqrt : K → K) (hq : RootLaw sqrt) (floor : K) (n : Int) (ei : List (Int × Int))
    (ew : Option (List K)) (y : List Int) (mask : List Bool) (spec : PoissonSpec K)
    (hk : spec.kind = "rw" ∨ spec.kind = "sym") (r : Diffusion K)
    (h : poissonLearning th sqrt floor n ei ew y mask spec = .ok r) :
    ∃ k, DistinctLabels y mask k ∧ HasShape r.F y.length k ∧ (0 ≤ r.nIter ∧ r.nIter ≤ max 0 spec.maxIter) ∧
      ∃ ρ, r.residual = some ρ ∧ 0 ≤ ρ ∧
        (∀ c < k, poissonGap sqrt floor spec.kind (edgesOf ei ew) spec.eps spec.center y mask r.F c ≤ ρ * ρ) ∧
        ∃ c < k, poissonGap sqrt floor spec.kind (edgesOf ei ew) spec.eps spec.center y mask r.F c = ρ * ρ := by
  obtain ⟨es, es', Y, B, P, rfl⟩ := poissonRun_ok (poissonLearning_run h)
  have hk0 : 0 < poissonClasses y mask := (seedMatrix_ok P.seed).1
  have hlin := poissonOp_lin (n := y.length) (P.src_lt' hk) spec.eps
  have F := fun c => C101_residual hq hlin (fun i => B i.val c) none spec.tol spec.maxIter
  have hgap : ∀ c < poissonClasses y mask, poissonGap sqrt floor spec.kind (edgesOf ei ew) spec.eps spec.center y mask
      (tab y.length (poissonClasses y mask) fun i c => look (poissonCg sqrt y spec es' B c).x i) c =
      (poissonCg sqrt y spec es' B c).residualNorm * (poissonCg sqrt y spec es' B c).residualNorm := fun c hc => by
    rw [P.gap_eq hk (x := fun c => (poissonCg sqrt y spec es' B c).x) rfl hc]
    exact (F c).2.1.symm
  have hpos : ∀ c, 0 ≤ (poissonCg sqrt y spec es' B c).residualNorm := fun c => (F c).1
  refine ⟨poissonClasses y mask, poissonClasses_spec y mask, tab_shape _ _ _, ⟨Int.natCast_nonneg _, ?_⟩, _, rfl, ?_, ?_, ?_⟩
  · simp only
    rcases (foldl_max_gen ((List.range (poissonClasses y mask)).map fun c => (poissonCg sqrt y spec es' B c).nIter) 0).2.2
      with h' | h'
    · rw [h']; simp
    · obtain ⟨c, _, hc⟩ := List.mem_map.1 h'
      rw [← hc]
      exact (F c).2.2.1
  · exact (foldl_max_gen _ _).1
  · intro c hc
    rw [hgap c hc]
    have := (foldl_max_gen ((List.range (poissonClasses y mask)).map fun c =>
      (poissonCg sqrt y spec es' B c).residualNorm) 0).2.1 _ (List.mem_map.2 ⟨c, List.mem_range.2 hc, rfl⟩)
    exact mul_self_le_mul_self (hpos c) this
  · obtain ⟨h1, h2, h3⟩ := foldl_max_gen ((List.range (poissonClasses y mask)).map fun c =>
      (poissonCg sqrt y spec es' B c).residualNorm) 0
    rcases h3 with h3 | h3
    · refine ⟨0, hk0, ?_⟩
      rw [hgap 0 hk0, h3]
      have := h2 _ (List.mem_map.2 ⟨0, List.mem_range.2 hk0, rfl⟩)
      rw [h3] at this
      rw [le_antisymm this (hpos 0)]
    · obtain ⟨c, hc, e⟩ := List.mem_map.1 h3
      exact ⟨c, List.mem_range.1 hc, by rw [hgap c (List.mem_range.1 hc), ← e]⟩

/-- **C102**: on a symmetric graph with weights that are not negative, with the symmetric Laplacian, a positive ridge
and at least as many rounds as nodes, every column solves the Poisson equation up to the tolerance. -/
theorem C102_solves_partial (th : Bool) (sqrt : K → K) (hq : RootLaw sqrt) (floor : K) (hf : 0 < floor) (n : Int)
    (ei : List (Int × Int)) (ew : Option (List K)) (y : List Int) (mask : List Bool) (spec : PoissonSpec K)
    (hk : spec.kind = "sym") (hw : ∀ e ∈ edgesOf ei ew, 0 ≤ e.2.2) (hs : SymmetricGraph (edgesOf ei ew))
    (heps : 0 < spec.eps) (htol : 0 ≤ spec.tol) (hm : n ≤ spec.maxIter) (r : Diffusion K)
    (h : poissonLearning th sqrt floor n ei ew y mask spec = .ok r) :
    (∃ ρ, r.residual = some ρ ∧ ρ ≤ spec.tol) ∧ r.nIter ≤ n ∧
    ∀ k, DistinctLabels y mask k → ∀ c < k,
      poissonGap sqrt floor spec.kind (edgesOf ei ew) spec.eps spec.center y mask r.F c ≤ spec.tol * spec.tol := by
  obtain ⟨k0, hk0, _, _, ρ, hρ, hρ0, hall, _⟩ := C102_system th sqrt hq floor n ei ew y mask spec (.inr hk) r h
  obtain ⟨es, es', Y, B, P, rfl⟩ := poissonRun_ok (poissonLearning_run h)
  obtain ⟨hS, hP⟩ := P.spd hq hf hk hw hs heps
  have hlin := poissonOp_lin (n := y.length) (P.src_lt' (.inr hk)) spec.eps
  have F := fun c => C101_residual hq hlin (fun i => B i.val c) none spec.tol spec.maxIter
  have G := fun c => C101_converges hq hS hP (fun i => B i.val c) none htol (maxIter := spec.maxIter) (by have := P.ylen; omega)
  have hle : ∀ c, (poissonCg sqrt y spec es' B c).residualNorm ≤ spec.tol := by
    intro c
    rcases (F c).2.2.2 (G c).1 with h' | h'
    · exact h'
    · have h2 := (F c).2.1
      have : residualSq (poissonOp es' spec.eps) (fun i => B i.val c) (poissonCg sqrt y spec es' B c).x = 0 :=
        Finset.sum_eq_zero fun i _ => by
          rw [show poissonOp es' spec.eps (poissonCg sqrt y spec es' B c).x i = B i.val c from h' i]; ring
      have h3 : (poissonCg sqrt y spec es' B c).residualNorm = 0 := mul_self_eq_zero.1 (h2.trans this)
      rw [h3]; exact htol
  have hρt : ρ ≤ spec.tol := by
    have e := Option.some.inj hρ
    rw [← e]
    rcases (foldl_max_gen ((List.range (poissonClasses y mask)).map fun c =>
      (poissonCg sqrt y spec es' B c).residualNorm) 0).2.2 with h' | h'
    · rw [h']; exact htol
    · obtain ⟨c, _, hc⟩ := List.mem_map.1 h'
      rw [← hc]; exact hle c
  refine ⟨⟨ρ, hρ, hρt⟩, ?_, fun k hk' c hc => ?_⟩
  · simp only
    rcases (foldl_max_gen ((List.range (poissonClasses y mask)).map fun c => (poissonCg sqrt y spec es' B c).nIter) 0).2.2
      with h' | h'
    · rw [h']; have := P.ylen; omega
    · obtain ⟨c, _, hc⟩ := List.mem_map.1 h'
      rw [← hc, ← P.ylen]
      exact Int.ofNat_le.2 (G c).2
  · obtain rfl := distinct_unique hk0 hk'
    exact le_trans (hall c hc) (mul_self_le_mul_self hρ0 hρt)

theorem gap_zero {sqrt : K → K} {floor : K} {kind : String} {es : List (Int × Int × K)} {eps : K} {center : Bool}
    {y : List Int} {mask : List Bool} {F : Mat K} {c : Nat}
    (h : poissonGap sqrt floor kind es eps center y mask F c ≤ 0) {i : Nat} (hi : i < y.length) :
    poissonLhs sqrt floor kind es eps y.length (fun j => F.get j c) i = source center y mask c i := by
  unfold poissonGap at h
  rw [sum_range_list] at h
  have h0 := le_antisymm h (Finset.sum_nonneg fun i _ => mul_self_nonneg _)
  have := (Finset.sum_eq_zero_iff_of_nonneg fun i _ => mul_self_nonneg _).1 h0 i (Finset.mem_range.2 hi)
  exact (sub_eq_zero.1 (mul_self_eq_zero.1 this)).symm

/-- **C102**: with tolerance zero the columns are the exact solutions of the Poisson equations. -/
theorem C102_exact_partial (th : Bool) (sqrt : K → K) (hq : RootLaw sqrt) (floor : K) (hf : 0 < floor) (n : Int)
    (ei : List (Int × Int)) (ew : Option (List K)) (y : List Int) (mask : List Bool) (spec : PoissonSpec K)
    (hk : spec.kind = "sym") (hw : ∀ e ∈ edgesOf ei ew, 0 ≤ e.2.2) (hs : SymmetricGraph (edgesOf ei ew))
    (heps : 0 < spec.eps) (htol : spec.tol = 0) (hm : n ≤ spec.maxIter) (r : Diffusion K)
    (h : poissonLearning th sqrt floor n ei ew y mask spec = .ok r) (k : Nat) (hk' : DistinctLabels y mask k) :
    ∀ c < k, ∀ i < y.length, poissonLhs sqrt floor spec.kind (edgesOf ei ew) spec.eps y.length (fun j => r.F.get j c) i =
      source spec.center y mask c i := by
  intro c hc i hi
  have := (C102_solves_partial th sqrt hq floor hf n ei ew y mask spec hk hw hs heps htol.ge hm r h).2.2 k hk' c hc
  rw [htol, mul_zero] at this
  exact gap_zero this hi

theorem lhs_congr {sqrt : K → K} {floor : K} {kind : String} {es : List (Int × Int × K)} {eps : K} {n : Nat}
    (k : Nat) (F : Nat → Nat → K) (i : Nat) :
    poissonLhs sqrt floor kind es eps n (fun j => ∑ c ∈ Finset.range k, F j c) i =
      ∑ c ∈ Finset.range k, poissonLhs sqrt floor kind es eps n (fun j => F j c) i := by
  unfold poissonLhs
  simp only
  rw [Finset.sum_add_distrib, Finset.sum_add_distrib, Finset.sum_sub_distrib, ← Finset.mul_sum, ← Finset.sum_div]
  congr 1
  · congr 1
    congr 1
    generalize (es.filter fun e => e.2.1 = (i : Int)) = l
    induction l with
    | nil => simp
    | cons e l ih =>
      simp only [List.map_cons, List.sum_cons]
      rw [ih, Finset.sum_add_distrib, Finset.mul_sum]
  · congr 1
    simp only [sum_range_list]
    rw [Finset.sum_comm]

theorem zip_count {y : List Int} {mask : List Bool} {k : Nat}
    (h : ∀ (i : Nat) (c : Int), mask[i]? = some true → y[i]? = some c → 0 ≤ c ∧ c < (k : Int)) (hm : mask.length = y.length) :
    ∑ c ∈ Finset.range k, classCount y mask c = labeledCount mask := by
  unfold classCount labeledCount
  induction mask generalizing y with
  | nil => simp
  | cons b mask ih =>
    cases y with
    | nil => simp at hm
    | cons a y =>
      have ih := ih (y := y) (fun i c h1 h2 => h (i + 1) c (by simpa using h1) (by simpa using h2)) (by simpa using hm)
      simp only [List.zip_cons_cons, List.count_cons]
      rw [Finset.sum_add_distrib, ih]
      congr 1
      cases b with
      | false => simp
      | true =>
        obtain ⟨h1, h2⟩ := h 0 a (by simp) (by simp)
        have e : ∀ c ∈ Finset.range k, (if ((a, true) == ((c : Int), true)) = true then 1 else 0) =
            if c = a.toNat then 1 else 0 := by
          intro c _
          simp only [beq_iff_eq, Prod.mk.injEq, and_true]
          by_cases hc : c = a.toNat
          · rw [if_pos hc, if_pos (by omega)]
          · rw [if_neg hc, if_neg (by omega)]
        rw [Finset.sum_congr rfl e, Finset.sum_ite_eq' , if_pos (Finset.mem_range.2 (by omega))]
        simp

theorem source_rowsum {y : List Int} {mask : List Bool} {k : Nat}
    (h : ∀ (i : Nat) (c : Int), mask[i]? = some true → y[i]? = some c → 0 ≤ c ∧ c < (k : Int))
    (hm : mask.length = y.length) (hl : 0 < labeledCount mask) {i : Nat} (hi : i < y.length) :
    ∑ c ∈ Finset.range k, source (K := K) true y mask c i = 0 := by
  have hm0 : (labeledCount mask : K) ≠ 0 := Nat.cast_ne_zero.2 hl.ne'
  have htot : ∑ c ∈ Finset.range k, (classCount y mask c : K) / labeledCount mask = 1 := by
    rw [← Finset.sum_div, ← Nat.cast_sum, zip_count h hm, div_self hm0]
  by_cases hb : mask[i]? = some true
  · have hy : y[i]? = some y[i] := List.getElem?_eq_getElem hi
    obtain ⟨h1, h2⟩ := h i _ hb hy
    have e : ∀ c ∈ Finset.range k, source (K := K) true y mask c i =
        (if c = y[i].toNat then 1 else 0) - (classCount y mask c : K) / labeledCount mask := by
      intro c _
      unfold source
      rw [if_pos rfl]
      by_cases hc : c = y[i].toNat
      · rw [if_pos ⟨hb, by rw [hy]; congr 1; omega⟩, if_pos hc]
      · rw [if_neg (fun e => hc (by have := e.2; rw [hy] at this; have := Option.some.inj this; omega)), if_pos hb,
          if_neg hc]
        ring
    rw [Finset.sum_congr rfl e, Finset.sum_sub_distrib, htot, Finset.sum_ite_eq',
      if_pos (Finset.mem_range.2 (by omega)), sub_self]
  · apply Finset.sum_eq_zero
    intro c _
    unfold source
    rw [if_pos rfl, if_neg (fun e => hb e.1), if_neg hb]

/-- **C102 (violated)**: what `predict_proba` returns is never a matrix of probabilities.  On a symmetric graph, solved
exactly, with centered sources and labeled nodes that all have a class, the scores of every node sum to zero. -/
theorem C102_proba_violated (th : Bool) (sqrt : K → K) (hq : RootLaw sqrt) (floor : K) (hf : 0 < floor) (n : Int)
    (ei : List (Int × Int)) (ew : Option (List K)) (y : List Int) (mask : List Bool) (spec : PoissonSpec K)
    (hk : spec.kind = "sym") (hw : ∀ e ∈ edgesOf ei ew, 0 ≤ e.2.2) (hs : SymmetricGraph (edgesOf ei ew))
    (heps : 0 < spec.eps) (htol : spec.tol = 0) (hm : n ≤ spec.maxIter) (hc : spec.center = true)
    (hl : ∀ (i : Nat) (c : Int), mask[i]? = some true → y[i]? = some c → 0 ≤ c) (r : Diffusion K)
    (h : poissonLearning th sqrt floor n ei ew y mask spec = .ok r) :
    ∀ row ∈ r.F, row.sum = 0 := by
  obtain ⟨k, hk0, hshape, _⟩ := C102_system th sqrt hq floor n ei ew y mask spec (.inr hk) r h
  have hex := C102_exact_partial th sqrt hq floor hf n ei ew y mask spec hk hw hs heps htol hm r h k hk0
  obtain ⟨es, es', Y, B, P, rfl⟩ := poissonRun_ok (poissonLearning_run h)
  obtain rfl := distinct_unique hk0 (poissonClasses_spec y mask)
  obtain ⟨hS, hP⟩ := P.spd hq hf hk hw hs heps
  generalize hF : (tab y.length (poissonClasses y mask) fun i c => look (poissonCg sqrt y spec es' B c).x i) = F at *
  simp only at hshape hex ⊢
  have hlab : ∀ (i : Nat) (c : Int), mask[i]? = some true → y[i]? = some c →
      0 ≤ c ∧ c < (poissonClasses y mask : Int) := fun i c h1 h2 =>
    ⟨hl i c h1 h2, (seedMatrix_ok P.seed).2.1 c (List.mem_of_getElem? h2)⟩
  -- the row sums solve the homogeneous equation
  let G : Fin y.length → K := fun i => ∑ c ∈ Finset.range (poissonClasses y mask), F.get i.val c
  have hG : ∀ i, poissonOp es' spec.eps G i = 0 := by
    intro i
    rw [← P.lhs_eq (.inr hk)]
    have e1 : poissonLhs sqrt floor spec.kind (edgesOf ei ew) spec.eps y.length (look G) i.val =
        poissonLhs sqrt floor spec.kind (edgesOf ei ew) spec.eps y.length
          (fun j => ∑ c ∈ Finset.range (poissonClasses y mask), F.get j c) i.val := by
      have e0 : ∀ j, j < y.length → look G j = ∑ c ∈ Finset.range (poissonClasses y mask), F.get j c := fun j hj => by
        rw [look_lt _ hj]
      unfold poissonLhs
      have e3 : (List.range y.length).map (look G) = (List.range y.length).map
          (fun j => ∑ c ∈ Finset.range (poissonClasses y mask), F.get j c) :=
        List.map_congr_left fun j hj => e0 j (List.mem_range.1 hj)
      have e4 : ((edgesOf ei ew).filter fun e => e.2.1 = (i.val : Int)).map (fun e =>
            transition sqrt floor spec.kind (edgesOf ei ew) e * look G e.1.toNat) =
          ((edgesOf ei ew).filter fun e => e.2.1 = (i.val : Int)).map (fun e =>
            transition sqrt floor spec.kind (edgesOf ei ew) e *
              ∑ c ∈ Finset.range (poissonClasses y mask), F.get e.1.toNat c) := by
        apply List.map_congr_left
        intro e he
        have he := (List.mem_filter.1 he).1
        rw [← P.edges] at he
        obtain ⟨e', he', rfl⟩ := List.mem_map.1 he
        simp only [Int.toNat_natCast]
        rw [e0 _ (P.src_lt e' he')]
      simp only
      rw [e3, e4, e0 _ i.isLt]
    rw [e1, lhs_congr]
    rw [Finset.sum_congr rfl fun c hc' => hex c (Finset.mem_range.1 hc') i.val i.isLt, hc]
    exact source_rowsum hlab P.lens (count_pos_of_any P.some_label) i.isLt
  have hG0 : ∀ i, G i = 0 := by
    by_contra hne
    push Not at hne
    have := hP G hne
    rw [Finset.sum_eq_zero fun i _ => by rw [hG i, mul_zero]] at this
    exact lt_irrefl _ this
  intro row hrow
  obtain ⟨i, hi, rfl⟩ := row_eq hshape hrow
  rw [sum_range_list]
  exact hG0 ⟨i, hi⟩

end

end ModSSC.Transductive
