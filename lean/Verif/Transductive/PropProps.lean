import Verif.Transductive.PropModel
import Verif.Transductive.PropSpec
import Verif.ExceptLemmas
import Verif.ListLemmas
import Mathlib.Data.List.GetD
import Mathlib.Logic.Function.Iterate
import Mathlib.Algebra.BigOperators.Ring.List
import Mathlib.Tactic.Linarith
import Mathlib.Tactic.Positivity
import Mathlib.Tactic.Ring
import Mathlib.Tactic.FieldSimp

/-!
# Properties of label propagation and label spreading
-/

set_option linter.unusedSectionVars false

namespace ModSSC.Transductive
open ModSSC Spec

section
variable {K : Type} [Field K] [LinearOrder K]

/-! ### Arrays -/

theorem get_tab (n d : Nat) (f : Nat → Nat → K) {i c : Nat} (hi : i < n) (hc : c < d) :
    (tab n d f).get i c = f i c := by
  unfold tab Mat.get
  have h : ((List.range n).map fun i => (List.range d).map (f i)).getD i [] = (List.range d).map (f i) := by
    rw [List.getD_eq_getElem _ _ (by simpa using hi), List.getElem_map, List.getElem_range]
  rw [h, List.getD_eq_getElem _ _ (by simpa using hc), List.getElem_map, List.getElem_range]

theorem tab_shape (n d : Nat) (f : Nat → Nat → K) : HasShape (tab n d f) n d := by
  refine ⟨by simp [tab], fun r hr => ?_⟩
  obtain ⟨i, -, rfl⟩ := List.mem_map.mp hr
  simp

theorem row_eq {F : Mat K} {n d : Nat} (hF : HasShape F n d) {r : List K} (hr : r ∈ F) :
    ∃ i, i < n ∧ r = (List.range d).map (F.get i) := by
  obtain ⟨i, hi, rfl⟩ := List.getElem_of_mem hr
  refine ⟨i, by rw [← hF.1]; exact hi, ?_⟩
  have hl := hF.2 _ hr
  apply List.ext_getElem
  · simp [hl]
  · intro c h1 h2
    rw [List.getElem_map, List.getElem_range]
    unfold Mat.get
    rw [List.getD_eq_getElem _ _ hi, List.getD_eq_getElem _ _ h1]

theorem get_row {F : Mat K} {n d : Nat} (hF : HasShape F n d) {i : Nat} (hi : i < n) :
    (List.range d).map (F.get i) ∈ F := by
  have hi' : i < F.length := by rw [hF.1]; exact hi
  have hl := hF.2 _ (List.getElem_mem hi')
  have : (List.range d).map (F.get i) = F[i] := by
    apply List.ext_getElem
    · simp [hl]
    · intro c h1 h2
      rw [List.getElem_map, List.getElem_range]
      unfold Mat.get
      rw [List.getD_eq_getElem _ _ hi', List.getD_eq_getElem _ _ h2]
  rw [this]
  exact List.getElem_mem hi'

/-! ### Parsing the input -/

theorem validateGraph_ok {n : Int} {ei : List (Int × Int)} {ew : Option (List K)} {es : List (WEdge K)}
    (h : validateGraph n ei ew = .ok es) :
    0 < n ∧ (∀ w, ew = some w → w.length = ei.length) ∧
    es.map (fun e => ((e.src : Int), (e.dst : Int), e.w)) = edgesOf ei ew ∧
    ∀ e ∈ es, (e.src : Int) < n ∧ (e.dst : Int) < n := by
  unfold validateGraph at h
  simp only at h
  by_cases h1 : (ew.getD (List.replicate ei.length 1)).length ≠ ei.length
  · rw [if_pos h1] at h; simp at h
  rw [if_neg h1] at h
  by_cases h2 : n ≤ 0
  · rw [if_pos h2] at h; simp at h
  rw [if_neg h2] at h
  by_cases h3 : ei.any (fun e => decide (e.1 < 0 ∨ e.2 < 0)) = true
  · rw [if_pos h3] at h; simp at h
  rw [if_neg h3] at h
  by_cases h4 : ei.any (fun e => decide (n ≤ e.1 ∨ n ≤ e.2)) = true
  · rw [if_pos h4] at h; simp at h
  rw [if_neg h4] at h
  obtain rfl := Except.ok.inj h
  have hr : ∀ e ∈ ei, 0 ≤ e.1 ∧ 0 ≤ e.2 ∧ e.1 < n ∧ e.2 < n := by
    intro e he
    simp only [List.any_eq_true, decide_eq_true_eq, not_exists, not_and] at h3 h4
    have := h3 e he
    have := h4 e he
    omega
  refine ⟨by omega, ?_, ?_, ?_⟩
  · rintro w rfl
    simpa using h1
  · have key : ∀ (w : List K), ((ei.zip w).map fun p => (⟨p.1.1.toNat, p.1.2.toNat, p.2⟩ : WEdge K)).map
        (fun e => ((e.src : Int), (e.dst : Int), e.w)) = (ei.zip w).map fun p => (p.1.1, p.1.2, p.2) := by
      intro w
      rw [List.map_map]
      apply List.map_congr_left
      intro p hp
      obtain ⟨a, b, -, -⟩ := hr p.1 (List.of_mem_zip hp).1
      simp only [Function.comp]
      rw [Int.toNat_of_nonneg a, Int.toNat_of_nonneg b]
    rw [key]
    cases ew with
    | some w => rfl
    | none =>
      simp only [Option.getD_none, edgesOf]
      clear h1 h2 h3 h4 hr key h
      induction ei with
      | nil => rfl
      | cons e ei ih =>
        rw [List.length_cons, List.replicate_succ, List.zip_cons_cons, List.map_cons, ih, List.map_cons]
  · intro e he
    obtain ⟨p, hp, rfl⟩ := List.mem_map.mp he
    obtain ⟨a, b, c, d⟩ := hr p.1 (List.of_mem_zip hp).1
    simp only
    omega

theorem validateGraph_range {n : Int} {ei : List (Int × Int)} {ew : Option (List K)} {es : List (WEdge K)}
    (h : validateGraph n ei ew = .ok es) : ∀ e ∈ ei, 0 ≤ e.1 ∧ 0 ≤ e.2 ∧ e.1 < n ∧ e.2 < n := by
  unfold validateGraph at h
  simp only at h
  by_cases h1 : (ew.getD (List.replicate ei.length 1)).length ≠ ei.length
  · rw [if_pos h1] at h; simp at h
  rw [if_neg h1] at h
  by_cases h2 : n ≤ 0
  · rw [if_pos h2] at h; simp at h
  rw [if_neg h2] at h
  by_cases h3 : ei.any (fun e => decide (e.1 < 0 ∨ e.2 < 0)) = true
  · rw [if_pos h3] at h; simp at h
  rw [if_neg h3] at h
  by_cases h4 : ei.any (fun e => decide (n ≤ e.1 ∨ n ≤ e.2)) = true
  · rw [if_pos h4] at h; simp at h
  intro e he
  simp only [List.any_eq_true, decide_eq_true_eq, not_exists, not_and] at h3 h4
  have := h3 e he
  have := h4 e he
  omega

theorem validateGraph_total {n : Int} (hn : 0 < n) {ei : List (Int × Int)} {ew : Option (List K)}
    (hw : ∀ w, ew = some w → w.length = ei.length)
    (hr : ∀ e ∈ ei, 0 ≤ e.1 ∧ 0 ≤ e.2 ∧ e.1 < n ∧ e.2 < n) : ∃ es, validateGraph n ei ew = .ok es := by
  unfold validateGraph
  simp only
  rw [if_neg, if_neg (by omega), if_neg, if_neg]
  · exact ⟨_, rfl⟩
  · simp only [List.any_eq_true, decide_eq_true_eq, not_exists, not_and]
    intro e he
    have := hr e he
    omega
  · simp only [List.any_eq_true, decide_eq_true_eq, not_exists, not_and]
    intro e he
    have := hr e he
    omega
  · cases ew with
    | none => simp
    | some w => simp [hw w rfl]

/-- Normalisation divides every weight by some number. -/
theorem normalizeEdges_ok {sqrt : K → K} {eps : K} {mode : String} {es es' : List (WEdge K)}
    (h : normalizeEdges sqrt eps mode es = .ok es') :
    ∃ q : Nat → Nat → K, es' = es.map (fun e => ⟨e.src, e.dst, e.w / q e.src e.dst⟩) ∧
      ((mode = "rw" ∧ ∀ i j, q i j = max (degree es j) eps) ∨
       (mode = "sym" ∧ ∀ i j, q i j = sqrt (max (degree es i) eps * max (degree es j) eps))) := by
  unfold normalizeEdges at h
  simp only at h
  by_cases h1 : mode = "rw"
  · rw [if_pos h1] at h
    obtain rfl := Except.ok.inj h
    exact ⟨fun i j => max (degree es j) eps, rfl, .inl ⟨h1, fun _ _ => rfl⟩⟩
  · rw [if_neg h1] at h
    by_cases h2 : mode = "sym"
    · rw [if_pos h2] at h
      obtain rfl := Except.ok.inj h
      exact ⟨fun i j => sqrt (max (degree es i) eps * max (degree es j) eps), rfl, .inr ⟨h2, fun _ _ => rfl⟩⟩
    · rw [if_neg h2] at h; simp at h

theorem seedMatrix_ok {y : List Int} {mask : List Bool} {k : Nat} {Y : Mat K}
    (h : seedMatrix y mask k = .ok Y) :
    0 < k ∧ (∀ c ∈ y, c < (k : Int)) ∧
    Y = tab y.length k fun i c => if mask.getD i false = true ∧ y.getD i (-1) = (c : Int) then 1 else 0 := by
  unfold seedMatrix at h
  by_cases h1 : k = 0
  · rw [if_pos h1] at h; simp at h
  rw [if_neg h1] at h
  by_cases h2 : y.any (fun c => decide (0 ≤ c ∧ (k : Int) ≤ c)) = true
  · rw [if_pos h2] at h; simp at h
  rw [if_neg h2] at h
  obtain rfl := Except.ok.inj h
  refine ⟨by omega, fun c hc => ?_, rfl⟩
  simp only [List.any_eq_true, decide_eq_true_eq, not_exists, not_and] at h2
  have := h2 c hc
  omega

theorem labeled_iff {y : List Int} {mask : List Bool} {i c : Nat} (hi : i < y.length) (hm : mask.length = y.length) :
    (mask.getD i false = true ∧ y.getD i (-1) = (c : Int)) ↔ Labeled y mask i c := by
  have hi' : i < mask.length := by omega
  unfold Labeled
  rw [List.getD_eq_getElem _ _ hi', List.getD_eq_getElem _ _ hi, List.getElem?_eq_getElem hi',
    List.getElem?_eq_getElem hi, Option.some.injEq, Option.some.injEq]

/-! ### The iteration -/

theorem diffuse_run (step : Mat K → Mat K) (dist : Mat K → Mat K → K) (tol : K) (M : Int) (fuel it : Nat)
    (F : Mat K) (res : Option K) :
    ∃ j, j ≤ fuel ∧ (diffuse step dist tol M fuel it F res).F = step^[j] F ∧
      ((j = fuel ∧ (diffuse step dist tol M fuel it F res).nIter = M) ∨
       (0 < j ∧ (diffuse step dist tol M fuel it F res).nIter = (it : Int) + j ∧
        ∃ x, (diffuse step dist tol M fuel it F res).residual = some x ∧ x ≤ tol)) ∧
      (0 < j → (diffuse step dist tol M fuel it F res).residual = some (dist (step^[j] F) (step^[j - 1] F))) ∧
      (∀ m, m + 1 < j → tol < dist (step^[m + 1] F) (step^[m] F)) := by
  induction fuel generalizing it F res with
  | zero => exact ⟨0, Nat.le_refl _, rfl, .inl ⟨rfl, rfl⟩, by omega, by omega⟩
  | succ fuel ih =>
    unfold diffuse
    simp only
    by_cases h : dist (step F) F ≤ tol
    · rw [if_pos h]
      exact ⟨1, by omega, rfl, .inr ⟨by omega, rfl, _, rfl, h⟩, fun _ => rfl, by omega⟩
    · rw [if_neg h]
      obtain ⟨j, h1, h2, h3, h4, h5⟩ := ih (it + 1) (step F) (some (dist (step F) F))
      refine ⟨j + 1, by omega, by rw [h2]; rfl, ?_, ?_, ?_⟩
      · rcases h3 with ⟨a, b⟩ | ⟨a, b, c⟩
        · exact .inl ⟨by omega, b⟩
        · refine .inr ⟨by omega, ?_, c⟩
          rw [b]; push_cast; ring
      · intro _
        by_cases hj : j = 0
        · subst hj
          have hf : fuel = 0 ∨ 0 < fuel := Nat.eq_zero_or_pos fuel
          rcases h3 with ⟨a, b⟩ | ⟨a, -⟩
          · subst a
            rfl
          · omega
        · rw [h4 (by omega)]
          obtain ⟨j', rfl⟩ : ∃ j', j = j' + 1 := ⟨j - 1, by omega⟩
          rfl
      · intro m hm
        cases m with
        | zero => simpa using not_le.mp h
        | succ m => exact h5 m (by omega)

theorem diffuse_stopped (step : Mat K → Mat K) (dist : Mat K → Mat K → K) (tol : K) (M : Int) (F : Mat K) :
    Stopped M tol (diffuse step dist tol M M.toNat 0 F none) ∧
    (0 ≤ M → (diffuse step dist tol M M.toNat 0 F none).F
      = step^[(diffuse step dist tol M M.toNat 0 F none).nIter.toNat] F) := by
  obtain ⟨j, h1, h2, h3, -, -⟩ := diffuse_run step dist tol M M.toNat 0 F none
  refine ⟨⟨?_, ?_, ?_⟩, ?_⟩
  · rcases h3 with ⟨a, b⟩ | ⟨a, b, -⟩ <;> rw [b] <;> omega
  · intro hM
    rcases h3 with ⟨a, b⟩ | ⟨a, b, -⟩ <;> rw [b] <;> omega
  · intro hlt
    rcases h3 with ⟨a, b⟩ | ⟨a, b, c⟩
    · rw [b] at hlt; omega
    · exact c
  · intro hM
    rw [h2]
    congr 1
    rcases h3 with ⟨a, b⟩ | ⟨a, b, -⟩ <;> rw [b] <;> omega

/-! ### Row sums -/

theorem normalizeRows_get {n d : Nat} {F : Mat K} {i c : Nat} (hi : i < n) (hc : c < d) :
    (normalizeRows n d F).get i c
      = F.get i c / (if 0 < ((List.range d).map (F.get i)).sum then ((List.range d).map (F.get i)).sum else 1) := by
  unfold normalizeRows
  rw [get_tab n d _ hi hc]

theorem spmm_get {n d : Nat} {es : List (WEdge K)} {X : Mat K} {i c : Nat} (hi : i < n) (hc : c < d) :
    (spmm n d es X).get i c = ((es.filter fun e => e.dst = i).map fun e => e.w * X.get e.src c).sum := by
  unfold spmm
  rw [get_tab n d _ hi hc]

theorem lpStep_shape (n d : Nat) (es : List (WEdge K)) (mask : List Bool) (Y : Mat K) (rows : Bool) (F : Mat K) :
    HasShape (lpStep n d es mask Y rows F) n d := by
  unfold lpStep
  simp only
  cases rows
  · exact tab_shape _ _ _
  · exact tab_shape _ _ _

theorem lsStep_shape (n d : Nat) (es : List (WEdge K)) (a : K) (Y : Mat K) (rows : Bool) (F : Mat K) :
    HasShape (lsStep n d es a Y rows F) n d := by
  unfold lsStep
  simp only
  cases rows
  · exact tab_shape _ _ _
  · exact tab_shape _ _ _

theorem iterate_ind {P : Mat K → Prop} {step : Mat K → Mat K} {F : Mat K} (h0 : P F) (hs : ∀ F, P F → P (step F))
    (j : Nat) : P (step^[j] F) := by
  induction j generalizing F with
  | zero => exact h0
  | succ j ih => exact ih (hs F h0)

variable [IsStrictOrderedRing K]

theorem sum_onehot (d l : Nat) (hl : l < d) :
    ((List.range d).map fun c => if c = l then (1 : K) else 0).sum = 1 := by
  induction d with
  | zero => omega
  | succ d ih =>
    rw [List.range_succ, List.map_append, List.sum_append]
    by_cases h : l = d
    · subst h
      have : ((List.range l).map fun c => if c = l then (1 : K) else 0).sum = 0 := by
        apply List.sum_eq_zero
        intro x hx
        obtain ⟨c, hc, rfl⟩ := List.mem_map.mp hx
        have := List.mem_range.mp hc
        rw [if_neg (by omega)]
      simp [this]
    · rw [ih (by omega)]
      have : d ≠ l := fun e => h e.symm
      simp [this]

/-- Entries of the step at a row whose clamped version is known. -/
theorem lpStep_get {n d : Nat} {es : List (WEdge K)} {mask : List Bool} {Y : Mat K} {rows : Bool} {F : Mat K}
    {i : Nat} (hi : i < n) (f : Nat → K)
    (hf : ∀ c, c < d → f c = if mask.getD i false then Y.get i c
      else ((es.filter fun e => e.dst = i).map fun e => e.w * F.get e.src c).sum) {c : Nat} (hc : c < d) :
    (lpStep n d es mask Y rows F).get i c
      = f c / (if rows = true ∧ 0 < ((List.range d).map f).sum then ((List.range d).map f).sum else 1) := by
  have hcl : ∀ c, c < d → (clampRows n d mask (spmm n d es F) Y).get i c = f c := by
    intro c hc
    unfold clampRows
    rw [get_tab n d _ hi hc, hf c hc, spmm_get hi hc]
  unfold lpStep
  simp only
  cases rows
  · simp only [Bool.false_eq_true, if_false, false_and]
    rw [hcl c hc, div_one]
  · simp only [if_true, true_and]
    rw [normalizeRows_get hi hc, hcl c hc]
    have : ((List.range d).map ((clampRows n d mask (spmm n d es F) Y).get i)) = (List.range d).map f := by
      apply List.map_congr_left
      intro c hc
      exact hcl c (List.mem_range.mp hc)
    rw [this]

theorem lsStep_get {n d : Nat} {es : List (WEdge K)} {a : K} {Y : Mat K} {rows : Bool} {F : Mat K}
    {i : Nat} (hi : i < n) (f : Nat → K)
    (hf : ∀ c, c < d → f c = a * ((es.filter fun e => e.dst = i).map fun e => e.w * F.get e.src c).sum
      + (1 - a) * Y.get i c) {c : Nat} (hc : c < d) :
    (lsStep n d es a Y rows F).get i c
      = f c / (if rows = true ∧ 0 < ((List.range d).map f).sum then ((List.range d).map f).sum else 1) := by
  have hcl : ∀ c, c < d → (tab n d fun i c => a * (spmm n d es F).get i c + (1 - a) * Y.get i c).get i c = f c := by
    intro c hc
    rw [get_tab n d _ hi hc, hf c hc, spmm_get hi hc]
  unfold lsStep
  simp only
  cases rows
  · simp only [Bool.false_eq_true, if_false, false_and]
    rw [hcl c hc, div_one]
  · simp only [if_true, true_and]
    rw [normalizeRows_get hi hc, hcl c hc]
    have : ((List.range d).map ((tab n d fun i c => a * (spmm n d es F).get i c + (1 - a) * Y.get i c).get i))
        = (List.range d).map f := by
      apply List.map_congr_left
      intro c hc
      exact hcl c (List.mem_range.mp hc)
    rw [this]

/-- Rows divided by their positive sum (or left alone) are distributions, if they were non-negative. -/
theorem normalized_row {d : Nat} {f g : Nat → K} (hf : ∀ c, c < d → 0 ≤ f c)
    (hg : ∀ c, c < d → g c = f c / (if (0 : K) < ((List.range d).map f).sum then ((List.range d).map f).sum else 1)) :
    (∀ c, c < d → 0 ≤ g c) ∧ (((List.range d).map g).sum = 1 ∨ ∀ c, c < d → g c = 0) := by
  by_cases hs : (0 : K) < ((List.range d).map f).sum
  · simp only [if_pos hs] at hg
    refine ⟨fun c hc => ?_, .inl ?_⟩
    · rw [hg c hc]
      exact div_nonneg (hf c hc) hs.le
    · have : (List.range d).map g = (List.range d).map (fun c => f c * (((List.range d).map f).sum)⁻¹) := by
        apply List.map_congr_left
        intro c hc
        rw [hg c (List.mem_range.mp hc), div_eq_mul_inv]
      rw [this, List.sum_map_mul_right, mul_inv_cancel₀ hs.ne']
  · simp only [if_neg hs, div_one] at hg
    refine ⟨fun c hc => by rw [hg c hc]; exact hf c hc, .inr fun c hc => ?_⟩
    rw [hg c hc]
    have hnn : ∀ x ∈ (List.range d).map f, 0 ≤ x := by
      intro x hx
      obtain ⟨c, hc, rfl⟩ := List.mem_map.mp hx
      exact hf c (List.mem_range.mp hc)
    have h1 := List.single_le_sum hnn (f c) (List.mem_map.mpr ⟨c, List.mem_range.mpr hc, rfl⟩)
    have h2 := hf c hc
    exact le_antisymm (h1.trans (not_lt.mp hs)) h2

theorem sum_comm {β : Type} (L : List β) (d : Nat) (g : β → Nat → K) :
    ((List.range d).map fun c => (L.map fun e => g e c).sum).sum = (L.map fun e => ((List.range d).map (g e)).sum).sum := by
  induction L with
  | nil => simp
  | cons a L ih =>
    simp only [List.map_cons, List.sum_cons]
    rw [← ih, ← List.sum_map_add]

theorem sum_le_sum' {β : Type} (L : List β) (f g : β → K) (h : ∀ e ∈ L, f e ≤ g e) :
    (L.map f).sum ≤ (L.map g).sum := by
  induction L with
  | nil => simp
  | cons a L ih =>
    simp only [List.map_cons, List.sum_cons]
    exact add_le_add (h a (by simp)) (ih fun e he => h e (by simp [he]))

theorem sum_nonneg' {β : Type} (L : List β) (f : β → K) (h : ∀ e ∈ L, 0 ≤ f e) : 0 ≤ (L.map f).sum := by
  apply List.sum_nonneg
  intro x hx
  obtain ⟨e, he, rfl⟩ := List.mem_map.mp hx
  exact h e he

theorem sum_pos_iff {β : Type} (L : List β) (f : β → K) (h : ∀ e ∈ L, 0 ≤ f e) :
    0 < (L.map f).sum ↔ ∃ e ∈ L, 0 < f e := by
  constructor
  · intro hp
    by_contra hn
    push Not at hn
    have := sum_le_sum' L f (fun _ => 0) hn
    simp at this
    exact absurd hp (not_lt.mpr this)
  · rintro ⟨e, he, hp⟩
    refine lt_of_lt_of_le hp (List.single_le_sum ?_ _ (List.mem_map.mpr ⟨e, he, rfl⟩))
    intro x hx
    obtain ⟨e, he, rfl⟩ := List.mem_map.mp hx
    exact h e he

/-! ### What a run is made of -/

/-- The parts of an accepted input. -/
structure Parsed (sqrt : K → K) (eps : K) (n : Int) (ei : List (Int × Int)) (ew : Option (List K)) (y : List Int)
    (mask : List Bool) (norm : String) (es es' : List (WEdge K)) (Y : Mat K) : Prop where
  pos : 0 < n
  ylen : (y.length : Int) = n
  mlen : mask.length = y.length
  wlen : ∀ w, ew = some w → w.length = ei.length
  edges : es.map (fun e => ((e.src : Int), (e.dst : Int), e.w)) = edgesOf ei ew
  range : ∀ e ∈ es, e.src < y.length ∧ e.dst < y.length
  kpos : 0 < numClasses y mask
  bound : ∀ c ∈ y, c < (numClasses y mask : Int)
  seed : Y = tab y.length (numClasses y mask) fun i c =>
    if mask.getD i false = true ∧ y.getD i (-1) = (c : Int) then 1 else 0
  norm : ∃ q : Nat → Nat → K, es' = es.map (fun e => ⟨e.src, e.dst, e.w / q e.src e.dst⟩) ∧
      ((norm = "rw" ∧ ∀ i j, q i j = max (degree es j) eps) ∨
       (norm = "sym" ∧ ∀ i j, q i j = sqrt (max (degree es i) eps * max (degree es j) eps)))

theorem labelPropagation_ok {sqrt : K → K} {eps : K} {n : Int} {ei : List (Int × Int)} {ew : Option (List K)}
    {y : List Int} {mask : List Bool} {spec : PropSpec K} {r : Diffusion K}
    (h : labelPropagation sqrt eps n ei ew y mask spec = .ok r) :
    ∃ es es' Y, Parsed sqrt eps n ei ew y mask spec.norm es es' Y ∧
      r = diffuse (lpStep y.length (numClasses y mask) es' mask Y spec.normalizeRows)
        (maxDiff y.length (numClasses y mask)) spec.tol spec.maxIter spec.maxIter.toNat 0 Y none := by
  unfold labelPropagation at h
  rw [ebind_ok] at h
  obtain ⟨es, hes, h⟩ := h
  obtain ⟨v1, v2, v3, v4⟩ := validateGraph_ok hes
  by_cases h1 : (y.length : Int) ≠ n
  · rw [if_pos h1] at h; simp at h
  rw [if_neg h1] at h
  by_cases h2 : (mask.length : Int) ≠ n
  · rw [if_pos h2] at h; simp at h
  rw [if_neg h2] at h
  simp only at h
  rw [ebind_ok] at h
  obtain ⟨Y, hY, h⟩ := h
  rw [ebind_ok] at h
  obtain ⟨es', hes', h⟩ := h
  obtain rfl := Except.ok.inj h
  obtain ⟨s1, s2, s3⟩ := seedMatrix_ok hY
  refine ⟨es, es', Y, ⟨v1, by omega, by omega, v2, v3, fun e he => ?_, s1, s2, s3, normalizeEdges_ok hes'⟩, rfl⟩
  have := v4 e he
  omega

theorem labelSpreading_ok {sqrt : K → K} {eps : K} {n : Int} {ei : List (Int × Int)} {ew : Option (List K)}
    {y : List Int} {mask : List Bool} {alpha : K} {spec : PropSpec K} {r : Diffusion K}
    (h : labelSpreading sqrt eps n ei ew y mask alpha spec = .ok r) :
    0 ≤ alpha ∧ alpha < 1 ∧ ∃ es es' Y, Parsed sqrt eps n ei ew y mask spec.norm es es' Y ∧
      r = diffuse (lsStep y.length (numClasses y mask) es' alpha Y spec.normalizeRows)
        (maxDiff y.length (numClasses y mask)) spec.tol spec.maxIter spec.maxIter.toNat 0 Y none := by
  unfold labelSpreading at h
  rw [ebind_ok] at h
  obtain ⟨es, hes, h⟩ := h
  obtain ⟨v1, v2, v3, v4⟩ := validateGraph_ok hes
  by_cases h1 : (y.length : Int) ≠ n
  · rw [if_pos h1] at h; simp at h
  rw [if_neg h1] at h
  by_cases h2 : (mask.length : Int) ≠ n
  · rw [if_pos h2] at h; simp at h
  rw [if_neg h2] at h
  by_cases h3 : ¬ (0 ≤ alpha ∧ alpha < 1)
  · rw [if_pos h3] at h; simp at h
  rw [if_neg h3] at h
  rw [not_not] at h3
  simp only at h
  rw [ebind_ok] at h
  obtain ⟨Y, hY, h⟩ := h
  rw [ebind_ok] at h
  obtain ⟨es', hes', h⟩ := h
  obtain rfl := Except.ok.inj h
  obtain ⟨s1, s2, s3⟩ := seedMatrix_ok hY
  refine ⟨h3.1, h3.2, es, es', Y, ⟨v1, by omega, by omega, v2, v3, fun e he => ?_, s1, s2, s3, normalizeEdges_ok hes'⟩, rfl⟩
  have := v4 e he
  omega

namespace Parsed
variable {sqrt : K → K} {eps : K} {n : Int} {ei : List (Int × Int)} {ew : Option (List K)} {y : List Int}
  {mask : List Bool} {norm : String} {es es' : List (WEdge K)} {Y : Mat K}

theorem seed_get (P : Parsed sqrt eps n ei ew y mask norm es es' Y) {i c : Nat} (hi : i < y.length)
    (hc : c < numClasses y mask) [Decidable (Labeled y mask i c)] :
    Y.get i c = if Labeled y mask i c then 1 else 0 := by
  rw [P.seed, get_tab _ _ _ hi hc]
  exact if_congr (labeled_iff hi P.mlen) rfl rfl

theorem seed_shape (P : Parsed sqrt eps n ei ew y mask norm es es' Y) :
    HasShape Y y.length (numClasses y mask) := by
  rw [P.seed]; exact tab_shape _ _ _

theorem edge_iff (P : Parsed sqrt eps n ei ew y mask norm es es' Y) (a b : Nat) (w : K) :
    ((a : Int), (b : Int), w) ∈ edgesOf ei ew ↔ (⟨a, b, w⟩ : WEdge K) ∈ es := by
  rw [← P.edges, List.mem_map]
  constructor
  · rintro ⟨e, he, heq⟩
    simp only [Prod.mk.injEq, Nat.cast_inj] at heq
    obtain ⟨rfl, rfl, rfl⟩ := heq
    exact he
  · intro h
    exact ⟨_, h, rfl⟩

theorem edge_nonneg (P : Parsed sqrt eps n ei ew y mask norm es es' Y)
    (hw : ∀ e ∈ edgesOf ei ew, 0 ≤ e.2.2) : ∀ e ∈ es, 0 ≤ e.w := by
  intro e he
  exact hw _ ((P.edge_iff e.src e.dst e.w).mpr he)

theorem edge_pos (P : Parsed sqrt eps n ei ew y mask norm es es' Y)
    (hw : ∀ e ∈ edgesOf ei ew, 0 < e.2.2) : ∀ e ∈ es, 0 < e.w := by
  intro e he
  exact hw _ ((P.edge_iff e.src e.dst e.w).mpr he)

theorem quot_pos (P : Parsed sqrt eps n ei ew y mask norm es es' Y) (heps : 0 < eps)
    (hsqrt : ∀ x, 0 < x → 0 < sqrt x) :
    ∃ q : Nat → Nat → K, es' = es.map (fun e => ⟨e.src, e.dst, e.w / q e.src e.dst⟩) ∧ ∀ i j, 0 < q i j := by
  obtain ⟨q, h1, h2⟩ := P.norm
  refine ⟨q, h1, fun i j => ?_⟩
  have hd : ∀ i, 0 < max (degree es i) eps := fun i => lt_of_lt_of_le heps (le_max_right _ _)
  rcases h2 with ⟨-, h2⟩ | ⟨-, h2⟩
  · rw [h2]; exact hd j
  · rw [h2]; exact hsqrt _ (mul_pos (hd i) (hd j))

theorem norm_nonneg (P : Parsed sqrt eps n ei ew y mask norm es es' Y) (heps : 0 < eps)
    (hsqrt : ∀ x, 0 < x → 0 < sqrt x) (hw : ∀ e ∈ edgesOf ei ew, 0 ≤ e.2.2) : ∀ e ∈ es', 0 ≤ e.w := by
  obtain ⟨q, rfl, hq⟩ := P.quot_pos heps hsqrt
  intro e he
  obtain ⟨e0, he0, rfl⟩ := List.mem_map.mp he
  exact div_nonneg (P.edge_nonneg hw e0 he0) (hq _ _).le

theorem norm_range (P : Parsed sqrt eps n ei ew y mask norm es es' Y) :
    ∀ e ∈ es', e.src < y.length ∧ e.dst < y.length := by
  obtain ⟨q, rfl, -⟩ := P.norm
  intro e he
  obtain ⟨e0, he0, rfl⟩ := List.mem_map.mp he
  exact P.range e0 he0

/-- In random-walk mode the incoming weights of a node sum to at most one. -/
theorem rw_sum (P : Parsed sqrt eps n ei ew y mask norm es es' Y) (heps : 0 < eps) (hn : norm = "rw") (i : Nat) :
    ((es'.filter fun e => e.dst = i).map (·.w)).sum ≤ 1 := by
  obtain ⟨q, rfl, h⟩ := P.norm
  have hq : ∀ i j, q i j = max (degree es j) eps := by
    rcases h with ⟨-, h⟩ | ⟨h, -⟩
    · exact h
    · rw [hn] at h; simp at h
  rw [List.filter_map, List.map_map]
  have : (((es.filter ((fun e : WEdge K => decide (e.dst = i)) ∘ fun e => ⟨e.src, e.dst, e.w / q e.src e.dst⟩)).map
      ((fun e : WEdge K => e.w) ∘ fun e => ⟨e.src, e.dst, e.w / q e.src e.dst⟩)).sum)
      = degree es i * (max (degree es i) eps)⁻¹ := by
    unfold degree
    rw [← List.sum_map_mul_right]
    congr 1
    apply List.map_congr_left
    intro e he
    have : e.dst = i := by simpa using (List.mem_filter.mp he).2
    simp only [Function.comp, hq, this, degree]
    rw [div_eq_mul_inv]
  rw [this]
  have hpos : 0 < max (degree es i) eps := lt_of_lt_of_le heps (le_max_right _ _)
  rw [← div_eq_mul_inv, div_le_one hpos]
  exact le_max_left _ _

end Parsed

/-! ### Label propagation -/

theorem lp_labeled {sqrt : K → K} {eps : K} {n : Int} {ei : List (Int × Int)} {ew : Option (List K)}
    {y : List Int} {mask : List Bool} {norm : String} {es es' : List (WEdge K)} {Y : Mat K}
    (P : Parsed sqrt eps n ei ew y mask norm es es' Y) (rows : Bool) (j : Nat) :
    ∀ i l, Labeled y mask i l → l < numClasses y mask ∧ ∀ c, c < numClasses y mask →
      ((lpStep y.length (numClasses y mask) es' mask Y rows)^[j] Y).get i c = if c = l then 1 else 0 := by
  classical
  intro i l hl
  have hi : i < y.length := (List.getElem?_eq_some_iff.mp hl.2).1
  have hlk : l < numClasses y mask := by
    have := P.bound l (List.mem_of_getElem? hl.2)
    exact_mod_cast this
  have hY : ∀ c, c < numClasses y mask → Y.get i c = if c = l then 1 else 0 := by
    intro c hc
    rw [P.seed_get hi hc]
    apply if_congr _ rfl rfl
    unfold Labeled
    rw [hl.1, hl.2]
    simp only [Option.some.injEq, true_and, Nat.cast_inj]
    exact eq_comm
  have hm : mask.getD i false = true := by
    rw [List.getD_eq_getElem?_getD, hl.1]; rfl
  refine ⟨hlk, ?_⟩
  refine iterate_ind (P := fun F : Mat K => ∀ c, c < numClasses y mask → F.get i c = if c = l then 1 else 0) hY ?_ j
  intro F _ c hc
  rw [lpStep_get hi (fun c => if c = l then 1 else 0) (fun c hc => by rw [if_pos hm, hY c hc]) hc, sum_onehot _ _ hlk]
  simp

/-- Non-negative weights keep the scores non-negative. -/
theorem lp_nonneg {n d : Nat} {es : List (WEdge K)} {mask : List Bool} {Y : Mat K} (hes : ∀ e ∈ es, 0 ≤ e.w ∧ e.src < n)
    (hY : ∀ i c, i < n → c < d → 0 ≤ Y.get i c) (rows : Bool) (F : Mat K) (hF : ∀ i c, i < n → c < d → 0 ≤ F.get i c) :
    ∀ i, i < n → ∃ f : Nat → K, (∀ c, c < d → 0 ≤ f c) ∧
      (∀ c, c < d → f c = if mask.getD i false then Y.get i c
        else ((es.filter fun e => e.dst = i).map fun e => e.w * F.get e.src c).sum) ∧
      ∀ c, c < d → (lpStep n d es mask Y rows F).get i c
        = f c / (if rows = true ∧ 0 < ((List.range d).map f).sum then ((List.range d).map f).sum else 1) := by
  intro i hi
  refine ⟨fun c => if mask.getD i false then Y.get i c
        else ((es.filter fun e => e.dst = i).map fun e => e.w * F.get e.src c).sum, fun c hc => ?_, fun _ _ => rfl,
    fun c hc => lpStep_get hi _ (fun _ _ => rfl) hc⟩
  simp only
  split
  · exact hY i c hi hc
  · apply sum_nonneg'
    intro e he
    obtain ⟨h1, h2⟩ := hes e (List.mem_of_mem_filter he)
    exact mul_nonneg h1 (hF _ _ h2 hc)

theorem div_norm_nonneg {x s : K} (hx : 0 ≤ x) (rows : Bool) :
    0 ≤ x / (if rows = true ∧ 0 < s then s else 1) := by
  split
  · rename_i h; exact div_nonneg hx h.2.le
  · rw [div_one]; exact hx

theorem get_outside {F : Mat K} {n d : Nat} (hF : HasShape F n d) {i c : Nat} (hc : d ≤ c) : F.get i c = 0 := by
  unfold Mat.get
  by_cases hi : i < F.length
  · rw [List.getD_eq_getElem _ _ hi]
    have := hF.2 _ (List.getElem_mem hi)
    rw [List.getD_eq_default _ _ (by omega)]
  · rw [List.getD_eq_default F _ (by omega)]
    rfl

theorem lp_run {sqrt : K → K} {eps : K} {n : Int} {ei : List (Int × Int)} {ew : Option (List K)}
    {y : List Int} {mask : List Bool} {spec : PropSpec K} {r : Diffusion K}
    (h : labelPropagation sqrt eps n ei ew y mask spec = .ok r) :
    HasShape r.F n.toNat (numClasses y mask) ∧
    (∀ i l, Labeled y mask i l → l < numClasses y mask ∧
      ∀ c, c < numClasses y mask → r.F.get i c = if c = l then 1 else 0) ∧
    Stopped spec.maxIter spec.tol r := by
  obtain ⟨es, es', Y, P, rfl⟩ := labelPropagation_ok h
  obtain ⟨j, -, hF, -⟩ := diffuse_run (lpStep y.length (numClasses y mask) es' mask Y spec.normalizeRows)
    (maxDiff y.length (numClasses y mask)) spec.tol spec.maxIter spec.maxIter.toNat 0 Y none
  have hn : n.toNat = y.length := by have := P.ylen; omega
  refine ⟨?_, ?_, (diffuse_stopped _ _ _ _ _).1⟩
  · rw [hF, hn]
    exact iterate_ind (P := fun F : Mat K => HasShape F y.length (numClasses y mask)) P.seed_shape
      (fun F _ => lpStep_shape _ _ _ _ _ _ _) j
  · rw [hF]
    exact lp_labeled P spec.normalizeRows j

/-- **C52 (labels, iterations).**  Whatever the graph and its weights: labeled nodes keep exactly their
given label, the scores have one row per node and one column per class, and the iteration stops after at
most `max_iter` rounds, earlier only when the last change is at most `tol`. -/
theorem C52_labeled (sqrt : K → K) (eps : K) (n : Int) (ei : List (Int × Int)) (ew : Option (List K))
    (y : List Int) (mask : List Bool) (spec : PropSpec K) (r : Diffusion K)
    (h : labelPropagation sqrt eps n ei ew y mask spec = .ok r) :
    (∃ k, HasShape r.F n.toNat k) ∧
    (∀ i l, Labeled y mask i l → ∀ c, r.F.get i c = if c = l then 1 else 0) ∧
    Stopped spec.maxIter spec.tol r := by
  obtain ⟨hsh, hl, hst⟩ := lp_run h
  refine ⟨⟨_, hsh⟩, fun i l hil c => ?_, hst⟩
  obtain ⟨h1, h2⟩ := hl i l hil
  by_cases hc : c < numClasses y mask
  · exact h2 c hc
  · rw [get_outside hsh (by omega), if_neg (by omega)]

theorem seed_nonneg {sqrt : K → K} {eps : K} {n : Int} {ei : List (Int × Int)} {ew : Option (List K)}
    {y : List Int} {mask : List Bool} {norm : String} {es es' : List (WEdge K)} {Y : Mat K}
    (P : Parsed sqrt eps n ei ew y mask norm es es' Y) :
    ∀ i c, i < y.length → c < numClasses y mask → 0 ≤ Y.get i c := by
  classical
  intro i c hi hc
  rw [P.seed_get hi hc]
  split <;> simp

/-- A seed row is one-hot or zero. -/
theorem seed_row {sqrt : K → K} {eps : K} {n : Int} {ei : List (Int × Int)} {ew : Option (List K)}
    {y : List Int} {mask : List Bool} {norm : String} {es es' : List (WEdge K)} {Y : Mat K}
    (P : Parsed sqrt eps n ei ew y mask norm es es' Y) {i : Nat} (hi : i < y.length) :
    ((List.range (numClasses y mask)).map (Y.get i)).sum = 1 ∨ ∀ c, c < numClasses y mask → Y.get i c = 0 := by
  classical
  by_cases hl : ∃ l, Labeled y mask i l
  · obtain ⟨l, hl⟩ := hl
    obtain ⟨hlk, hc⟩ := lp_labeled P false 0 i l hl
    left
    rw [← sum_onehot (K := K) _ _ hlk]
    congr 1
    apply List.map_congr_left
    intro c hc'
    exact hc c (List.mem_range.mp hc')
  · right
    intro c hc
    rw [P.seed_get hi hc, if_neg (fun h => hl ⟨c, h⟩)]

theorem rows_of_entries {F : Mat K} {n d : Nat} (hF : HasShape F n d)
    (h : ∀ i, i < n → (∀ c, c < d → 0 ≤ F.get i c) ∧
      (((List.range d).map (F.get i)).sum = 1 ∨ ∀ c, c < d → F.get i c = 0)) : StochasticRows F := by
  intro r hr
  obtain ⟨i, hi, rfl⟩ := row_eq hF hr
  obtain ⟨h1, h2⟩ := h i hi
  refine ⟨fun x hx => ?_, ?_⟩
  · obtain ⟨c, hc, rfl⟩ := List.mem_map.mp hx
    exact h1 c (List.mem_range.mp hc)
  · rcases h2 with h2 | h2
    · exact .inl h2
    · right
      intro x hx
      obtain ⟨c, hc, rfl⟩ := List.mem_map.mp hx
      exact h2 c (List.mem_range.mp hc)

theorem subrows_of_entries {F : Mat K} {n d : Nat} (hF : HasShape F n d)
    (h : ∀ i, i < n → (∀ c, c < d → 0 ≤ F.get i c) ∧ ((List.range d).map (F.get i)).sum ≤ 1) :
    SubstochasticRows F := by
  intro r hr
  obtain ⟨i, hi, rfl⟩ := row_eq hF hr
  obtain ⟨h1, h2⟩ := h i hi
  refine ⟨fun x hx => ?_, h2⟩
  obtain ⟨c, hc, rfl⟩ := List.mem_map.mp hx
  exact h1 c (List.mem_range.mp hc)

/-- **C52 (distributions).**  With non-negative weights and row normalisation every row of the scores is
non-negative and sums to one, or is zero. -/
theorem C52_stochastic (sqrt : K → K) (hsqrt : ∀ x, 0 < x → 0 < sqrt x) (eps : K) (heps : 0 < eps) (n : Int)
    (ei : List (Int × Int)) (ew : Option (List K)) (hw : ∀ e ∈ edgesOf ei ew, 0 ≤ e.2.2)
    (y : List Int) (mask : List Bool) (spec : PropSpec K) (hrows : spec.normalizeRows = true) (r : Diffusion K)
    (h : labelPropagation sqrt eps n ei ew y mask spec = .ok r) : StochasticRows r.F := by
  obtain ⟨es, es', Y, P, rfl⟩ := labelPropagation_ok h
  obtain ⟨j, -, hF, -⟩ := diffuse_run (lpStep y.length (numClasses y mask) es' mask Y spec.normalizeRows)
    (maxDiff y.length (numClasses y mask)) spec.tol spec.maxIter spec.maxIter.toNat 0 Y none
  rw [hF, hrows]
  have hes : ∀ e ∈ es', 0 ≤ e.w ∧ e.src < y.length := fun e he =>
    ⟨P.norm_nonneg heps hsqrt hw e he, (P.norm_range e he).1⟩
  have key := iterate_ind (P := fun F : Mat K => HasShape F y.length (numClasses y mask) ∧
      ∀ i, i < y.length → (∀ c, c < numClasses y mask → 0 ≤ F.get i c) ∧
        (((List.range (numClasses y mask)).map (F.get i)).sum = 1 ∨ ∀ c, c < numClasses y mask → F.get i c = 0))
    (step := lpStep y.length (numClasses y mask) es' mask Y true) (F := Y)
    ⟨P.seed_shape, fun i hi => ⟨fun c hc => seed_nonneg P i c hi hc, seed_row P hi⟩⟩ ?_ j
  · exact rows_of_entries key.1 key.2
  · rintro F ⟨-, hF⟩
    refine ⟨lpStep_shape _ _ _ _ _ _ _, fun i hi => ?_⟩
    obtain ⟨f, f1, -, f3⟩ := lp_nonneg (mask := mask) hes (seed_nonneg P) true F (fun i c hi hc => (hF i hi).1 c hc) i hi
    exact normalized_row f1 (fun c hc => by rw [f3 c hc]; simp)

/-- **C52 (substochastic).**  With non-negative weights in random-walk mode every row of the scores is
non-negative and sums to at most one, with or without row normalisation. -/
theorem C52_substochastic (sqrt : K → K) (hsqrt : ∀ x, 0 < x → 0 < sqrt x) (eps : K) (heps : 0 < eps) (n : Int)
    (ei : List (Int × Int)) (ew : Option (List K)) (hw : ∀ e ∈ edgesOf ei ew, 0 ≤ e.2.2)
    (y : List Int) (mask : List Bool) (spec : PropSpec K) (hnorm : spec.norm = "rw") (r : Diffusion K)
    (h : labelPropagation sqrt eps n ei ew y mask spec = .ok r) : SubstochasticRows r.F := by
  by_cases hrows : spec.normalizeRows = true
  · intro row hr
    obtain ⟨h1, h2⟩ := C52_stochastic sqrt hsqrt eps heps n ei ew hw y mask spec hrows r h row hr
    refine ⟨h1, ?_⟩
    rcases h2 with h2 | h2
    · exact h2.le
    · rw [List.sum_eq_zero h2]; exact zero_le_one
  obtain ⟨es, es', Y, P, rfl⟩ := labelPropagation_ok h
  obtain ⟨j, -, hF, -⟩ := diffuse_run (lpStep y.length (numClasses y mask) es' mask Y spec.normalizeRows)
    (maxDiff y.length (numClasses y mask)) spec.tol spec.maxIter spec.maxIter.toNat 0 Y none
  rw [Bool.not_eq_true] at hrows
  rw [hF, hrows]
  have hes : ∀ e ∈ es', 0 ≤ e.w ∧ e.src < y.length := fun e he =>
    ⟨P.norm_nonneg heps hsqrt hw e he, (P.norm_range e he).1⟩
  have hseed : ∀ i, i < y.length → ((List.range (numClasses y mask)).map (Y.get i)).sum ≤ 1 := by
    intro i hi
    rcases seed_row P hi with h | h
    · exact h.le
    · rw [List.sum_eq_zero]
      · exact zero_le_one
      · intro x hx
        obtain ⟨c, hc, rfl⟩ := List.mem_map.mp hx
        exact h c (List.mem_range.mp hc)
  have key := iterate_ind (P := fun F : Mat K => HasShape F y.length (numClasses y mask) ∧
      ∀ i, i < y.length → (∀ c, c < numClasses y mask → 0 ≤ F.get i c) ∧
        ((List.range (numClasses y mask)).map (F.get i)).sum ≤ 1)
    (step := lpStep y.length (numClasses y mask) es' mask Y false) (F := Y)
    ⟨P.seed_shape, fun i hi => ⟨fun c hc => seed_nonneg P i c hi hc, hseed i hi⟩⟩ ?_ j
  · exact subrows_of_entries key.1 key.2
  · rintro F ⟨-, hF⟩
    refine ⟨lpStep_shape _ _ _ _ _ _ _, fun i hi => ?_⟩
    obtain ⟨f, f1, f2, f3⟩ := lp_nonneg (mask := mask) hes (seed_nonneg P) false F (fun i c hi hc => (hF i hi).1 c hc) i hi
    have f3' : ∀ c, c < numClasses y mask → (lpStep y.length (numClasses y mask) es' mask Y false F).get i c = f c := by
      intro c hc
      rw [f3 c hc]
      simp
    refine ⟨fun c hc => by rw [f3' c hc]; exact f1 c hc, ?_⟩
    have : (List.range (numClasses y mask)).map ((lpStep y.length (numClasses y mask) es' mask Y false F).get i)
        = (List.range (numClasses y mask)).map fun c => if mask.getD i false then Y.get i c
          else ((es'.filter fun e => e.dst = i).map fun e => e.w * F.get e.src c).sum := by
      apply List.map_congr_left
      intro c hc
      rw [f3' c (List.mem_range.mp hc), f2 c (List.mem_range.mp hc)]
    rw [this]
    by_cases hm : mask.getD i false = true
    · simp only [hm, if_true]
      exact hseed i hi
    · simp only [hm, Bool.false_eq_true, if_false]
      rw [sum_comm]
      refine le_trans (sum_le_sum' _ _ (fun e => e.w) ?_) (P.rw_sum heps hnorm i)
      intro e he
      obtain ⟨h1, h2⟩ := hes e (List.mem_of_mem_filter he)
      rw [List.sum_map_mul_left]
      exact mul_le_of_le_one_right h1 (hF _ h2).2

/-- **C52 (who gets a score).**  With positive weights, a node has a positive score for a class exactly
when a node labeled with this class reaches it within the number of iterations, through unlabeled nodes. -/
theorem C52_support (sqrt : K → K) (hsqrt : ∀ x, 0 < x → 0 < sqrt x) (eps : K) (heps : 0 < eps) (n : Int)
    (ei : List (Int × Int)) (ew : Option (List K)) (hw : ∀ e ∈ edgesOf ei ew, 0 < e.2.2)
    (y : List Int) (mask : List Bool) (spec : PropSpec K) (hmax : 0 ≤ spec.maxIter) (r : Diffusion K)
    (h : labelPropagation sqrt eps n ei ew y mask spec = .ok r) (i c : Nat) (hi : (i : Int) < n) :
    0 ≤ r.F.get i c ∧ (0 < r.F.get i c ↔ Reaches (edgesOf ei ew) y mask c r.nIter.toNat i) := by
  classical
  by_cases hc : numClasses y mask ≤ c
  · rw [get_outside (lp_run h).1 hc]
    refine ⟨le_refl _, fun h0 => absurd h0 (lt_irrefl _), fun hr => ?_⟩
    have : ∀ t i, Reaches (edgesOf ei ew) y mask c t i → False := by
      intro t i hr
      induction hr with
      | label hl =>
        have := ((lp_run h).2.1 _ _ hl).1
        omega
      | step _ _ _ ih => exact ih
    exact absurd hr (this _ _)
  rw [not_le] at hc
  obtain ⟨es, es', Y, P, rfl⟩ := labelPropagation_ok h
  rw [(diffuse_stopped (lpStep y.length (numClasses y mask) es' mask Y spec.normalizeRows)
    (maxDiff y.length (numClasses y mask)) spec.tol spec.maxIter Y).2 hmax]
  generalize (diffuse (lpStep y.length (numClasses y mask) es' mask Y spec.normalizeRows)
    (maxDiff y.length (numClasses y mask)) spec.tol spec.maxIter spec.maxIter.toNat 0 Y none).nIter.toNat = t
  have hw' : ∀ e ∈ edgesOf ei ew, 0 ≤ e.2.2 := fun e he => (hw e he).le
  have hes : ∀ e ∈ es', 0 ≤ e.w ∧ e.src < y.length := fun e he =>
    ⟨P.norm_nonneg heps hsqrt hw' e he, (P.norm_range e he).1⟩
  have hin : i < y.length := by have := P.ylen; omega
  have key : ∀ t i c, i < y.length → c < numClasses y mask →
      0 ≤ ((lpStep y.length (numClasses y mask) es' mask Y spec.normalizeRows)^[t] Y).get i c ∧
      (0 < ((lpStep y.length (numClasses y mask) es' mask Y spec.normalizeRows)^[t] Y).get i c ↔
        Reaches (edgesOf ei ew) y mask c t i) := by
    intro t
    induction t with
    | zero =>
      intro i c hi hc
      rw [Function.iterate_zero, id, P.seed_get hi hc]
      by_cases hl : Labeled y mask i c
      · rw [if_pos hl]
        exact ⟨zero_le_one, fun _ => .label hl, fun _ => zero_lt_one⟩
      · rw [if_neg hl]
        refine ⟨le_refl _, fun h => absurd h (lt_irrefl _), fun h => ?_⟩
        cases h with
        | label h => exact absurd h hl
    | succ t ih =>
      intro i c hi hc
      rw [Function.iterate_succ_apply']
      set F := (lpStep y.length (numClasses y mask) es' mask Y spec.normalizeRows)^[t] Y with hF
      obtain ⟨f, f1, f2, f3⟩ := lp_nonneg (mask := mask) hes (seed_nonneg P) spec.normalizeRows F
        (fun i c hi hc => (ih i c hi hc).1) i hi
      rw [f3 c hc]
      refine ⟨div_norm_nonneg (f1 c hc) _, ?_⟩
      have hden : (0 : K) < (if spec.normalizeRows = true ∧ 0 < ((List.range (numClasses y mask)).map f).sum
          then ((List.range (numClasses y mask)).map f).sum else 1) := by
        split
        · rename_i h; exact h.2
        · exact zero_lt_one
      rw [div_pos_iff_of_pos_right hden, f2 c hc]
      have hmi : mask[i]? = some (mask.getD i false) := by
        have : i < mask.length := by rw [P.mlen]; exact hi
        rw [List.getD_eq_getElem _ _ this, List.getElem?_eq_getElem this]
      by_cases hm : mask.getD i false = true
      · rw [if_pos hm, P.seed_get hi hc]
        rw [hm] at hmi
        constructor
        · intro h
          by_cases hl : Labeled y mask i c
          · exact .label hl
          · rw [if_neg hl] at h; exact absurd h (lt_irrefl _)
        · intro h
          cases h with
          | label hl => rw [if_pos hl]; exact zero_lt_one
          | step h1 => rw [hmi] at h1; simp at h1
      · rw [if_neg hm]
        rw [Bool.not_eq_true] at hm
        rw [hm] at hmi
        rw [sum_pos_iff]
        · obtain ⟨q, hq, hqp⟩ := P.quot_pos heps hsqrt
          constructor
          · rintro ⟨e, he, hpos⟩
            obtain ⟨he1, he2⟩ := List.mem_filter.mp he
            have hd : e.dst = i := by simpa using he2
            obtain ⟨h1, h2⟩ := hes e he1
            have hFp : 0 < F.get e.src c := by
              rcases (mul_pos_iff.mp hpos) with h | h
              · exact h.2
              · exact absurd h.1 (not_lt.mpr h1)
            rw [hq] at he1
            obtain ⟨e0, he0, rfl⟩ := List.mem_map.mp he1
            simp only at hd hFp h2
            rw [← hd] at hmi ⊢
            exact .step hmi ((P.edge_iff e0.src e0.dst e0.w).mpr he0) ((ih _ _ h2 hc).2.mp hFp)
          · intro h
            cases h with
            | label hl => rw [hl.1] at hmi; simp at hmi
            | @step _ _ j' w h1 h2 h3 =>
              have he0 := (P.edge_iff j' i w).mp h2
              refine ⟨⟨j', i, w / q j' i⟩, ?_, ?_⟩
              · rw [List.mem_filter]
                refine ⟨?_, by simp⟩
                rw [hq]
                exact List.mem_map.mpr ⟨_, he0, rfl⟩
              · exact mul_pos (div_pos (P.edge_pos hw _ he0) (hqp _ _)) ((ih _ _ (P.range _ he0).1 hc).2.mpr h3)
        · intro e he
          obtain ⟨h1, h2⟩ := hes e (List.mem_of_mem_filter he)
          exact mul_nonneg h1 (ih _ _ h2 hc).1
  exact key t i c hin hc

/-! ### Label spreading -/

theorem ls_nonneg {n d : Nat} {es : List (WEdge K)} {a : K} (ha : 0 ≤ a) (ha1 : a < 1) {Y : Mat K}
    (hes : ∀ e ∈ es, 0 ≤ e.w ∧ e.src < n)
    (hY : ∀ i c, i < n → c < d → 0 ≤ Y.get i c) (rows : Bool) (F : Mat K) (hF : ∀ i c, i < n → c < d → 0 ≤ F.get i c) :
    ∀ i, i < n → ∃ f : Nat → K, (∀ c, c < d → 0 ≤ f c) ∧
      (∀ c, c < d → f c = a * ((es.filter fun e => e.dst = i).map fun e => e.w * F.get e.src c).sum
        + (1 - a) * Y.get i c) ∧
      (∀ c, c < d → 0 ≤ ((es.filter fun e => e.dst = i).map fun e => e.w * F.get e.src c).sum) ∧
      ∀ c, c < d → (lsStep n d es a Y rows F).get i c
        = f c / (if rows = true ∧ 0 < ((List.range d).map f).sum then ((List.range d).map f).sum else 1) := by
  intro i hi
  have hs : ∀ c, c < d → 0 ≤ ((es.filter fun e => e.dst = i).map fun e => e.w * F.get e.src c).sum := by
    intro c hc
    apply sum_nonneg'
    intro e he
    obtain ⟨h1, h2⟩ := hes e (List.mem_of_mem_filter he)
    exact mul_nonneg h1 (hF _ _ h2 hc)
  refine ⟨fun c => a * ((es.filter fun e => e.dst = i).map fun e => e.w * F.get e.src c).sum
        + (1 - a) * Y.get i c, fun c hc => ?_, fun _ _ => rfl, hs, fun c hc => lsStep_get hi _ (fun _ _ => rfl) hc⟩
  exact add_nonneg (mul_nonneg ha (hs c hc)) (mul_nonneg (sub_nonneg.mpr ha1.le) (hY i c hi hc))

theorem ls_run {sqrt : K → K} {eps : K} {n : Int} {ei : List (Int × Int)} {ew : Option (List K)}
    {y : List Int} {mask : List Bool} {alpha : K} {spec : PropSpec K} {r : Diffusion K}
    (h : labelSpreading sqrt eps n ei ew y mask alpha spec = .ok r) :
    HasShape r.F n.toNat (numClasses y mask) ∧
    (∀ i l, Labeled y mask i l → l < numClasses y mask) ∧ Stopped spec.maxIter spec.tol r := by
  obtain ⟨-, -, es, es', Y, P, rfl⟩ := labelSpreading_ok h
  obtain ⟨j, -, hF, -⟩ := diffuse_run (lsStep y.length (numClasses y mask) es' alpha Y spec.normalizeRows)
    (maxDiff y.length (numClasses y mask)) spec.tol spec.maxIter spec.maxIter.toNat 0 Y none
  have hn : n.toNat = y.length := by have := P.ylen; omega
  refine ⟨?_, fun i l hl => ?_, (diffuse_stopped _ _ _ _ _).1⟩
  · rw [hF, hn]
    exact iterate_ind (P := fun F : Mat K => HasShape F y.length (numClasses y mask)) P.seed_shape
      (fun F _ => lsStep_shape _ _ _ _ _ _ _) j
  · exact (lp_labeled P false 0 i l hl).1

/-- **C86 (iterations, distributions).**  With non-negative weights, label spreading returns non-negative
scores with one row per node; with row normalisation each row sums to one or is zero; in random-walk mode
each row sums to at most one; it stops after at most `max_iter` rounds, earlier only when the last change is
at most `tol`. -/
theorem C86_rows (sqrt : K → K) (hsqrt : ∀ x, 0 < x → 0 < sqrt x) (eps : K) (heps : 0 < eps) (n : Int)
    (ei : List (Int × Int)) (ew : Option (List K)) (hw : ∀ e ∈ edgesOf ei ew, 0 ≤ e.2.2)
    (y : List Int) (mask : List Bool) (alpha : K) (spec : PropSpec K) (r : Diffusion K)
    (h : labelSpreading sqrt eps n ei ew y mask alpha spec = .ok r) :
    (∃ k, HasShape r.F n.toNat k) ∧ (∀ row ∈ r.F, ∀ x ∈ row, 0 ≤ x) ∧
    (spec.normalizeRows = true → StochasticRows r.F) ∧ (spec.norm = "rw" → SubstochasticRows r.F) ∧
    Stopped spec.maxIter spec.tol r := by
  obtain ⟨hsh, -, hst⟩ := ls_run h
  refine ⟨⟨_, hsh⟩, ?_⟩
  obtain ⟨ha0, ha1, es, es', Y, P, rfl⟩ := labelSpreading_ok h
  obtain ⟨j, -, hF, -⟩ := diffuse_run (lsStep y.length (numClasses y mask) es' alpha Y spec.normalizeRows)
    (maxDiff y.length (numClasses y mask)) spec.tol spec.maxIter spec.maxIter.toNat 0 Y none
  have hes : ∀ e ∈ es', 0 ≤ e.w ∧ e.src < y.length := fun e he =>
    ⟨P.norm_nonneg heps hsqrt hw e he, (P.norm_range e he).1⟩
  have hseed : ∀ i, i < y.length → ((List.range (numClasses y mask)).map (Y.get i)).sum ≤ 1 := by
    intro i hi
    rcases seed_row P hi with h | h
    · exact h.le
    · rw [List.sum_eq_zero]
      · exact zero_le_one
      · intro x hx
        obtain ⟨c, hc, rfl⟩ := List.mem_map.mp hx
        exact h c (List.mem_range.mp hc)
  have key := iterate_ind (P := fun F : Mat K => HasShape F y.length (numClasses y mask) ∧
      ∀ i, i < y.length → (∀ c, c < numClasses y mask → 0 ≤ F.get i c) ∧
        (spec.normalizeRows = true →
          ((List.range (numClasses y mask)).map (F.get i)).sum = 1 ∨ ∀ c, c < numClasses y mask → F.get i c = 0) ∧
        (spec.norm = "rw" → ((List.range (numClasses y mask)).map (F.get i)).sum ≤ 1))
    (step := lsStep y.length (numClasses y mask) es' alpha Y spec.normalizeRows) (F := Y)
    ⟨P.seed_shape, fun i hi => ⟨fun c hc => seed_nonneg P i c hi hc, fun _ => seed_row P hi, fun _ => hseed i hi⟩⟩ ?_ j
  · rw [hF]
    refine ⟨?_, ?_, ?_, hst⟩
    · intro row hr x hx
      obtain ⟨i, hi, rfl⟩ := row_eq key.1 hr
      obtain ⟨c, hc, rfl⟩ := List.mem_map.mp hx
      exact (key.2 i hi).1 c (List.mem_range.mp hc)
    · intro hrows
      exact rows_of_entries key.1 fun i hi => ⟨(key.2 i hi).1, (key.2 i hi).2.1 hrows⟩
    · intro hnorm
      exact subrows_of_entries key.1 fun i hi => ⟨(key.2 i hi).1, (key.2 i hi).2.2 hnorm⟩
  · rintro F ⟨-, hF⟩
    refine ⟨lsStep_shape _ _ _ _ _ _ _, fun i hi => ?_⟩
    obtain ⟨f, f1, f2, f4, f3⟩ := ls_nonneg ha0 ha1 hes (seed_nonneg P) spec.normalizeRows F
      (fun i c hi hc => (hF i hi).1 c hc) i hi
    have hnn : ∀ c, c < numClasses y mask →
        0 ≤ (lsStep y.length (numClasses y mask) es' alpha Y spec.normalizeRows F).get i c := by
      intro c hc
      rw [f3 c hc]
      exact div_norm_nonneg (f1 c hc) _
    have hsto : spec.normalizeRows = true →
        (((List.range (numClasses y mask)).map
          ((lsStep y.length (numClasses y mask) es' alpha Y spec.normalizeRows F).get i)).sum = 1 ∨
        ∀ c, c < numClasses y mask →
          (lsStep y.length (numClasses y mask) es' alpha Y spec.normalizeRows F).get i c = 0) := by
      intro hrows
      exact (normalized_row f1 (fun c hc => by rw [f3 c hc, hrows]; simp)).2
    refine ⟨hnn, hsto, fun hnorm => ?_⟩
    by_cases hrows : spec.normalizeRows = true
    · rcases hsto hrows with h2 | h2
      · exact h2.le
      · rw [List.sum_eq_zero]
        · exact zero_le_one
        · intro x hx
          obtain ⟨c, hc, rfl⟩ := List.mem_map.mp hx
          exact h2 c (List.mem_range.mp hc)
    · rw [Bool.not_eq_true] at hrows
      have : (List.range (numClasses y mask)).map
          ((lsStep y.length (numClasses y mask) es' alpha Y spec.normalizeRows F).get i)
          = (List.range (numClasses y mask)).map fun c =>
            alpha * ((es'.filter fun e => e.dst = i).map fun e => e.w * F.get e.src c).sum + (1 - alpha) * Y.get i c := by
        apply List.map_congr_left
        intro c hc
        rw [f3 c (List.mem_range.mp hc), hrows, f2 c (List.mem_range.mp hc)]
        simp
      rw [this, List.sum_map_add, List.sum_map_mul_left, List.sum_map_mul_left, sum_comm]
      have hS : ((es'.filter fun e => e.dst = i).map
          fun e => ((List.range (numClasses y mask)).map fun c => e.w * F.get e.src c).sum).sum ≤ 1 := by
        refine le_trans (sum_le_sum' _ _ (fun e => e.w) ?_) (P.rw_sum heps hnorm i)
        intro e he
        obtain ⟨h1, h2⟩ := hes e (List.mem_of_mem_filter he)
        rw [List.sum_map_mul_left]
        exact mul_le_of_le_one_right h1 ((hF _ h2).2.2 hnorm)
      have h1 := mul_le_mul_of_nonneg_left hS ha0
      have h2 := mul_le_mul_of_nonneg_left (hseed i hi) (sub_nonneg.mpr ha1.le)
      calc _ ≤ alpha * 1 + (1 - alpha) * 1 := add_le_add h1 h2
        _ = 1 := by ring

/-- **C86 (who gets a score).**  With positive weights and `alpha > 0`, a node has a positive score for a
class exactly when a node labeled with this class is at most as many edges away as there were iterations. -/
theorem C86_support (sqrt : K → K) (hsqrt : ∀ x, 0 < x → 0 < sqrt x) (eps : K) (heps : 0 < eps) (n : Int)
    (ei : List (Int × Int)) (ew : Option (List K)) (hw : ∀ e ∈ edgesOf ei ew, 0 < e.2.2)
    (y : List Int) (mask : List Bool) (alpha : K) (hpos : 0 < alpha) (spec : PropSpec K) (hmax : 0 ≤ spec.maxIter)
    (r : Diffusion K) (h : labelSpreading sqrt eps n ei ew y mask alpha spec = .ok r) (i c : Nat) (hi : (i : Int) < n) :
    0 < r.F.get i c ↔ Connects (edgesOf ei ew) y mask c r.nIter.toNat i := by
  classical
  by_cases hc : numClasses y mask ≤ c
  · rw [get_outside (ls_run h).1 hc]
    refine ⟨fun h0 => absurd h0 (lt_irrefl _), fun hr => ?_⟩
    have : ∀ t i, Connects (edgesOf ei ew) y mask c t i → False := by
      intro t i hr
      induction hr with
      | label hl =>
        have := (ls_run h).2.1 _ _ hl
        omega
      | step _ _ ih => exact ih
    exact absurd hr (this _ _)
  rw [not_le] at hc
  obtain ⟨ha0, ha1, es, es', Y, P, rfl⟩ := labelSpreading_ok h
  rw [(diffuse_stopped (lsStep y.length (numClasses y mask) es' alpha Y spec.normalizeRows)
    (maxDiff y.length (numClasses y mask)) spec.tol spec.maxIter Y).2 hmax]
  generalize (diffuse (lsStep y.length (numClasses y mask) es' alpha Y spec.normalizeRows)
    (maxDiff y.length (numClasses y mask)) spec.tol spec.maxIter spec.maxIter.toNat 0 Y none).nIter.toNat = t
  have hw' : ∀ e ∈ edgesOf ei ew, 0 ≤ e.2.2 := fun e he => (hw e he).le
  have hes : ∀ e ∈ es', 0 ≤ e.w ∧ e.src < y.length := fun e he =>
    ⟨P.norm_nonneg heps hsqrt hw' e he, (P.norm_range e he).1⟩
  have hin : i < y.length := by have := P.ylen; omega
  have key : ∀ t i c, i < y.length → c < numClasses y mask →
      0 ≤ ((lsStep y.length (numClasses y mask) es' alpha Y spec.normalizeRows)^[t] Y).get i c ∧
      (0 < ((lsStep y.length (numClasses y mask) es' alpha Y spec.normalizeRows)^[t] Y).get i c ↔
        Connects (edgesOf ei ew) y mask c t i) := by
    intro t
    induction t with
    | zero =>
      intro i c hi hc
      rw [Function.iterate_zero, id, P.seed_get hi hc]
      by_cases hl : Labeled y mask i c
      · rw [if_pos hl]
        exact ⟨zero_le_one, fun _ => .label hl, fun _ => zero_lt_one⟩
      · rw [if_neg hl]
        refine ⟨le_refl _, fun h => absurd h (lt_irrefl _), fun h => ?_⟩
        cases h with
        | label h => exact absurd h hl
    | succ t ih =>
      intro i c hi hc
      rw [Function.iterate_succ_apply']
      set F := (lsStep y.length (numClasses y mask) es' alpha Y spec.normalizeRows)^[t] Y with hF
      obtain ⟨f, f1, f2, f4, f3⟩ := ls_nonneg ha0 ha1 hes (seed_nonneg P) spec.normalizeRows F
        (fun i c hi hc => (ih i c hi hc).1) i hi
      rw [f3 c hc]
      refine ⟨div_norm_nonneg (f1 c hc) _, ?_⟩
      have hden : (0 : K) < (if spec.normalizeRows = true ∧ 0 < ((List.range (numClasses y mask)).map f).sum
          then ((List.range (numClasses y mask)).map f).sum else 1) := by
        split
        · rename_i h; exact h.2
        · exact zero_lt_one
      rw [div_pos_iff_of_pos_right hden, f2 c hc]
      have hterm : ∀ e ∈ es'.filter (fun e => e.dst = i), 0 ≤ e.w * F.get e.src c := by
        intro e he
        obtain ⟨h1, h2⟩ := hes e (List.mem_of_mem_filter he)
        exact mul_nonneg h1 (ih _ _ h2 hc).1
      have hsum := sum_pos_iff (es'.filter fun e => e.dst = i) (fun e => e.w * F.get e.src c) hterm
      obtain ⟨q, hq, hqp⟩ := P.quot_pos heps hsqrt
      have hY0 := seed_nonneg P i c hi hc
      have h1a : 0 < 1 - alpha := sub_pos.mpr ha1
      constructor
      · intro hp
        by_cases hl : Labeled y mask i c
        · exact .label hl
        · rw [P.seed_get hi hc, if_neg hl, mul_zero, add_zero] at hp
          obtain ⟨e, he, hpe⟩ := hsum.mp (pos_of_mul_pos_right hp ha0)
          obtain ⟨he1, he2⟩ := List.mem_filter.mp he
          have hd : e.dst = i := by simpa using he2
          obtain ⟨h1, h2⟩ := hes e he1
          have hFp : 0 < F.get e.src c := by
            rcases (mul_pos_iff.mp hpe) with h | h
            · exact h.2
            · exact absurd h.1 (not_lt.mpr h1)
          rw [hq] at he1
          obtain ⟨e0, he0, rfl⟩ := List.mem_map.mp he1
          simp only at hd hFp h2
          rw [← hd]
          exact .step ((P.edge_iff e0.src e0.dst e0.w).mpr he0) ((ih _ _ h2 hc).2.mp hFp)
      · intro h
        cases h with
        | label hl =>
          rw [P.seed_get hi hc, if_pos hl]
          have := mul_nonneg ha0 (f4 c hc)
          linarith
        | @step _ _ j' w h2 h3 =>
          have he0 := (P.edge_iff j' i w).mp h2
          have : 0 < ((es'.filter fun e => e.dst = i).map fun e => e.w * F.get e.src c).sum := by
            apply hsum.mpr
            refine ⟨⟨j', i, w / q j' i⟩, ?_, ?_⟩
            · rw [List.mem_filter]
              refine ⟨?_, by simp⟩
              rw [hq]
              exact List.mem_map.mpr ⟨_, he0, rfl⟩
            · exact mul_pos (div_pos (P.edge_pos hw _ he0) (hqp _ _)) ((ih _ _ (P.range _ he0).1 hc).2.mpr h3)
          have h5 := mul_pos hpos this
          have h6 := mul_nonneg h1a.le hY0
          linarith
  exact (key t i c hin hc).2

end
end ModSSC.Transductive
