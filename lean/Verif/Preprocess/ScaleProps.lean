import Verif.Preprocess.ScaleModel
import Verif.ExceptLemmas
import Mathlib.Tactic.Linarith
import Mathlib.Tactic.Ring
import Mathlib.Tactic.FinCases
import Mathlib.Data.Fin.VecNotation
import Mathlib.Tactic.FieldSimp
import Mathlib.Algebra.Order.Field.Rat
import Mathlib.Algebra.Order.BigOperators.Group.List
import Mathlib.Analysis.Real.Sqrt

/-!
# Steps fitted on a table (C149)
-/

namespace ModSSC.Preprocess.Scale
open ModSSC ModSSC.Preprocess.Pca

variable {K : Type} [Field K] [LinearOrder K] [IsStrictOrderedRing K] {d : Nat}

/-- What is used of `np.sqrt`. -/
def Spec.SqrtLaw (sqrt : K → K) : Prop := ∀ x, 0 < x → 0 < sqrt x ∧ sqrt x * sqrt x = x

theorem sqrtLaw_real : Spec.SqrtLaw Real.sqrt := fun _ hx => ⟨Real.sqrt_pos.mpr hx, Real.mul_self_sqrt hx.le⟩

omit [LinearOrder K] [IsStrictOrderedRing K] in
theorem map_sub_sum (xs : List K) (c : K) : (xs.map (· - c)).sum = xs.sum - (xs.length : K) * c := by
  induction xs with
  | nil => simp
  | cons x xs ih => simp only [List.map_cons, List.sum_cons, List.length_cons, ih]; push_cast; ring

omit [LinearOrder K] [IsStrictOrderedRing K] in
theorem map_div_sum {α : Type} (xs : List α) (f : α → K) (c : K) : (xs.map fun x => f x / c).sum = (xs.map f).sum / c := by
  induction xs with
  | nil => simp
  | cons x xs ih => simp only [List.map_cons, List.sum_cons, ih]; ring

theorem sq_sum_nonneg {α : Type} (xs : List α) (f : α → K) : 0 ≤ (xs.map fun x => f x * f x).sum :=
  List.sum_nonneg fun y hy => by
    obtain ⟨x, _, rfl⟩ := List.mem_map.mp hy
    exact mul_self_nonneg _

theorem sq_sum_zero {α : Type} (xs : List α) (f : α → K) (h : (xs.map fun x => f x * f x).sum = 0) : ∀ x ∈ xs, f x = 0 := by
  induction xs with
  | nil => simp
  | cons x xs ih =>
    simp only [List.map_cons, List.sum_cons] at h
    have h1 := mul_self_nonneg (f x)
    have h2 := sq_sum_nonneg xs f
    intro y hy
    rcases List.mem_cons.mp hy with rfl | hy
    · exact mul_self_eq_zero.mp (by linarith)
    · exact ih (by linarith) y hy

omit [IsStrictOrderedRing K] in
theorem scalerFit_ok (sqrt : K → K) (X : List (Vec K d)) (idx : List Nat) (T : Scaler K d) (h : scalerFit sqrt X idx = .ok T) :
    ∃ Xf, takeRows X idx = .ok Xf ∧ Xf ≠ [] ∧ T = ⟨colMean Xf, fun j => if colVar Xf j = 0 then 1 else sqrt (colVar Xf j)⟩ := by
  unfold scalerFit at h
  rw [ebind_ok] at h
  obtain ⟨Xf, h1, h⟩ := h
  refine ⟨Xf, h1, ?_⟩
  by_cases hl : Xf.length = 0
  · rw [if_pos hl] at h; cases h
  · rw [if_neg hl] at h
    cases h
    exact ⟨fun h => hl (by rw [h]; rfl), rfl⟩

/-- C149: after standardizing with both options on, the rows the scaler was fitted on have mean 0 in every column, and mean square
1 in every column that is not constant on them; a column constant on them becomes 0. -/
theorem C149_standardized (sqrt : K → K) (hs : Spec.SqrtLaw sqrt) (X : List (Vec K d)) (idx : List Nat) (T : Scaler K d)
    (h : scalerFit sqrt X idx = .ok T) (Xf : List (Vec K d)) (hf : takeRows X idx = .ok Xf) (j : Fin d) :
    (Xf.map fun r => scaleRow true true T r j).sum = 0 ∧
    ((¬ ∀ a ∈ Xf, ∀ b ∈ Xf, a j = b j) → (Xf.map fun r => scaleRow true true T r j * scaleRow true true T r j).sum = (Xf.length : K)) ∧
    ((∀ a ∈ Xf, ∀ b ∈ Xf, a j = b j) → ∀ r ∈ Xf, scaleRow true true T r j = 0) := by
  obtain ⟨Xf', h1, hne, rfl⟩ := scalerFit_ok sqrt X idx T h
  rw [hf] at h1; cases h1
  have hn : (Xf.length : K) ≠ 0 := by
    have : Xf.length ≠ 0 := fun h => hne (List.length_eq_zero_iff.mp h)
    exact_mod_cast this
  have hnpos : (0 : K) < (Xf.length : K) := lt_of_le_of_ne (Nat.cast_nonneg _) (Ne.symm hn)
  set m := colMean Xf j with hm
  set sc : K := if colVar Xf j = 0 then 1 else sqrt (colVar Xf j) with hsc
  have hrow : ∀ r : Vec K d, scaleRow true true (⟨colMean Xf, fun j => if colVar Xf j = 0 then 1 else sqrt (colVar Xf j)⟩ : Scaler K d) r j = (r j - m) / sc := by
    intro r; rfl
  have hcen : (Xf.map fun r => r j - m).sum = 0 := by
    have := map_sub_sum (Xf.map fun r => r j) m
    rw [List.map_map, List.length_map] at this
    rw [show (Xf.map fun r => r j - m) = (Xf.map ((fun x => x - m) ∘ fun r => r j)) from rfl, this, hm]
    unfold colMean
    field_simp
    ring
  have hvar0 : 0 ≤ colVar Xf j := div_nonneg (sq_sum_nonneg Xf fun r => r j - m) hnpos.le
  have hconst : colVar Xf j = 0 ↔ ∀ a ∈ Xf, ∀ b ∈ Xf, a j = b j := by
    constructor
    · intro hv a ha b hb
      have hz : (Xf.map fun r => (r j - m) * (r j - m)).sum = 0 := by
        rcases div_eq_zero_iff.mp hv with h | h
        · exact h
        · exact absurd h hn
      have hz := sq_sum_zero Xf (fun r => r j - m) hz
      have := hz a ha
      have := hz b hb
      linarith
    · intro hc
      obtain ⟨a, rest, hXf⟩ := List.exists_cons_of_ne_nil hne
      have ha : ∀ r ∈ Xf, r j = a j := fun r hr => hc r hr a (by rw [hXf]; exact List.mem_cons_self)
      have hmean : m = a j := by
        have h2 : (Xf.map fun r => r j - m).sum = (Xf.length : K) * (a j - m) := by
          rw [List.map_congr_left (g := fun _ => a j - m) (fun r hr => by rw [ha r hr]), List.map_const', List.sum_replicate, nsmul_eq_mul]
        rw [hcen] at h2
        rcases mul_eq_zero.mp h2.symm with h | h
        · exact absurd h hn
        · linarith
      unfold colVar
      rw [List.map_congr_left (g := fun _ => (0 : K)) (fun r hr => by rw [ha r hr, ← hm, hmean]; ring), List.map_const', List.sum_replicate]
      simp
  simp only [hrow]
  refine ⟨by rw [map_div_sum, hcen, zero_div], ?_, ?_⟩
  · intro hnc
    have hv : colVar Xf j ≠ 0 := fun h => hnc (hconst.mp h)
    have hsq := hs _ (lt_of_le_of_ne hvar0 (Ne.symm hv))
    have hsc' : sc = sqrt (colVar Xf j) := by rw [hsc, if_neg hv]
    have : (Xf.map fun r => (r j - m) / sc * ((r j - m) / sc)) = Xf.map fun r => (r j - m) * (r j - m) / (sc * sc) :=
      List.map_congr_left fun r _ => by rw [div_mul_div_comm]
    rw [this, map_div_sum, hsc', hsq.2]
    rw [div_eq_iff hv]
    unfold colVar
    rw [mul_div_cancel₀ _ hn]
  · intro hc r hr
    have hv := hconst.mpr hc
    have hz : (Xf.map fun r => (r j - m) * (r j - m)).sum = 0 := by
      rcases div_eq_zero_iff.mp hv with h | h
      · exact h
      · exact absurd h hn
    rw [sq_sum_zero Xf (fun r => r j - m) hz r hr, zero_div]

omit [IsStrictOrderedRing K] in
/-- C149: only the rows chosen for fitting matter to the scaler; choosing none is a `ValueError`, and so is nothing else. -/
theorem C149_scaler_fit (sqrt : K → K) (X : List (Vec K d)) (idx : List Nat) (hr : ∀ i ∈ idx, i < X.length) :
    ((∃ T, scalerFit sqrt X idx = .ok T) ↔ idx ≠ []) ∧ (idx = [] → scalerFit sqrt X idx = .error .valueError) ∧
    ∀ X' : List (Vec K d), (∀ i ∈ idx, X'[i]? = X[i]?) → scalerFit sqrt X' idx = scalerFit sqrt X idx := by
  have htake : ∀ (l : List Nat), (∀ i ∈ l, i < X.length) → ∃ Xf, takeRows X l = .ok Xf ∧ Xf.length = l.length := by
    intro l hl
    obtain ⟨r, hr'⟩ : ∃ r, takeRows X l = .ok r := mapM_total fun i hi => by
      simp only [List.getElem?_eq_getElem (hl i hi)]
      exact ⟨_, rfl⟩
    exact ⟨r, hr', (mapM_ok.mp hr').length_eq.symm⟩
  refine ⟨?_, ?_, ?_⟩
  · obtain ⟨Xf, h1, h2⟩ := htake idx hr
    unfold scalerFit
    rw [h1]
    simp only [bind, Except.bind]
    constructor
    · rintro ⟨T, h⟩ rfl
      rw [List.length_nil] at h2
      rw [if_pos h2] at h
      cases h
    · intro hne
      rw [if_neg (by rw [h2]; exact fun h => hne (List.length_eq_zero_iff.mp h))]
      exact ⟨_, rfl⟩
  · rintro rfl; rfl
  · intro X' hX
    have : takeRows X' idx = takeRows X idx := by
      unfold takeRows
      clear hr htake
      induction idx with
      | nil => rfl
      | cons i l ih =>
        rw [List.mapM_cons, List.mapM_cons, hX i List.mem_cons_self, ih fun i hi => hX i (List.mem_cons_of_mem _ hi)]
    unfold scalerFit
    rw [this]

/-- C149: a fitted scaler works row by row, keeps number and order of the rows, and never changes which of two values in a column
is the larger. -/
theorem C149_scaler_rows (sqrt : K → K) (hs : Spec.SqrtLaw sqrt) (X0 : List (Vec K d)) (idx : List Nat) (T : Scaler K d)
    (h : scalerFit sqrt X0 idx = .ok T) (wm ws : Bool) (X Z : List (Vec K d)) (hz : scalerTransform wm ws (some T) X = .ok Z) :
    Z.length = X.length ∧
    (∀ (i : Nat) (r : Vec K d), X[i]? = some r → ∃ z, Z[i]? = some z ∧ scalerTransform wm ws (some T) [r] = .ok [z]) ∧
    ∀ (i i' : Nat) (r r' z z' : Vec K d), X[i]? = some r → X[i']? = some r' → Z[i]? = some z → Z[i']? = some z' →
      ∀ j, (z j < z' j ↔ r j < r' j) := by
  cases hz
  refine ⟨by simp, ?_, ?_⟩
  · intro i r hi
    exact ⟨scaleRow wm ws T r, by rw [List.getElem?_map, hi]; rfl, rfl⟩
  · intro i i' r r' z z' hi hi' hz hz' j
    rw [List.getElem?_map, hi] at hz
    rw [List.getElem?_map, hi'] at hz'
    cases hz; cases hz'
    obtain ⟨Xf, -, hne, rfl⟩ := scalerFit_ok sqrt X0 idx T h
    have hsc : 0 < (if colVar Xf j = 0 then 1 else sqrt (colVar Xf j)) := by
      split
      · exact one_pos
      · rename_i hv
        refine (hs _ (lt_of_le_of_ne ?_ (Ne.symm hv))).1
        exact div_nonneg (sq_sum_nonneg Xf fun r => r j - colMean Xf j) (Nat.cast_nonneg _)
    cases wm <;> cases ws <;> simp only [scaleRow, Bool.false_eq_true, if_true, if_false, sub_lt_sub_iff_right, div_lt_div_iff_of_pos_right hsc]

theorem mean_bounds (xs : List K) (hne : xs ≠ []) (a b : K) (ha : ∀ x ∈ xs, a ≤ x) (hb : ∀ x ∈ xs, x ≤ b) :
    a ≤ xs.sum / (xs.length : K) ∧ xs.sum / (xs.length : K) ≤ b := by
  have hn : (0 : K) < (xs.length : K) := by
    exact_mod_cast List.length_pos_iff.mpr hne
  rw [le_div_iff₀ hn, div_le_iff₀ hn]
  clear hn hne
  induction xs with
  | nil => simp
  | cons x xs ih =>
    obtain ⟨h1, h2⟩ := ih (fun y hy => ha y (List.mem_cons_of_mem _ hy)) (fun y hy => hb y (List.mem_cons_of_mem _ hy))
    have h3 := ha x List.mem_cons_self
    have h4 := hb x List.mem_cons_self
    simp only [List.sum_cons, List.length_cons]
    push_cast
    constructor <;> nlinarith

omit [Field K] [IsStrictOrderedRing K] in
theorem getD_mem_sort [Zero K] (xs : List K) (i : Nat) (hi : i < xs.length) : (xs.insertionSort (· ≤ ·)).getD i 0 ∈ xs := by
  have hl : i < (xs.insertionSort (· ≤ ·)).length := by rw [List.length_insertionSort]; exact hi
  rw [List.getD_eq_getElem?_getD, List.getElem?_eq_getElem hl]
  exact (List.mem_insertionSort (· ≤ ·)).mp (List.getElem_mem hl)

omit [Field K] [IsStrictOrderedRing K] in
theorem exists_max_count (xs : List K) (hne : xs ≠ []) : ∃ x ∈ xs, ∀ y ∈ xs, xs.count y ≤ xs.count x := by
  obtain ⟨x, hx, hm⟩ := xs.toFinset.exists_max_image (fun x => xs.count x)
    (by obtain ⟨a, ha⟩ := List.exists_mem_of_ne_nil xs hne; exact ⟨a, List.mem_toFinset.mpr ha⟩)
  exact ⟨x, List.mem_toFinset.mp hx, fun y hy => hm y (List.mem_toFinset.mpr hy)⟩

/-- C149: what is put in place of missing values is between the smallest and the largest value seen in the column on the rows
fitted on (`constant` apart); `most_frequent` gives a value that occurs there, as often as any other, and the least such. -/
theorem C149_impute_value (obs : List K) (hne : obs ≠ []) (a b : K) (ha : ∀ x ∈ obs, a ≤ x) (hb : ∀ x ∈ obs, x ≤ b) :
    (∀ st, (∀ c, st ≠ .constant c) → ∃ v, statOf st obs = some v ∧ a ≤ v ∧ v ≤ b) ∧
    statOf .mean obs = some (obs.sum / (obs.length : K)) ∧
    (∃ v, statOf .mostFrequent obs = some v ∧ v ∈ obs ∧ (∀ y ∈ obs, obs.count y ≤ obs.count v) ∧
      ∀ w ∈ obs, (∀ y ∈ obs, obs.count y ≤ obs.count w) → v ≤ w) := by
  have hpos : 0 < obs.length := List.length_pos_iff.mpr hne
  have hfreq : mostFrequent obs ∈ obs ∧ (∀ y ∈ obs, obs.count y ≤ obs.count (mostFrequent obs)) ∧
      ∀ w ∈ obs, (∀ y ∈ obs, obs.count y ≤ obs.count w) → mostFrequent obs ≤ w := by
    obtain ⟨x, hx, hm⟩ := exists_max_count obs hne
    cases hf : (obs.insertionSort (· ≤ ·)).find? fun x => decide (∀ y ∈ obs, obs.count y ≤ obs.count x) with
    | none =>
      exfalso
      rw [List.find?_eq_none] at hf
      exact hf x ((List.mem_insertionSort (· ≤ ·)).mpr hx) (decide_eq_true hm)
    | some v =>
      have hmf : mostFrequent obs = v := by unfold mostFrequent; simp only; rw [hf]; rfl
      rw [hmf]
      have h1 := List.mem_of_find?_eq_some hf
      have h2 := List.find?_some hf
      refine ⟨(List.mem_insertionSort (· ≤ ·)).mp h1, of_decide_eq_true h2, ?_⟩
      intro w hw hwm
      rw [List.find?_eq_some_iff_append] at hf
      obtain ⟨-, as, bs, hs, has⟩ := hf
      have hwm' : w ∈ as ++ v :: bs := by rw [← hs]; exact (List.mem_insertionSort (· ≤ ·)).mpr hw
      rcases List.mem_append.mp hwm' with h | h
      · have := has w h
        rw [decide_eq_true hwm] at this
        simp at this
      · rcases List.mem_cons.mp h with rfl | h
        · exact le_refl _
        · have hp : (obs.insertionSort (· ≤ ·)).Pairwise (· ≤ ·) := List.pairwise_insertionSort _ _
          rw [hs, List.pairwise_append] at hp
          exact (List.pairwise_cons.mp hp.2.1).1 w h
  refine ⟨?_, by simp [statOf, hne], ⟨mostFrequent obs, by simp [statOf, hne], hfreq⟩⟩
  intro st hst
  cases st with
  | mean => exact ⟨_, by simp [statOf, hne], mean_bounds obs hne a b ha hb⟩
  | median =>
    refine ⟨median obs, by simp [statOf, hne], ?_⟩
    unfold median
    simp only
    split
    · have := getD_mem_sort obs (obs.length / 2) (by omega)
      exact ⟨ha _ this, hb _ this⟩
    · have h1 := getD_mem_sort obs (obs.length / 2) (by omega)
      have h2 := getD_mem_sort obs (obs.length / 2 - 1) (by omega)
      have := ha _ h1; have := hb _ h1; have := ha _ h2; have := hb _ h2
      constructor
      · rw [le_div_iff₀ two_pos]; linarith
      · rw [div_le_iff₀ two_pos]; linarith
  | mostFrequent => exact ⟨_, by simp [statOf, hne], ha _ hfreq.1, hb _ hfreq.1⟩
  | constant c => exact absurd rfl (hst c)

omit [IsStrictOrderedRing K] in
theorem imputeFit_ok (st : Strategy K) (X : List (Fin d → Option K)) (idx : List Nat) (T : Imputer K d) (h : imputeFit st X idx = .ok T) :
    ∃ Xf, takeRows X idx = .ok Xf ∧ Xf ≠ [] ∧
      T = ⟨fun j => statOf st (finiteCol Xf j), fun j => Xf.any fun r => (r j).isNone⟩ := by
  unfold imputeFit at h
  rw [ebind_ok] at h
  obtain ⟨Xf, h1, h⟩ := h
  refine ⟨Xf, h1, ?_⟩
  by_cases hl : Xf.length = 0
  · rw [if_pos hl] at h; cases h
  · rw [if_neg hl] at h
    cases h
    exact ⟨fun h => hl (by rw [h]; rfl), rfl⟩

omit [Field K] [LinearOrder K] [IsStrictOrderedRing K] in
theorem finRange_map_get {α : Type} (f : Fin d → α) (j : Fin d) : ((List.finRange d).map f)[(j : Nat)]? = some (f j) := by
  rw [List.getElem?_map, List.getElem?_eq_getElem (by simp)]
  simp

/-- C149: with `with_mean` the column mean of the rows fitted on is taken off, with `with_std` the result is divided by their
standard deviation (1 for a constant column); an option that is off changes nothing. -/
theorem C149_scaler_options (sqrt : K → K) (hs : Spec.SqrtLaw sqrt) (X0 : List (Vec K d)) (idx : List Nat) (T : Scaler K d)
    (Xf : List (Vec K d)) (hf : takeRows X0 idx = .ok Xf) (h : scalerFit sqrt X0 idx = .ok T) (wm ws : Bool) (r z : Vec K d)
    (hz : scalerTransform wm ws (some T) [r] = .ok [z]) (j : Fin d) :
    ∃ m v : K, m * (Xf.length : K) = (Xf.map fun x => x j).sum ∧ 0 < v ∧
      ((∃ a ∈ Xf, ∃ b ∈ Xf, a j ≠ b j) → v * v * (Xf.length : K) = (Xf.map fun x => (x j - m) * (x j - m)).sum) ∧
      ((∀ a ∈ Xf, ∀ b ∈ Xf, a j = b j) → v = 1) ∧
      z j = (r j - if wm then m else 0) / if ws then v else 1 := by
  obtain ⟨Xf', h1, hne, rfl⟩ := scalerFit_ok sqrt X0 idx T h
  rw [hf] at h1; cases h1
  have hn : (Xf.length : K) ≠ 0 := by
    have : Xf.length ≠ 0 := fun h => hne (List.length_eq_zero_iff.mp h)
    exact_mod_cast this
  have hmean : colMean Xf j * (Xf.length : K) = (Xf.map fun x => x j).sum := by
    unfold colMean
    exact div_mul_cancel₀ _ hn
  have hvar : colVar Xf j * (Xf.length : K) = (Xf.map fun x => (x j - colMean Xf j) * (x j - colMean Xf j)).sum := by
    unfold colVar
    exact div_mul_cancel₀ _ hn
  have hnn : 0 ≤ colVar Xf j := div_nonneg (sq_sum_nonneg Xf fun x => x j - colMean Xf j) (by positivity)
  have hz0 : colVar Xf j = 0 ↔ ∀ a ∈ Xf, ∀ b ∈ Xf, a j = b j := by
    constructor
    · intro h0 a ha b hb
      rw [h0, zero_mul] at hvar
      have := sq_sum_zero Xf (fun x => x j - colMean Xf j) hvar.symm
      have h1 := this a ha
      have h2 := this b hb
      linarith
    · intro hc
      obtain ⟨a, l, rfl⟩ := List.exists_cons_of_ne_nil hne
      have hm : colMean (a :: l) j = a j := by
        have : ((a :: l).map fun x => x j).sum = ((a :: l).length : K) * a j := by
          rw [List.map_congr_left (g := fun _ => a j) (fun x hx => hc x hx a (by simp)), List.map_const', List.sum_replicate,
            nsmul_eq_mul]
        rw [this] at hmean
        have := mul_right_cancel₀ hn (hmean.trans (mul_comm _ _))
        exact this
      unfold colVar
      rw [hm, List.map_congr_left (g := fun _ => (0 : K)) (fun x hx => by rw [hc x hx a (by simp)]; ring)]
      simp
  simp only [scalerTransform, List.map_cons, List.map_nil, Except.ok.injEq, List.cons.injEq, and_true] at hz
  refine ⟨colMean Xf j, if colVar Xf j = 0 then 1 else sqrt (colVar Xf j), hmean, ?_, ?_, ?_, ?_⟩
  · split_ifs with h0
    · exact one_pos
    · exact (hs _ (lt_of_le_of_ne hnn (Ne.symm h0))).1
  · rintro ⟨a, ha, b, hb, hab⟩
    have h0 : colVar Xf j ≠ 0 := fun h0 => hab (hz0.mp h0 a ha b hb)
    rw [if_neg h0, (hs _ (lt_of_le_of_ne hnn (Ne.symm h0))).2, hvar]
  · intro hc
    rw [if_pos (hz0.mpr hc)]
  · rw [← hz]
    unfold scaleRow
    cases wm <;> cases ws <;> simp

omit [IsStrictOrderedRing K] in
/-- C149 (partial: every column has a value on some row fitted on): imputing keeps observed values where they are, leaves nothing
missing, puts one value per column in the gaps, and adds one 0/1 column for each column with gaps on the rows fitted on if asked to. -/
theorem C149_impute_partial (st : Strategy K) (X0 : List (Fin d → Option K)) (idx : List Nat) (T : Imputer K d) (Xf : List (Fin d → Option K))
    (h : imputeFit st X0 idx = .ok T) (hf : takeRows X0 idx = .ok Xf) (hcol : ∀ j, ∃ r ∈ Xf, (r j).isSome = true)
    (ind : Bool) (X : List (Fin d → Option K)) (Z : List (List K)) (hz : imputeTransform ind (some T) X = .ok Z) :
    Z.length = X.length ∧ ∃ fillv : Fin d → K, (∀ j, statOf st (finiteCol Xf j) = some (fillv j)) ∧
    ∀ (i : Nat) (r : Fin d → Option K), X[i]? = some r → ∃ z, Z[i]? = some z ∧
      z.length = d + (if ind then ((List.finRange d).filter fun j => Xf.any fun r => (r j).isNone).length else 0) ∧
      (∀ j : Fin d, z[(j : Nat)]? = some ((r j).getD (fillv j))) ∧
      z.drop d = if ind then ((List.finRange d).filter fun j => Xf.any fun r => (r j).isNone).map
        (fun j => if r j = none then 1 else 0) else [] := by
  obtain ⟨Xf', h1, hne, rfl⟩ := imputeFit_ok st X0 idx T h
  rw [hf] at h1; cases h1
  cases hz
  have hstat : ∀ j, ∃ v, statOf st (finiteCol Xf j) = some v := by
    intro j
    obtain ⟨r, hr, hs⟩ := hcol j
    have hobs : finiteCol Xf j ≠ [] := by
      intro he
      obtain ⟨v, hv⟩ := Option.isSome_iff_exists.mp hs
      have : v ∈ finiteCol Xf j := List.mem_filterMap.mpr ⟨r, hr, hv⟩
      rw [he] at this; simp at this
    cases st <;> simp [statOf, hobs]
  choose fillv hfill using hstat
  refine ⟨by simp, fillv, hfill, ?_⟩
  intro i r hi
  refine ⟨_, by rw [List.getElem?_map, hi]; rfl, ?_, ?_, ?_⟩
  · unfold imputeRow
    simp only [hfill, Option.map_some, List.length_append, List.length_map, List.length_finRange]
    cases ind <;> simp
  · intro j
    unfold imputeRow
    simp only [hfill, Option.map_some]
    rw [show (fun j => some ((r j).getD (fillv j))) = (some ∘ fun j => (r j).getD (fillv j)) from rfl, List.filterMap_eq_map]
    rw [List.getElem?_append_left (by simp), finRange_map_get]
  · unfold imputeRow
    simp only [hfill, Option.map_some]
    rw [show (fun j => some ((r j).getD (fillv j))) = (some ∘ fun j => (r j).getD (fillv j)) from rfl, List.filterMap_eq_map]
    rw [List.drop_append_of_le_length (by simp), List.drop_eq_nil_of_le (by simp), List.nil_append]
    simp only [Option.isNone_iff_eq_none]

omit [IsStrictOrderedRing K] in
/-- C149: only the rows chosen for fitting matter to the imputer, and what a row becomes depends on that row alone. -/
theorem C149_impute_fit (st : Strategy K) (X X' : List (Fin d → Option K)) (idx : List Nat) (hX : ∀ i ∈ idx, X'[i]? = X[i]?) :
    imputeFit st X' idx = imputeFit st X idx ∧
    (∀ ind (T : Imputer K d) (Y Y' Z Z' : List (Fin d → Option K)) (y : Fin d → Option K) (z z' : List (List K)),
      imputeTransform ind (some T) (Y ++ y :: Y') = .ok z → imputeTransform ind (some T) (Z ++ y :: Z') = .ok z' →
      z[Y.length]? = z'[Z.length]? ∧ z[Y.length]?.isSome = true) ∧
    ∀ ind, imputeTransform ind (none : Option (Imputer K d)) X = .error .validation := by
  refine ⟨?_, ?_, fun _ => rfl⟩
  · have : takeRows X' idx = takeRows X idx := by
      unfold takeRows
      induction idx with
      | nil => rfl
      | cons i l ih =>
        rw [List.mapM_cons, List.mapM_cons, hX i List.mem_cons_self, ih fun i hi => hX i (List.mem_cons_of_mem _ hi)]
    unfold imputeFit
    rw [this]
  · intro ind T Y Y' Z Z' y z z' h h'
    cases h; cases h'
    simp

/-- C149 is violated for a column that has no value on any row fitted on: it disappears, and the later columns move. -/
theorem C149_impute_width_violated : ∃ (X : List (Fin 2 → Option Rat)) (T : Imputer Rat 2),
    imputeFit .mean X [0] = .ok T ∧ (X.map fun r => r 0) = [none, some 5] ∧ (X.map fun r => r 1) = [some 7, some 8] ∧
    imputeTransform false (some T) X = .ok [[7], [8]] :=
  ⟨[![none, some 7], ![some 5, some 8]], ⟨fun j => if j = 0 then none else some 7, fun j => decide (j = 0)⟩, by
    constructor
    · have : ∀ T T' : Imputer Rat 2, T.stat 0 = T'.stat 0 → T.stat 1 = T'.stat 1 → T.gaps 0 = T'.gaps 0 → T.gaps 1 = T'.gaps 1 → T = T' := by
        intro T T' a b c e
        cases T; cases T'
        congr
        · funext j; fin_cases j <;> assumption
        · funext j; fin_cases j <;> assumption
      unfold imputeFit
      simp only [takeRows, List.mapM_cons, List.mapM_nil, List.getElem?_cons_zero, bind, Except.bind, pure, Except.pure, List.length_cons]
      rw [if_neg (by decide)]
      congr 1
      apply this <;> simp [statOf, finiteCol]
    · refine ⟨rfl, rfl, ?_⟩
      decide +kernel⟩

/-- C149: the random projection does not depend on the data or the chosen rows, only on the generator and the two sizes. -/
theorem C149_projection_fit {σ : Type} (normal : σ → (d k : Nat) → (Fin d → Fin k → K) × σ) (sqrt : K → K) (norm : Bool) (k : Int)
    (X X' : List (Vec K d)) (idx idx' : List Nat) (g : σ) :
    projFit normal sqrt norm k X idx g = projFit normal sqrt norm k X' idx' g ∧
    ((∃ W, projFit normal sqrt norm k X idx g = .ok W) ↔ 0 < k) ∧
    (∀ W g', projFit normal sqrt norm k X idx g = .ok (W, g') →
      g' = (normal g d k.toNat).2 ∧ ∀ a b, W a b = if norm then (normal g d k.toNat).1 a b / sqrt (k.toNat : K) else (normal g d k.toNat).1 a b) := by
  refine ⟨rfl, ?_, ?_⟩
  · unfold projFit
    split
    · exact ⟨fun ⟨_, h⟩ => (by cases h), fun h => by omega⟩
    · exact ⟨fun _ => by omega, fun _ => ⟨_, rfl⟩⟩
  · intro W g' h
    unfold projFit at h
    split at h
    · cases h
    · cases h
      refine ⟨rfl, fun a b => ?_⟩
      cases norm <;> rfl

omit [LinearOrder K] [IsStrictOrderedRing K] in
/-- C149: the projection is linear and works row by row; before `fit` it is a `PreprocessValidationError`. -/
theorem C149_projection_linear {k : Nat} (W : Fin d → Fin k → K) (x y : Vec K d) (a b : K) (Zx Zy Zc : Vec K k)
    (hx : projTransform (some W) [x] = .ok [Zx]) (hy : projTransform (some W) [y] = .ok [Zy])
    (hc : projTransform (some W) [fun j => a * x j + b * y j] = .ok [Zc]) :
    (∀ j, Zc j = a * Zx j + b * Zy j) ∧ projTransform (some W) [x, y] = .ok [Zx, Zy] ∧
    projTransform (none : Option (Fin d → Fin k → K)) [x] = .error .validation := by
  simp only [projTransform, List.map_cons, List.map_nil, Except.ok.injEq, List.cons.injEq, and_true] at hx hy hc
  subst hx hy hc
  refine ⟨fun j => ?_, rfl, rfl⟩
  rw [Finset.mul_sum, Finset.mul_sum, ← Finset.sum_add_distrib]
  exact Finset.sum_congr rfl fun i _ => by ring

example : (scalerFit (K := Rat) (d := 1) id [![1], ![3], ![100]] [0, 1]).toOption.map (fun T => (T.mean 0, T.scale 0)) = some (2, 1) := by
  decide +kernel
example : statOf (K := Rat) .median [5, 1, 2, 10] = some (7/2) := by decide +kernel
example : statOf (K := Rat) .mostFrequent [5, 1, 5, 1, 7] = some 1 := by decide +kernel
example : imputeTransform (K := Rat) (d := 2) true (some ⟨fun _ => some 9, fun j => j == 1⟩) [![some 1, none]] = .ok [[1, 9, 1]] := by decide +kernel

end ModSSC.Preprocess.Scale
