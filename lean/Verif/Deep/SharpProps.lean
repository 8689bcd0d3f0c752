import Verif.Deep.SharpSpec
import Verif.Supervised.KnnProps
import Mathlib.Data.List.GetD
import Mathlib.Algebra.BigOperators.Ring.List
import Mathlib.Algebra.Order.BigOperators.Group.List
import Mathlib.Analysis.SpecialFunctions.Pow.Real
import Mathlib.Tactic.FieldSimp
import Mathlib.Tactic.Positivity
import Mathlib.Tactic.NormNum

/-!
# Proofs about sharpening and the confidence mask (C107)
-/

set_option linter.unusedSectionVars false

namespace ModSSC.Deep
open ModSSC ModSSC.Deep.Spec

variable {K : Type} [Field K] [LinearOrder K] [IsStrictOrderedRing K]

theorem pow_nonneg' {pow : K → K → K} (hp : PowerLaw pow) (q x : K) (hq : 0 < q) (hx : 0 ≤ x) :
    0 ≤ pow x q := by
  rcases hx.eq_or_lt with rfl | h
  · rw [hp.zero q hq]
  · have := hp.mono q 0 x hq le_rfl h
    rw [hp.zero q hq] at this
    exact this.le

theorem pow_mono' {pow : K → K → K} (hp : PowerLaw pow) (q x y : K) (hq : 0 < q) (hx : 0 ≤ x)
    (h : x ≤ y) : pow x q ≤ pow y q := by
  rcases h.eq_or_lt with rfl | h
  · exact le_rfl
  · exact (hp.mono q x y hq hx h).le

theorem sum_map_nonneg {α : Type} (f : α → K) (l : List α) (h : ∀ a ∈ l, 0 ≤ f a) : 0 ≤ (l.map f).sum :=
  List.sum_nonneg (by simpa using h)

theorem denom_pos (x : K) : 0 < max x (1 / 10 ^ 12) := lt_max_of_lt_right (by positivity)

theorem sharpenRow_length (pow : K → K → K) (T : K) (row : List K) :
    (sharpenRow pow T row).length = row.length := by simp [sharpenRow]

theorem sharpenRow_sum (pow : K → K → K) (T : K) (row : List K) :
    (sharpenRow pow T row).sum =
      (row.map fun p => pow p (1 / T)).sum / max (row.map fun p => pow p (1 / T)).sum (1 / 10 ^ 12) := by
  unfold sharpenRow
  generalize max (row.map fun p => pow p (1 / T)).sum (1 / 10 ^ 12) = d
  have : ∀ l : List K, (l.map (· / d)).sum = l.sum / d := by
    intro l
    induction l with
    | nil => simp
    | cons a l ih => simp [ih, add_div]
  exact this _

theorem sharpenRow_get (pow : K → K → K) (T : K) (row : List K) (c : Nat) (hc : c < row.length) :
    (sharpenRow pow T row).getD c 0 =
      pow (row.getD c 0) (1 / T) / max (row.map fun p => pow p (1 / T)).sum (1 / 10 ^ 12) := by
  rw [List.getD_eq_getElem _ _ (by simpa [sharpenRow] using hc), List.getD_eq_getElem _ _ hc]
  simp [sharpenRow]

theorem sharpen_ok (pow : K → K → K) (T : K) (rows out : List (List K)) :
    sharpen pow T rows = .ok out ↔ 0 < T ∧ out = if T = 1 then rows else rows.map (sharpenRow pow T) := by
  unfold sharpen
  by_cases h : T ≤ 0
  · rw [if_pos h]
    simp only [reduceCtorEq, false_iff]
    rintro ⟨h', -⟩
    exact absurd h' (not_lt.mpr h)
  · rw [if_neg h]
    have h' := not_le.mp h
    by_cases h1 : T = 1
    · simp [h1, eq_comm]
    · simp [h1, h', eq_comm]

/-- **C107 (errors).**  Sharpening is refused exactly for temperatures that are not positive. -/
theorem C107_accepts (pow : K → K → K) (T : K) (rows : List (List K)) :
    (∃ out, sharpen pow T rows = .ok out) ↔ 0 < T := by
  constructor
  · rintro ⟨out, h⟩
    exact ((sharpen_ok pow T rows out).mp h).1
  · intro h
    exact ⟨_, (sharpen_ok pow T rows _).mpr ⟨h, rfl⟩⟩

/-- **C107 (order).**  Sharpening keeps the shape and the order of the classes of every row: the classes
compare after sharpening exactly as before, for every temperature. -/
theorem C107_order (pow : K → K → K) (hp : PowerLaw pow) (T : K) (rows out : List (List K))
    (hnn : ∀ row ∈ rows, ∀ p ∈ row, 0 ≤ p) (h : sharpen pow T rows = .ok out) :
    out.length = rows.length ∧ ∀ i < rows.length, (out.getD i []).length = (rows.getD i []).length ∧
      ∀ c < (rows.getD i []).length, ∀ c' < (rows.getD i []).length,
        ((out.getD i []).getD c 0 ≤ (out.getD i []).getD c' 0 ↔
          (rows.getD i []).getD c 0 ≤ (rows.getD i []).getD c' 0) := by
  obtain ⟨hT, rfl⟩ := (sharpen_ok pow T rows out).mp h
  by_cases h1 : T = 1
  · rw [if_pos h1]; simp
  rw [if_neg h1]
  refine ⟨by simp, fun i hi => ?_⟩
  have e : (rows.map (sharpenRow pow T)).getD i [] = sharpenRow pow T (rows.getD i []) := by
    rw [List.getD_eq_getElem _ _ (by simpa using hi), List.getD_eq_getElem _ _ hi, List.getElem_map]
  have hrow : ∀ p ∈ rows.getD i [], 0 ≤ p := by
    rw [List.getD_eq_getElem _ _ hi]
    exact hnn _ (List.getElem_mem hi)
  rw [e, sharpenRow_length]
  refine ⟨rfl, fun c hc c' hc' => ?_⟩
  generalize rows.getD i [] = row at *
  rw [sharpenRow_get _ _ _ _ hc, sharpenRow_get _ _ _ _ hc']
  have hq : 0 < 1 / T := by positivity
  have n1 : 0 ≤ row.getD c 0 := by
    rw [List.getD_eq_getElem _ _ hc]; exact hrow _ (List.getElem_mem hc)
  have n2 : 0 ≤ row.getD c' 0 := by
    rw [List.getD_eq_getElem _ _ hc']; exact hrow _ (List.getElem_mem hc')
  rw [div_le_div_iff_of_pos_right (denom_pos _)]
  constructor
  · intro h
    by_contra hlt
    exact absurd (hp.mono (1 / T) _ _ hq n2 (not_le.mp hlt)) (not_lt.mpr h)
  · intro h
    exact pow_mono' hp _ _ _ hq n1 h

/-- **C107 (distribution, partial).**  The sharpened row of a distribution has entries in `[0, 1]`; it sums to one
as long as the powers sum to at least `1e-12`, and to less than one otherwise.  Missing: that it always sums to one,
which is false (`C107_dist_violated`). -/
theorem C107_dist_partial (pow : K → K → K) (hp : PowerLaw pow) (T : K) (rows out : List (List K))
    (hd : ∀ row ∈ rows, IsDist row) (h : sharpen pow T rows = .ok out) :
    ∀ i < rows.length, (∀ p ∈ out.getD i [], 0 ≤ p ∧ p ≤ 1) ∧ (out.getD i []).sum ≤ 1 ∧
      (T = 1 ∨ 1 / 10 ^ 12 ≤ ((rows.getD i []).map fun p => pow p (1 / T)).sum ↔ (out.getD i []).sum = 1) := by
  obtain ⟨hT, rfl⟩ := (sharpen_ok pow T rows out).mp h
  intro i hi
  have hrow : IsDist (rows.getD i []) := by
    rw [List.getD_eq_getElem _ _ hi]
    exact hd _ (List.getElem_mem hi)
  have bound : ∀ l : List K, (∀ p ∈ l, 0 ≤ p) → l.sum ≤ 1 → ∀ p ∈ l, 0 ≤ p ∧ p ≤ 1 := by
    intro l hl hs p hpm
    exact ⟨hl p hpm, (List.single_le_sum hl p hpm).trans hs⟩
  by_cases h1 : T = 1
  · rw [if_pos h1]
    exact ⟨bound _ hrow.1 hrow.2.le, hrow.2.le, ⟨fun _ => hrow.2, fun _ => .inl h1⟩⟩
  rw [if_neg h1]
  have e : (rows.map (sharpenRow pow T)).getD i [] = sharpenRow pow T (rows.getD i []) := by
    rw [List.getD_eq_getElem _ _ (by simpa using hi), List.getD_eq_getElem _ _ hi, List.getElem_map]
  rw [e]
  generalize rows.getD i [] = row at *
  have hq : 0 < 1 / T := by positivity
  have hn : ∀ p ∈ row.map fun p => pow p (1 / T), 0 ≤ p := by
    intro p hpm
    obtain ⟨x, hx, rfl⟩ := List.mem_map.mp hpm
    exact pow_nonneg' hp _ _ hq (hrow.1 x hx)
  have hs : (sharpenRow pow T row).sum ≤ 1 := by
    rw [sharpenRow_sum, div_le_one (denom_pos _)]
    exact le_max_left _ _
  have hnn : ∀ p ∈ sharpenRow pow T row, 0 ≤ p := by
    intro p hpm
    obtain ⟨x, hx, rfl⟩ := List.mem_map.mp hpm
    exact div_nonneg (hn x hx) (denom_pos _).le
  refine ⟨bound _ hnn hs, hs, ?_⟩
  rw [sharpenRow_sum, div_eq_one_iff_eq (denom_pos _).ne']
  simp only [h1, false_or]
  constructor
  · intro hle; rw [max_eq_left hle]
  · intro hmax; rw [hmax]; exact le_max_right _ _

theorem power_bounds (pow : K → K → K) (q m : K) (row : List K)
    (hs : ∀ x ∈ row, pow x q * m ≤ pow m q * x) : (row.map fun p => pow p q).sum * m ≤ pow m q * row.sum := by
  induction row with
  | nil => simp
  | cons a row ih =>
    have h1 := hs a (by simp)
    have h2 := ih (fun x hx => hs x (by simp [hx]))
    simp only [List.map_cons, List.sum_cons, add_mul, mul_add]
    exact add_le_add h1 h2

theorem power_bounds' (pow : K → K → K) (q m : K) (row : List K)
    (hs : ∀ x ∈ row, pow m q * x ≤ pow x q * m) : pow m q * row.sum ≤ (row.map fun p => pow p q).sum * m := by
  induction row with
  | nil => simp
  | cons a row ih =>
    have h1 := hs a (by simp)
    have h2 := ih (fun x hx => hs x (by simp [hx]))
    simp only [List.map_cons, List.sum_cons, add_mul, mul_add]
    exact add_le_add h1 h2

/-- **C107 (effect).**  A temperature below one does not lower the probability of a most probable class, one above one
does not raise it (for rows whose powers sum to at least `1e-12`). -/
theorem C107_effect (pow : K → K → K) (hp : PowerLaw pow) (T : K) (rows out : List (List K))
    (hd : ∀ row ∈ rows, IsDist row) (h : sharpen pow T rows = .ok out) (i : Nat) (hi : i < rows.length)
    (hbig : 1 / 10 ^ 12 ≤ ((rows.getD i []).map fun p => pow p (1 / T)).sum) (c : Nat)
    (hc : MostProbable (rows.getD i []) c) :
    (T ≤ 1 → (rows.getD i []).getD c 0 ≤ (out.getD i []).getD c 0) ∧
    (1 ≤ T → (out.getD i []).getD c 0 ≤ (rows.getD i []).getD c 0) := by
  obtain ⟨hT, rfl⟩ := (sharpen_ok pow T rows out).mp h
  by_cases h1 : T = 1
  · rw [if_pos h1]; simp
  rw [if_neg h1]
  have hrow : IsDist (rows.getD i []) := by
    rw [List.getD_eq_getElem _ _ hi]
    exact hd _ (List.getElem_mem hi)
  have e : (rows.map (sharpenRow pow T)).getD i [] = sharpenRow pow T (rows.getD i []) := by
    rw [List.getD_eq_getElem _ _ (by simpa using hi), List.getD_eq_getElem _ _ hi, List.getElem_map]
  rw [e]
  generalize rows.getD i [] = row at *
  have hq : 0 < 1 / T := by positivity
  rw [sharpenRow_get _ _ _ _ hc.1, max_eq_left hbig]
  have hle : ∀ x ∈ row, 0 ≤ x ∧ x ≤ row.getD c 0 := by
    intro x hx
    obtain ⟨j, hj, rfl⟩ := List.getElem_of_mem hx
    have := hc.2 j hj
    rw [List.getD_eq_getElem _ _ hj] at this
    exact ⟨hrow.1 _ hx, this⟩
  have hpos : 0 < (row.map fun p => pow p (1 / T)).sum := lt_of_lt_of_le (by positivity) hbig
  constructor
  · intro hT1
    rw [le_div_iff₀ hpos, mul_comm]
    have := power_bounds pow (1 / T) (row.getD c 0) row
      (fun x hx => hp.steep _ _ _ (by rw [le_div_iff₀ hT]; simpa using hT1) (hle x hx).1 (hle x hx).2)
    rwa [hrow.2, mul_one] at this
  · intro hT1
    rw [div_le_iff₀ hpos, mul_comm (row.getD c 0)]
    have := power_bounds' pow (1 / T) (row.getD c 0) row
      (fun x hx => hp.flat _ _ _ hq (by rw [div_le_iff₀ hT]; simpa using hT1) (hle x hx).1 (hle x hx).2)
    rwa [hrow.2, mul_one] at this

/-! ## The confidence mask -/

theorem foldl_max_spec : ∀ (l : List K) (a : K), (∀ x ∈ l, x ≤ l.foldl max a) ∧ a ≤ l.foldl max a ∧
    (l.foldl max a = a ∨ l.foldl max a ∈ l)
  | [], a => by simp
  | b :: l, a => by
    obtain ⟨h1, h2, h3⟩ := foldl_max_spec l (max a b)
    refine ⟨?_, (le_max_left _ _).trans h2, ?_⟩
    · intro x hx
      rcases List.mem_cons.mp hx with rfl | hx
      · exact (le_max_right _ _).trans h2
      · exact h1 x hx
    · simp only [List.foldl_cons]
      rcases h3 with h3 | h3
      · rcases max_choice a b with h | h
        · left; rw [h3, h]
        · right; rw [h3, h]; simp
      · right; simp [h3]

theorem rowMax_ge (row : List K) : ∀ x ∈ row, x ≤ rowMax row := (foldl_max_spec row _).1

theorem rowMax_mem (row : List K) (h : row ≠ []) : rowMax row ∈ row := by
  rcases (foldl_max_spec row (row.headD 0)).2.2 with e | e
  · unfold rowMax
    rw [e]
    cases row with
    | nil => exact absurd rfl h
    | cons a row => simp
  · exact e

theorem confident_iff (cutoff : K) (row : List K) (h : row ≠ []) :
    cutoff ≤ rowMax row ↔ Confident cutoff row := by
  constructor
  · intro hc; exact ⟨_, rowMax_mem row h, hc⟩
  · rintro ⟨p, hp, hc⟩; exact hc.trans (rowMax_ge row p hp)

theorem indicator_sum {α : Type} (P : α → Prop) [DecidablePred P] (l : List α) :
    (l.map fun a => if P a then (1 : K) else 0).sum = ((l.filter fun a => P a).length : K) := by
  induction l with
  | nil => simp
  | cons a l ih =>
    by_cases h : P a
    · simp [ih, h, add_comm]
    · simp [ih, h]

theorem masked_sum {α : Type} (P : α → Prop) [DecidablePred P] (f : α → K) (l : List α) :
    (l.map fun a => f a * if P a then (1 : K) else 0).sum = ((l.filter fun a => P a).map f).sum := by
  induction l with
  | nil => simp
  | cons a l ih =>
    rw [List.map_cons, List.sum_cons, ih]
    by_cases h : P a
    · rw [if_pos h, List.filter_cons_of_pos (by simpa using h)]; simp
    · rw [if_neg h, List.filter_cons_of_neg (by simpa using h)]; simp

/-- The positions of the confident rows. -/
def confidentIdx (cutoff : K) (rows : List (List K)) : List Nat :=
  (List.range rows.length).filter fun i => Confident cutoff (rows.getD i [])

theorem maskedMean_eq (cutoff : K) (rows : List (List K)) (hne : ∀ row ∈ rows, row ≠ []) (f : Nat → K) :
    maskedMean ((List.range rows.length).map f) (maskOf cutoff rows) =
      ((confidentIdx cutoff rows).map f).sum / ((confidentIdx cutoff rows).length : K) := by
  have em : maskOf cutoff rows =
      (List.range rows.length).map fun i => if Confident cutoff (rows.getD i []) then (1 : K) else 0 := by
    apply List.ext_getElem
    · simp [maskOf]
    · intro i h1 h2
      have hi : i < rows.length := by simpa [maskOf] using h1
      simp only [maskOf, List.getElem_map, List.getElem_range]
      rw [List.getD_eq_getElem _ _ hi]
      exact if_congr (confident_iff cutoff _ (hne _ (List.getElem_mem hi))) rfl rfl
  unfold maskedMean
  rw [em, List.zipWith_map_left, List.zipWith_map_right, List.zipWith_self, masked_sum, indicator_sum]
  simp only [List.length_map, List.length_range]
  by_cases h0 : rows.length = 0
  · rw [if_pos h0]
    simp [confidentIdx, h0]
  rw [if_neg h0]
  change ((confidentIdx cutoff rows).map f).sum / max ((confidentIdx cutoff rows).length : K) 1 = _
  rcases Nat.eq_zero_or_pos (confidentIdx cutoff rows).length with h | h
  · rw [List.length_eq_zero_iff] at h; simp [h]
  · rw [max_eq_left (by exact_mod_cast h)]

/-- **C107 (pseudo-labels).**  The unlabeled loss of FixMatch with hard labels is the average, over exactly the samples
of the batch whose weak view reaches the confidence cutoff, of the loss at a class most probable under the weak view;
the others have no influence, the temperature has none, and the loss is zero when no sample is confident. -/
theorem C107_pseudo (pow : K → K → K) (hp : PowerLaw pow) (argmax : List K → Nat) (ha : ArgmaxLaw argmax)
    (ce : Nat → Nat → K) (cutoff T : K) (probs : List (List K)) (hd : ∀ row ∈ probs, IsDist row) (v : K)
    (h : fixmatchHard pow argmax ce cutoff T probs = .ok v) :
    ∃ label : Nat → Nat, (∀ i < probs.length, MostProbable (probs.getD i []) (label i)) ∧
      ∃ idx : List Nat, idx.Nodup ∧ (∀ i, i ∈ idx ↔ i < probs.length ∧ Confident cutoff (probs.getD i [])) ∧
        v = (idx.map fun i => ce i (label i)).sum / (idx.length : K) := by
  unfold fixmatchHard at h
  cases hs : sharpen pow T probs with
  | error e => rw [hs] at h; simp at h
  | ok soft =>
    rw [hs] at h
    simp only [Except.ok.injEq] at h
    obtain ⟨hl, ho⟩ := C107_order pow hp T probs soft (fun row hr => (hd row hr).1) hs
    have hne : ∀ row ∈ probs, row ≠ [] := by
      intro row hr h0
      have := (hd row hr).2
      rw [h0] at this
      simp at this
    refine ⟨fun i => argmax (soft.getD i []), ?_, confidentIdx cutoff probs, ?_, ?_, ?_⟩
    · intro i hi
      obtain ⟨e1, e2⟩ := ho i hi
      have hne' : soft.getD i [] ≠ [] := by
        intro h0
        rw [h0] at e1
        have := hne (probs.getD i []) (by rw [List.getD_eq_getElem _ _ hi]; exact List.getElem_mem hi)
        exact this (List.length_eq_zero_iff.mp (by simpa using e1.symm))
      obtain ⟨m1, m2⟩ := ha _ hne'
      rw [e1] at m1 m2
      exact ⟨m1, fun c' hc' => (e2 c' hc' _ m1).mp (m2 c' hc')⟩
    · exact List.nodup_range.filter _
    · intro i
      simp [confidentIdx]
    · rw [← h, hl, maskedMean_eq cutoff probs hne]

/-! ## Witnesses -/

theorem real_power : PowerLaw (fun x q : ℝ => x ^ q) where
  zero q hq := Real.zero_rpow hq.ne'
  mono q x y hq hx h := Real.rpow_lt_rpow hx h hq
  steep q x y hq hx h := by
    rcases hx.eq_or_lt with rfl | hx
    · rw [Real.zero_rpow (by linarith)]; simp
    have hy : 0 < y := lt_of_lt_of_le hx h
    have e1 : x ^ q = x ^ (q - 1) * x := by rw [← Real.rpow_add_one hx.ne']; congr 1; ring
    have e2 : y ^ q = y ^ (q - 1) * y := by rw [← Real.rpow_add_one hy.ne']; congr 1; ring
    rw [e1, e2]
    have : x ^ (q - 1) ≤ y ^ (q - 1) := Real.rpow_le_rpow hx.le h (by linarith)
    have hxy : 0 ≤ x * y := by positivity
    nlinarith
  flat q x y hq0 hq hx h := by
    rcases hx.eq_or_lt with rfl | hx
    · rw [Real.zero_rpow hq0.ne']; simp
    have hy : 0 < y := lt_of_lt_of_le hx h
    have e1 : x ^ q = x ^ (q - 1) * x := by rw [← Real.rpow_add_one hx.ne']; congr 1; ring
    have e2 : y ^ q = y ^ (q - 1) * y := by rw [← Real.rpow_add_one hy.ne']; congr 1; ring
    rw [e1, e2]
    have : y ^ (q - 1) ≤ x ^ (q - 1) := Real.rpow_le_rpow_of_nonpos hx h (by linarith)
    have hxy : 0 ≤ x * y := by positivity
    nlinarith

/-- **C107 (violated).**  With the true power function, temperature 1/50 and the distribution (1/2, 1/2), the sharpened
"distribution" sums to less than 1/500: the two powers 2^-50 are divided by 1e-12. -/
theorem C107_dist_violated : ∃ (T : ℝ) (row : List ℝ) (out : List (List ℝ)), 0 < T ∧ IsDist row ∧
    sharpen (fun x q : ℝ => x ^ q) T [row] = .ok out ∧ ∃ r ∈ out, r.sum < 1 / 500 := by
  refine ⟨1 / 50, [1 / 2, 1 / 2], _, by norm_num, ⟨by intro p hp; simp at hp; rw [hp]; norm_num, by norm_num⟩,
    (sharpen_ok _ _ _ _).mpr ⟨by norm_num, rfl⟩, sharpenRow (fun x q : ℝ => x ^ q) (1 / 50) [1 / 2, 1 / 2], ?_, ?_⟩
  · rw [if_neg (by norm_num)]; simp
  · rw [sharpenRow_sum]
    have e : ((1 : ℝ) / 2) ^ ((1 : ℝ) / (1 / 50)) = (1 / 2) ^ 50 := by
      rw [← Real.rpow_natCast]; norm_num
    simp only [List.map_cons, List.map_nil, List.sum_cons, List.sum_nil, e]
    rw [max_eq_right (by norm_num)]
    norm_num

/-- A power function on the rationals for the examples: squares for exponents above one. -/
def demoPower (x q : Rat) : Rat := if 1 < q then x * x else x

theorem demoPower_law : PowerLaw demoPower where
  zero q hq := by unfold demoPower; split <;> simp
  mono q x y hq hx h := by
    unfold demoPower; split
    · nlinarith
    · exact h
  steep q x y hq hx h := by
    unfold demoPower; split
    · nlinarith [mul_nonneg hx (hx.trans h)]
    · linarith [mul_comm x y]
  flat q x y hq0 hq hx h := by
    unfold demoPower; rw [if_neg (not_lt.mpr hq), if_neg (not_lt.mpr hq)]; linarith [mul_comm x y]

theorem argmax_law : ArgmaxLaw (K := K) Supervised.argmax := by
  intro row h
  obtain ⟨m, h1, h2, -⟩ := Supervised.argmax_firstMax h
  obtain ⟨hlt, e⟩ := List.getElem?_eq_some_iff.mp h1
  refine ⟨hlt, fun c hc => ?_⟩
  rw [List.getD_eq_getElem _ _ hc, List.getD_eq_getElem _ _ hlt, e]
  exact h2 c _ (List.getElem?_eq_getElem hc)

example : sharpen demoPower (1 / 2) [[3 / 4, 1 / 4], [1 / 2, 1 / 2]] = .ok [[9 / 10, 1 / 10], [1 / 2, 1 / 2]] := by
  decide +kernel

example : fixmatchHard demoPower Supervised.argmax (fun i c => (10 * i + c : Rat)) (3 / 5) (1 / 2)
    [[3 / 4, 1 / 4], [1 / 2, 1 / 2], [1 / 5, 4 / 5]] = .ok (21 / 2) := by decide +kernel

end ModSSC.Deep
