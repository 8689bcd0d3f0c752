import Verif.Deep.LossSpec
import Verif.Deep.AlignProps

/-!
# C118 — annealing of the labeled loss, losses over confident samples, label smoothing and feedback
-/

set_option linter.unusedSectionVars false

namespace ModSSC.Deep
open ModSSC ModSSC.Deep.Spec

variable {K : Type} [Field K] [LinearOrder K] [IsStrictOrderedRing K]

theorem exp_le (exp : K → K) (he : Transductive.Spec.ExpLaw exp) (x y : K) (h : x ≤ y) : exp x ≤ exp y := by
  rcases h.eq_or_lt with rfl | h
  · exact le_refl _
  · exact (he.mono _ _ h).le

/-- The part of the threshold above `1 / C`, as a share of `1 - 1 / C`. -/
def tsaShare (exp : K → K) (schedule : String) (p : K) : K :=
  if schedule = "linear" then p else if schedule = "exp" then exp ((p - 1) * 5) else 1 - exp (-p * 5)

theorem tsa_eq (exp : K → K) (schedule : String) (hs : IsSchedule schedule) (step total C : Nat) (ht : 0 < total) :
    tsaThreshold exp schedule step total C =
      .ok (tsaShare exp schedule ((step : K) / (total : K)) * (1 - 1 / (C : K)) + 1 / (C : K)) := by
  rcases hs with rfl | rfl | rfl <;> simp [tsaThreshold, tsaShare, Nat.pos_iff_ne_zero.mp ht]

theorem share_bounds (exp : K → K) (he : Transductive.Spec.ExpLaw exp) (schedule : String) (p : K) (h0 : 0 ≤ p) :
    0 ≤ tsaShare exp schedule p ∧ (p ≤ 1 → tsaShare exp schedule p ≤ 1) ∧ (p < 1 → tsaShare exp schedule p < 1) := by
  unfold tsaShare
  split_ifs
  · exact ⟨h0, id, id⟩
  · refine ⟨(he.pos _).le, fun h => ?_, fun h => ?_⟩
    · exact le_of_le_of_eq (exp_le exp he _ 0 (by nlinarith)) he.zero
    · exact lt_of_lt_of_eq (he.mono _ 0 (by nlinarith)) he.zero
  · refine ⟨?_, fun _ => ?_, fun _ => ?_⟩
    · have := exp_le exp he (-p * 5) 0 (by nlinarith)
      rw [he.zero] at this
      linarith
    · have := he.pos (-p * 5); linarith
    · have := he.pos (-p * 5); linarith

theorem share_mono (exp : K → K) (he : Transductive.Spec.ExpLaw exp) (schedule : String) (p q : K) (h : p < q) :
    tsaShare exp schedule p < tsaShare exp schedule q := by
  unfold tsaShare
  split_ifs
  · exact h
  · exact he.mono _ _ (by nlinarith)
  · have := he.mono (-q * 5) (-p * 5) (by nlinarith)
    linarith

/-- **C118 (annealing).**  With a known schedule the threshold exists in every step, lies between `1 / C` and 1, is below 1
in every step of the training, and grows strictly from step to step (`C ≥ 2` classes).  `linear` starts at `1 / C`, and so
does `log`.  An unknown schedule is refused. -/
theorem C118_tsa (exp : K → K) (he : Transductive.Spec.ExpLaw exp) (schedule : String) (total C : Nat) (ht : 0 < total)
    (hC : 2 ≤ C) :
    (IsSchedule schedule → ∀ step < total, ∃ v, tsaThreshold exp schedule step total C = .ok v ∧ 1 / (C : K) ≤ v ∧ v < 1 ∧
      (step = 0 → schedule ≠ "exp" → v = 1 / (C : K)) ∧
      ∀ step' < step, ∃ v', tsaThreshold exp schedule step' total C = .ok v' ∧ v' < v) ∧
    (∀ step, tsaThreshold exp "none" step total C = .ok 1) ∧
    (¬ IsSchedule schedule → schedule ≠ "none" → ∀ step, tsaThreshold exp schedule step total C = .error .validation) := by
  have htK : (0 : K) < total := by exact_mod_cast ht
  have hCK : (2 : K) ≤ C := by exact_mod_cast hC
  have hC0 : (0 : K) < C := by linarith
  have hinv : 1 / (C : K) ≤ 1 / 2 := one_div_le_one_div_of_le (by norm_num) hCK
  have hinv0 : 0 < 1 / (C : K) := by positivity
  refine ⟨?_, ?_, ?_⟩
  · intro hs step hstep
    have hp0 : (0 : K) ≤ (step : K) / (total : K) := by positivity
    have hp1 : (step : K) / (total : K) < 1 := by rw [div_lt_one htK]; exact_mod_cast hstep
    obtain ⟨b0, -, b1⟩ := share_bounds exp he schedule _ hp0
    have b1 := b1 hp1
    refine ⟨_, tsa_eq exp schedule hs step total C ht, by nlinarith, by nlinarith, ?_, ?_⟩
    · rintro rfl hne
      rcases hs with rfl | rfl | rfl
      · simp [tsaShare]
      · exact absurd rfl hne
      · simp [tsaShare, he.zero]
    · intro step' h'
      refine ⟨_, tsa_eq exp schedule hs step' total C ht, ?_⟩
      have : (step' : K) / (total : K) < (step : K) / (total : K) :=
        div_lt_div_of_pos_right (by exact_mod_cast h') htK
      have := share_mono exp he schedule _ _ this
      nlinarith
  · intro step; simp [tsaThreshold]
  · intro hs hn step
    unfold IsSchedule at hs
    push Not at hs
    simp [tsaThreshold, hn, hs, Nat.pos_iff_ne_zero.mp ht]

theorem mean_masked (ce pTrue : List K) (hl : ce.length = pTrue.length) (t : K) :
    ∃ idx : List Nat, idx.Nodup ∧ (∀ i, i ∈ idx ↔ i < ce.length ∧ pTrue.getD i 0 < t) ∧
      mean (List.zipWith (· * ·) ce (pTrue.map fun p => if p < t then 1 else 0)) =
        (idx.map fun i => ce.getD i 0).sum / (ce.length : K) := by
  refine ⟨(List.range ce.length).filter fun i => pTrue.getD i 0 < t, List.nodup_range.filter _, by simp, ?_⟩
  have e : List.zipWith (· * ·) ce (pTrue.map fun p => if p < t then (1 : K) else 0) =
      (List.range ce.length).map fun i => ce.getD i 0 * if pTrue.getD i 0 < t then 1 else 0 := by
    apply List.ext_getElem
    · simp [hl]
    · intro i h1 h2
      have hi : i < ce.length := by simpa using h2
      rw [List.getElem_zipWith, List.getElem_map, List.getElem_map, List.getElem_range, List.getD_eq_getElem _ _ hi,
        List.getD_eq_getElem _ _ (by rw [← hl]; exact hi)]
  unfold mean
  rw [e, masked_sum, List.length_map, List.length_range]

/-- **C118 (labeled loss).**  In every step of a training with a known schedule the labeled loss of UDA is the sum of the
losses of exactly the samples whose true class has a probability below the threshold, divided by the size of the batch;
without schedule all samples count. -/
theorem C118_sup (exp : K → K) (schedule : String) (step total C : Nat) (ce pTrue : List K)
    (hl : ce.length = pTrue.length) (v : K) (h : udaSup exp schedule step total C ce pTrue = .ok v) :
    (schedule = "none" ∧ v = ce.sum / (ce.length : K)) ∨
    (schedule ≠ "none" ∧ ∃ t, tsaThreshold exp schedule step total C = .ok t ∧
      ∃ idx : List Nat, idx.Nodup ∧ (∀ i, i ∈ idx ↔ i < ce.length ∧ pTrue.getD i 0 < t) ∧
        v = (idx.map fun i => ce.getD i 0).sum / (ce.length : K)) := by
  unfold udaSup at h
  by_cases hs : schedule = "none"
  · rw [if_neg (by simpa using hs)] at h
    injection h with h
    exact .inl ⟨hs, h.symm⟩
  · rw [if_pos hs] at h
    cases ht : tsaThreshold exp schedule step total C with
    | error e => rw [ht] at h; simp at h
    | ok t =>
      rw [ht] at h
      simp only [Except.ok.injEq] at h
      obtain ⟨idx, h1, h2, h3⟩ := mean_masked ce pTrue hl t
      exact .inr ⟨hs, t, rfl, idx, h1, h2, by rw [← h, h3]⟩

theorem maskedStrict_eq (P : Nat → Prop) [DecidablePred P] (n : Nat) (f : Nat → K) :
    maskedMeanStrict ((List.range n).map f) ((List.range n).map fun i => if P i then (1 : K) else 0) =
      (((List.range n).filter fun i => P i).map f).sum / (((List.range n).filter fun i => P i).length : K) := by
  unfold maskedMeanStrict
  rw [List.zipWith_map_left, List.zipWith_map_right, List.zipWith_self, masked_sum, indicator_sum]
  by_cases h0 : ((List.range n).filter fun i => P i).length = 0
  · rw [if_pos (.inr (by rw [h0]; simp)), List.length_eq_zero_iff.mp h0]; simp
  · rw [if_neg]
    rintro (h | h)
    · rw [List.length_map, List.length_range] at h
      rw [h] at h0
      simp at h0
    · exact h0 (by exact_mod_cast h)

theorem maskOf_eq (cutoff : K) (rows : List (List K)) (hne : ∀ row ∈ rows, row ≠ []) :
    maskOf cutoff rows = (List.range rows.length).map fun i => if Confident cutoff (rows.getD i []) then (1 : K) else 0 := by
  apply List.ext_getElem
  · simp [maskOf]
  · intro i h1 h2
    have hi : i < rows.length := by simpa [maskOf] using h1
    simp only [maskOf, List.getElem_map, List.getElem_range]
    rw [List.getD_eq_getElem _ _ hi]
    exact if_congr (confident_iff cutoff _ (hne _ (List.getElem_mem hi))) rfl rfl

theorem average_of (n : Nat) (P : Nat → Prop) [DecidablePred P] (f : Nat → K) :
    AverageOver n P f ((((List.range n).filter fun i => P i).map f).sum / (((List.range n).filter fun i => P i).length : K)) :=
  ⟨_, List.nodup_range.filter _, by simp, rfl⟩

/-- **C118 (confident samples).**  The unlabeled loss of UDA and Noisy Student is the average over exactly the confident
samples of the batch, zero if there is none; that of Meta Pseudo Labels too, with every sample confident at a threshold of
zero. -/
theorem C118_confident (cutoff : K) (probs : List (List K)) (hne : ∀ row ∈ probs, IsDist row) (loss : Nat → K) :
    AverageOver probs.length (fun i => Confident cutoff (probs.getD i [])) loss (confidentLoss cutoff probs loss) ∧
    AverageOver probs.length (fun i => Confident cutoff (probs.getD i [])) loss (mplUda cutoff probs loss) := by
  have hne' : ∀ row ∈ probs, row ≠ [] := by
    intro row hr h0
    have := (hne row hr).2
    rw [h0] at this
    simp at this
  constructor
  · unfold confidentLoss
    rw [maskOf_eq cutoff probs hne', maskedStrict_eq]
    exact average_of _ _ _
  · unfold mplUda
    by_cases hc : cutoff ≤ 0
    · rw [if_pos hc]
      have hall : ∀ i < probs.length, Confident cutoff (probs.getD i []) := by
        intro i hi
        rw [List.getD_eq_getElem _ _ hi]
        have hm := List.getElem_mem hi
        obtain ⟨p, hp⟩ := List.exists_mem_of_ne_nil _ (hne' _ hm)
        exact ⟨p, hp, hc.trans ((hne _ hm).1 p hp)⟩
      have e : (probs.map fun _ => (1 : K)) =
          (List.range probs.length).map fun i => if Confident cutoff (probs.getD i []) then (1 : K) else 0 := by
        apply List.ext_getElem
        · simp
        · intro i h1 h2
          have hi : i < probs.length := by simpa using h1
          rw [List.getElem_map, List.getElem_map, List.getElem_range, if_pos (hall i hi)]
      rw [e, maskedStrict_eq]
      exact average_of _ _ _
    · rw [if_neg hc, maskOf_eq cutoff probs hne', maskedStrict_eq]
      exact average_of _ _ _

/-- **C118 (debiasing).**  The loss of DeFixMatch is the mean supervised loss of the two labeled views plus `lambda_u` times
the difference of the pseudo-label losses averaged over the confident unlabeled and the confident labeled samples.  So it is
the supervised loss alone whenever both batches look the same to the network. -/
theorem C118_defix (cutoff lambdaU ceW ceS : K) (probsU probsL : List (List K)) (hu : ∀ row ∈ probsU, IsDist row)
    (hl : ∀ row ∈ probsL, IsDist row) (lossU lossL : Nat → K) :
    (∃ a b, AverageOver probsU.length (fun i => Confident cutoff (probsU.getD i [])) lossU a ∧
      AverageOver probsL.length (fun i => Confident cutoff (probsL.getD i [])) lossL b ∧
      defixLoss cutoff lambdaU ceW ceS probsU probsL lossU lossL = (ceW + ceS) / 2 + lambdaU * (a - b)) ∧
    defixLoss cutoff lambdaU ceW ceS probsU probsU lossU lossU = (ceW + ceS) / 2 := by
  have hne : ∀ rows : List (List K), (∀ row ∈ rows, IsDist row) → ∀ row ∈ rows, row ≠ [] := by
    intro rows h row hr h0
    have := (h row hr).2
    rw [h0] at this
    simp at this
  constructor
  · refine ⟨_, _, ⟨confidentIdx cutoff probsU, List.nodup_range.filter _, by simp [confidentIdx], rfl⟩,
      ⟨confidentIdx cutoff probsL, List.nodup_range.filter _, by simp [confidentIdx], rfl⟩, ?_⟩
    unfold defixLoss
    rw [maskedMean_eq _ _ (hne _ hu), maskedMean_eq _ _ (hne _ hl)]
    ring
  · unfold defixLoss
    ring

/-- **C118 (label smoothing).**  For a smoothing in `[0, 1)` the smoothed target of a label is a distribution with
`1 - s + s / C` on the label and `s / C` on every other class; the label is its only most probable class.  Smoothing of one
or more is refused. -/
theorem C118_smooth (s : K) (C y : Nat) (hy : y < C) (h0 : 0 ≤ s) :
    (s < 1 → ∃ row, smoothLabel s C y = .ok row ∧ IsDistN C row ∧ row.getD y 0 = 1 - s + s / (C : K) ∧
      ∀ c < C, c ≠ y → row.getD c 0 = s / (C : K) ∧ row.getD c 0 < row.getD y 0) ∧
    (1 ≤ s → smoothLabel s C y = .error .validation) := by
  have hCK : (0 : K) < C := by exact_mod_cast (by omega : 0 < C)
  constructor
  · intro h1
    by_cases hs : s ≤ 0
    · have hs0 : s = 0 := le_antisymm hs h0
      have hg : ∀ c < C, ((List.range C).map fun c => if c = y then (1 : K) else 0).getD c 0 = if c = y then 1 else 0 := by
        intro c hc
        rw [List.getD_eq_getElem _ _ (by simpa using hc)]
        simp
      refine ⟨_, by unfold smoothLabel; rw [if_pos hs], ⟨by simp, ?_, ?_⟩, ?_, ?_⟩
      · intro p hp
        obtain ⟨c, -, rfl⟩ := List.mem_map.mp hp
        split <;> simp
      · rw [List.sum_map_ite_eq]; simp [hy]
      · rw [hg y hy, hs0]; simp
      · intro c hc hne
        rw [hg c hc, hg y hy, hs0]
        simp [hne]
    · have hs : 0 < s := not_le.mp hs
      have hg : ∀ c < C, ((List.replicate C (s / (C : K))).set y (1 - s + s / (C : K))).getD c 0 =
          if c = y then 1 - s + s / (C : K) else s / (C : K) := by
        intro c hc
        rw [List.getD_eq_getElem _ _ (by simpa using hc), List.getElem_set]
        by_cases h : c = y
        · rw [if_pos h.symm, if_pos h]
        · rw [if_neg (Ne.symm h), if_neg h, List.getElem_replicate]
      have hq : 0 < s / (C : K) := by positivity
      refine ⟨_, by unfold smoothLabel; rw [if_neg (not_le.mpr hs), if_neg (not_le.mpr h1)], ⟨by simp, ?_, ?_⟩, ?_, ?_⟩
      · intro p hp
        rcases List.mem_or_eq_of_mem_set hp with hp | rfl
        · rw [List.eq_of_mem_replicate hp]; exact hq.le
        · linarith
      · rw [← sum_range_getD _ C (by simp)]
        have e : ((List.range C).map fun c => ((List.replicate C (s / (C : K))).set y (1 - s + s / (C : K))).getD c 0) =
            (List.range C).map fun c => s / (C : K) + if c = y then 1 - s else 0 := by
          refine List.map_congr_left fun c hc => ?_
          rw [hg c (List.mem_range.mp hc)]
          split <;> ring
        rw [e, List.sum_map_add, List.sum_map_ite_eq]
        simp [hy]
        field_simp
        ring
      · rw [hg y hy]; simp
      · intro c hc hne
        rw [hg c hc, hg y hy, if_neg hne, if_pos rfl]
        exact ⟨rfl, by linarith⟩
  · intro h1
    unfold smoothLabel
    rw [if_neg (by linarith), if_pos h1]

theorem mplFeedback_spec (m : K) : ∀ (ds past : List K),
    (mplFeedback m (weightedAverage m 0 past) ds).length = ds.length ∧
    ∀ (t : Nat) (d : K), ds[t]? = some d →
      (mplFeedback m (weightedAverage m 0 past) ds)[t]? = some (m * (d - weightedAverage m 0 (past ++ ds.take t))) := by
  intro ds
  induction ds with
  | nil => intro past; exact ⟨rfl, fun t d h => by simp at h⟩
  | cons d ds ih =>
    intro past
    have e : m * weightedAverage m 0 past + (1 - m) * d = weightedAverage m 0 (past ++ [d]) := by
      rw [weightedAverage_snoc]; unfold ema; ring
    obtain ⟨i1, i2⟩ := ih (past ++ [d])
    refine ⟨by simp only [mplFeedback, List.length_cons, e, i1], ?_⟩
    intro t d' ht
    cases t with
    | zero =>
      simp only [List.getElem?_cons_zero, Option.some.injEq] at ht
      subst ht
      simp only [mplFeedback, List.getElem?_cons_zero, List.take_zero, List.append_nil, Option.some.injEq]
      ring
    | succ t =>
      simp only [List.getElem?_cons_succ] at ht
      simp only [mplFeedback, List.getElem?_cons_succ, e]
      rw [i2 t d' ht]
      simp

/-- **C118 (feedback).**  In step `t` the teacher of Meta Pseudo Labels gets as feedback `mpl_ema` times the excess of the
change of the student's loss over the weighted average of the earlier changes (start 0).  In particular with `mpl_ema = 0`
it gets no feedback at all, in any step. -/
theorem C118_feedback (m : K) (dots : List K) :
    (mplFeedback m 0 dots).length = dots.length ∧
    (∀ (t : Nat) (d : K), dots[t]? = some d →
      (mplFeedback m 0 dots)[t]? = some (m * (d - weightedAverage m 0 (dots.take t)))) ∧
    ((m = 0) → ∀ a ∈ mplFeedback m 0 dots, a = 0) := by
  obtain ⟨h1, h2⟩ := mplFeedback_spec m dots []
  rw [weightedAverage_nil] at h1 h2
  refine ⟨h1, by simpa using h2, fun hm a ha => ?_⟩
  obtain ⟨t, ht, rfl⟩ := List.getElem_of_mem ha
  have htd : t < dots.length := by rw [← h1]; exact ht
  have := h2 t dots[t] (List.getElem?_eq_getElem htd)
  rw [List.getElem?_eq_getElem ht, Option.some.injEq] at this
  rw [this, hm, zero_mul]

/-- **C118 (teacher loss).**  Weights of zero switch a term off; otherwise the loss is the weighted sum. -/
theorem C118_teacher (sup udaWeight uda mplWeight mpl adj : K) :
    mplTeacherLoss sup udaWeight uda mplWeight mpl adj = sup + udaWeight * uda + mplWeight * mpl * adj := by
  unfold mplTeacherLoss
  simp only
  split_ifs with h1 h2 h2
  · rfl
  · rw [not_not] at h2; rw [h2]; ring
  · rw [not_not] at h1; rw [h1]; ring
  · rw [not_not] at h1 h2; rw [h1, h2]; ring

/-- Halfway through a linear schedule with two classes; the confident sample is left out. -/
example : udaSup (K := Rat) (fun _ => 1) "linear" 1 2 2 [2, 4] [9 / 10, 1 / 2] = .ok 2 := by decide +kernel
example : tsaThreshold (K := Rat) (fun _ => 1) "linear" 1 2 2 = .ok (3 / 4) := by decide +kernel
example : tsaThreshold (K := Rat) (fun _ => 1) "cosine" 1 2 2 = .error .validation := by decide +kernel
example : confidentLoss (K := Rat) (4 / 5) [[9 / 10, 1 / 10], [1 / 2, 1 / 2], [1 / 5, 4 / 5]] (fun i => i + 1) = 2 := by
  decide +kernel
example : mplUda (K := Rat) 0 [[9 / 10, 1 / 10], [1 / 2, 1 / 2], [1 / 5, 4 / 5]] (fun i => i + 1) = 2 := by decide +kernel
example : smoothLabel (K := Rat) (1 / 10) 4 2 = .ok [1 / 40, 1 / 40, 37 / 40, 1 / 40] := by decide +kernel
example : mplFeedback (K := Rat) (1 / 2) 0 [1, -1, 0] = [1 / 2, -3 / 4, 1 / 8] := by decide +kernel

end ModSSC.Deep
