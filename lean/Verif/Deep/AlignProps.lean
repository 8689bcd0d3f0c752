import Verif.Deep.EmaProps

/-!
# C112 — distribution alignment (AdaMatch, SoftMatch) and SoftMatch weights
-/

namespace ModSSC.Deep
open ModSSC ModSSC.Deep.Spec

variable {K : Type} [Field K] [LinearOrder K] [IsStrictOrderedRing K]

/-- What the alignment state is after a history. -/
def AlignInv (uniform : Bool) (m : K) (C : Nat) (hist : List (List (List K) × List (List K))) (st : AlignState K) : Prop :=
  IsDistN C st.pModel ∧ IsDistN C st.pTarget ∧
  (∀ c < C, st.pModel.getD c 0 = weightedAverage m (1 / (C : K)) (hist.map fun b => meanProb c b.1)) ∧
  (∀ c < C, st.pTarget.getD c 0 =
    if uniform then 1 / (C : K) else weightedAverage m (1 / (C : K)) (hist.map fun b => meanProb c b.2))

theorem alignInit_inv (uniform : Bool) (m : K) (C : Nat) (hC : 0 < C) : AlignInv uniform m C [] (alignInit C) := by
  refine ⟨uniform_dist _ hC, uniform_dist _ hC, ?_, ?_⟩
  · intro c hc
    rw [List.map_nil, weightedAverage_nil]
    exact uniform_get _ _ hc
  · intro c hc
    rw [List.map_nil, weightedAverage_nil, ite_self]
    exact uniform_get _ _ hc

theorem colMean_get (C c : Nat) (hc : c < C) (b : List (List K)) : (colMean C b).getD c 0 = meanProb c b := by
  rw [List.getD_eq_getElem _ _ (by simpa [colMean] using hc)]
  simp [colMean, mean, meanProb]

theorem alignUpdate_inv (uniform : Bool) (m : K) (C : Nat) (h0 : 0 ≤ m) (h1 : m ≤ 1)
    (hist : List (List (List K) × List (List K))) (st : AlignState K) (hi : AlignInv uniform m C hist st)
    (u l : List (List K)) (hu : IsBatch C u) (hl : IsBatch C l) :
    AlignInv uniform m C (hist ++ [(u, l)]) (alignUpdate uniform m C st u l) := by
  obtain ⟨d1, d2, e1, e2⟩ := hi
  have c1 := colMean_dist _ u hu
  have c2 := colMean_dist _ l hl
  refine ⟨emaVec_dist _ _ _ _ h0 h1 d1 c1, ?_, ?_, ?_⟩
  · unfold alignUpdate
    cases uniform with
    | true => exact d2
    | false => exact emaVec_dist _ _ _ _ h0 h1 d2 c2
  · intro c hc
    show (emaVec _ _ _).getD c 0 = _
    rw [emaVec_get _ _ _ (by rw [d1.1, c1.1]), e1 c hc, List.map_append, List.map_singleton, weightedAverage_snoc,
      colMean_get _ _ hc]
  · intro c hc
    unfold alignUpdate
    cases uniform with
    | true => exact e2 c hc
    | false =>
      have e2' := e2 c hc
      simp only [Bool.false_eq_true, if_false] at e2' ⊢
      rw [emaVec_get _ _ _ (by rw [d2.1, c2.1]), e2', List.map_append, List.map_singleton, weightedAverage_snoc,
        colMean_get _ _ hc]

theorem alignRun_inv (uniform : Bool) (m : K) (C : Nat) (h0 : 0 ≤ m) (h1 : m ≤ 1) :
    ∀ (bs hist : List (List (List K) × List (List K))) (st : Option (AlignState K)),
    AlignInv uniform m C hist (st.getD (alignInit C)) → (∀ b ∈ bs, IsBatch C b.1 ∧ IsBatch C b.2) →
    AlignInv uniform m C (hist ++ bs) ((alignRun uniform m C st bs).2.getD (alignInit C)) ∧
    (alignRun uniform m C st bs).1.length = bs.length ∧
    ∀ (t : Nat) (b : List (List K) × List (List K)), bs[t]? = some b →
      ∃ st', AlignInv uniform m C (hist ++ bs.take (t + 1)) st' ∧
        (alignRun uniform m C st bs).1[t]? = some (b.1.map (alignedRow st')) := by
  intro bs
  induction bs with
  | nil => intro hist st hi _; refine ⟨by simpa [alignRun] using hi, rfl, ?_⟩; intro t b hb; simp at hb
  | cons b bs ih =>
    intro hist st hi hb
    obtain ⟨bu, bl⟩ := hb b List.mem_cons_self
    have h2 := alignUpdate_inv uniform m C h0 h1 hist _ hi b.1 b.2 bu bl
    obtain ⟨i1, i2, i3⟩ := ih (hist ++ [b]) (some (alignUpdate uniform m C (st.getD (alignInit C)) b.1 b.2)) h2
      (fun b' h' => hb b' (List.mem_cons_of_mem _ h'))
    refine ⟨?_, ?_, ?_⟩
    · simpa [alignRun, alignStep] using i1
    · simpa [alignRun, alignStep] using i2
    · intro t b' ht
      cases t with
      | zero =>
        simp only [List.getElem?_cons_zero, Option.some.injEq] at ht
        subst ht
        exact ⟨_, by simpa using h2, rfl⟩
      | succ t =>
        simp only [List.getElem?_cons_succ] at ht
        obtain ⟨st', j1, j2⟩ := i3 t b' ht
        refine ⟨st', by simpa using j1, ?_⟩
        simpa [alignRun, alignStep] using j2

theorem rawAligned_get (st : AlignState K) (C : Nat) (h1 : st.pModel.length = C) (h2 : st.pTarget.length = C) (r : List K)
    (hr : r.length = C) (c : Nat) (hc : c < C) :
    (rawAligned st r).getD c 0 = r.getD c 0 * (st.pTarget.getD c 0 / max (st.pModel.getD c 0) (1 / 10 ^ 6)) := by
  rw [List.getD_eq_getElem _ _ (by simp [rawAligned]; omega), List.getD_eq_getElem _ _ (by omega),
    List.getD_eq_getElem _ _ (by omega), List.getD_eq_getElem _ _ (by omega)]
  simp [rawAligned]

theorem rawAligned_length (st : AlignState K) (C : Nat) (h1 : st.pModel.length = C) (h2 : st.pTarget.length = C)
    (r : List K) (hr : r.length = C) : (rawAligned st r).length = C := by simp [rawAligned, h1, h2, hr]

theorem sum_ge_of_entries (a b : List K) (t : K) (hl : a.length = b.length) (h : ∀ c < a.length, t * b.getD c 0 ≤ a.getD c 0) :
    t * b.sum ≤ a.sum := by
  rw [← sum_range_getD a a.length rfl, ← sum_range_getD b a.length hl.symm, ← List.sum_map_mul_left]
  exact List.sum_le_sum (fun c hc => h c (List.mem_range.mp hc))

/-- **C112.**  The averages behind the alignment: after any history the average prediction on unlabeled batches and the
target are distributions; they are the exponentially weighted averages of the mean predictions (the target of SoftMatch
with `dist_uniform` stays uniform). -/
theorem C112_state (uniform : Bool) (m : K) (C : Nat) (hC : 0 < C) (h0 : 0 ≤ m) (h1 : m < 1)
    (bs : List (List (List K) × List (List K))) (hne : bs ≠ []) (hb : ∀ b ∈ bs, IsBatch C b.1 ∧ IsBatch C b.2) :
    ∃ st, (alignRun uniform m C none bs).2 = some st ∧ IsDistN C st.pModel ∧ IsDistN C st.pTarget ∧
      (∀ c < C, st.pModel.getD c 0 = weightedAverage m (1 / (C : K)) (bs.map fun b => meanProb c b.1)) ∧
      (∀ c < C, st.pTarget.getD c 0 =
        if uniform then 1 / (C : K) else weightedAverage m (1 / (C : K)) (bs.map fun b => meanProb c b.2)) := by
  obtain ⟨h, -, -⟩ := alignRun_inv uniform m C h0 h1.le bs [] none (alignInit_inv uniform m C hC) hb
  have hs : ∀ (bs : List (List (List K) × List (List K))) (st : Option (AlignState K)), bs ≠ [] →
      ∃ s, (alignRun uniform m C st bs).2 = some s := by
    intro bs
    induction bs with
    | nil => intro _ h; exact absurd rfl h
    | cons b bs ih =>
      intro st _
      by_cases hbs : bs = []
      · subst hbs; exact ⟨_, rfl⟩
      · exact ih _ hbs
  obtain ⟨s, hs⟩ := hs bs none hne
  rw [hs] at h
  exact ⟨s, hs, h⟩

/-- **C112 (partial).**  Every row of every batch is multiplied class by class by target over average prediction (counted
including this batch) and rescaled by one positive factor; the result is non-negative.  It is a distribution whenever all
target probabilities are at least `1e-12`, in particular always for a uniform target.  Missing: smaller targets, see
`C112_aligned_violated`. -/
theorem C112_aligned_partial (uniform : Bool) (m : K) (C : Nat) (hC : 0 < C) (h0 : 0 ≤ m) (h1 : m < 1)
    (bs : List (List (List K) × List (List K))) (hb : ∀ b ∈ bs, IsBatch C b.1 ∧ IsBatch C b.2) :
    (alignRun uniform m C none bs).1.length = bs.length ∧
    ∀ (t : Nat) (b : List (List K) × List (List K)), bs[t]? = some b → ∃ out, (alignRun uniform m C none bs).1[t]? = some out ∧
      out.length = b.1.length ∧ ∃ w, IsWeight uniform m C (bs.take (t + 1)) w ∧
      ∀ (j : Nat) (r : List K), b.1[j]? = some r → ∃ r', out[j]? = some r' ∧ r'.length = C ∧ (∀ p ∈ r', 0 ≤ p) ∧
        (∃ z, 0 < z ∧ ∀ c < C, r'.getD c 0 = r.getD c 0 * w c / z) ∧
        ((∀ c < C, 1 / 10 ^ 12 ≤
            if uniform then 1 / (C : K) else weightedAverage m (1 / (C : K)) ((bs.take (t + 1)).map fun b => meanProb c b.2)) →
          IsDist r') := by
  obtain ⟨-, hl, hm⟩ := alignRun_inv uniform m C h0 h1.le bs [] none (alignInit_inv uniform m C hC) hb
  refine ⟨hl, ?_⟩
  intro t b ht
  obtain ⟨st, hi, hout⟩ := hm t b ht
  rw [List.nil_append] at hi
  obtain ⟨d1, d2, e1, e2⟩ := hi
  refine ⟨_, hout, by simp, fun c => st.pTarget.getD c 0 / max (st.pModel.getD c 0) (1 / 10 ^ 6), ?_, ?_⟩
  · intro c hc
    simp only
    rw [e1 c hc, e2 c hc]
  · intro j r hj
    have hr := (hb b (List.mem_of_getElem? ht)).1.2 r (List.mem_of_getElem? hj)
    have hlen := rawAligned_length st C d1.1 d2.1 r hr.1
    have hget := rawAligned_get st C d1.1 d2.1 r hr.1
    have hz : (0 : K) < max (rawAligned st r).sum (1 / 10 ^ 12) := denom_pos _
    have hm6 : ∀ x : K, 0 < max x (1 / 10 ^ 6) := fun x => lt_max_of_lt_right (by positivity)
    have hT : ∀ c < C, 0 ≤ st.pTarget.getD c 0 := by
      intro c hc
      rw [List.getD_eq_getElem _ _ (by rw [d2.1]; exact hc)]
      exact d2.2.1 _ (List.getElem_mem _)
    have hR : ∀ c < C, 0 ≤ r.getD c 0 := by
      intro c hc
      rw [List.getD_eq_getElem _ _ (by rw [hr.1]; exact hc)]
      exact hr.2.1 _ (List.getElem_mem _)
    have hraw0 : ∀ p ∈ rawAligned st r, 0 ≤ p := by
      intro p hp
      obtain ⟨c, hc, rfl⟩ := List.getElem_of_mem hp
      rw [hlen] at hc
      have := hget c hc
      rw [List.getD_eq_getElem _ _ (by rw [hlen]; exact hc)] at this
      rw [this]
      exact mul_nonneg (hR c hc) (div_nonneg (hT c hc) (hm6 _).le)
    have hnn : ∀ p ∈ alignedRow st r, 0 ≤ p := by
      intro p hp
      obtain ⟨q, hq, rfl⟩ := List.mem_map.mp hp
      exact div_nonneg (hraw0 q hq) hz.le
    refine ⟨alignedRow st r, by rw [List.getElem?_map, hj]; rfl, by rw [alignedRow, List.length_map, hlen], hnn,
      ⟨_, hz, ?_⟩, ?_⟩
    · intro c hc
      rw [alignedRow, List.getD_eq_getElem _ _ (by rw [List.length_map, hlen]; exact hc), List.getElem_map]
      have := hget c hc
      rw [List.getD_eq_getElem _ _ (by rw [hlen]; exact hc)] at this
      rw [this]
    · intro hbig
      refine ⟨hnn, ?_⟩
      have hsum : 1 / 10 ^ 12 ≤ (rawAligned st r).sum := by
        have := sum_ge_of_entries (rawAligned st r) r (1 / 10 ^ 12) (by rw [hlen, hr.1]) (by
          intro c hc
          rw [hlen] at hc
          rw [hget c hc, mul_comm]
          apply mul_le_mul_of_nonneg_left _ (hR c hc)
          have hb1 := hbig c hc
          rw [← e2 c hc] at hb1
          rw [le_div_iff₀ (hm6 _)]
          refine le_trans ?_ hb1
          have hle : max (st.pModel.getD c 0) (1 / 10 ^ 6) ≤ 1 := by
            apply max_le _ (by norm_num)
            rw [List.getD_eq_getElem _ _ (by rw [d1.1]; exact hc)]
            exact dist_le_one C _ d1 _ (List.getElem_mem _)
          nlinarith [show (0 : K) < 1 / 10 ^ 12 by positivity])
        rwa [hr.2.2, mul_one] at this
      have hs : (alignedRow st r).sum = (rawAligned st r).sum / max (rawAligned st r).sum (1 / 10 ^ 12) := by
        unfold alignedRow
        simp only [div_eq_mul_inv, List.sum_map_mul_right, List.map_id']
      rw [hs, max_eq_left hsum, div_self]
      exact ne_of_gt (lt_of_lt_of_le (by positivity) hsum)

/-- **C112 (violated).**  With a target that follows the labeled predictions, aligned rows need not be distributions: the
floor in the denominator takes over (here the aligned row sums to about 0.11). -/
theorem C112_aligned_violated : ∃ (u l : List (List Rat)), IsBatch 2 u ∧ IsBatch 2 l ∧
    (∀ r ∈ u ++ l, ∀ p ∈ r, 0 < p) ∧
    ∃ row, (alignRun false 0 2 none [(u, l)]).1 = [[row]] ∧ row.sum < 12 / 100 := by
  refine ⟨[[1 / 10 ^ 20, 1 - 1 / 10 ^ 20]], [[1 - 1 / 10 ^ 13, 1 / 10 ^ 13]], ?_, ?_, ?_, _, rfl, ?_⟩
  · simp only [IsBatch, IsDistN, IsDist, List.mem_singleton, forall_eq]
    norm_num
  · simp only [IsBatch, IsDistN, IsDist, List.mem_singleton, forall_eq]
    norm_num
  · norm_num
  · decide +kernel

/-- **C112 (violated).**  A second `fit` of the same object starts from the averages of the first: the same batch is
aligned differently than on a fresh object. -/
theorem C112_refit_violated : ∃ (first second : List (List (List Rat) × List (List Rat))),
    (∀ b ∈ first ++ second, IsBatch 2 b.1 ∧ IsBatch 2 b.2) ∧
    (alignRun true (1 / 2) 2 none second).1 = [[[1 / 2, 1 / 2]]] ∧
    (alignRun true (1 / 2) 2 (alignRun true (1 / 2) 2 none first).2 second).1 ≠ [[[1 / 2, 1 / 2]]] := by
  refine ⟨[([[1, 0]], [[1, 0]])], [([[1 / 2, 1 / 2]], [[1, 0]])], ?_, by decide +kernel, by decide +kernel⟩
  simp only [List.singleton_append, List.mem_cons, List.not_mem_nil, or_false, IsBatch, IsDistN, IsDist]
  rintro b (rfl | rfl) <;> norm_num

/-- **C112.**  AdaMatch uses exactly the samples one of whose aligned probabilities reaches `p_cutoff` times the mean
confidence on the labeled batch. -/
theorem C112_relative (cutoff : K) (aligned probsL : List (List K)) (hne : ∀ r ∈ aligned, r ≠ []) :
    (adaMask cutoff aligned probsL).length = aligned.length ∧
    ∀ (j : Nat) (r : List K), aligned[j]? = some r → ((adaMask cutoff aligned probsL)[j]? = some true ↔
      Confident (cutoff * ((probsL.map rowMax).sum / (probsL.length : K))) r) := by
  refine ⟨by simp [adaMask], ?_⟩
  intro j r hj
  unfold adaMask
  rw [List.getElem?_map, hj]
  simp only [Option.map_some, Option.some.injEq, decide_eq_true_eq]
  have hrne := hne r (List.mem_of_getElem? hj)
  rw [mul_comm, show mean (probsL.map rowMax) = (probsL.map rowMax).sum / (probsL.length : K) by
    unfold mean; rw [List.length_map]]
  constructor
  · intro h; exact ⟨_, rowMax_mem r hrne, h⟩
  · rintro ⟨p, hp, h⟩; exact le_trans h (rowMax_ge r p hp)

/-- **C112.**  SoftMatch weights lie in `(0, 1]`, are 1 exactly for samples at least as confident as the running mean,
and never decrease with confidence. -/
theorem C112_weight (exp : K → K) (he : Transductive.Spec.ExpLaw exp) (nSigma : K) (st : K × K) (p : K) :
    0 < softWeight exp nSigma st p ∧ softWeight exp nSigma st p ≤ 1 ∧
    (softWeight exp nSigma st p = 1 ↔ st.1 ≤ p) ∧
    ∀ q, p ≤ q → softWeight exp nSigma st p ≤ softWeight exp nSigma st q := by
  have hd : (0 : K) < max (2 * st.2 / (nSigma * nSigma)) (1 / 10 ^ 12) := denom_pos _
  have hmono : ∀ x y, x ≤ y → exp x ≤ exp y := by
    intro x y h
    rcases h.eq_or_lt with rfl | h
    · exact le_refl _
    · exact (he.mono _ _ h).le
  have harg : ∀ p, -(min (p - st.1) 0 * min (p - st.1) 0) / max (2 * st.2 / (nSigma * nSigma)) (1 / 10 ^ 12) ≤ 0 := by
    intro p
    apply div_nonpos_of_nonpos_of_nonneg _ hd.le
    have := mul_self_nonneg (min (p - st.1) 0)
    linarith
  refine ⟨he.pos _, ?_, ?_, ?_⟩
  · rw [← he.zero]; exact hmono _ _ (harg p)
  · unfold softWeight
    constructor
    · intro h
      by_contra hlt
      have hlt' : p - st.1 < 0 := by rw [not_le] at hlt; linarith
      rw [min_eq_left hlt'.le] at h
      have : -((p - st.1) * (p - st.1)) / max (2 * st.2 / (nSigma * nSigma)) (1 / 10 ^ 12) < 0 := by
        apply div_neg_of_neg_of_pos _ hd
        have := mul_pos_of_neg_of_neg hlt' hlt'
        linarith
      have := he.mono _ _ this
      rw [h, he.zero] at this
      exact lt_irrefl _ this
    · intro h
      rw [min_eq_right (by linarith)]
      simpa using he.zero
  · intro q hpq
    unfold softWeight
    apply hmono
    apply div_le_div_of_nonneg_right _ hd.le
    have h1 : min (p - st.1) 0 ≤ min (q - st.1) 0 := min_le_min_right _ (by linarith)
    have h2 : min (q - st.1) 0 ≤ 0 := min_le_right _ _
    nlinarith

/-- **C112.**  The running mean and variance of SoftMatch (without per-class mode): weighted averages of the means and
variances of the confidences of the batches; the mean stays in `[1 / C, 1]`, the variance is never negative. -/
theorem C112_stats (m : K) (C : Nat) (hC : 0 < C) (h0 : 0 ≤ m) (h1 : m < 1) (bs : List (List (List K)))
    (hb : ∀ b ∈ bs, IsBatch C b) :
    (bs.foldl (fun st b => softUpdate m st (b.map rowMax)) (softInit C)).1 =
      weightedAverage m (1 / (C : K)) (bs.map fun b => (b.map rowMax).sum / (b.length : K)) ∧
    1 / (C : K) ≤ (bs.foldl (fun st b => softUpdate m st (b.map rowMax)) (softInit C)).1 ∧
    (bs.foldl (fun st b => softUpdate m st (b.map rowMax)) (softInit C)).1 ≤ 1 ∧
    0 ≤ (bs.foldl (fun st b => softUpdate m st (b.map rowMax)) (softInit C)).2 := by
  have hCK : (1 : K) ≤ C := by exact_mod_cast hC
  induction bs using List.reverseRecOn with
  | nil =>
    simp only [List.foldl_nil, List.map_nil, weightedAverage_nil, softInit]
    refine ⟨trivial, le_refl _, div_le_one_of_le₀ hCK (by positivity), by norm_num⟩
  | append_singleton bs b ih =>
    obtain ⟨i1, i2, i3, i4⟩ := ih (fun b' h' => hb b' (List.mem_append_left _ h'))
    have hbb := hb b (by simp)
    have hmem : ∀ x ∈ b.map rowMax, 1 / (C : K) ≤ x ∧ x ≤ 1 := by
      intro x hx
      obtain ⟨r, hr, rfl⟩ := List.mem_map.mp hx
      exact dist_max _ r (hbb.2 r hr)
    have hne : b.map rowMax ≠ [] := by simpa using hbb.1
    have hmean := mean_bounds _ hne _ _ hmem
    have hme : mean (b.map rowMax) = (b.map rowMax).sum / (b.length : K) := by unfold mean; rw [List.length_map]
    have hvar : 0 ≤ (batchStats (b.map rowMax)).2 := by
      unfold batchStats
      simp only
      split
      · rename_i h
        unfold unbiasedVar
        apply div_nonneg
        · exact sum_map_nonneg _ _ (fun x _ => mul_self_nonneg _)
        · have : (1 : K) ≤ (b.map rowMax).length := by exact_mod_cast h.le
          linarith
      · exact le_refl _
    simp only [List.foldl_append, List.foldl_cons, List.foldl_nil, List.map_append, List.map_singleton]
    have he := ema_bounds m _ _ _ _ h0 h1.le ⟨i2, i3⟩ hmean
    refine ⟨?_, he.1, he.2, ?_⟩
    · rw [weightedAverage_snoc, ← i1, ← hme]; rfl
    · show 0 ≤ ema m _ _
      unfold ema
      have : 0 ≤ 1 - m := by linarith
      positivity

/-- **C112 (violated).**  In per-class mode the running mean of a class is not an average of the confidences of the
samples predicted as that class: batches with a single sample of the class pull it towards zero, below every confidence
that two classes allow. -/
theorem C112_class_violated : ∃ (m : Rat) (batches : List (List (Rat × Nat))),
    (∀ b ∈ batches, ∀ p ∈ b, p.1 = 9 / 10 ∧ p.2 < 2) ∧ (∀ b ∈ batches, (b.map (·.2)) = [0, 1]) ∧
    (batches.foldl (softUpdateClass m 2) [softInit 2, softInit 2]).map (·.1) = [1 / 8, 1 / 8] :=
  ⟨1 / 2, [[(9 / 10, 0), (9 / 10, 1)], [(9 / 10, 0), (9 / 10, 1)]], by decide +kernel, by decide +kernel, by decide +kernel⟩

/-- Two batches with a uniform target. -/
example : (alignRun (K := Rat) true (1 / 2) 2 none [([[4 / 5, 1 / 5]], [[1, 0]]), ([[1 / 2, 1 / 2]], [[1, 0]])]).1 =
    [[[28 / 41, 13 / 41]], [[17 / 40, 23 / 40]]] := by decide +kernel

/-- A confident enough sample. -/
example : adaMask (K := Rat) (9 / 10) [[4 / 5, 1 / 5], [1 / 2, 1 / 2]] [[3 / 4, 1 / 4], [1, 0]] = [true, false] := by
  decide +kernel

end ModSSC.Deep
