import Verif.Deep.EnsSpec
import Verif.Deep.EmaProps
import Verif.Sampling.SplitLemmas

/-!
# C113, C114, C115 — temporal ensembling, MixUp, warm-up and Mean Teacher
-/

namespace ModSSC.Deep
open ModSSC ModSSC.Deep.Spec

variable {K : Type} [Field K] [LinearOrder K] [IsStrictOrderedRing K]

/-! ## C113: temporal ensembling -/

theorem teProb_dist (C : Nat) (p : TePred K) (h1 : IsDistN C p.weak) (h2 : IsDistN C p.strong) : IsDistN C (teProb p) := by
  have he : teProb p = emaVec (1 / 2) p.weak p.strong := by
    unfold teProb emaVec ema
    congr 1
    funext a b
    ring
  rw [he]
  exact emaVec_dist _ _ _ _ (by norm_num) (by norm_num) h1 h2

theorem teProb_get (C : Nat) (p : TePred K) (h1 : p.weak.length = C) (h2 : p.strong.length = C) (c : Nat) (hc : c < C) :
    (teProb p).getD c 0 = (p.weak.getD c 0 + p.strong.getD c 0) / 2 := by
  rw [List.getD_eq_getElem _ _ (by simp [teProb]; omega), List.getD_eq_getElem _ _ (by omega),
    List.getD_eq_getElem _ _ (by omega)]
  simp only [teProb, List.getElem_zipWith]
  ring

theorem tePass_spec (n C : Nat) (preds : List (TePred K)) (s : Nat) (hs : s < n) (hlt : ∀ p ∈ preds, p.idx < n) :
    (tePass n C preds).length = n ∧ (tePass n C preds).getD s [] =
      match (preds.filter fun p => p.idx = s).getLast? with
      | none => List.replicate C 0
      | some p => teProb p := by
  induction preds using List.reverseRecOn with
  | nil =>
    refine ⟨by simp [tePass], ?_⟩
    simp only [tePass, List.foldl_nil, List.filter_nil, List.getLast?_nil]
    rw [List.getD_eq_getElem _ _ (by simpa using hs)]
    simp
  | append_singleton ps p ih =>
    obtain ⟨i1, i2⟩ := ih (fun q hq => hlt q (List.mem_append_left _ hq))
    have hp := hlt p (by simp)
    have he : tePass n C (ps ++ [p]) = (tePass n C ps).set p.idx (teProb p) := by
      simp [tePass, List.foldl_append]
    rw [he]
    refine ⟨by rw [List.length_set, i1], ?_⟩
    rw [List.filter_append]
    by_cases h : p.idx = s
    · have : [p].filter (fun p => decide (p.idx = s)) = [p] := by simp [h]
      rw [this, List.getLast?_append]
      simp only [List.getLast?_singleton, Option.some_or]
      rw [List.getD_eq_getElem _ _ (by rw [List.length_set, i1]; exact hs)]
      subst h
      simp
    · have : [p].filter (fun p => decide (p.idx = s)) = [] := by simp [h]
      rw [this, List.append_nil, ← i2, List.getD_eq_getElem _ _ (by rw [List.length_set, i1]; exact hs),
        List.getElem_set_ne h, List.getD_eq_getElem _ _ (by rw [i1]; exact hs)]

/-- What the ensemble is after the epochs `hist`. -/
def TeInv (n C : Nat) (alpha : K) (hist : List (List (TePred K))) (ens : List (List K)) : Prop :=
  ens.length = n ∧ ∀ s < n, (ens.getD s []).length = C ∧ (∀ c < C, (ens.getD s []).getD c 0 =
    weightedAverage alpha 0 (hist.map fun e => lastProb e s c)) ∧ (∀ p ∈ ens.getD s [], 0 ≤ p) ∧
    (ens.getD s []).sum = 1 - alpha ^ hist.length

theorem lastProb_full (n C : Nat) (e : List (TePred K)) (he : FullEpoch n C e) (s : Nat) (hs : s < n) :
    (tePass n C e).length = n ∧ IsDistN C ((tePass n C e).getD s []) ∧
    ∀ c < C, ((tePass n C e).getD s []).getD c 0 = lastProb e s c := by
  obtain ⟨h1, h2⟩ := tePass_spec n C e s hs (fun p hp => (he.1 p hp).1)
  obtain ⟨p, hp, hps⟩ := he.2 s hs
  cases hl : (e.filter fun p => p.idx = s).getLast? with
  | none =>
    rw [List.getLast?_eq_none_iff] at hl
    have : p ∈ e.filter fun p => p.idx = s := by simp [hp, hps]
    rw [hl] at this
    simp at this
  | some q =>
    have hq : q ∈ e := by
      have := List.mem_of_getLast? hl
      exact (List.mem_filter.mp this).1
    obtain ⟨-, q1, q2⟩ := he.1 q hq
    rw [hl] at h2
    simp only at h2
    rw [h2]
    refine ⟨h1, teProb_dist C q q1 q2, ?_⟩
    intro c hc
    rw [teProb_get C q q1.1 q2.1 c hc]
    unfold lastProb
    rw [hl]

theorem teBlend_inv (n C : Nat) (alpha : K) (h0 : 0 ≤ alpha) (h1 : alpha ≤ 1) (hist : List (List (TePred K)))
    (ens : List (List K)) (hi : TeInv n C alpha hist ens) (e : List (TePred K)) (he : FullEpoch n C e) :
    TeInv n C alpha (hist ++ [e]) (teBlend alpha ens (tePass n C e)) := by
  have hpl : ∀ s < n, (tePass n C e).length = n := fun s hs => (lastProb_full n C e he s hs).1
  by_cases hn : n = 0
  · subst hn
    refine ⟨?_, by intro s hs; omega⟩
    simp [teBlend, hi.1]
  have hlen : (tePass n C e).length = n := hpl 0 (by omega)
  refine ⟨by simp [teBlend, hi.1, hlen], ?_⟩
  intro s hs
  obtain ⟨i1, i2, i3, i4⟩ := hi.2 s hs
  obtain ⟨-, p1, p2⟩ := lastProb_full n C e he s hs
  have hrow : (teBlend alpha ens (tePass n C e)).getD s [] =
      emaVec alpha (ens.getD s []) ((tePass n C e).getD s []) := by
    rw [List.getD_eq_getElem _ _ (by simp [teBlend, hi.1, hlen]; exact hs),
      List.getD_eq_getElem _ _ (by rw [hi.1]; exact hs), List.getD_eq_getElem _ _ (by rw [hlen]; exact hs)]
    have hf : (fun a b : K => alpha * a + (1 - alpha) * b) = ema alpha := by
      funext a b; unfold ema; ring
    simp only [teBlend, List.getElem_zipWith, emaVec, hf]
  rw [hrow]
  refine ⟨by simp only [emaVec, List.length_zipWith]; rw [i1, p1.1, Nat.min_self], ?_, ?_, ?_⟩
  · intro c hc
    rw [emaVec_get _ _ _ (by rw [i1, p1.1]), i2 c hc, p2 c hc, List.map_append, List.map_singleton,
      weightedAverage_snoc]
  · intro p hp
    unfold emaVec at hp
    obtain ⟨i, hi', rfl⟩ := List.getElem_of_mem hp
    rw [List.getElem_zipWith]
    simp only [List.length_zipWith] at hi'
    have a1 := i3 _ (List.getElem_mem (l := ens.getD s []) (n := i) (by omega))
    have a2 := p1.2.1 _ (List.getElem_mem (l := (tePass n C e).getD s []) (n := i) (by omega))
    unfold ema
    have : 0 ≤ 1 - alpha := by linarith
    positivity
  · rw [emaVec_sum _ _ _ (by rw [i1, p1.1]), i4, p1.2.2, List.length_append, List.length_singleton, pow_succ]
    ring

theorem teRun_inv (n C : Nat) (alpha : K) (h0 : 0 ≤ alpha) (h1 : alpha ≤ 1) : ∀ (es hist : List (List (TePred K)))
    (ens : List (List K)), TeInv n C alpha hist ens → (∀ e ∈ es, FullEpoch n C e) →
    (teRun n C alpha hist.length ens es).1.length = es.length ∧
    ∀ k < es.length, ∃ ens', TeInv n C alpha (hist ++ es.take k) ens' ∧
      (teRun n C alpha hist.length ens es).1[k]? = some (teTargets alpha (hist.length + k) ens') := by
  intro es
  induction es with
  | nil => intro hist ens _ _; exact ⟨rfl, by intro k hk; simp at hk⟩
  | cons e es ih =>
    intro hist ens hi he
    have h2 := teBlend_inv n C alpha h0 h1 hist ens hi e (he e List.mem_cons_self)
    obtain ⟨j1, j2⟩ := ih (hist ++ [e]) _ h2 (fun e' h' => he e' (List.mem_cons_of_mem _ h'))
    rw [List.length_append, List.length_singleton] at j1 j2
    refine ⟨by simp [teRun, j1], ?_⟩
    intro k hk
    cases k with
    | zero => exact ⟨ens, by simpa using hi, by simp [teRun]⟩
    | succ k =>
      obtain ⟨ens', a1, a2⟩ := j2 k (by simpa using hk)
      refine ⟨ens', by simpa using a1, ?_⟩
      simp only [teRun, List.getElem?_cons_succ]
      rw [a2]
      congr 2
      omega

/-- **C113 (partial).**  The targets used in epoch `k` (from 0): for every sample the weighted average of its last
predictions in the earlier epochs, divided by `1 - alpha ^ (k + 1)` (at least `1e-12`).  They are non-negative and sum to
`1 - alpha ^ k` over that.  Missing: that this is one from the second epoch on, see `C113_bias_violated`. -/
theorem C113_targets_partial (n C : Nat) (alpha : K) (h0 : 0 ≤ alpha) (h1 : alpha < 1) (es : List (List (TePred K)))
    (he : ∀ e ∈ es, FullEpoch n C e) :
    (teFit n C alpha es).1.length = es.length ∧
    ∀ k < es.length, ∃ T, (teFit n C alpha es).1[k]? = some T ∧ T.length = n ∧
      ∀ s < n, (T.getD s []).length = C ∧
        (∀ c < C, (T.getD s []).getD c 0 =
          weightedAverage alpha 0 ((es.take k).map fun e => lastProb e s c) / max (1 - alpha ^ (k + 1)) (1 / 10 ^ 12)) ∧
        (∀ p ∈ T.getD s [], 0 ≤ p) ∧
        (T.getD s []).sum = (1 - alpha ^ k) / max (1 - alpha ^ (k + 1)) (1 / 10 ^ 12) := by
  have hinit : TeInv n C alpha [] (List.replicate n (List.replicate C 0)) := by
    refine ⟨by simp, ?_⟩
    intro s hs
    have hg : (List.replicate n (List.replicate C (0 : K))).getD s [] = List.replicate C 0 := by
      rw [List.getD_eq_getElem _ _ (by simpa using hs)]; simp
    rw [hg]
    refine ⟨by simp, ?_, ?_, by simp⟩
    · intro c hc
      rw [List.map_nil, weightedAverage_nil, List.getD_eq_getElem _ _ (by simpa using hc)]; simp
    · intro p hp
      rw [(List.mem_replicate.mp hp).2]
  obtain ⟨r1, r2⟩ := teRun_inv n C alpha h0 h1.le es [] _ hinit he
  refine ⟨r1, ?_⟩
  intro k hk
  obtain ⟨ens, hi, hT⟩ := r2 k hk
  simp only [List.length_nil, Nat.zero_add, List.nil_append] at hi hT
  refine ⟨_, hT, by simp [teTargets, hi.1], ?_⟩
  intro s hs
  obtain ⟨i1, i2, i3, i4⟩ := hi.2 s hs
  have hrow : (teTargets alpha k ens).getD s [] = (ens.getD s []).map (· / max (1 - alpha ^ (k + 1)) (1 / 10 ^ 12)) := by
    rw [List.getD_eq_getElem _ _ (by simp [teTargets, hi.1]; exact hs), List.getD_eq_getElem _ _ (by rw [hi.1]; exact hs)]
    simp [teTargets]
  rw [hrow]
  refine ⟨by simp only [List.length_map]; exact i1, ?_, ?_, ?_⟩
  · intro c hc
    rw [List.getD_eq_getElem (List.map _ _) _ (by rw [List.length_map, i1]; exact hc), List.getElem_map, ← i2 c hc,
      List.getD_eq_getElem (ens.getD s []) _ (by rw [i1]; exact hc)]
  · intro p hp
    obtain ⟨q, hq, rfl⟩ := List.mem_map.mp hp
    exact div_nonneg (i3 q hq) (denom_pos _).le
  · simp only [div_eq_mul_inv, List.sum_map_mul_right, List.map_id']
    rw [i4, List.length_take, Nat.min_eq_left hk.le]

/-- **C113 (violated).**  The targets are not bias-corrected averages of predictions: in the first epoch they are zero for
every class, and from the second on they sum to less than one whenever `0 < alpha`, for all trainings. -/
theorem C113_bias_violated (n C : Nat) (alpha : K) (h0 : 0 < alpha) (h1 : alpha < 1) (es : List (List (TePred K)))
    (he : ∀ e ∈ es, FullEpoch n C e) (k : Nat) (hk : k < es.length) (s : Nat) (hs : s < n) :
    ∃ T, (teFit n C alpha es).1[k]? = some T ∧ (T.getD s []).sum < 1 ∧ (k = 0 → ∀ c < C, (T.getD s []).getD c 0 = 0) := by
  obtain ⟨T, t1, -, t2⟩ := (C113_targets_partial n C alpha h0.le h1 es he).2 k hk
  obtain ⟨-, a2, -, a4⟩ := t2 s hs
  refine ⟨T, t1, ?_, ?_⟩
  · rw [a4, div_lt_one (denom_pos _)]
    apply lt_max_of_lt_left
    have : alpha ^ (k + 1) < alpha ^ k := by
      rw [pow_succ]
      have := pow_pos h0 k
      nlinarith
    linarith
  · rintro rfl c hc
    rw [a2 c hc]
    simp [weightedAverage]

/-- Two epochs over two samples with `alpha = 1/2`: the targets of the second sum to 2/3. -/
example : (teFit (K := Rat) 2 2 (1 / 2) [[⟨1, [1, 0], [1, 0]⟩, ⟨0, [1 / 2, 1 / 2], [1, 0]⟩], [⟨0, [1, 0], [1, 0]⟩]]).1 =
    [[[0, 0], [0, 0]], [[1 / 2, 1 / 6], [2 / 3, 0]]] := by decide +kernel

example : FullEpoch (K := Rat) 2 2 [⟨1, [1, 0], [1, 0]⟩, ⟨0, [1 / 2, 1 / 2], [1, 0]⟩] := by
  refine ⟨?_, ?_⟩
  · simp only [List.mem_cons, List.not_mem_nil, or_false, IsDistN, IsDist]
    rintro p (rfl | rfl) <;> norm_num
  · intro s hs
    have : s = 0 ∨ s = 1 := by omega
    rcases this with rfl | rfl
    · exact ⟨⟨0, [1 / 2, 1 / 2], [1, 0]⟩, by simp, rfl⟩
    · exact ⟨⟨1, [1, 0], [1, 0]⟩, by simp, rfl⟩

/-! ## C114: MixUp -/

theorem mixRow_spec (lam : K) (a b : List K) (h : a.length = b.length) : IsMix lam a b (mixRow lam a b) := by
  refine ⟨by simp [mixRow, h], ?_⟩
  intro c hc
  rw [List.getD_eq_getElem _ _ (by simp [mixRow]; omega), List.getD_eq_getElem _ _ hc, List.getD_eq_getElem _ _ (by omega)]
  simp [mixRow]

/-- **C114.**  MixUp fails exactly for an empty batch or different numbers of rows and labels.  Otherwise row `i` becomes
`lam` times itself plus `1 - lam` times a partner, inputs and targets with the same `lam` and partner, where `lam` is
between one half and one; every row is partner of exactly one; with `alpha <= 0` nothing changes. -/
theorem C114_mixup {σ τ : Type} (G : TorchGen σ) (hG : G.Lawful) (beta : K → τ → Nat → List K × τ) (hB : BetaLaw beta)
    (alpha : K) (X Y : List (List K)) (dX dY : Nat) (hX : ∀ r ∈ X, r.length = dX) (hY : ∀ r ∈ Y, r.length = dY) (g : σ)
    (global : τ) :
    ((X = [] ∨ X.length ≠ Y.length) → mixup G beta alpha X Y g global = .error .validation) ∧
    (X ≠ [] → X.length = Y.length → ∃ X' Y' g' t', mixup G beta alpha X Y g global = .ok ((X', Y'), g', t') ∧
      X'.length = X.length ∧ Y'.length = X.length ∧ (alpha ≤ 0 → X' = X ∧ Y' = Y ∧ t' = global) ∧
      ∃ (lam : Nat → K) (partner : Nat → Nat), ((List.range X.length).map partner).Perm (List.range X.length) ∧
        ∀ i < X.length, 1 / 2 ≤ lam i ∧ lam i ≤ 1 ∧
          IsMix (lam i) (X.getD i []) (X.getD (partner i) []) (X'.getD i []) ∧
          IsMix (lam i) (Y.getD i []) (Y.getD (partner i) []) (Y'.getD i [])) := by
  constructor
  · rintro (rfl | h)
    · unfold mixup
      by_cases hl : ([] : List (List K)).length ≠ Y.length
      · rw [if_pos hl]
      · rw [if_neg hl, if_pos (List.length_nil)]
    · unfold mixup
      rw [if_pos h]
  · intro hne hl
    have hpos : X.length ≠ 0 := by simpa using hne
    have hperm := hG g X.length
    have hplen : (G.randperm g X.length).1.length = X.length := by simpa using hperm.length_eq
    generalize hdraw : (if alpha ≤ 0 then (List.replicate X.length (1 : K), global)
      else ((beta alpha global X.length).1.map (fun l => max l (1 - l)), (beta alpha global X.length).2)) = draw
    have hd : draw.1.length = X.length ∧ ∀ x ∈ draw.1, 1 / 2 ≤ x ∧ x ≤ 1 := by
      rw [← hdraw]
      by_cases ha : alpha ≤ 0
      · rw [if_pos ha]
        refine ⟨by simp, ?_⟩
        intro x hx
        rw [(List.mem_replicate.mp hx).2]
        norm_num
      · rw [if_neg ha]
        obtain ⟨b1, b2⟩ := hB alpha global X.length (not_le.mp ha)
        refine ⟨by simpa using b1, ?_⟩
        intro x hx
        obtain ⟨y, hy, rfl⟩ := List.mem_map.mp hx
        obtain ⟨y0, y1⟩ := b2 y hy
        refine ⟨?_, max_le y1 (by linarith)⟩
        rcases le_total (1 / 2) y with h | h
        · exact le_max_of_le_left h
        · exact le_max_of_le_right (by linarith)
    have hpart : ∀ i < X.length, (G.randperm g X.length).1.getD i 0 < X.length := by
      intro i hi
      rw [List.getD_eq_getElem _ _ (by rw [hplen]; exact hi)]
      exact List.mem_range.mp (hperm.mem_iff.mp (List.getElem_mem _))
    have hmix : ∀ (M : List (List K)) (d : Nat), M.length = X.length → (∀ r ∈ M, r.length = d) → ∀ i < X.length,
        IsMix (draw.1.getD i 0) (M.getD i []) (M.getD ((G.randperm g X.length).1.getD i 0) [])
          (((List.range X.length).map fun i =>
            mixRow (draw.1.getD i 0) (M.getD i []) (M.getD ((G.randperm g X.length).1.getD i 0) [])).getD i []) := by
      intro M d hM hd' i hi
      have hp := hpart i hi
      rw [List.getD_eq_getElem (((List.range X.length).map _)) _ (by simpa using hi), List.getElem_map,
        List.getElem_range]
      apply mixRow_spec
      rw [List.getD_eq_getElem M _ (by omega), List.getD_eq_getElem M _ (by omega), hd' _ (List.getElem_mem _),
        hd' _ (List.getElem_mem _)]
    have hsame : alpha ≤ 0 → ∀ (M : List (List K)) (d : Nat), M.length = X.length → (∀ r ∈ M, r.length = d) →
        ((List.range X.length).map fun i =>
          mixRow (draw.1.getD i 0) (M.getD i []) (M.getD ((G.randperm g X.length).1.getD i 0) [])) = M := by
      intro ha M d hM hd'
      have hone : ∀ i < X.length, draw.1.getD i 0 = 1 := by
        intro i hi
        rw [← hdraw, if_pos ha, List.getD_eq_getElem _ _ (by simpa using hi)]
        simp
      apply List.ext_getElem (by simpa using hM.symm)
      intro i h1 h2
      have hi : i < X.length := by simpa using h1
      rw [List.getElem_map, List.getElem_range, hone i hi, List.getD_eq_getElem M _ h2]
      have hp := hpart i hi
      apply List.ext_getElem
      · simp only [mixRow, List.length_zipWith]
        rw [List.getD_eq_getElem M _ (by omega), hd' _ (List.getElem_mem _), hd' _ (List.getElem_mem _), Nat.min_self]
      · intro j j1 j2
        simp [mixRow]
    refine ⟨(List.range X.length).map fun i =>
        mixRow (draw.1.getD i 0) (X.getD i []) (X.getD ((G.randperm g X.length).1.getD i 0) []),
      (List.range X.length).map fun i =>
        mixRow (draw.1.getD i 0) (Y.getD i []) (Y.getD ((G.randperm g X.length).1.getD i 0) []),
      (G.randperm g X.length).2, draw.2, ?_, ?_, ?_, ?_, ?_⟩
    · unfold mixup
      rw [if_neg (by simpa using hl), if_neg hpos]
      simp only [hdraw]
    · simp
    · simp
    · intro ha
      refine ⟨hsame ha X dX rfl hX, hsame ha Y dY hl.symm hY, ?_⟩
      rw [← hdraw, if_pos ha]
    · refine ⟨fun i => draw.1.getD i 0, fun i => (G.randperm g X.length).1.getD i 0, ?_, ?_⟩
      · have : (List.range X.length).map (fun i => (G.randperm g X.length).1.getD i 0) = (G.randperm g X.length).1 := by
          apply List.ext_getElem (by simpa using hplen.symm)
          intro i h1 h2
          rw [List.getElem_map, List.getElem_range, List.getD_eq_getElem _ _ h2]
        rw [this]
        exact hperm
      · intro i hi
        have hm := hd.2 (draw.1.getD i 0) (by
          rw [List.getD_eq_getElem _ _ (by rw [hd.1]; exact hi)]
          exact List.getElem_mem _)
        exact ⟨hm.1, hm.2, hmix X dX rfl hX i hi, hmix Y dY hl.symm hY i hi⟩

/-- **C114.**  Mixing distributions gives distributions, and a labeled row keeps at least half of the mass on its own
label. -/
theorem C114_targets (C : Nat) (lam : K) (h0 : 1 / 2 ≤ lam) (h1 : lam ≤ 1) (a b r : List K) (ha : IsDistN C a)
    (hb : IsDistN C b) (hr : IsMix lam a b r) :
    IsDistN C r ∧ ∀ c < C, lam * a.getD c 0 ≤ r.getD c 0 ∧ (a.getD c 0 = 1 → 1 / 2 ≤ r.getD c 0) := by
  have hre : r = emaVec lam a b := by
    apply List.ext_getElem
    · rw [hr.1, ha.1]; simp [emaVec, ha.1, hb.1]
    · intro c h1 h2
      have hc : c < a.length := by rw [← hr.1]; exact h1
      have := hr.2 c hc
      rw [← List.getD_eq_getElem r 0 h1, this, ← List.getD_eq_getElem (emaVec lam a b) 0 h2,
        emaVec_get _ _ _ (by rw [ha.1, hb.1])]
      unfold ema; ring
  refine ⟨by rw [hre]; exact emaVec_dist _ _ _ _ (by linarith) h1 ha hb, ?_⟩
  intro c hc
  rw [hr.2 c (by rw [ha.1]; exact hc)]
  have hbc : 0 ≤ b.getD c 0 := by
    rw [List.getD_eq_getElem _ _ (by rw [hb.1]; exact hc)]
    exact hb.2.1 _ (List.getElem_mem _)
  have : 0 ≤ (1 - lam) * b.getD c 0 := mul_nonneg (by linarith) hbc
  refine ⟨by linarith, ?_⟩
  intro h
  rw [h]; linarith

/-- **C114.**  The targets of MixMatch are distributions: one-hot for labeled rows, the predictions for the rest. -/
theorem C114_onehot (C : Nat) (labels : List Nat) (hy : ∀ y ∈ labels, y < C) (pseudo : List (List K))
    (hp : ∀ r ∈ pseudo, IsDistN C r) :
    (mixTargets C labels pseudo).length = labels.length + 2 * pseudo.length ∧
    (∀ r ∈ mixTargets C labels pseudo, IsDistN C r) ∧
    ∀ (i : Nat) (y : Nat), labels[i]? = some y → ∃ r, (mixTargets C labels pseudo)[i]? = some r ∧ r.getD y 0 = 1 := by
  have honehot : ∀ y < C, IsDistN C ((List.range C).map fun c => if c = y then (1 : K) else 0) := by
    intro y hy
    refine ⟨by simp, ?_, ?_⟩
    · intro p hp
      obtain ⟨c, -, rfl⟩ := List.mem_map.mp hp
      split <;> norm_num
    · have : ∀ C, ((List.range C).map fun c => if c = y then (1 : K) else 0).sum = if y < C then 1 else 0 := by
        intro C
        induction C with
        | zero => simp
        | succ C ih =>
          rw [List.range_succ, List.map_append, List.sum_append, ih]
          by_cases h1 : C = y
          · subst h1; simp
          · by_cases h2 : y < C
            · have : y < C + 1 := by omega
              simp [h1, h2, this]
            · have : ¬ y < C + 1 := by omega
              simp [h1, h2, this]
      rw [this, if_pos hy]
  refine ⟨?_, ?_, ?_⟩
  · simp [mixTargets]; omega
  · intro r hr
    unfold mixTargets at hr
    rw [List.mem_append, List.mem_append] at hr
    rcases hr with (hr | hr) | hr
    · obtain ⟨y, hy', rfl⟩ := List.mem_map.mp hr
      exact honehot y (hy y hy')
    · exact hp r hr
    · exact hp r hr
  · intro i y hi
    have hi' : i < labels.length := by
      rw [List.getElem?_eq_some_iff] at hi
      exact hi.1
    refine ⟨(List.range C).map fun c => if c = y then (1 : K) else 0, ?_, ?_⟩
    · unfold mixTargets
      rw [List.append_assoc, List.getElem?_append_left (by simpa using hi'), List.getElem?_map, hi]
      rfl
    · rw [List.getD_eq_getElem _ _ (by simpa using hy y (List.mem_of_getElem? hi))]
      simp

/-- **C114 (violated).**  The mixing weights do not come from the seeded generator: with the same seed, rows and targets
the result depends on the state of torch's global generator. -/
theorem C114_seed_violated : ∃ (beta : Rat → Nat → Nat → List Rat × Nat) (X Y : List (List Rat)) (t t' : Nat), BetaLaw beta ∧
    (mixup TorchGen.demo beta (1 / 2) X Y 0 t).map (·.1.1) ≠ (mixup TorchGen.demo beta (1 / 2) X Y 0 t').map (·.1.1) := by
  refine ⟨fun _ g n => (List.replicate n (1 / ((g : Rat) + 1)), g + 1), [[0], [1]], [[1, 0], [0, 1]], 0, 1, ?_,
    by decide +kernel⟩
  intro a g n _
  refine ⟨by simp, ?_⟩
  intro x hx
  rw [(List.mem_replicate.mp hx).2]
  have : (0 : Rat) ≤ g := by positivity
  refine ⟨by positivity, div_le_one_of_le₀ (by linarith) (by positivity)⟩

/-! ## C115: warm-up and Mean Teacher -/

/-- **C115.**  The warm-up factor of the unlabeled loss: in `[0, 1]`, never decreasing over the steps; one throughout if
no warm-up is asked for; otherwise zero in the first step, one exactly from step `k` on and `step / k` before, where `k`
is the nearest whole number (ties to even) to `w` times the number of steps, at least 1. -/
theorem C115_warmup (w : Rat) (total : Nat) :
    (∀ s, 0 ≤ warmFactor w total s ∧ warmFactor w total s ≤ 1 ∧ ∀ s', s ≤ s' → warmFactor w total s ≤ warmFactor w total s') ∧
    (w ≤ 0 → ∀ s, warmFactor w total s = 1) ∧
    (0 < w → ∃ k : Int, Sampling.Spec.IsNearestEven (w * total) k ∧ warmFactor w total 0 = 0 ∧
      ∀ s : Nat, (warmFactor w total s = 1 ↔ max 1 k ≤ s) ∧
        ((s : Int) < max 1 k → warmFactor w total s = (s : Rat) / (max 1 k : Int))) := by
  by_cases hw : w ≤ 0
  · have h1 : ∀ s, warmFactor w total s = 1 := by
      intro s
      unfold warmFactor warmupSteps
      rw [if_pos hw, if_pos (le_refl _)]
    refine ⟨?_, fun _ => h1, fun h => absurd h (not_lt.mpr hw)⟩
    intro s
    refine ⟨by rw [h1]; norm_num, by rw [h1], fun s' _ => by rw [h1, h1]⟩
  · have hk : warmupSteps w total = max 1 (pyRound (w * total)) := by unfold warmupSteps; rw [if_neg hw]
    have hk1 : (1 : Int) ≤ max 1 (pyRound (w * total)) := le_max_left _ _
    generalize hkk : max 1 (pyRound (w * total)) = k at *
    have hf : ∀ s, warmFactor w total s = min ((s : Rat) / (k : Rat)) 1 := by
      intro s
      unfold warmFactor
      rw [hk, if_neg (by omega)]
    have hkp : (0 : Rat) < k := by exact_mod_cast (by omega : (0 : Int) < k)
    refine ⟨?_, fun h => absurd h hw, ?_⟩
    · intro s
      rw [hf]
      refine ⟨le_min (by positivity) (by norm_num), min_le_right _ _, ?_⟩
      intro s' hs
      rw [hf]
      apply min_le_min_right
      apply div_le_div_of_nonneg_right _ hkp.le
      exact_mod_cast hs
    · intro _
      refine ⟨pyRound (w * total), Sampling.pyRound_nearest _, by rw [hf]; simp, ?_⟩
      intro s
      rw [hkk]
      constructor
      · rw [hf]
        constructor
        · intro h
          have h1 : (1 : Rat) ≤ (s : Rat) / (k : Rat) := by
            by_contra hlt
            rw [min_eq_left (not_le.mp hlt).le] at h
            rw [h] at hlt
            exact hlt (le_refl _)
          rw [le_div_iff₀ hkp, one_mul] at h1
          exact_mod_cast h1
        · intro h
          apply min_eq_right
          rw [le_div_iff₀ hkp, one_mul]
          exact_mod_cast h
      · intro h
        rw [hf]
        apply min_eq_left
        rw [div_le_one hkp]
        exact_mod_cast h.le

theorem updateTeacher_shape (decay : K) (t s : List (List K)) (h : t.map List.length = s.map List.length) :
    (updateTeacher decay t s).map List.length = s.map List.length := by
  induction t generalizing s with
  | nil => cases s with
    | nil => rfl
    | cons => simp at h
  | cons a t ih =>
    cases s with
    | nil => simp at h
    | cons b s =>
      simp only [List.map_cons, List.cons.injEq] at h
      have := ih s h.2
      simp only [updateTeacher, List.zipWith_cons_cons, List.map_cons, List.length_zipWith, h.1, Nat.min_self,
        List.cons.injEq, true_and] at this ⊢
      exact this

theorem updateTeacher_get (decay : K) (t s : List (List K)) (h : t.map List.length = s.map List.length) (p i : Nat) :
    param (updateTeacher decay t s) p i = ema decay (param t p i) (param s p i) := by
  have hl : t.length = s.length := by simpa using congrArg List.length h
  unfold param
  by_cases hp : p < t.length
  · have hp' : p < s.length := by omega
    have hrow : (t.map List.length)[p]'(by simpa using hp) = (s.map List.length)[p]'(by simpa using hp') := by
      simp only [h]
    simp only [List.getElem_map] at hrow
    rw [List.getD_eq_getElem (updateTeacher decay t s) _ (by simp [updateTeacher]; omega), List.getD_eq_getElem t _ hp,
      List.getD_eq_getElem s _ hp']
    simp only [updateTeacher, List.getElem_zipWith]
    exact emaVec_get decay _ _ hrow i
  · rw [List.getD_eq_default (updateTeacher decay t s) _ (by simp [updateTeacher]; omega),
      List.getD_eq_default t _ (by omega), List.getD_eq_default s _ (by omega)]
    simp [ema]

/-- **C115.**  The teacher is accepted exactly when it is another object with the same tensors sizes and the decay is in
`[0, 1]`.  After any number of steps each of its parameters is the exponentially weighted average of the values the
student's parameter had at the start and after each step, whatever the teacher held before. -/
theorem C115_teacher (decay : K) (same : Bool) (student teacher : List (List K)) (later : List (List (List K)))
    (hshape : ∀ s ∈ later, s.map List.length = student.map List.length) :
    ((∃ r, teacherRun decay same student teacher later = .ok r) ↔
      same = false ∧ student.map List.length = teacher.map List.length ∧ 0 ≤ decay ∧ decay ≤ 1) ∧
    (∀ e, teacherRun decay same student teacher later = .error e → e = .validation) ∧
    ∀ r, teacherRun decay same student teacher later = .ok r → r.map List.length = student.map List.length ∧
      ∀ p i, param r p i = weightedAverage decay (param student p i) (later.map fun s => param s p i) := by
  have hcheck : checkTeacher same student teacher = .ok () ↔
      same = false ∧ student.map List.length = teacher.map List.length := by
    unfold checkTeacher
    cases same with
    | true => simp
    | false =>
      simp only [Bool.false_eq_true, if_false, true_and]
      have key : ∀ s t : List (List K), (s.length = t.length ∧
          (List.zipWith (fun s t : List K => decide (s.length = t.length)) s t).all id = true) ↔
          s.map List.length = t.map List.length := by
        intro s
        induction s with
        | nil => intro t; cases t <;> simp
        | cons a s ih =>
          intro t
          cases t with
          | nil => simp
          | cons b t =>
            simp only [List.length_cons, Nat.add_right_cancel_iff, List.zipWith_cons_cons, List.all_cons, id,
              Bool.and_eq_true, decide_eq_true_eq, List.map_cons, List.cons.injEq]
            rw [← ih t]
            tauto
      by_cases hl : student.length = teacher.length
      · rw [if_neg (by simpa using hl)]
        rw [← key]
        simp only [hl, true_and]
        split
        · rename_i h; simp [h]
        · rename_i h; simp [h]
      · rw [if_pos hl]
        simp only [reduceCtorEq, false_iff]
        intro h
        exact hl (by simpa using congrArg List.length h)
  have hrun : ∀ later : List (List (List K)), (∀ s ∈ later, s.map List.length = student.map List.length) →
      (later.foldl (updateTeacher decay) student).map List.length = student.map List.length ∧
      ∀ p i, param (later.foldl (updateTeacher decay) student) p i =
        weightedAverage decay (param student p i) (later.map fun s => param s p i) := by
    intro later
    induction later using List.reverseRecOn with
    | nil => intro _; exact ⟨rfl, fun p i => by simp [weightedAverage_nil]⟩
    | append_singleton ls s ih =>
      intro h
      obtain ⟨i1, i2⟩ := ih (fun s' h' => h s' (List.mem_append_left _ h'))
      have hs := h s (by simp)
      rw [List.foldl_append, List.foldl_cons, List.foldl_nil]
      have hsh := i1.trans hs.symm
      refine ⟨(updateTeacher_shape _ _ _ hsh).trans hs, ?_⟩
      intro p i
      rw [updateTeacher_get _ _ _ hsh, i2, List.map_append, List.map_singleton, weightedAverage_snoc]
  have herr : ∀ e, checkTeacher same student teacher = .error e → e = .validation := by
    intro e
    unfold checkTeacher
    split
    · intro h; cases h; rfl
    · split
      · intro h; cases h; rfl
      · split
        · intro h; cases h
        · intro h; cases h; rfl
  unfold teacherRun
  cases hc : checkTeacher same student teacher with
  | error e =>
    have hno : ¬ (same = false ∧ student.map List.length = teacher.map List.length) := by
      rw [← hcheck, hc]; simp
    refine ⟨?_, ?_, ?_⟩
    · simp only [reduceCtorEq, exists_false, false_iff]
      rintro ⟨h1, h2, -⟩
      exact hno ⟨h1, h2⟩
    · intro e' h
      simp only [Except.error.injEq] at h
      rw [← h]; exact herr e hc
    · intro r h; simp at h
  | ok u =>
    cases u
    have hyes := hcheck.mp hc
    simp only
    by_cases hd : decay < 0 ∨ 1 < decay
    · rw [if_pos hd]
      refine ⟨?_, ?_, ?_⟩
      · simp only [reduceCtorEq, exists_false, false_iff]
        rintro ⟨-, -, h3, h4⟩
        rcases hd with hd | hd
        · exact absurd hd (not_lt.mpr h3)
        · exact absurd hd (not_lt.mpr h4)
      · intro e h; simp only [Except.error.injEq] at h; exact h.symm
      · intro r h; simp at h
    · rw [if_neg hd]
      rw [not_or, not_lt, not_lt] at hd
      refine ⟨⟨fun _ => ⟨hyes.1, hyes.2, hd.1, hd.2⟩, fun _ => ⟨_, rfl⟩⟩, ?_, ?_⟩
      · intro e h; simp at h
      · intro r h
        simp only [Except.ok.injEq] at h
        rw [← h]
        exact hrun later hshape

/-- Two steps of a teacher. -/
example : teacherRun (K := Rat) (1 / 2) false [[0, 4]] [[7, 7]] [[[2, 4]], [[4, 0]]] = .ok [[5 / 2, 2]] := by
  decide +kernel

example : warmFactor (2 / 5) 10 2 = 1 / 2 ∧ warmFactor (2 / 5) 10 4 = 1 := by decide +kernel

example : (mixup (K := Rat) TorchGen.demo (fun _ g n => (List.replicate n (1 / 4), g)) 1 [[0], [4]] [[1, 0], [0, 1]] 0 (0 : Nat)).map
    (·.1) = .ok ([[1], [3]], [[3 / 4, 1 / 4], [1 / 4, 3 / 4]]) := by decide +kernel

end ModSSC.Deep
