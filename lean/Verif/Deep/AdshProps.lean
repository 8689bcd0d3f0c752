import Verif.Deep.AdshSpec
import Verif.Deep.EmaProps
import Verif.Sampling.SplitLemmas

/-!
# C116 — ADSH thresholds
-/

namespace ModSSC.Deep
open ModSSC ModSSC.Deep.Spec

theorem classConf_perm (preds : List (Rat × Nat)) (c : Nat) :
    (classConf preds c).Perm ((preds.filter fun p => p.2 = c).map (·.1)) := List.perm_insertionSort _ _

theorem classConf_sorted (preds : List (Rat × Nat)) (c : Nat) : (classConf preds c).Pairwise (· ≥ ·) :=
  List.pairwise_insertionSort _ _

theorem classConf_length (preds : List (Rat × Nat)) (c : Nat) : (classConf preds c).length = predicted preds c := by
  rw [(classConf_perm preds c).length_eq, List.length_map]; rfl

theorem classConf_count (preds : List (Rat × Nat)) (c : Nat) (q : Rat → Prop) [DecidablePred q] :
    ((classConf preds c).filter fun v => q v).length = (preds.filter fun p => p.2 = c ∧ q p.1).length := by
  rw [((classConf_perm preds c).filter _).length_eq, List.filter_map, List.length_map, List.filter_filter]
  congr 1
  apply List.filter_congr
  intro p _
  simp only [Function.comp_apply, Bool.decide_and]
  rw [Bool.and_comm]

theorem sorted_counts (l : List Rat) (h : l.Pairwise (· ≥ ·)) (i : Nat) (hi : i < l.length) :
    i + 1 ≤ (l.filter fun v => l[i] ≤ v).length ∧ (l.filter fun v => l[i] < v).length ≤ i := by
  have hsplit := List.take_append_drop (i + 1) l
  have hsplit' := List.take_append_drop i l
  rw [List.pairwise_iff_getElem] at h
  have hx : ∃ x, x = l[i] := ⟨_, rfl⟩
  obtain ⟨x, hx⟩ := hx
  constructor
  · rw [← hx]
    conv_rhs => rw [← hsplit, List.filter_append, List.length_append]
    rw [hx]
    have : (l.take (i + 1)).filter (fun v => l[i] ≤ v) = l.take (i + 1) := by
      apply List.filter_eq_self.mpr
      intro v hv
      obtain ⟨j, hj, rfl⟩ := List.getElem_of_mem hv
      rw [List.length_take] at hj
      rw [List.getElem_take]
      simp only [decide_eq_true_eq]
      rcases Nat.lt_or_ge j i with hlt | hge
      · exact h j i (by omega) hi hlt
      · have : j = i := by omega
        subst this; exact le_refl _
    rw [this, List.length_take]
    omega
  · rw [← hx]
    conv_lhs => rw [← hsplit', List.filter_append, List.length_append]
    rw [hx]
    have : (l.drop i).filter (fun v => l[i] < v) = [] := by
      apply List.filter_eq_nil_iff.mpr
      intro v hv
      obtain ⟨j, hj, rfl⟩ := List.getElem_of_mem hv
      rw [List.length_drop] at hj
      rw [List.getElem_drop]
      simp only [decide_eq_true_eq, not_lt]
      rcases Nat.eq_zero_or_pos j with rfl | hpos
      · exact le_refl _
      · exact h i (i + j) hi (by omega) (by omega)
    rw [this, List.length_nil, Nat.add_zero]
    refine le_trans (List.length_filter_le _ _) ?_
    rw [List.length_take]; omega

theorem adshPos_lt (n : Nat) (hn : 0 < n) (rho : Rat) : adshPos n rho < n := by
  unfold adshPos
  simp only
  generalize pyRound _ = k
  split <;> split <;> omega

theorem adshPos_bounds (n : Nat) (hn : 0 < n) (rho : Rat) (h1 : rho ≤ 1) :
    (n : Rat) * rho - 1 / 2 ≤ (adshPos n rho : Rat) + 1 ∧ (adshPos n rho : Rat) ≤ max 0 ((n : Rat) * rho - 1 / 2) := by
  obtain ⟨r1, r2, -⟩ := Sampling.pyRound_nearest ((n : Rat) * rho - 1)
  have hn' : (0 : Rat) < n := by exact_mod_cast hn
  have hle : (n : Rat) * rho ≤ n := by nlinarith
  unfold adshPos
  simp only
  generalize pyRound ((n : Rat) * rho - 1) = k at *
  have hkn : k < n := by
    by_contra hge
    have : (n : Rat) ≤ (k : Rat) := by exact_mod_cast (not_lt.mp hge)
    linarith
  by_cases hk : k < 0
  · rw [if_pos hk, if_neg (by omega)]
    have : (k : Rat) ≤ -1 := by exact_mod_cast (by omega : k ≤ -1)
    simp only [Int.toNat_zero, Nat.cast_zero]
    exact ⟨by linarith, le_max_left _ _⟩
  · rw [if_neg hk, if_neg (by omega)]
    have : ((k.toNat : Nat) : Rat) = (k : Rat) := by
      have h : ((k.toNat : Nat) : Int) = k := Int.toNat_of_nonneg (by omega)
      exact_mod_cast congrArg (fun z : Int => (z : Rat)) h
    rw [this]
    exact ⟨by linarith, le_max_of_le_right (by linarith)⟩

theorem adshRho_eq (cutoff : Rat) (majority : Nat) (preds : List (Rat × Nat)) :
    adshRho cutoff (classConf preds majority) = majorityShare cutoff majority preds := by
  unfold adshRho majorityShare
  have hc := classConf_count preds majority (fun v => cutoff ≤ v)
  have hl := classConf_length preds majority
  simp only at hc ⊢
  rw [hc, hl]
  have hle : atLeast preds majority cutoff ≤ predicted preds majority := by
    rw [← hl]
    unfold atLeast
    rw [← hc]
    exact List.length_filter_le _ _
  change (if 0 < predicted preds majority then
    (if 0 < atLeast preds majority cutoff then (atLeast preds majority cutoff : Rat) / (predicted preds majority : Rat)
      else 1) else 1) = _
  by_cases h : atLeast preds majority cutoff = 0
  · rw [if_pos h, if_neg (by omega : ¬ 0 < atLeast preds majority cutoff), ite_self]
  · rw [if_neg h, if_pos (by omega : 0 < predicted preds majority), if_pos (by omega : 0 < atLeast preds majority cutoff)]

theorem majorityShare_le (cutoff : Rat) (majority : Nat) (preds : List (Rat × Nat)) :
    0 < majorityShare cutoff majority preds ∧ majorityShare cutoff majority preds ≤ 1 := by
  have hle : atLeast preds majority cutoff ≤ predicted preds majority := by
    rw [← classConf_length]
    unfold atLeast
    rw [← classConf_count preds majority (fun v => cutoff ≤ v)]
    exact List.length_filter_le _ _
  unfold majorityShare
  split
  · norm_num
  · rename_i h
    have h1 : (0 : Rat) < atLeast preds majority cutoff := by exact_mod_cast (by omega : 0 < atLeast preds majority cutoff)
    have h2 : (atLeast preds majority cutoff : Rat) ≤ predicted preds majority := by exact_mod_cast hle
    refine ⟨div_pos h1 (by linarith), div_le_one_of_le₀ h2 (by linarith)⟩

/-- **C116.**  One update of the thresholds.  The majority class gets the cutoff; a class nobody is predicted as keeps its
threshold; any other class gets a threshold of at most the cutoff that lets pass (up to rounding by half a sample and
ties) the same share of the samples predicted as that class as the cutoff does for the majority class. -/
theorem C116_scores (cutoff : Rat) (majority : Nat) (preds : List (Rat × Nat)) (score : List Rat) :
    (adshScores cutoff majority preds score).length = score.length ∧
    ∀ c < score.length, ∃ x, (adshScores cutoff majority preds score)[c]? = some x ∧
      (c = majority → x = cutoff) ∧
      (c ≠ majority → predicted preds c = 0 → score[c]? = some x) ∧
      (c ≠ majority → 0 < predicted preds c → x ≤ cutoff ∧ (x = cutoff ∨ ∃ p ∈ preds, p.2 = c ∧ x = p.1) ∧
        majorityShare cutoff majority preds * predicted preds c - 1 / 2 ≤ atLeast preds c x ∧ 1 ≤ atLeast preds c x ∧
        (x < cutoff →
          (above preds c x : Rat) ≤ max 0 (majorityShare cutoff majority preds * predicted preds c - 1 / 2))) := by
  refine ⟨by simp [adshScores], ?_⟩
  intro c hc
  unfold adshScores
  simp only
  rw [List.getElem?_map, List.getElem?_range hc]
  simp only [Option.map_some, Option.some.injEq, exists_eq_left']
  refine ⟨?_, ?_, ?_⟩
  · intro h; rw [if_pos h]
  · intro h h0
    rw [if_neg h, if_pos (by rw [classConf_length]; exact h0), List.getD_eq_getElem _ _ hc, List.getElem?_eq_getElem hc]
  · intro h hp
    have hl := classConf_length preds c
    rw [if_neg h, if_neg (by rw [hl]; omega), adshRho_eq]
    obtain ⟨s0, s1⟩ := majorityShare_le cutoff majority preds
    have hpos : adshPos (classConf preds c).length (majorityShare cutoff majority preds) < (classConf preds c).length :=
      adshPos_lt _ (by omega) _
    obtain ⟨b1, b2⟩ := adshPos_bounds (classConf preds c).length (by omega) (majorityShare cutoff majority preds) s1
    obtain ⟨c1, c2⟩ := sorted_counts _ (classConf_sorted preds c) _ hpos
    rw [List.getD_eq_getElem _ _ hpos]
    have hmem : (classConf preds c)[adshPos (classConf preds c).length (majorityShare cutoff majority preds)] ∈
      classConf preds c := List.getElem_mem _
    generalize hv : (classConf preds c)[adshPos (classConf preds c).length (majorityShare cutoff majority preds)] = v at *
    rw [classConf_count preds c (fun w => v ≤ w)] at c1
    rw [classConf_count preds c (fun w => v < w)] at c2
    rw [hl] at b1 b2
    have hge : atLeast preds c v ≤ atLeast preds c (min v cutoff) := by
      unfold atLeast
      rw [← classConf_count preds c (fun w => v ≤ w), ← classConf_count preds c (fun w => min v cutoff ≤ w)]
      apply List.Sublist.length_le
      apply List.monotone_filter_right
      intro w hw
      simp only [decide_eq_true_eq] at hw ⊢
      exact le_trans (min_le_left _ _) hw
    refine ⟨min_le_right _ _, ?_, ?_, ?_, ?_⟩
    · rcases le_total v cutoff with hvc | hvc
      · right
        rw [min_eq_left hvc]
        have := (classConf_perm preds c).mem_iff.mp hmem
        obtain ⟨p, hp1, hp2⟩ := List.mem_map.mp this
        have hp3 := List.mem_filter.mp hp1
        exact ⟨p, hp3.1, by simpa using hp3.2, hp2.symm⟩
      · left; exact min_eq_right hvc
    · have : ((adshPos (predicted preds c) (majorityShare cutoff majority preds) : Nat) : Rat) + 1 ≤
          (atLeast preds c (min v cutoff) : Rat) := by
        rw [hl] at c1
        exact_mod_cast le_trans c1 hge
      rw [mul_comm]; linarith
    · exact le_trans (by omega) (le_trans c1 hge)
    · intro hlt
      have hvv : min v cutoff = v := by
        rcases le_total v cutoff with hvc | hvc
        · exact min_eq_left hvc
        · rw [min_eq_right hvc] at hlt; exact absurd hlt (lt_irrefl _)
      rw [hvv]
      rw [hl] at c2
      have h2 : (above preds c v : Rat) ≤ (adshPos (predicted preds c) (majorityShare cutoff majority preds) : Nat) := by
        exact_mod_cast c2
      rw [mul_comm (majorityShare cutoff majority preds)]
      exact le_trans h2 b2

/-- **C116.**  Over a whole training the thresholds stay positive and at most the cutoff; in the first `warm` epochs they
equal it. -/
theorem C116_bounds (cutoff : Rat) (h0 : 0 < cutoff) (majority C warm : Nat) (epochs : List (List (Rat × Nat)))
    (hp : ∀ e ∈ epochs, ∀ p ∈ e, 0 < p.1) :
    (adshEpochs cutoff majority C warm epochs).length = C ∧
    (∀ x ∈ adshEpochs cutoff majority C warm epochs, 0 < x ∧ x ≤ cutoff) ∧
    (epochs.length ≤ warm → adshEpochs cutoff majority C warm epochs = List.replicate C cutoff) := by
  have key : ∀ (es : List (List (Rat × Nat))) (s : List Rat), (∀ e ∈ es, ∀ p ∈ e, 0 < p.1) → s.length = C →
      (∀ x ∈ s, 0 < x ∧ x ≤ cutoff) →
      (es.foldl (fun s p => adshScores cutoff majority p s) s).length = C ∧
      ∀ x ∈ es.foldl (fun s p => adshScores cutoff majority p s) s, 0 < x ∧ x ≤ cutoff := by
    intro es
    induction es with
    | nil => intro s _ hl hs; exact ⟨hl, hs⟩
    | cons e es ih =>
      intro s he hl hs
      obtain ⟨l1, l2⟩ := C116_scores cutoff majority e s
      apply ih _ (fun e' h' => he e' (List.mem_cons_of_mem _ h')) (l1.trans hl)
      intro x hx
      obtain ⟨c, hc, rfl⟩ := List.getElem_of_mem hx
      rw [l1] at hc
      obtain ⟨x, x1, x2, x3, x4⟩ := l2 c hc
      rw [List.getElem?_eq_getElem (by rw [l1]; exact hc), Option.some.injEq] at x1
      rw [x1]
      by_cases hm : c = majority
      · rw [x2 hm]; exact ⟨h0, le_refl _⟩
      · rcases Nat.eq_zero_or_pos (predicted e c) with hz | hz
        · exact hs x (List.mem_of_getElem? (x3 hm hz))
        · obtain ⟨y1, y2, -⟩ := x4 hm hz
          refine ⟨?_, y1⟩
          rcases y2 with rfl | ⟨p, p1, -, rfl⟩
          · exact h0
          · exact he e List.mem_cons_self p p1
  obtain ⟨k1, k2⟩ := key (epochs.drop warm) (List.replicate C cutoff)
    (fun e he => hp e (List.mem_of_mem_drop he)) (by simp)
    (fun x hx => by rw [(List.mem_replicate.mp hx).2]; exact ⟨h0, le_refl _⟩)
  refine ⟨k1, k2, ?_⟩
  intro h
  unfold adshEpochs
  rw [List.drop_eq_nil_of_le h]
  rfl

/-- **C116.**  A sample is used exactly when one of its probabilities reaches the threshold of that class; its
pseudo-label then is a class with the largest probability relative to its threshold, so one that reaches it. -/
theorem C116_select (argmax : List Rat → Nat) (ha : ArgmaxLaw argmax) (score : List Rat) (hs : ∀ x ∈ score, 0 < x)
    (hne : score ≠ []) (probs : List (List Rat)) (hp : ∀ r ∈ probs, r.length = score.length) :
    (adshSelect argmax score probs).length = probs.length ∧
    ∀ (i : Nat) (r : List Rat), probs[i]? = some r → ∃ (c : Nat) (used : Bool), (adshSelect argmax score probs)[i]? = some (c, used) ∧
      c < score.length ∧ (used = true ↔ ∃ c' < score.length, score.getD c' 0 ≤ r.getD c' 0) ∧
      (used = true → score.getD c 0 ≤ r.getD c 0) ∧
      ∀ c' < score.length, r.getD c' 0 * score.getD c 0 ≤ r.getD c 0 * score.getD c' 0 := by
  refine ⟨by simp [adshSelect], ?_⟩
  intro i r hi
  have hr := hp r (List.mem_of_getElem? hi)
  have hl : (List.zipWith (· / ·) r score).length = score.length := by simp [hr]
  have hzne : List.zipWith (· / ·) r score ≠ [] := by
    intro h; rw [h] at hl; exact hne (List.length_eq_zero_iff.mp hl.symm)
  have hget : ∀ c < score.length, (List.zipWith (· / ·) r score).getD c 0 = r.getD c 0 / score.getD c 0 := by
    intro c hc
    rw [List.getD_eq_getElem _ _ (by rw [hl]; exact hc), List.getD_eq_getElem _ _ (by rw [hr]; exact hc),
      List.getD_eq_getElem _ _ hc]
    simp
  have hsp : ∀ c < score.length, 0 < score.getD c 0 := by
    intro c hc
    rw [List.getD_eq_getElem _ _ hc]
    exact hs _ (List.getElem_mem _)
  obtain ⟨a1, a2⟩ := ha _ hzne
  rw [hl] at a1 a2
  have hmax : rowMax (List.zipWith (· / ·) r score) =
      r.getD (argmax (List.zipWith (· / ·) r score)) 0 / score.getD (argmax (List.zipWith (· / ·) r score)) 0 := by
    rw [← hget _ a1]
    apply le_antisymm
    · obtain ⟨c, hc, he⟩ := List.getElem_of_mem (rowMax_mem _ hzne)
      rw [← he, ← List.getD_eq_getElem _ 0 hc]
      exact a2 c (by rw [← hl]; exact hc)
    · rw [List.getD_eq_getElem _ _ (by rw [hl]; exact a1)]
      exact rowMax_ge _ _ (List.getElem_mem _)
  refine ⟨argmax (List.zipWith (· / ·) r score), decide (1 ≤ rowMax (List.zipWith (· / ·) r score)), ?_, a1, ?_, ?_, ?_⟩
  · simp only [adshSelect, List.getElem?_map, hi, Option.map_some]
  · rw [decide_eq_true_eq, hmax]
    constructor
    · intro h
      refine ⟨_, a1, ?_⟩
      rwa [le_div_iff₀ (hsp _ a1), one_mul] at h
    · rintro ⟨c', hc', h⟩
      have := a2 c' hc'
      rw [hget _ hc', hget _ a1] at this
      refine le_trans ?_ this
      rwa [le_div_iff₀ (hsp _ hc'), one_mul]
  · rw [decide_eq_true_eq, hmax, le_div_iff₀ (hsp _ a1), one_mul]
    exact id
  · intro c' hc'
    have := a2 c' hc'
    rw [hget _ hc', hget _ a1, div_le_div_iff₀ (hsp _ hc') (hsp _ a1)] at this
    exact this

/-- **C116.**  The majority class: the given one, refused exactly outside of the classes; otherwise a most frequent label. -/
theorem C116_majority (argmax : List Rat → Nat) (ha : ArgmaxLaw argmax) (C : Nat) (y : List Nat) (hy : ∀ c ∈ y, c < C)
    (hC : 0 < C) :
    (∀ m : Int, adshMajority argmax (some m) C y = if 0 ≤ m ∧ m < C then .ok m.toNat else .error .validation) ∧
    ∃ m, adshMajority argmax none C y = .ok m ∧ m < C ∧ ∀ c < C, y.count c ≤ y.count m := by
  refine ⟨fun m => rfl, _, rfl, ?_⟩
  rw [bincount_eq C y hy]
  have hne : (((List.range C).map fun c => y.count c).map fun c : Nat => (c : Rat)) ≠ [] := by
    intro h
    have := congrArg List.length h
    simp at this
    omega
  obtain ⟨a1, a2⟩ := ha _ hne
  simp only [List.length_map, List.length_range] at a1 a2
  refine ⟨a1, ?_⟩
  intro c hc
  have := a2 c hc
  rw [List.getD_eq_getElem _ _ (by simpa using hc), List.getD_eq_getElem _ _ (by simpa using a1)] at this
  simp only [List.getElem_map, List.getElem_range] at this
  exact_mod_cast this

/-- **C116 (violated).**  Thresholds are not monotone: when the last confident majority prediction drops below the cutoff,
the thresholds of the other classes fall from their highest to their lowest value instead of rising. -/
theorem C116_monotone_violated : ∃ (before after : List (Rat × Nat)),
    before.tail = after.tail ∧ before.head? = some (95 / 100, 0) ∧ after.head? = some (94 / 100, 0) ∧
    adshScores (95 / 100) 0 before [95 / 100, 95 / 100] = [95 / 100, 9 / 10] ∧
    adshScores (95 / 100) 0 after [95 / 100, 95 / 100] = [95 / 100, 3 / 5] :=
  ⟨[(95 / 100, 0), (1 / 2, 0), (9 / 10, 1), (3 / 5, 1)], [(94 / 100, 0), (1 / 2, 0), (9 / 10, 1), (3 / 5, 1)],
    rfl, rfl, rfl, by decide +kernel, by decide +kernel⟩

/-- A batch: the second sample is used for class 1 although class 0 is more probable. -/
example : adshSelect Supervised.argmax [95 / 100, 2 / 5] [[96 / 100, 4 / 100], [11 / 20, 9 / 20], [7 / 10, 3 / 10]] =
    [(0, true), (1, true), (1, false)] := by decide +kernel

example : adshEpochs (9 / 10) 0 2 1 [[(1, 0)], [(1, 0), (1 / 2, 0), (4 / 5, 1), (3 / 5, 1)]] = [9 / 10, 4 / 5] := by
  decide +kernel

end ModSSC.Deep
