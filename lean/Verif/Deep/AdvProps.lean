import Verif.Deep.AdvModel
import Verif.Deep.SharpSpec
import Verif.Deep.BatchProps
import Verif.ExceptLemmas
import Mathlib.Tactic.Linarith
import Mathlib.Tactic.FieldSimp
import Mathlib.Tactic.Ring
import Mathlib.Analysis.SpecialFunctions.Log.NegMulLog
import Mathlib.Analysis.Convex.SpecificFunctions.Basic

/-!
# Adversarial examples (C153)
-/

namespace ModSSC.Adv
open ModSSC ModSSC.Deep ModSSC.Deep.Spec

section
variable {K : Type} [Field K] [LinearOrder K] [IsStrictOrderedRing K]

/-- What is used of the norm: it is not negative and homogeneous. -/
structure NormLaw (norm : List K → K) : Prop where
  nonneg : ∀ v, 0 ≤ norm v
  smul : ∀ (s : K) v, norm (v.map fun x => x * s) = |s| * norm v

theorem norm_normalize {norm : List K → K} (hn : NormLaw norm) (tiny : K) (ht : 0 < tiny) (v : List K) :
    norm (normalize norm tiny v) = norm v / max tiny (norm v) := by
  have hpos : 0 < max tiny (norm v) := lt_of_lt_of_le ht (le_max_left _ _)
  have : normalize norm tiny v = v.map fun x => x * (max tiny (norm v))⁻¹ := by
    unfold normalize
    simp only [div_eq_mul_inv]
  rw [this, hn.smul, abs_of_pos (inv_pos.mpr hpos), div_eq_mul_inv, mul_comm]

theorem norm_step {norm : List K → K} (hn : NormLaw norm) (tiny : K) (ht : 0 < tiny) (s : K) (hs : 0 ≤ s) (v : List K) :
    norm (scale s (normalize norm tiny v)) = s * (norm v / max tiny (norm v)) := by
  unfold scale
  rw [hn.smul, norm_normalize hn tiny ht, abs_of_nonneg hs]

theorem ratio_le {tiny a : K} (ht : 0 < tiny) : a / max tiny a ≤ 1 := by
  rw [div_le_one (lt_of_lt_of_le ht (le_max_left _ _))]
  exact le_max_right _ _

/-- C153: the perturbation of VAT: every row has at most the norm `eps`, exactly `eps` unless its last gradient is tiny, and no perturbation at all
comes from a zero gradient; there is one row per gradient row, in its direction. -/
theorem C153_vat_norm {norm : List K → K} (hn : NormLaw norm) (tiny : K) (ht : 0 < tiny) (c : Vat K) (he : 0 ≤ c.eps) (grad : List (List K) → Option (List (List K)))
    (d r : List (List K)) (h : perturbation norm tiny c grad d = .ok r) :
    ∃ g, power norm tiny c.xi grad c.iters.toNat d = .ok g ∧ r.length = g.length ∧
      ∀ (i : Nat) (gi ri : List K), g[i]? = some gi → r[i]? = some ri →
        norm ri ≤ c.eps ∧ (tiny ≤ norm gi → norm ri = c.eps) ∧ (norm gi < tiny → norm ri = c.eps * norm gi / tiny) ∧
        ((∀ x ∈ gi, x = 0) → ri = gi) ∧ ∃ s, 0 ≤ s ∧ ri = gi.map fun x => x * s := by
  unfold perturbation at h
  split at h
  · cases h
  rw [ebind_ok] at h
  obtain ⟨g, hg, h⟩ := h
  cases h
  refine ⟨g, hg, by simp, fun i gi ri h1 h2 => ?_⟩
  rw [List.getElem?_map, h1] at h2
  cases h2
  have hpos : 0 < max tiny (norm gi) := lt_of_lt_of_le ht (le_max_left _ _)
  refine ⟨?_, fun hge => ?_, fun hlt => ?_, fun hz => ?_, c.eps / max tiny (norm gi), div_nonneg he hpos.le, ?_⟩
  · rw [norm_step hn tiny ht _ he]
    calc c.eps * (norm gi / max tiny (norm gi)) ≤ c.eps * 1 := mul_le_mul_of_nonneg_left (ratio_le ht) he
      _ = c.eps := mul_one _
  · rw [norm_step hn tiny ht _ he, max_eq_right hge, div_self (ne_of_gt (lt_of_lt_of_le ht hge)), mul_one]
  · rw [norm_step hn tiny ht _ he, max_eq_left hlt.le, mul_div_assoc]
  · simp only [scale, normalize, List.map_map]
    conv_rhs => rw [← List.map_id gi]
    apply List.map_congr_left
    intro x hx
    simp [hz x hx]
  · simp only [scale, normalize, List.map_map]
    apply List.map_congr_left
    intro x _
    simp only [Function.comp_apply]
    ring

/-- C153 is violated by a zero gradient (a model that does not react): the examples are not perturbed at all. -/
theorem C153_vat_zero_violated {norm : List K → K} (tiny : K) (xi eps : K) (d : List (List K)) (n m : Nat) :
    perturbation norm tiny ⟨xi, eps, 1, 0⟩ (fun _ => some (List.replicate n (List.replicate m 0))) d = .ok (List.replicate n (List.replicate m 0)) := by
  simp [perturbation, power, bind, Except.bind, scale, normalize]

/-- C153: the model is only probed at perturbations of norm at most `xi`: the result depends on nothing else. -/
theorem C153_vat_probe {norm : List K → K} (hn : NormLaw norm) (tiny : K) (ht : 0 < tiny) (c : Vat K) (hx : 0 ≤ c.xi) (grad grad' : List (List K) → Option (List (List K)))
    (hg : ∀ d : List (List K), (∀ v ∈ d, norm v ≤ c.xi) → grad d = grad' d) (d : List (List K)) :
    perturbation norm tiny c grad d = perturbation norm tiny c grad' d := by
  have hp : ∀ k d, power norm tiny c.xi grad k d = power norm tiny c.xi grad' k d := by
    intro k
    induction k with
    | zero => intro d; rfl
    | succ k ih =>
      intro d
      rw [power, power, hg _ ?_]
      · cases grad' (d.map fun v => scale c.xi (normalize norm tiny v)) with
        | none => rfl
        | some g => exact ih g
      · intro v hv
        obtain ⟨w, -, rfl⟩ := List.mem_map.mp hv
        rw [norm_step hn tiny ht _ hx]
        calc c.xi * (norm w / max tiny (norm w)) ≤ c.xi * 1 := mul_le_mul_of_nonneg_left (ratio_le ht) hx
          _ = c.xi := mul_one _
  unfold perturbation
  rw [hp]

/-- C153: when VAT refuses: no iterations, or a gradient that is missing. -/
theorem C153_vat_errors {norm : List K → K} (tiny : K) (c : Vat K) (grad : List (List K) → Option (List (List K))) (d : List (List K)) :
    (c.iters ≤ 0 → perturbation norm tiny c grad d = .error .validation) ∧
    (0 < c.iters → (∀ x, grad x = none) → perturbation norm tiny c grad d = .error .validation) ∧
    (0 < c.iters → (∀ x, ∃ g, grad x = some g) → ∃ r, perturbation norm tiny c grad d = .ok r) := by
  refine ⟨fun h => by rw [perturbation, if_pos h], fun h hg => ?_, fun h hg => ?_⟩
  · obtain ⟨k, hk⟩ : ∃ k, c.iters.toNat = k + 1 := ⟨c.iters.toNat - 1, by omega⟩
    rw [perturbation, if_neg (by omega), hk, power, hg]
    rfl
  · have : ∀ k d, ∃ r, power norm tiny c.xi grad k d = .ok r := by
      intro k
      induction k with
      | zero => intro d; exact ⟨d, rfl⟩
      | succ k ih =>
        intro d
        obtain ⟨g, e⟩ := hg (d.map fun v => scale c.xi (normalize norm tiny v))
        rw [power, e]
        exact ih g
    obtain ⟨g, e⟩ := this c.iters.toNat d
    rw [perturbation, if_neg (by omega), e]
    exact ⟨_, rfl⟩

theorem sign_abs (x : K) : |sign x| ≤ 1 := by
  unfold sign
  split
  · simp
  · split <;> simp

/-- C153: an adversarial example of deep co-training without clipping changes every entry by at most `eps`, and by exactly `eps` in the direction of the
gradient where that is not zero. -/
theorem C153_fgsm (dict : Bool) (eps : K) (he : 0 ≤ eps) (x : K) (g : Option K) :
    |fgsm dict eps none none x g - x| ≤ eps ∧ (∀ v, g = some v → 0 < v → fgsm dict eps none none x g = x + eps) ∧
    (∀ v, g = some v → v < 0 → fgsm dict eps none none x g = x - eps) ∧ (g = none ∨ g = some 0 → fgsm dict eps none none x g = x) := by
  have hf : fgsm dict eps none none x g = x + eps * sign (g.getD 0) := by cases dict <;> rfl
  rw [hf]
  refine ⟨?_, fun v h hv => ?_, fun v h hv => ?_, fun h => ?_⟩
  · rw [add_sub_cancel_left, abs_mul, abs_of_nonneg he]
    calc eps * |sign (g.getD 0)| ≤ eps * 1 := mul_le_mul_of_nonneg_left (sign_abs _) he
      _ = eps := mul_one _
  · subst h; simp [sign, hv]
  · subst h; simp [sign, hv, not_lt.mpr hv.le]; ring
  · rcases h with rfl | rfl <;> simp [sign]

omit [IsStrictOrderedRing K] [Field K] in
theorem clip_same (lo hi : Option K) (x : K) : clipDict lo hi x = clipTensor lo hi x := by
  cases lo <;> cases hi <;> rfl

/-- C153 (partial: the entry itself lies within the bounds): a clipped adversarial example stays within the bounds, and within `eps` of the entry.  Graphs and
tensors are clipped alike. -/
theorem C153_fgsm_clip_partial (dict : Bool) (eps : K) (he : 0 ≤ eps) (lo hi : Option K) (hlh : ∀ l h, lo = some l → hi = some h → l ≤ h) (x : K) (g : Option K)
    (hx : (∀ l, lo = some l → l ≤ x) ∧ ∀ h, hi = some h → x ≤ h) :
    |fgsm dict eps lo hi x g - x| ≤ eps ∧ (∀ l, lo = some l → l ≤ fgsm dict eps lo hi x g) ∧ (∀ h, hi = some h → fgsm dict eps lo hi x g ≤ h) ∧
    fgsm dict eps lo hi x g = fgsm (!dict) eps lo hi x g := by
  have hcl : ∀ b : Bool, fgsm b eps lo hi x g = clipTensor lo hi (x + eps * sign (g.getD 0)) := by
    intro b
    unfold fgsm
    cases b
    · rfl
    · rw [if_pos rfl, clip_same]
  rw [hcl, hcl]
  have hb : |eps * sign (g.getD 0)| ≤ eps := by
    rw [abs_mul, abs_of_nonneg he]
    calc eps * |sign (g.getD 0)| ≤ eps * 1 := mul_le_mul_of_nonneg_left (sign_abs _) he
      _ = eps := mul_one _
  rw [abs_le] at hb
  generalize eps * sign (g.getD 0) = e at hb
  obtain ⟨h1, h2⟩ := hx
  refine ⟨?_, ?_, ?_, rfl⟩
  · rw [abs_le]
    cases lo with
    | none =>
      cases hi with
      | none => simp only [clipTensor]; constructor <;> linarith [hb.1, hb.2]
      | some h =>
        have := h2 h rfl
        simp only [clipTensor, min_def]
        split_ifs <;> constructor <;> linarith [hb.1, hb.2]
    | some l =>
      have a := h1 l rfl
      cases hi with
      | none =>
        simp only [clipTensor, max_def]
        split_ifs <;> constructor <;> linarith [hb.1, hb.2]
      | some h =>
        have b := h2 h rfl
        simp only [clipTensor, clamp2, min_def, max_def]
        split_ifs <;> constructor <;> linarith [hb.1, hb.2]
  · intro l hl
    subst hl
    have a := h1 l rfl
    cases hi with
    | none => exact le_max_right _ _
    | some h => exact le_min (le_max_right _ _) (hlh l h rfl rfl)
  · intro h hh
    subst hh
    cases lo with
    | none => exact min_le_right _ _
    | some l => exact min_le_right _ _

/-- C153 is violated for data outside the clipping bounds: the "small" change can be as large as one likes. -/
theorem C153_fgsm_clip_violated (dict : Bool) (eps : K) (he : 0 ≤ eps) (hi m : K) (hm : 0 ≤ m) (g : Option K) :
    fgsm dict eps none (some hi) (hi + m + eps) g - (hi + m + eps) ≤ -m ∧ (m > eps → eps < |fgsm dict eps none (some hi) (hi + m + eps) g - (hi + m + eps)|) := by
  have h : fgsm dict eps none (some hi) (hi + m + eps) g ≤ hi := by
    cases dict <;> exact min_le_right _ _
  refine ⟨by linarith, fun hlt => ?_⟩
  rw [abs_of_nonpos (by linarith)]
  linarith

end

/-- C153: the targets of the adversarial examples: the labels of the labeled rows and the predictions for the others. -/
theorem C153_targets (nl : Nat) (y pred : List Nat) (hp : nl ≤ pred.length) :
    (y.length = nl → ∃ t, fgsmTargets nl y pred = .ok t ∧ t.length = pred.length ∧
      (∀ i < nl, t[i]? = y[i]?) ∧ ∀ i, nl ≤ i → t[i]? = pred[i]?) ∧
    (0 < nl → y.length ≠ nl → fgsmTargets nl y pred = .error .validation) := by
  unfold fgsmTargets
  constructor
  · intro h
    by_cases h0 : 0 < nl
    · rw [if_pos h0, if_neg (by simp [h])]
      refine ⟨_, rfl, by simp [h]; omega, fun i hi => ?_, fun i hi => ?_⟩
      · rw [List.getElem?_append_left (by omega)]
      · rw [List.getElem?_append_right (by omega), List.getElem?_drop]
        congr 1
        omega
    · rw [if_neg h0]
      exact ⟨_, rfl, rfl, fun i hi => by omega, fun i _ => rfl⟩
  · intro h0 h
    rw [if_pos h0, if_pos h]

theorem pyRound_ge_floor (q : Rat) : q.floor ≤ pyRound q := by
  unfold pyRound
  simp only
  split
  · exact le_refl _
  · split
    · omega
    · split <;> omega

theorem pyRound_le_floor (q : Rat) : pyRound q ≤ q.floor + 1 := by
  unfold pyRound
  simp only
  split
  · omega
  · split
    · omega
    · split <;> omega

/-- C153: the weight of the unsupervised loss of VAT lies between 0 and 1 and never decreases; with a warm-up it is 0 at the first step and 1 exactly from the end
of the warm-up on, without one it is 1 throughout. -/
theorem C153_warm (u : Rat) (total s s' : Nat) (hs : s ≤ s') :
    0 ≤ warm (warmupSteps u total) s ∧ warm (warmupSteps u total) s ≤ 1 ∧ warm (warmupSteps u total) s ≤ warm (warmupSteps u total) s' ∧
    (0 < u → warm (warmupSteps u total) 0 = 0) ∧ (u ≤ 0 → warm (warmupSteps u total) s = 1) ∧
    (warm (warmupSteps u total) s = 1 ↔ warmupSteps u total ≤ s) := by
  by_cases hu : u ≤ 0
  · have hw : warmupSteps u total = 0 := by unfold warmupSteps; rw [if_pos hu]
    simp [hw, warm, hu, not_lt.mpr hu]
  · have hw : 1 ≤ warmupSteps u total := by unfold warmupSteps; rw [if_neg hu]; exact le_max_left _ _
    generalize warmupSteps u total = w at hw
    have hw0 : (0 : Rat) < (w : Rat) := by exact_mod_cast (by omega : 0 < w)
    have hn : ¬ w ≤ 0 := by omega
    unfold warm
    simp only [if_neg hn]
    refine ⟨le_min (div_nonneg (Nat.cast_nonneg _) hw0.le) zero_le_one, min_le_right _ _, ?_, fun _ => by simp, fun h => absurd h hu, ?_⟩
    · apply min_le_min_right
      apply div_le_div_of_nonneg_right _ hw0.le
      exact_mod_cast hs
    · rw [min_eq_right_iff, le_div_iff₀ hw0, one_mul]
      constructor
      · intro h; exact_mod_cast h
      · intro h; exact_mod_cast h

/-- C153 (partial: the warm-up ends before the last step): the last step has full weight. -/
theorem C153_warm_full_partial (u : Rat) (total : Nat) (ht : 2 ≤ total) (hu : u * total < total - 1) : warm (warmupSteps u total) (total - 1) = 1 := by
  rw [(C153_warm u total (total - 1) (total - 1) (le_refl _)).2.2.2.2.2]
  unfold warmupSteps
  split
  · omega
  · apply max_le
    · omega
    · have h1 := pyRound_le_floor (u * total)
      have h2 : (u * total).floor < total - 1 := by
        rw [Rat.floor_lt_iff]
        push_cast
        exact hu
      omega

/-- C153 is violated by `unsup_warm_up ≥ 1`, which is accepted: no step of the fit has the full weight. -/
theorem C153_warm_full_violated (u : Rat) (hu : 1 ≤ u) (total s : Nat) (hs : s < total) : warm (warmupSteps u total) s < 1 := by
  have h := C153_warm u total s s (le_refl _)
  refine lt_of_le_of_ne h.2.1 fun heq => ?_
  rw [h.2.2.2.2.2] at heq
  have hw : (total : Int) ≤ warmupSteps u total := by
    unfold warmupSteps
    rw [if_neg (by linarith)]
    refine le_max_of_le_right (le_trans ?_ (pyRound_ge_floor _))
    rw [Rat.le_floor_iff]
    push_cast
    have : (0 : Rat) ≤ total := Nat.cast_nonneg _
    nlinarith
  omega

theorem log_le (p q c : ℝ) (hp : 0 ≤ p) (hq : 0 < q) (hc : 0 ≤ c) : p - q ≤ p * (Real.log (p + c) - Real.log q) := by
  rcases hp.eq_or_lt with rfl | hp
  · simp; exact hq.le
  · have h1 : Real.log q - Real.log (p + c) ≤ q / (p + c) - 1 := by
      rw [← Real.log_div hq.ne' (by linarith)]
      exact Real.log_le_sub_one_of_pos (div_pos hq (by linarith))
    have h2 : q / (p + c) ≤ q / p := div_le_div_of_nonneg_left hq.le hp (by linarith)
    have h3 : p * (q / p) = q := by field_simp
    nlinarith

/-- C153: the divergence VAT minimizes is not negative (with the small constant in the logarithm), for any distribution and any positive one. -/
theorem C153_kl (c : ℝ) (hc : 0 ≤ c) (p q : List ℝ) (hl : p.length = q.length) (hp : IsDist p) (hq : IsDist q) (hpos : ∀ x ∈ q, 0 < x) :
    0 ≤ klRow c p (q.map Real.log) := by
  have key : ∀ (p q : List ℝ), p.length = q.length → (∀ x ∈ p, 0 ≤ x) → (∀ x ∈ q, 0 < x) → p.sum - q.sum ≤ klRow c p (q.map Real.log) := by
    intro p
    induction p with
    | nil =>
      intro q hl _ _
      have : q = [] := List.eq_nil_of_length_eq_zero hl.symm
      subst this
      simp [klRow]
    | cons a p ih =>
      intro q hl h1 h2
      cases q with
      | nil => simp at hl
      | cons b q =>
        have := ih q (by simpa using hl) (fun x hx => h1 x (List.mem_cons_of_mem _ hx)) fun x hx => h2 x (List.mem_cons_of_mem _ hx)
        have hab := log_le a b c (h1 a List.mem_cons_self) (h2 b List.mem_cons_self) hc
        unfold klRow at this ⊢
        rw [List.map_cons, List.zipWith_cons_cons, List.sum_cons, List.sum_cons, List.sum_cons]
        linarith
  have := key p q hl hp.1 hpos
  rw [hp.2, hq.2] at this
  linarith

theorem mid_convex (c : ℝ) (hc : 0 < c) (a b : ℝ) (ha : 0 ≤ a) (hb : 0 ≤ b) :
    ((1 / 2) * (a + b)) * Real.log ((1 / 2) * (a + b) + c) ≤ (1 / 2) * (a * Real.log (a + c)) + (1 / 2) * (b * Real.log (b + c)) := by
  have h1 := Real.convexOn_mul_log.2 (show a + c ∈ Set.Ici (0 : ℝ) by simp; linarith) (show b + c ∈ Set.Ici (0 : ℝ) by simp; linarith)
    (show (0 : ℝ) ≤ 1 / 2 by norm_num) (show (0 : ℝ) ≤ 1 / 2 by norm_num) (by norm_num)
  have h2 := strictConcaveOn_log_Ioi.concaveOn.2 (show a + c ∈ Set.Ioi (0 : ℝ) by simp; linarith) (show b + c ∈ Set.Ioi (0 : ℝ) by simp; linarith)
    (show (0 : ℝ) ≤ 1 / 2 by norm_num) (show (0 : ℝ) ≤ 1 / 2 by norm_num) (by norm_num)
  simp only [smul_eq_mul] at h1 h2
  have e : (1 / 2 : ℝ) * (a + c) + 1 / 2 * (b + c) = 1 / 2 * (a + b) + c := by ring
  rw [e] at h1 h2
  nlinarith

/-- C153: the divergence between the two models is not negative, symmetric, and zero for equal predictions, with the small constant in the logarithm too. -/
theorem C153_js (c : ℝ) (hc : 0 < c) (p q : List ℝ) (hl : p.length = q.length) (hp : ∀ x ∈ p, 0 ≤ x) (hq : ∀ x ∈ q, 0 ≤ x) :
    0 ≤ jsRow c p q ∧ jsRow c p q = jsRow c q p ∧ jsRow c p p = 0 := by
  refine ⟨?_, ?_, ?_⟩
  · unfold jsRow entropy
    induction p generalizing q with
    | nil =>
      have : q = [] := List.eq_nil_of_length_eq_zero hl.symm
      subst this
      simp
    | cons a p ih =>
      cases q with
      | nil => simp at hl
      | cons b q =>
        have := ih q (by simpa using hl) (fun x hx => hp x (List.mem_cons_of_mem _ hx)) fun x hx => hq x (List.mem_cons_of_mem _ hx)
        have hm := mid_convex c hc a b (hp a List.mem_cons_self) (hq b List.mem_cons_self)
        simp only [List.zipWith_cons_cons, List.map_cons, List.sum_cons]
        linarith
  · unfold jsRow
    have : List.zipWith (fun a b : ℝ => 1 / 2 * (a + b)) p q = List.zipWith (fun a b => 1 / 2 * (a + b)) q p := by
      rw [List.zipWith_comm]
      congr 1
      funext a b
      ring
    rw [this]
    ring
  · unfold jsRow
    have : List.zipWith (fun a b : ℝ => 1 / 2 * (a + b)) p p = p := by
      rw [List.zipWith_self]
      conv_rhs => rw [← List.map_id p]
      apply List.map_congr_left
      intro x _
      simp
      ring
    rw [this]
    ring

/-- C153: the prediction of deep co-training is the mean of the two models' probabilities, a distribution; models with different numbers of classes are refused. -/
theorem C153_predict {K : Type} [Field K] [LinearOrder K] [IsStrictOrderedRing K] (a b : List K) :
    (a.length ≠ b.length → predictRow a b = .error .validation) ∧
    (a.length = b.length → IsDist a → IsDist b → ∃ r, predictRow a b = .ok r ∧ IsDist r ∧ r.length = a.length ∧
      ∀ i, r.getD i 0 = (a.getD i 0 + b.getD i 0) / 2) := by
  unfold predictRow
  refine ⟨fun h => by rw [if_pos h], fun hl ha hb => ?_⟩
  rw [if_neg (by simp [hl])]
  refine ⟨_, rfl, ⟨?_, ?_⟩, by simp [hl], fun i => ?_⟩
  · intro p hp
    obtain ⟨i, hi, rfl⟩ := List.mem_iff_getElem.mp hp
    simp only [List.getElem_zipWith]
    have h1 := ha.1 _ (List.getElem_mem (by simp at hi; omega : i < a.length))
    have h2 := hb.1 _ (List.getElem_mem (by simp at hi; omega : i < b.length))
    positivity
  · have : ∀ (a b : List K), a.length = b.length → (List.zipWith (fun x y => (x + y) * (1 / 2)) a b).sum = (a.sum + b.sum) / 2 := by
      intro a
      induction a with
      | nil => intro b hl; have : b = [] := List.eq_nil_of_length_eq_zero hl.symm; subst this; simp
      | cons x a ih =>
        intro b hl
        cases b with
        | nil => simp at hl
        | cons y b =>
          rw [List.zipWith_cons_cons, List.sum_cons, List.sum_cons, List.sum_cons, ih b (by simpa using hl)]
          ring
    rw [this a b hl, ha.2, hb.2]
    norm_num
  · by_cases hi : i < a.length
    · rw [List.getD_eq_getElem _ _ (by simp [hl] at *; omega), List.getD_eq_getElem _ _ hi, List.getD_eq_getElem _ _ (by omega), List.getElem_zipWith]
      ring
    · rw [List.getD_eq_default _ _ (by simp; omega), List.getD_eq_default _ _ (by omega), List.getD_eq_default _ _ (by omega)]
      simp

theorem iter_sizes (n b : Nat) (idx idx' : List Nat) (h : idx.length = idx'.length) :
    (iterBatchIndices n b idx).map List.length = (iterBatchIndices n b idx').map List.length := by
  unfold iterBatchIndices
  rw [List.map_map, List.map_map]
  apply List.map_congr_left
  intro k _
  simp [h]

theorem cycleFrom_sizes {σ : Type} (G : TorchGen σ) (hG : G.Lawful) (n b : Nat) : ∀ (steps : Nat) (p p' : List (List Nat)) (g g' : σ) (r r' : List (List Nat) × σ),
    p.map List.length = p'.map List.length → cycleFrom G n b steps p g = .ok r → cycleFrom G n b steps p' g' = .ok r' →
    r.1.map List.length = r'.1.map List.length := by
  intro steps
  induction steps with
  | zero => intro p p' g g' r r' _ h h'; simp only [cycleFrom] at h h'; cases h; cases h'; rfl
  | succ k ih =>
    intro p p' g g' r r' hp h h'
    have hnext : ∀ B rest g1 B' rest' g1', cycleNext G n b p g = .ok (B, rest, g1) → cycleNext G n b p' g' = .ok (B', rest', g1') →
        B.length = B'.length ∧ rest.map List.length = rest'.map List.length := by
      intro B rest g1 B' rest' g1' e e'
      unfold cycleNext at e e'
      cases p with
      | nil =>
        have hp' : p' = [] := by
          cases p' with
          | nil => rfl
          | cons _ _ => simp at hp
        subst hp'
        simp only at e e'
        have hs := iter_sizes n b (G.randperm g n).1 (G.randperm g' n).1 (by rw [(hG g n).length_eq, (hG g' n).length_eq])
        cases h1 : iterBatchIndices n b (G.randperm g n).1 with
        | nil => rw [h1] at e; simp at e
        | cons C R =>
          cases h2 : iterBatchIndices n b (G.randperm g' n).1 with
          | nil => rw [h2] at e'; simp at e'
          | cons C' R' =>
            rw [h1] at e hs
            rw [h2] at e' hs
            simp only [Except.ok.injEq, Prod.mk.injEq] at e e'
            obtain ⟨rfl, rfl, -⟩ := e
            obtain ⟨rfl, rfl, -⟩ := e'
            simpa using hs
      | cons C R =>
        cases p' with
        | nil => simp at hp
        | cons C' R' =>
          simp only [Except.ok.injEq, Prod.mk.injEq] at e e'
          obtain ⟨rfl, rfl, -⟩ := e
          obtain ⟨rfl, rfl, -⟩ := e'
          simpa using hp
    rw [cycleFrom] at h h'
    cases e : cycleNext G n b p g with
    | error x => rw [e] at h; cases h
    | ok v =>
      obtain ⟨B, rest, g1⟩ := v
      rw [e] at h
      cases e' : cycleNext G n b p' g' with
      | error x => rw [e'] at h'; cases h'
      | ok v' =>
        obtain ⟨B', rest', g1'⟩ := v'
        rw [e'] at h'
        simp only at h h'
        obtain ⟨hB, hR⟩ := hnext B rest g1 B' rest' g1' e e'
        cases f : cycleFrom G n b k rest g1 with
        | error x => rw [f] at h; cases h
        | ok w =>
          rw [f] at h
          cases f' : cycleFrom G n b k rest' g1' with
          | error x => rw [f'] at h'; cases h'
          | ok w' =>
            rw [f'] at h'
            cases h
            cases h'
            simp only [List.map_cons, hB]
            rw [ih rest rest' g1 g1' w w' hR f f']

/-- C153: the labeled batches of the two models have the same sizes at every step, for every pair of generator states: the check of deep co-training
never fails. -/
theorem C153_batch_sizes {σ : Type} (G : TorchGen σ) (hG : G.Lawful) (n b steps : Nat) (hn : 0 < n) (hb : 0 < b) (g g' : σ) :
    ∃ r r', cycleBatchIndices G n b steps g = .ok r ∧ cycleBatchIndices G n b steps g' = .ok r' ∧ r.1.map List.length = r'.1.map List.length := by
  obtain ⟨Bs, g1, h, -⟩ := cycleFrom_ok G hG n b hn hb steps [] g ⟨by simp, by simp⟩
  obtain ⟨Bs', g1', h', -⟩ := cycleFrom_ok G hG n b hn hb steps [] g' ⟨by simp, by simp⟩
  exact ⟨_, _, h, h', cycleFrom_sizes G hG n b steps [] [] g g' _ _ rfl h h'⟩

theorem normLaw_sqrt : NormLaw (K := ℝ) (fun v => Real.sqrt (v.map fun x => x ^ 2).sum) where
  nonneg v := Real.sqrt_nonneg _
  smul s v := by
    have : ((v.map fun x => x * s).map fun x => x ^ 2).sum = s ^ 2 * (v.map fun x => x ^ 2).sum := by
      induction v with
      | nil => simp
      | cons a v ih => simp only [List.map_cons, List.sum_cons] at ih ⊢; rw [ih]; ring
    rw [this, Real.sqrt_mul (sq_nonneg s), Real.sqrt_sq_eq_abs]

/-- The sum of absolute values, a norm with rational values, for the examples. -/
def norm1 (v : List Rat) : Rat := (v.map fun x => |x|).sum

theorem normLaw_norm1 : NormLaw norm1 where
  nonneg v := List.sum_nonneg (fun x hx => by obtain ⟨y, -, rfl⟩ := List.mem_map.mp hx; exact abs_nonneg y)
  smul s v := by
    unfold norm1
    induction v with
    | nil => simp
    | cons a v ih => simp only [List.map_cons, List.sum_cons, List.map_map] at ih ⊢; rw [ih, abs_mul]; ring

example : perturbation norm1 (1/1000) ⟨1/100, 5/2, 2, 1⟩ (fun d => some (d.map fun v => v.map fun x => 3 * x)) [[1, 3], [0, 0]] = .ok [[5/8, 15/8], [0, 0]] := by decide +kernel
example : (warm (warmupSteps (2/5) 10) 2, warm (warmupSteps (2/5) 10) 4, warm (warmupSteps (3/2) 10) 9) = (1/2, 1, 3/5) := by decide +kernel
example : fgsm false (1/10 : Rat) (some 0) (some 1) (19/20) (some 3) = 1 := by decide +kernel
example : fgsmTargets 2 [7, 8] [0, 1, 2, 3] = .ok [7, 8, 2, 3] := by decide

end ModSSC.Adv
