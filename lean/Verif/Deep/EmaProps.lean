import Verif.Deep.EmaSpec
import Verif.Deep.SharpProps
import Mathlib.Tactic.Linarith
import Mathlib.Tactic.Ring
import Mathlib.Tactic.FieldSimp
import Mathlib.Tactic.Positivity
import Mathlib.Algebra.BigOperators.Group.List.Basic
import Mathlib.Algebra.BigOperators.Ring.List

/-!
# C111, C112 — the running averages of FreeMatch, AdaMatch and SoftMatch
-/

namespace ModSSC.Deep
open ModSSC ModSSC.Deep.Spec

variable {K : Type} [Field K] [LinearOrder K] [IsStrictOrderedRing K]

/-! ## Lemmas on averages -/

theorem sum_const_bounds (l : List K) (a b : K) (h : ∀ x ∈ l, a ≤ x ∧ x ≤ b) :
    (l.length : K) * a ≤ l.sum ∧ l.sum ≤ (l.length : K) * b := by
  induction l with
  | nil => simp
  | cons x xs ih =>
    obtain ⟨i1, i2⟩ := ih (fun y hy => h y (List.mem_cons_of_mem _ hy))
    obtain ⟨h1, h2⟩ := h x List.mem_cons_self
    simp only [List.length_cons, List.sum_cons, Nat.cast_add, Nat.cast_one]
    constructor <;> nlinarith

theorem mean_bounds (l : List K) (hl : l ≠ []) (a b : K) (h : ∀ x ∈ l, a ≤ x ∧ x ≤ b) : a ≤ mean l ∧ mean l ≤ b := by
  have hp : (0 : K) < l.length := by exact_mod_cast List.length_pos_iff.mpr hl
  obtain ⟨h1, h2⟩ := sum_const_bounds l a b h
  unfold mean
  constructor
  · rw [le_div_iff₀ hp]; linarith
  · rw [div_le_iff₀ hp]; linarith

theorem ema_bounds (m old new a b : K) (h0 : 0 ≤ m) (h1 : m ≤ 1) (ho : a ≤ old ∧ old ≤ b) (hn : a ≤ new ∧ new ≤ b) :
    a ≤ ema m old new ∧ ema m old new ≤ b := by
  unfold ema
  constructor <;> nlinarith [mul_nonneg h0 (sub_nonneg.mpr ho.1), mul_nonneg h0 (sub_nonneg.mpr ho.2),
    mul_nonneg (sub_nonneg.mpr h1) (sub_nonneg.mpr hn.1), mul_nonneg (sub_nonneg.mpr h1) (sub_nonneg.mpr hn.2)]

theorem emaVec_sum (m : K) : ∀ (a b : List K), a.length = b.length →
    (emaVec m a b).sum = a.sum * m + (1 - m) * b.sum := by
  intro a
  induction a with
  | nil => intro b hb; cases b with
    | nil => simp [emaVec]
    | cons => simp at hb
  | cons x xs ih =>
    intro b hb
    cases b with
    | nil => simp at hb
    | cons y ys =>
      have := ih ys (by simpa using hb)
      simp only [emaVec, List.zipWith_cons_cons, List.sum_cons] at this ⊢
      rw [this]; unfold ema; ring

theorem emaVec_dist (m : K) (C : Nat) (a b : List K) (h0 : 0 ≤ m) (h1 : m ≤ 1) (ha : IsDistN C a) (hb : IsDistN C b) :
    IsDistN C (emaVec m a b) := by
  refine ⟨by simp [emaVec, ha.1, hb.1], ?_, ?_⟩
  · intro p hp
    unfold emaVec at hp
    obtain ⟨i, hi, rfl⟩ := List.getElem_of_mem hp
    rw [List.getElem_zipWith]
    simp only [List.length_zipWith] at hi
    have := ha.2.1 _ (List.getElem_mem (l := a) (n := i) (by omega))
    have := hb.2.1 _ (List.getElem_mem (l := b) (n := i) (by omega))
    unfold ema
    have : 0 ≤ 1 - m := by linarith
    positivity
  · rw [emaVec_sum m a b (by rw [ha.1, hb.1]), ha.2.2, hb.2.2]; ring

theorem emaVec_get (m : K) (a b : List K) (h : a.length = b.length) (c : Nat) :
    (emaVec m a b).getD c 0 = ema m (a.getD c 0) (b.getD c 0) := by
  by_cases hc : c < a.length
  · rw [List.getD_eq_getElem _ _ (by simp [emaVec]; omega), List.getD_eq_getElem _ _ hc,
      List.getD_eq_getElem _ _ (by omega)]
    simp [emaVec]
  · rw [List.getD_eq_default _ _ (by simp [emaVec]; omega), List.getD_eq_default _ _ (by omega),
      List.getD_eq_default _ _ (by omega)]
    simp [ema]

theorem uniform_dist (C : Nat) (hC : 0 < C) : IsDistN C (uniformVec C : List K) := by
  have : (0 : K) < C := by exact_mod_cast hC
  refine ⟨by simp [uniformVec], ?_, ?_⟩
  · intro p hp
    simp only [uniformVec, List.mem_replicate] at hp
    rw [hp.2]; positivity
  · simp only [uniformVec, List.sum_replicate, nsmul_eq_mul]; field_simp

theorem sum_range_getD (l : List K) : ∀ C, l.length = C → ((List.range C).map fun c => l.getD c 0).sum = l.sum := by
  rintro C rfl
  congr 1
  apply List.ext_getElem (by simp)
  intro i h1 h2
  rw [List.getElem_map, List.getElem_range, List.getD_eq_getElem _ _ h2]

theorem colMean_sum (C : Nat) (rows : List (List K)) (h : ∀ r ∈ rows, r.length = C) :
    (colMean C rows).sum = (rows.map List.sum).sum / (rows.length : K) := by
  have key : ∀ rows : List (List K), (∀ r ∈ rows, r.length = C) →
      ((List.range C).map fun c => (rows.map fun r => r.getD c 0).sum).sum = (rows.map List.sum).sum := by
    intro rows
    induction rows with
    | nil => intro _; simp
    | cons r rs ih =>
      intro hr
      have h1 := ih (fun r' h' => hr r' (List.mem_cons_of_mem _ h'))
      have h2 := sum_range_getD r C (hr r List.mem_cons_self)
      simp only [List.map_cons, List.sum_cons, List.sum_map_add]
      rw [h1, h2]
  rw [← key rows h]
  unfold colMean mean
  simp only [List.length_map, div_eq_mul_inv, List.sum_map_mul_right]

theorem sum_ones (l : List K) (h : ∀ x ∈ l, x = 1) : l.sum = (l.length : K) := by
  rw [List.eq_replicate_of_mem h]; simp

theorem colMean_dist (C : Nat) (rows : List (List K)) (h : IsBatch C rows) : IsDistN C (colMean C rows) := by
  have hp : (0 : K) < rows.length := by exact_mod_cast List.length_pos_iff.mpr h.1
  refine ⟨by simp [colMean], ?_, ?_⟩
  · intro p hp'
    simp only [colMean, List.mem_map] at hp'
    obtain ⟨c, -, rfl⟩ := hp'
    unfold mean
    apply div_nonneg _ (by positivity)
    apply sum_map_nonneg
    intro r hr
    by_cases hc : c < r.length
    · rw [List.getD_eq_getElem _ _ hc]; exact (h.2 r hr).2.1 _ (List.getElem_mem _)
    · rw [List.getD_eq_default _ _ (by omega)]
  · rw [colMean_sum C rows (fun r hr => (h.2 r hr).1), sum_ones]
    · simp only [List.length_map]; field_simp
    · intro x hx
      obtain ⟨r, hr, rfl⟩ := List.mem_map.mp hx
      exact (h.2 r hr).2.2

theorem dist_le_one (C : Nat) (p : List K) (h : IsDistN C p) : ∀ x ∈ p, x ≤ 1 := by
  intro x hx
  rw [← h.2.2]
  exact List.single_le_sum h.2.1 x hx

theorem dist_ne (C : Nat) (p : List K) (h : IsDistN C p) : p ≠ [] := by
  rintro rfl; have := h.2.2; simp at this

/-- The largest entry of a distribution over `C` classes is between `1 / C` and 1. -/
theorem dist_max (C : Nat) (p : List K) (h : IsDistN C p) : 1 / (C : K) ≤ rowMax p ∧ rowMax p ≤ 1 := by
  have hne := dist_ne C p h
  have hC : (0 : K) < C := by rw [← h.1]; exact_mod_cast List.length_pos_iff.mpr hne
  refine ⟨?_, dist_le_one C p h _ (rowMax_mem p hne)⟩
  obtain ⟨-, h2⟩ := sum_const_bounds p 0 (rowMax p) (fun x hx => ⟨h.2.1 x hx, rowMax_ge p x hx⟩)
  rw [h.2.2, h.1] at h2
  rw [div_le_iff₀ hC]; linarith

/-! ## The closed form of a moving average -/

theorem weightedAverage_nil (m init : K) : weightedAverage m init [] = init := by simp [weightedAverage]

theorem weightedAverage_snoc (m init : K) (vals : List K) (v : K) :
    weightedAverage m init (vals ++ [v]) = ema m (weightedAverage m init vals) v := by
  unfold weightedAverage ema
  rw [List.length_append, List.length_singleton, List.range_succ, List.map_append, List.sum_append]
  have h1 : ((List.range vals.length).map fun s => (1 - m) * m ^ (vals.length + 1 - 1 - s) * (vals ++ [v]).getD s 0) =
      (List.range vals.length).map fun s => ((1 - m) * m ^ (vals.length - 1 - s) * vals.getD s 0) * m := by
    apply List.map_congr_left
    intro s hs
    have hs' := List.mem_range.mp hs
    rw [List.getD_append _ _ _ _ hs', show vals.length + 1 - 1 - s = (vals.length - 1 - s) + 1 by omega, pow_succ]
    ring
  rw [h1, List.sum_map_mul_right]
  simp only [List.map_cons, List.map_nil, List.sum_cons, List.sum_nil]
  rw [List.getD_append_right _ _ _ _ (le_refl _)]
  simp only [Nat.sub_self, List.getD_cons_zero, Nat.add_sub_cancel, pow_zero]
  ring

/-! ## FreeMatch -/

theorem count_sum (C : Nat) : ∀ idx : List Nat, (∀ i ∈ idx, i < C) → ((List.range C).map fun c => idx.count c).sum = idx.length := by
  intro idx
  induction idx with
  | nil => intro _; simp
  | cons i is ih =>
    intro h
    have h1 := ih (fun j hj => h j (List.mem_cons_of_mem _ hj))
    have h2 : ((List.range C).map fun c => if i == c then 1 else 0).sum = 1 := by
      have key : ∀ C, ((List.range C).map fun c => if i == c then 1 else 0).sum = if i < C then 1 else 0 := by
        intro C
        induction C with
        | zero => simp
        | succ C ihC =>
          rw [List.range_succ, List.map_append, List.sum_append, ihC]
          by_cases h1 : i = C
          · subst h1; simp
          · by_cases h2 : i < C
            · have : i < C + 1 := by omega
              simp [h1, h2, this]
            · have : ¬ i < C + 1 := by omega
              simp [h1, h2, this]
      rw [key, if_pos (h i List.mem_cons_self)]
    simp only [List.count_cons, List.sum_map_add, List.length_cons]
    rw [h1, h2]

theorem bincount_eq (C : Nat) (idx : List Nat) (h : ∀ i ∈ idx, i < C) :
    bincount idx C = (List.range C).map fun c => idx.count c := by
  unfold bincount
  have : (idx.map (· + 1)).foldl max 0 ≤ C := by
    have key : ∀ (l : List Nat) (a : Nat), a ≤ C → (∀ i ∈ l, i ≤ C) → l.foldl max a ≤ C := by
      intro l
      induction l with
      | nil => intro a ha _; exact ha
      | cons x xs ih =>
        intro a ha hl
        exact ih _ (max_le ha (hl x List.mem_cons_self)) (fun i hi => hl i (List.mem_cons_of_mem _ hi))
    apply key _ _ (Nat.zero_le _)
    intro i hi
    obtain ⟨j, hj, rfl⟩ := List.mem_map.mp hi
    exact h j hj
  rw [max_eq_left this]

theorem histOf_eq (C : Nat) (idx : List Nat) (hne : idx ≠ []) (h : ∀ i ∈ idx, i < C) :
    (histOf C idx : List K) = (List.range C).map fun c => (idx.count c : K) / (idx.length : K) := by
  unfold histOf
  have hl : ¬ idx.length = 0 := by simpa using hne
  have hp : 0 < idx.length := by omega
  simp only [if_neg hl, bincount_eq C idx h, count_sum C idx h, if_pos hp, List.map_map, Function.comp_def]

theorem predictedShare_eq (argmax : List K → Nat) (c : Nat) (b : List (List K)) :
    (((b.map argmax).count c : Nat) : K) / ((b.map argmax).length : K) = predictedShare argmax c b := by
  unfold predictedShare
  rw [List.length_map]
  congr 2
  induction b with
  | nil => simp
  | cons r rs ih =>
    by_cases h : argmax r = c
    · simp [h, ih]
    · simp [h, ih]

/-- What the state is after a history. -/
def FreeInv (quantile : List K → K) (argmax : List K → Nat) (cfg : FreeCfg K) (hist : List (List (List K)))
    (st : FreeState K) : Prop :=
  IsDistN cfg.classes st.pModel ∧ IsDistN cfg.classes st.hist ∧
  (∀ c < cfg.classes, st.pModel.getD c 0 = classAverage cfg hist c) ∧
  (∀ c < cfg.classes, st.hist.getD c 0 =
    weightedAverage cfg.m (1 / (cfg.classes : K)) (hist.map (predictedShare argmax c))) ∧
  st.timeP = globalThreshold quantile cfg hist

theorem mean_uniform (C : Nat) (hC : 0 < C) : mean (uniformVec C : List K) = 1 / (C : K) := by
  have := (uniform_dist (K := K) C hC)
  unfold mean
  rw [this.2.2, this.1]

theorem uniform_get (C c : Nat) (hc : c < C) : (uniformVec C : List K).getD c 0 = 1 / (C : K) := by
  rw [List.getD_eq_getElem _ _ (by simpa [uniformVec] using hc)]
  simp [uniformVec]

theorem freeInit_inv (quantile : List K → K) (argmax : List K → Nat) (cfg : FreeCfg K) (hC : 0 < cfg.classes) :
    FreeInv quantile argmax cfg [] (freeInit cfg.classes) := by
  refine ⟨uniform_dist _ hC, uniform_dist _ hC, ?_, ?_, ?_⟩
  · intro c hc
    unfold classAverage
    rw [List.map_nil, weightedAverage_nil]
    exact uniform_get _ _ hc
  · intro c hc
    rw [List.map_nil, weightedAverage_nil]
    exact uniform_get _ _ hc
  · exact mean_uniform _ hC

theorem hist_dist (C : Nat) (idx : List Nat) (hne : idx ≠ []) (h : ∀ i ∈ idx, i < C) : IsDistN C (histOf C idx : List K) := by
  have hp : (0 : K) < idx.length := by exact_mod_cast List.length_pos_iff.mpr hne
  rw [histOf_eq C idx hne h]
  refine ⟨by simp, ?_, ?_⟩
  · intro p hp'
    obtain ⟨c, -, rfl⟩ := List.mem_map.mp hp'
    positivity
  · simp only [div_eq_mul_inv, List.sum_map_mul_right]
    have := count_sum C idx h
    have h2 : ((List.range C).map fun c => (idx.count c : K)).sum = (idx.length : K) := by
      rw [← this, Nat.cast_list_sum, List.map_map]; rfl
    rw [h2]; field_simp

theorem freeUpdate_inv (quantile : List K → K) (argmax : List K → Nat) (ha : ArgmaxLaw argmax) (cfg : FreeCfg K)
    (h0 : 0 ≤ cfg.m) (h1 : cfg.m ≤ 1) (hist : List (List (List K))) (st : FreeState K)
    (hi : FreeInv quantile argmax cfg hist st) (b : List (List K)) (hb : IsBatch cfg.classes b) :
    FreeInv quantile argmax cfg (hist ++ [b]) (freeUpdate quantile argmax cfg st b) := by
  obtain ⟨d1, d2, e1, e2, e3⟩ := hi
  have hcm := colMean_dist _ b hb
  have hidx : ∀ i ∈ b.map argmax, i < cfg.classes := by
    intro i hi
    obtain ⟨r, hr, rfl⟩ := List.mem_map.mp hi
    have := (ha r (dist_ne _ r (hb.2 r hr))).1
    rwa [(hb.2 r hr).1] at this
  have hne : b.map argmax ≠ [] := by simpa using hb.1
  have hhd := hist_dist (K := K) cfg.classes _ hne hidx
  refine ⟨emaVec_dist _ _ _ _ h0 h1 d1 hcm, emaVec_dist _ _ _ _ h0 h1 d2 hhd, ?_, ?_, ?_⟩
  · intro c hc
    show (emaVec _ _ _).getD c 0 = _
    rw [emaVec_get _ _ _ (by rw [d1.1, hcm.1]), e1 c hc]
    unfold classAverage
    rw [List.map_append, List.map_singleton, weightedAverage_snoc]
    congr 1
    rw [List.getD_eq_getElem _ _ (by simpa [colMean] using hc)]
    simp [colMean, mean, meanProb]
  · intro c hc
    show (emaVec _ _ _).getD c 0 = _
    rw [emaVec_get _ _ _ (by rw [d2.1, hhd.1]), e2 c hc]
    rw [List.map_append, List.map_singleton, weightedAverage_snoc]
    congr 1
    rw [histOf_eq _ _ hne hidx, List.getD_eq_getElem _ _ (by simpa using hc)]
    rw [List.getElem_map, List.getElem_range]
    exact predictedShare_eq argmax c b
  · unfold globalThreshold
    rw [List.foldl_append, ← globalThreshold, ← e3]
    show (if cfg.clip then _ else _) = _
    have hv : (if cfg.useQuantile then quantile (b.map rowMax) else mean (b.map rowMax)) =
        batchConfidence quantile cfg.useQuantile b := by
      unfold batchConfidence mean; rw [List.length_map]
    simp only [List.foldl_cons, List.foldl_nil]
    rw [hv]; unfold ema
    rw [mul_comm st.timeP]

theorem freeRun_inv (quantile : List K → K) (argmax : List K → Nat) (ha : ArgmaxLaw argmax) (cfg : FreeCfg K)
    (hC : 0 < cfg.classes) (h0 : 0 ≤ cfg.m) (h1 : cfg.m ≤ 1) : ∀ (bs hist : List (List (List K))) (st : Option (FreeState K)),
    FreeInv quantile argmax cfg hist (st.getD (freeInit cfg.classes)) → (∀ b ∈ bs, IsBatch cfg.classes b) →
    FreeInv quantile argmax cfg (hist ++ bs) ((freeRun quantile argmax cfg st bs).2.getD (freeInit cfg.classes)) ∧
    (freeRun quantile argmax cfg st bs).1.length = bs.length ∧
    ∀ (t : Nat) (b : List (List K)), bs[t]? = some b → ∃ st', FreeInv quantile argmax cfg (hist ++ bs.take (t + 1)) st' ∧
      (freeRun quantile argmax cfg st bs).1[t]? = some (b.map fun r => decide (freeThreshold st' (argmax r) ≤ rowMax r)) := by
  intro bs
  induction bs with
  | nil => intro hist st hi _; refine ⟨by simpa [freeRun] using hi, rfl, ?_⟩; intro t b hb; simp at hb
  | cons b bs ih =>
    intro hist st hi hb
    have h2 := freeUpdate_inv quantile argmax ha cfg h0 h1 hist _ hi b (hb b List.mem_cons_self)
    obtain ⟨i1, i2, i3⟩ := ih (hist ++ [b]) (some (freeUpdate quantile argmax cfg (st.getD (freeInit cfg.classes)) b)) h2
      (fun b' h' => hb b' (List.mem_cons_of_mem _ h'))
    refine ⟨?_, ?_, ?_⟩
    · simpa [freeRun, freeStep] using i1
    · simpa [freeRun, freeStep] using i2
    · intro t b' ht
      cases t with
      | zero =>
        simp only [List.getElem?_cons_zero, Option.some.injEq] at ht
        subst ht
        exact ⟨_, by simpa using h2, rfl⟩
      | succ t =>
        simp only [List.getElem?_cons_succ] at ht
        obtain ⟨st', j1, j2⟩ := i3 t b' ht
        refine ⟨st', by simpa using j1, ?_⟩
        simpa [freeRun, freeStep] using j2

/-- **C111.**  The state of FreeMatch after any history of batches: the average prediction and the average histogram of
predicted classes are distributions, and they are the exponentially weighted averages over the batches of the mean
predictions and of the shares of predicted classes. -/
theorem C111_state (quantile : List K → K) (argmax : List K → Nat) (ha : ArgmaxLaw argmax) (cfg : FreeCfg K)
    (hC : 0 < cfg.classes) (h0 : 0 ≤ cfg.m) (h1 : cfg.m < 1) (bs : List (List (List K))) (hne : bs ≠ [])
    (hb : ∀ b ∈ bs, IsBatch cfg.classes b) :
    ∃ st, (freeRun quantile argmax cfg none bs).2 = some st ∧
      IsDistN cfg.classes st.pModel ∧ IsDistN cfg.classes st.hist ∧
      (∀ c < cfg.classes, st.pModel.getD c 0 = weightedAverage cfg.m (1 / (cfg.classes : K)) (bs.map (meanProb c))) ∧
      (∀ c < cfg.classes, st.hist.getD c 0 =
        weightedAverage cfg.m (1 / (cfg.classes : K)) (bs.map (predictedShare argmax c))) ∧
      st.timeP = globalThreshold quantile cfg bs := by
  obtain ⟨h, -, -⟩ := freeRun_inv quantile argmax ha cfg hC h0 h1.le bs [] none (freeInit_inv quantile argmax cfg hC) hb
  have hs : ∀ (bs : List (List (List K))) (st : Option (FreeState K)), bs ≠ [] →
      ∃ s, (freeRun quantile argmax cfg st bs).2 = some s := by
    intro bs
    induction bs with
    | nil => intro _ h; exact absurd rfl h
    | cons b bs ih =>
      intro st _
      by_cases hbs : bs = []
      · subst hbs; exact ⟨_, rfl⟩
      · exact ih _ hbs
  obtain ⟨s, hs⟩ := hs bs none hne
  rw [hs] at h
  exact ⟨s, hs, h.1, h.2.1, h.2.2.1, h.2.2.2.1, h.2.2.2.2⟩

theorem globalThreshold_bounds (quantile : List K → K) (hq : QuantileLaw quantile) (cfg : FreeCfg K) (hC : 2 ≤ cfg.classes)
    (h0 : 0 ≤ cfg.m) (h1 : cfg.m ≤ 1) (bs : List (List (List K))) (hb : ∀ b ∈ bs, IsBatch cfg.classes b) :
    1 / (cfg.classes : K) ≤ globalThreshold quantile cfg bs ∧ globalThreshold quantile cfg bs ≤ 1 ∧
    (cfg.clip = true → globalThreshold quantile cfg bs ≤ 95 / 100) := by
  have hCp : (2 : K) ≤ cfg.classes := by exact_mod_cast hC
  have hhalf : 1 / (cfg.classes : K) ≤ 1 / 2 := one_div_le_one_div_of_le (by norm_num) hCp
  have hpos : 0 < 1 / (cfg.classes : K) := by positivity
  induction bs using List.reverseRecOn with
  | nil =>
    simp only [globalThreshold, List.foldl_nil]
    refine ⟨le_refl _, by linarith, fun _ => by linarith⟩
  | append_singleton bs b ih =>
    obtain ⟨i1, i2, -⟩ := ih (fun b' h' => hb b' (List.mem_append_left _ h'))
    have hbb := hb b (by simp)
    have hv : 1 / (cfg.classes : K) ≤ batchConfidence quantile cfg.useQuantile b ∧
        batchConfidence quantile cfg.useQuantile b ≤ 1 := by
      have hmem : ∀ x ∈ b.map rowMax, 1 / (cfg.classes : K) ≤ x ∧ x ≤ 1 := by
        intro x hx
        obtain ⟨r, hr, rfl⟩ := List.mem_map.mp hx
        exact dist_max _ r (hbb.2 r hr)
      have hne : b.map rowMax ≠ [] := by simpa using hbb.1
      unfold batchConfidence
      cases cfg.useQuantile with
      | true =>
        obtain ⟨⟨x, hx, hx'⟩, y, hy, hy'⟩ := hq _ hne
        simp only [if_true]
        exact ⟨le_trans (hmem x hx).1 hx', le_trans hy' (hmem y hy).2⟩
      | false =>
        simp only [Bool.false_eq_true, if_false]
        have := mean_bounds _ hne _ _ hmem
        unfold mean at this
        rwa [List.length_map] at this
    have he := ema_bounds cfg.m _ _ _ _ h0 h1 ⟨i1, i2⟩ hv
    unfold ema at he
    rw [mul_comm _ cfg.m] at he
    unfold globalThreshold at he ⊢
    rw [List.foldl_append]
    simp only [List.foldl_cons, List.foldl_nil]
    cases hcl : cfg.clip with
    | false => simp only [hcl] at he; simp only [Bool.false_eq_true, if_false, false_imp_iff, and_true] at he ⊢; exact he
    | true =>
      simp only [hcl, if_true] at he
      simp only [if_true, forall_const]
      refine ⟨le_min (le_max_of_le_left he.1) (by linarith), min_le_of_right_le (by norm_num), min_le_right _ _⟩

/-- **C111.**  Which samples FreeMatch uses: after the batch has been counted in, a sample is used exactly when its
confidence reaches the global threshold scaled by the average probability of its predicted class relative to the class
with the largest average. -/
theorem C111_mask (quantile : List K → K) (argmax : List K → Nat) (ha : ArgmaxLaw argmax) (cfg : FreeCfg K)
    (hC : 0 < cfg.classes) (hC' : cfg.classes ≤ 10 ^ 12) (h0 : 0 ≤ cfg.m) (h1 : cfg.m < 1) (bs : List (List (List K)))
    (hb : ∀ b ∈ bs, IsBatch cfg.classes b) :
    (freeRun quantile argmax cfg none bs).1.length = bs.length ∧
    ∀ (t : Nat) (b : List (List K)), bs[t]? = some b →
      ∃ (mask : List Bool) (top : Nat), (freeRun quantile argmax cfg none bs).1[t]? = some mask ∧ mask.length = b.length ∧
        top < cfg.classes ∧ 0 < classAverage cfg (bs.take (t + 1)) top ∧
        (∀ c < cfg.classes, classAverage cfg (bs.take (t + 1)) c ≤ classAverage cfg (bs.take (t + 1)) top) ∧
        ∀ (j : Nat) (r : List K), b[j]? = some r → ∃ p ∈ r, (∀ p' ∈ r, p' ≤ p) ∧
          (mask[j]? = some true ↔ globalThreshold quantile cfg (bs.take (t + 1)) *
            (classAverage cfg (bs.take (t + 1)) (argmax r) / classAverage cfg (bs.take (t + 1)) top) ≤ p) := by
  obtain ⟨-, hl, hm⟩ := freeRun_inv quantile argmax ha cfg hC h0 h1.le bs [] none (freeInit_inv quantile argmax cfg hC) hb
  refine ⟨hl, ?_⟩
  intro t b ht
  obtain ⟨st, hi, hmask⟩ := hm t b ht
  rw [List.nil_append] at hi
  have hbb := hb b (List.mem_of_getElem? ht)
  have hpne := dist_ne _ _ hi.1
  have hmem := rowMax_mem st.pModel hpne
  obtain ⟨top, htop, hge⟩ := List.getElem_of_mem hmem
  have htop' : top < cfg.classes := by rw [← hi.1.1]; exact htop
  have hgetD : st.pModel.getD top 0 = rowMax st.pModel := by rw [List.getD_eq_getElem _ _ htop]; exact hge
  have hCK : (0 : K) < cfg.classes := by exact_mod_cast hC
  have hmax := (dist_max _ _ hi.1).1
  have hbig : (1 : K) / 10 ^ 12 ≤ rowMax st.pModel := by
    refine le_trans ?_ hmax
    apply one_div_le_one_div_of_le hCK
    exact_mod_cast hC'
  refine ⟨_, top, hmask, by simp, htop', ?_, ?_, ?_⟩
  · rw [← hi.2.2.1 top htop', hgetD]; exact lt_of_lt_of_le (by positivity) hbig
  · intro c hc
    rw [← hi.2.2.1 top htop', ← hi.2.2.1 c hc, hgetD, List.getD_eq_getElem _ _ (by rw [hi.1.1]; exact hc)]
    exact rowMax_ge _ _ (List.getElem_mem _)
  · intro j r hj
    have hr := hbb.2 r (List.mem_of_getElem? hj)
    have hrne := dist_ne _ r hr
    have hargs : argmax r < cfg.classes := by have := (ha r hrne).1; rwa [hr.1] at this
    refine ⟨rowMax r, rowMax_mem r hrne, rowMax_ge r, ?_⟩
    rw [List.getElem?_map, hj]
    simp only [Option.map_some, Option.some.injEq, decide_eq_true_eq]
    unfold freeThreshold
    rw [hi.2.2.2.2, hi.2.2.1 _ hargs, max_eq_left hbig, ← hgetD, hi.2.2.1 top htop']

/-- **C111.**  The global threshold stays between `1 / C` and 1 (0.95 if clipped); without clipping it is the weighted
average of the confidences of the batches. -/
theorem C111_threshold (quantile : List K → K) (hq : QuantileLaw quantile) (cfg : FreeCfg K) (hC : 2 ≤ cfg.classes)
    (h0 : 0 ≤ cfg.m) (h1 : cfg.m < 1) (bs : List (List (List K))) (hb : ∀ b ∈ bs, IsBatch cfg.classes b) :
    1 / (cfg.classes : K) ≤ globalThreshold quantile cfg bs ∧ globalThreshold quantile cfg bs ≤ 1 ∧
    (cfg.clip = true → globalThreshold quantile cfg bs ≤ 95 / 100) ∧
    (cfg.clip = false → globalThreshold quantile cfg bs =
      weightedAverage cfg.m (1 / (cfg.classes : K)) (bs.map (batchConfidence quantile cfg.useQuantile))) := by
  obtain ⟨g1, g2, g3⟩ := globalThreshold_bounds quantile hq cfg hC h0 h1.le bs hb
  refine ⟨g1, g2, g3, ?_⟩
  intro hcl
  clear g1 g2 g3 hb
  induction bs using List.reverseRecOn with
  | nil => simp [globalThreshold, weightedAverage_nil]
  | append_singleton bs b ih =>
    rw [List.map_append, List.map_singleton, weightedAverage_snoc, ← ih]
    unfold globalThreshold ema
    rw [List.foldl_append]
    simp only [List.foldl_cons, List.foldl_nil, hcl, Bool.false_eq_true, if_false]
    ring

/-- **C111 (violated).**  A second `fit` of the same object starts from the averages of the first: the same batch gives
another mask than on a fresh object. -/
theorem C111_refit_violated : ∃ (cfg : FreeCfg Rat) (first second : List (List (List Rat))),
    (∀ b ∈ first ++ second, IsBatch cfg.classes b) ∧
    (freeRun mean Supervised.argmax cfg none second).1 = [[true]] ∧
    (freeRun mean Supervised.argmax cfg (freeRun mean Supervised.argmax cfg none first).2 second).1 = [[false]] := by
  refine ⟨⟨1 / 2, false, false, 2⟩, [[[1, 0]]], [[[3 / 5, 2 / 5]]], ?_, by decide +kernel, by decide +kernel⟩
  simp only [List.singleton_append, List.mem_cons, List.not_mem_nil, or_false, IsBatch, IsDistN, IsDist]
  rintro b (rfl | rfl) <;> norm_num

/-- A lawful quantile. -/
example : QuantileLaw (fun l : List Rat => rowMax l) := fun l hl =>
  ⟨⟨_, rowMax_mem l hl, le_refl _⟩, _, rowMax_mem l hl, le_refl _⟩

/-- Two batches of two samples. -/
example : freeRun (K := Rat) rowMax Supervised.argmax ⟨1 / 2, false, true, 2⟩ none
    [[[9 / 10, 1 / 10], [2 / 5, 3 / 5]], [[3 / 4, 1 / 4], [1 / 2, 1 / 2]]] =
    ([[true, true], [true, false]],
      some ⟨[3 / 5, 2 / 5], [3 / 4, 1 / 4], 5 / 8⟩) := by decide +kernel

end ModSSC.Deep
