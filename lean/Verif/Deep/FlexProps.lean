import Verif.Deep.FlexSpec
import Verif.Deep.SharpProps

/-!
# Proofs about FlexMatch's curriculum (C110)
-/

set_option linter.unusedSectionVars false

namespace ModSSC.Deep
open ModSSC ModSSC.Deep.Spec

variable {K : Type} [Field K] [LinearOrder K] [IsStrictOrderedRing K]

/-! ## The recorded labels -/

/-- The number `_selected_label` holds for an optional label. -/
def encLabel : Option Nat → Int
  | none => -1
  | some c => c

/-- `_selected_label` as a function of the history. -/
def encHist (cutoff : K) (pool : Nat) (hist : List (FlexPred K)) : List Int :=
  (List.range pool).map fun s => encLabel (confidentLabel cutoff hist s)

theorem confidentLabel_snoc (cutoff : K) (hist : List (FlexPred K)) (p : FlexPred K) (s : Nat) :
    confidentLabel cutoff (hist ++ [p]) s =
      if p.idx = (s : Int) ∧ cutoff ≤ p.prob then some p.cls else confidentLabel cutoff hist s := by
  unfold confidentLabel
  rw [List.filter_append]
  by_cases h : p.idx = (s : Int) ∧ cutoff ≤ p.prob
  · rw [if_pos h, List.filter_cons_of_pos (by simpa using h)]
    simp
  · rw [if_neg h, List.filter_cons_of_neg (by simpa using h)]
    simp

theorem encHist_weak (cutoff : K) (pool : Nat) (hist : List (FlexPred K)) (p : FlexPred K) (h : ¬ cutoff ≤ p.prob) :
    encHist cutoff pool (hist ++ [p]) = encHist cutoff pool hist := by
  unfold encHist
  apply List.map_congr_left
  intro s _
  rw [confidentLabel_snoc, if_neg (fun h' => h h'.2)]

theorem setWrap_enc (cutoff : K) (pool : Nat) (hist : List (FlexPred K)) (p : FlexPred K) (h : cutoff ≤ p.prob)
    (h0 : 0 ≤ p.idx) (h1 : p.idx < pool) :
    setWrap (encHist cutoff pool hist) p.idx p.cls = .ok (encHist cutoff pool (hist ++ [p])) := by
  unfold setWrap
  have hl : (encHist cutoff pool hist).length = pool := by simp [encHist]
  rw [if_pos ⟨h0, by rw [hl]; exact h1⟩]
  congr 1
  apply List.ext_getElem
  · simp [encHist]
  · intro i hi1 hi2
    rw [List.getElem_set]
    simp only [encHist, List.getElem_map, List.getElem_range, confidentLabel_snoc]
    by_cases hi : p.idx.toNat = i
    · rw [if_pos hi, if_pos ⟨by omega, h⟩]; rfl
    · rw [if_neg hi, if_neg (fun h' => hi (by omega))]

theorem writeSelected_enc (cutoff : K) (pool : Nat) : ∀ (batch hist : List (FlexPred K)),
    (∀ p ∈ batch, 0 ≤ p.idx ∧ p.idx < pool) →
    writeSelected (encHist cutoff pool hist) (batch.filter fun p => cutoff ≤ p.prob) =
      .ok (encHist cutoff pool (hist ++ batch))
  | [], hist, _ => by simp [writeSelected, pure, Except.pure]
  | p :: batch, hist, h => by
    have hp := h p (by simp)
    have ih := writeSelected_enc cutoff pool batch (hist ++ [p]) (fun q hq => h q (by simp [hq]))
    rw [List.append_assoc, List.singleton_append] at ih
    by_cases hc : cutoff ≤ p.prob
    · rw [List.filter_cons_of_pos (by simpa using hc)]
      unfold writeSelected at ih ⊢
      rw [List.foldlM_cons, ebind_of_ok (setWrap_enc cutoff pool hist p hc hp.1 hp.2)]
      exact ih
    · rw [List.filter_cons_of_neg (by simpa using hc), ← encHist_weak cutoff pool hist p hc]
      exact ih

theorem enc_id (cutoff : K) (pool : Nat) (batch hist : List (FlexPred K))
    (h : (batch.filter fun p => cutoff ≤ p.prob) = []) :
    encHist cutoff pool (hist ++ batch) = encHist cutoff pool hist := by
  induction batch generalizing hist with
  | nil => simp
  | cons p batch ih =>
    have hc : ¬ cutoff ≤ p.prob := by
      intro hc
      rw [List.filter_cons_of_pos (by simpa using hc)] at h
      simp at h
    rw [List.filter_cons_of_neg (by simpa using hc)] at h
    have := ih (hist ++ [p]) h
    rw [List.append_assoc, List.singleton_append] at this
    rw [this, encHist_weak cutoff pool hist p hc]

/-! ## The learning effect -/

theorem foldl_max_nat (l : List Nat) : ∀ a : Nat, (∀ x ∈ l, x ≤ l.foldl max a) ∧ a ≤ l.foldl max a ∧
    (l.foldl max a = a ∨ l.foldl max a ∈ l) := by
  induction l with
  | nil => simp
  | cons b l ih =>
    intro a
    obtain ⟨h1, h2, h3⟩ := ih (max a b)
    refine ⟨?_, (le_max_left _ _).trans h2, ?_⟩
    · intro x hx
      rcases List.mem_cons.mp hx with rfl | hx
      · exact (le_max_right _ _).trans h2
      · exact h1 x hx
    · simp only [List.foldl_cons]
      rcases h3 with h3 | h3
      · rcases max_choice a b with h | h
        · left; rw [h3, h]
        · right; rw [h3, h]; simp
      · right; simp [h3]

theorem confidentLabel_lt (cutoff : K) (hist : List (FlexPred K)) (classes : Nat) (h : ∀ p ∈ hist, p.cls < classes)
    (s c : Nat) (hc : confidentLabel cutoff hist s = some c) : c < classes := by
  unfold confidentLabel at hc
  obtain ⟨p, hp, rfl⟩ := Option.map_eq_some_iff.mp hc
  exact h p (List.mem_of_mem_filter (List.mem_of_getLast? hp))

theorem counts_eq (cutoff : K) (pool classes : Nat) (hist : List (FlexPred K)) (h : ∀ p ∈ hist, p.cls < classes) :
    bincount ((encHist cutoff pool hist).map fun s => (s + 1).toNat) (classes + 1) =
      unlearned cutoff hist pool :: (List.range classes).map (learned cutoff hist pool) := by
  have e : (encHist cutoff pool hist).map (fun s => (s + 1).toNat) =
      (List.range pool).map fun s => ((confidentLabel cutoff hist s).map (· + 1)).getD 0 := by
    simp only [encHist, List.map_map]
    apply List.map_congr_left
    intro s _
    cases hc : confidentLabel cutoff hist s with
    | none => simp [encLabel, hc]
    | some c => simp [encLabel, hc]
  rw [e]
  unfold bincount
  have hmax : max (classes + 1) ((((List.range pool).map fun s =>
      ((confidentLabel cutoff hist s).map (· + 1)).getD 0).map (· + 1)).foldl max 0) = classes + 1 := by
    apply max_eq_left
    rcases (foldl_max_nat (((List.range pool).map fun s =>
      ((confidentLabel cutoff hist s).map (· + 1)).getD 0).map (· + 1)) 0).2.2 with h0 | h0
    · rw [h0]; omega
    · obtain ⟨x, hx, hx'⟩ := List.mem_map.mp h0
      obtain ⟨s, -, rfl⟩ := List.mem_map.mp hx
      rw [← hx']
      cases hc : confidentLabel cutoff hist s with
      | none => simp
      | some c =>
        have := confidentLabel_lt cutoff hist classes h s c hc
        simp; omega
  rw [hmax, List.range_succ_eq_map, List.map_cons, List.map_map]
  congr 1
  · rw [List.count_eq_countP, List.countP_map, List.countP_eq_length_filter]
    unfold unlearned
    congr 1
    apply List.filter_congr
    intro s _
    simp only [Function.comp_def]
    cases confidentLabel cutoff hist s <;> simp
  · apply List.map_congr_left
    intro c _
    simp only [Function.comp_def]
    rw [List.count_eq_countP, List.countP_map, List.countP_eq_length_filter]
    unfold learned
    congr 1
    apply List.filter_congr
    intro s _
    simp only [Function.comp_def]
    cases confidentLabel cutoff hist s <;> simp [Bool.beq_eq_decide_eq]

theorem flexAcc_effect (cfg : FlexCfg K) (pool : Nat) (hC : 0 < cfg.classes) (hist : List (FlexPred K))
    (h : ∀ p ∈ hist, p.cls < cfg.classes) (c : Nat) (hc : c < cfg.classes) :
    IsEffect cfg hist pool c
      ((flexAcc cfg.warmup cfg.classes (encHist cfg.cutoff pool hist) : List K).getD c 0) := by
  have e := counts_eq cfg.cutoff pool cfg.classes hist h
  unfold flexAcc
  simp only [e, List.tail_cons]
  generalize hL : (List.range cfg.classes).map (learned cfg.cutoff hist pool) = L
  have hLget : ∀ c' < cfg.classes, learned cfg.cutoff hist pool c' ∈ L := by
    intro c' hc'
    rw [← hL]
    exact List.mem_map.mpr ⟨c', by simpa using hc', rfl⟩
  have hLmem : ∀ x ∈ L, ∃ c' < cfg.classes, learned cfg.cutoff hist pool c' = x := by
    intro x hx
    rw [← hL] at hx
    obtain ⟨c', h1, h2⟩ := List.mem_map.mp hx
    exact ⟨c', by simpa using h1, h2⟩
  have hget : ∀ f : Nat → K, (L.map f).getD c 0 = f (learned cfg.cutoff hist pool c) := by
    intro f
    rw [List.getD_eq_getElem _ _ (by simp [← hL, hc])]
    simp [← hL]
  by_cases hw : cfg.warmup = true
  · rw [if_pos hw, hget]
    obtain ⟨m1, m2, m3⟩ := foldl_max_nat (unlearned cfg.cutoff hist pool :: L) 0
    generalize (unlearned cfg.cutoff hist pool :: L).foldl max 0 = M at *
    refine ⟨M, fun c' hc' => m1 _ (by simp [hLget c' hc']), fun _ => m1 _ (by simp), ?_, ?_⟩
    · rcases m3 with m3 | m3
      · right
        refine ⟨hw, ?_⟩
        have := m1 (unlearned cfg.cutoff hist pool) (by simp)
        omega
      · rcases List.mem_cons.mp m3 with m3 | m3
        · exact .inr ⟨hw, m3.symm⟩
        · exact .inl (hLmem M m3)
    · rcases Nat.eq_zero_or_pos M with h0 | h0
      · have := m1 (learned cfg.cutoff hist pool c) (by simp [hLget c hc])
        have hz : learned cfg.cutoff hist pool c = 0 := by omega
        simp [hz]
      · rw [max_eq_left (by exact_mod_cast h0)]
  · rw [if_neg hw]
    obtain ⟨m1, m2, m3⟩ := foldl_max_nat L 0
    generalize L.foldl max 0 = M at *
    have hex : ∃ c' < cfg.classes, learned cfg.cutoff hist pool c' = M := by
      rcases m3 with m3 | m3
      · refine ⟨c, hc, ?_⟩
        have := m1 _ (hLget c hc)
        omega
      · exact hLmem M m3
    refine ⟨M, fun c' hc' => m1 _ (hLget c' hc'), fun hw' => absurd hw' hw, .inl hex, ?_⟩
    by_cases hM : M ≤ 0
    · rw [if_pos hM]
      have := m1 _ (hLget c hc)
      have hz : learned cfg.cutoff hist pool c = 0 := by omega
      rw [hz, List.getD_replicate _ hc]
      simp
    · rw [if_neg hM, hget]

/-- The state is what the history says. -/
def FlexInv (cfg : FlexCfg K) (pool : Nat) (hist : List (FlexPred K)) (st : FlexState K) : Prop :=
  st.selected = encHist cfg.cutoff pool hist ∧
    ∀ c < cfg.classes, IsEffect cfg hist pool c (st.acc.getD c 0)

theorem flexInit_inv (cfg : FlexCfg K) (pool : Nat) (hC : 0 < cfg.classes) :
    FlexInv cfg pool [] (flexInit cfg pool) := by
  have he : encHist cfg.cutoff pool ([] : List (FlexPred K)) = List.replicate pool (-1) := by
    unfold encHist
    rw [show (fun s => encLabel (confidentLabel cfg.cutoff ([] : List (FlexPred K)) s)) = fun _ => (-1 : Int) from by
      funext s; rfl, List.map_const']
    simp
  refine ⟨he.symm, fun c hc => ?_⟩
  have h0 : ∀ c', learned cfg.cutoff ([] : List (FlexPred K)) pool c' = 0 := by
    intro c'
    simp [learned, confidentLabel]
  have hu : unlearned cfg.cutoff ([] : List (FlexPred K)) pool = pool := by
    simp [unlearned, confidentLabel]
  simp only [flexInit]
  rw [List.getD_replicate _ hc]
  by_cases hw : cfg.warmup = true
  · exact ⟨pool, fun c' _ => by rw [h0]; omega, fun _ => hu.le, .inr ⟨hw, hu⟩, by rw [h0]; simp⟩
  · exact ⟨0, fun c' _ => by rw [h0], fun hw' => absurd hw' hw, .inl ⟨c, hc, h0 c⟩, by rw [h0]; simp⟩

theorem flexStep_inv (cfg : FlexCfg K) (pool : Nat) (hC : 0 < cfg.classes) (hist : List (FlexPred K))
    (st : FlexState K) (hinv : FlexInv cfg pool hist st) (batch : List (FlexPred K))
    (hh : ∀ p ∈ hist, p.cls < cfg.classes)
    (hb : ∀ p ∈ batch, 0 ≤ p.idx ∧ p.idx < pool ∧ p.cls < cfg.classes) :
    ∃ mask st', flexStep cfg st batch = .ok (mask, st') ∧ FlexInv cfg pool (hist ++ batch) st' ∧
      mask.length = batch.length ∧ ∀ (j : Nat) p, batch[j]? = some p → ∃ beta, IsEffect cfg hist pool p.cls beta ∧
        mask[j]? = some (decide (cfg.cutoff * (beta / (2 - beta)) ≤ p.prob)) := by
  obtain ⟨hs, ha⟩ := hinv
  have hw := writeSelected_enc cfg.cutoff pool batch hist (fun p hp => ⟨(hb p hp).1, (hb p hp).2.1⟩)
  have hall : ∀ p ∈ hist ++ batch, p.cls < cfg.classes := by
    intro p hp
    rcases List.mem_append.mp hp with hp | hp
    · exact hh p hp
    · exact (hb p hp).2.2
  unfold flexStep
  simp only
  refine ⟨batch.map fun p => decide (flexThreshold cfg.cutoff (st.acc.getD p.cls 0) ≤ p.prob),
    if (batch.filter fun p => cfg.cutoff ≤ p.prob).length > 0 then
      ⟨encHist cfg.cutoff pool (hist ++ batch), flexAcc cfg.warmup cfg.classes (encHist cfg.cutoff pool (hist ++ batch))⟩
    else st, ?_, ?_, by simp, ?_⟩
  · by_cases hc : (batch.filter fun p => cfg.cutoff ≤ p.prob).length > 0
    · rw [if_pos hc, if_pos hc, hs, hw]
    · rw [if_neg hc, if_neg hc]
  · by_cases hc : (batch.filter fun p => cfg.cutoff ≤ p.prob).length > 0
    · rw [if_pos hc]
      exact ⟨rfl, fun c hcc => flexAcc_effect cfg pool hC _ hall c hcc⟩
    · rw [if_neg hc]
      have hnil : (batch.filter fun p => cfg.cutoff ≤ p.prob) = [] := List.length_eq_zero_iff.mp (by omega)
      have henc := enc_id cfg.cutoff pool batch hist hnil
      refine ⟨by rw [hs, henc], fun c hcc => ?_⟩
      have hcl : ∀ s < pool, confidentLabel cfg.cutoff (hist ++ batch) s = confidentLabel cfg.cutoff hist s := by
        intro s hs'
        unfold confidentLabel
        rw [List.filter_append]
        have : batch.filter (fun p => decide (p.idx = (s : Int) ∧ cfg.cutoff ≤ p.prob)) = [] := by
          rw [List.filter_eq_nil_iff] at hnil ⊢
          intro p hp hcon
          simp only [decide_eq_true_eq] at hcon
          exact hnil p hp (by simpa using hcon.2)
        rw [this, List.append_nil]
      have e1 : ∀ c', learned cfg.cutoff (hist ++ batch) pool c' = learned cfg.cutoff hist pool c' := by
        intro c'
        unfold learned
        congr 1
        apply List.filter_congr
        intro s hs'
        rw [hcl s (by simpa using hs')]
      have e2 : unlearned cfg.cutoff (hist ++ batch) pool = unlearned cfg.cutoff hist pool := by
        unfold unlearned
        congr 1
        apply List.filter_congr
        intro s hs'
        rw [hcl s (by simpa using hs')]
      have := ha c hcc
      unfold IsEffect at this ⊢
      simp only [e1, e2]
      exact this
  · intro j p hj
    have hp := hb p (List.mem_of_getElem? hj)
    refine ⟨st.acc.getD p.cls 0, ha _ hp.2.2, ?_⟩
    rw [List.getElem?_map, hj]
    rfl

theorem flexSteps_inv (cfg : FlexCfg K) (pool : Nat) (hC : 0 < cfg.classes) : ∀ (bs : List (List (FlexPred K)))
    (hist : List (FlexPred K)) (st : FlexState K), FlexInv cfg pool hist st → (∀ p ∈ hist, p.cls < cfg.classes) →
    (∀ b ∈ bs, ∀ p ∈ b, 0 ≤ p.idx ∧ p.idx < pool ∧ p.cls < cfg.classes) →
    ∃ ms st', flexSteps cfg st bs = .ok (ms, st') ∧ FlexInv cfg pool (hist ++ bs.flatten) st' ∧
      ms.length = bs.length ∧ ∀ (t : Nat) b, bs[t]? = some b → ∃ mask, ms[t]? = some mask ∧ mask.length = b.length ∧
        ∀ (j : Nat) p, b[j]? = some p → ∃ beta, IsEffect cfg (hist ++ (bs.take t).flatten) pool p.cls beta ∧
          mask[j]? = some (decide (cfg.cutoff * (beta / (2 - beta)) ≤ p.prob))
  | [], hist, st, hinv, _, _ => ⟨[], st, rfl, by simpa using hinv, rfl, by simp⟩
  | b :: bs, hist, st, hinv, hh, hb => by
    obtain ⟨mask, st1, h1, hi1, hl1, hm1⟩ := flexStep_inv cfg pool hC hist st hinv b hh (hb b (by simp))
    obtain ⟨ms, st2, h2, hi2, hl2, hm2⟩ := flexSteps_inv cfg pool hC bs (hist ++ b) st1 hi1 (by
      intro p hp
      rcases List.mem_append.mp hp with hp | hp
      · exact hh p hp
      · exact (hb b (by simp) p hp).2.2) (fun b' hb' => hb b' (by simp [hb']))
    refine ⟨mask :: ms, st2, ?_, ?_, by simp [hl2], ?_⟩
    · simp only [flexSteps, h1, h2]
    · simpa [List.append_assoc] using hi2
    · intro t b' ht
      cases t with
      | zero =>
        simp only [List.getElem?_cons_zero, Option.some.injEq] at ht
        subst ht
        exact ⟨mask, rfl, hl1, by simpa using hm1⟩
      | succ t =>
        simp only [List.getElem?_cons_succ] at ht
        obtain ⟨m, e1, e2, e3⟩ := hm2 t b' ht
        refine ⟨m, e1, e2, ?_⟩
        simpa [List.append_assoc] using e3

/-- **C110 (curriculum).**  During a first `fit`, for every history of batches over a pool whose positions are valid: no
step fails; after the run the recorded label of a sample is that of its last confident prediction (-1 if none); and a
sample is used in a step exactly when its confidence reaches `p_cutoff * beta / (2 - beta)`, `beta` being the learning
effect of its predicted class in the history before that step. -/
theorem C110_curriculum (cfg : FlexCfg K) (pool : Nat) (hC : 0 < cfg.classes) (bs : List (List (FlexPred K)))
    (hb : ∀ b ∈ bs, ∀ p ∈ b, 0 ≤ p.idx ∧ p.idx < pool ∧ p.cls < cfg.classes) :
    ∃ ms st, flexFit cfg pool none bs = .ok (ms, st) ∧
      (st.selected = (List.range pool).map fun s =>
        match confidentLabel cfg.cutoff bs.flatten s with
        | none => -1
        | some c => (c : Int)) ∧
      ms.length = bs.length ∧ ∀ (t : Nat) b, bs[t]? = some b → ∃ mask, ms[t]? = some mask ∧ mask.length = b.length ∧
        ∀ (j : Nat) p, b[j]? = some p → ∃ beta, IsEffect cfg (bs.take t).flatten pool p.cls beta ∧
          mask[j]? = some (decide (cfg.cutoff * (beta / (2 - beta)) ≤ p.prob)) := by
  obtain ⟨ms, st, h, hi, hl, hm⟩ := flexSteps_inv cfg pool hC bs [] (flexInit cfg pool) (flexInit_inv cfg pool hC)
    (by simp) hb
  refine ⟨ms, st, h, ?_, hl, by simpa using hm⟩
  rw [hi.1]
  unfold encHist
  apply List.map_congr_left
  intro s _
  simp only [List.nil_append]
  cases confidentLabel cfg.cutoff bs.flatten s <;> rfl

theorem effect_unique (cfg : FlexCfg K) (hist : List (FlexPred K)) (pool c : Nat) (b b' : K)
    (h : IsEffect cfg hist pool c b) (h' : IsEffect cfg hist pool c b') : b = b' := by
  obtain ⟨M, m1, m2, m3, rfl⟩ := h
  obtain ⟨M', m1', m2', m3', rfl⟩ := h'
  have : M = M' := by
    apply le_antisymm
    · rcases m3 with ⟨c', hc, e⟩ | ⟨hw, e⟩
      · rw [← e]; exact m1' c' hc
      · rw [← e]; exact m2' hw
    · rcases m3' with ⟨c', hc, e⟩ | ⟨hw, e⟩
      · rw [← e]; exact m1 c' hc
      · rw [← e]; exact m2 hw
  rw [this]

/-- **C110 (thresholds).**  The learning effect is determined by the history and lies in `[0, 1]`; the threshold lies
between 0 and the cutoff, grows with the learning effect and is the full cutoff exactly for effect one (positive
cutoff), so every sample that reaches the cutoff itself is used. -/
theorem C110_threshold (cfg : FlexCfg K) (hcut : 0 ≤ cfg.cutoff) (hist : List (FlexPred K)) (pool c : Nat)
    (hc : c < cfg.classes) (beta : K) (h : IsEffect cfg hist pool c beta) :
    (∀ beta', IsEffect cfg hist pool c beta' → beta' = beta) ∧ 0 ≤ beta ∧ beta ≤ 1 ∧
    0 ≤ cfg.cutoff * (beta / (2 - beta)) ∧ cfg.cutoff * (beta / (2 - beta)) ≤ cfg.cutoff ∧
    (0 < cfg.cutoff → (cfg.cutoff * (beta / (2 - beta)) = cfg.cutoff ↔ beta = 1)) ∧
    ∀ c' < cfg.classes, ∀ beta', IsEffect cfg hist pool c' beta' →
      learned cfg.cutoff hist pool c ≤ learned cfg.cutoff hist pool c' →
      cfg.cutoff * (beta / (2 - beta)) ≤ cfg.cutoff * (beta' / (2 - beta')) := by
  have bounds : ∀ c < cfg.classes, ∀ b, IsEffect cfg hist pool c b → 0 ≤ b ∧ b ≤ 1 := by
    rintro c hc b ⟨M, m1, -, -, rfl⟩
    refine ⟨by positivity, ?_⟩
    apply div_le_one_of_le₀
    · exact_mod_cast m1 c hc
    · positivity
  obtain ⟨h0, h1⟩ := bounds c hc beta h
  have hpos : 0 < 2 - beta := by linarith
  have hr1 : beta / (2 - beta) ≤ 1 := by rw [div_le_one hpos]; linarith
  have hr0 : 0 ≤ beta / (2 - beta) := div_nonneg h0 hpos.le
  refine ⟨fun b' hb' => effect_unique cfg hist pool c b' beta hb' h, h0, h1, mul_nonneg hcut hr0,
    mul_le_of_le_one_right hcut hr1, ?_, ?_⟩
  · intro hc'
    constructor
    · intro he
      have : beta / (2 - beta) = 1 := by
        have := mul_left_cancel₀ hc'.ne' (he.trans (mul_one _).symm)
        exact this
      rw [div_eq_one_iff_eq hpos.ne'] at this
      linarith
    · rintro rfl
      norm_num
  · intro c' hc' beta' h' hle
    obtain ⟨h0', h1'⟩ := bounds c' hc' beta' h'
    have hbb : beta ≤ beta' := by
      obtain ⟨M, m1, m2, m3, rfl⟩ := h
      have h2 : IsEffect cfg hist pool c' ((learned cfg.cutoff hist pool c' : K) / (M : K)) := ⟨M, m1, m2, m3, rfl⟩
      rw [effect_unique cfg hist pool c' _ _ h' h2]
      exact div_le_div_of_nonneg_right (by exact_mod_cast hle) (by positivity)
    apply mul_le_mul_of_nonneg_left _ hcut
    rw [div_le_div_iff₀ hpos (by linarith)]
    nlinarith

/-! ## Pool indices -/

theorem foldl_max_int (l : List Int) : ∀ a : Int, (∀ x ∈ l, x ≤ l.foldl max a) ∧ a ≤ l.foldl max a ∧
    (l.foldl max a = a ∨ l.foldl max a ∈ l) := by
  induction l with
  | nil => simp
  | cons b l ih =>
    intro a
    obtain ⟨h1, h2, h3⟩ := ih (max a b)
    refine ⟨?_, (le_max_left _ _).trans h2, ?_⟩
    · intro x hx
      rcases List.mem_cons.mp hx with rfl | hx
      · exact (le_max_right _ _).trans h2
      · exact h1 x hx
    · simp only [List.foldl_cons]
      rcases h3 with h3 | h3
      · rcases max_choice a b with h | h
        · left; rw [h3, h]
        · right; rw [h3, h]; simp
      · right; simp [h3]

theorem foldl_min_int (l : List Int) : ∀ a : Int, (∀ x ∈ l, l.foldl min a ≤ x) ∧ l.foldl min a ≤ a ∧
    (l.foldl min a = a ∨ l.foldl min a ∈ l) := by
  induction l with
  | nil => simp
  | cons b l ih =>
    intro a
    obtain ⟨h1, h2, h3⟩ := ih (min a b)
    refine ⟨?_, h2.trans (min_le_left _ _), ?_⟩
    · intro x hx
      rcases List.mem_cons.mp hx with rfl | hx
      · exact h2.trans (min_le_right _ _)
      · exact h1 x hx
    · simp only [List.foldl_cons]
      rcases h3 with h3 | h3
      · rcases min_choice a b with h | h
        · left; rw [h3, h]
        · right; rw [h3, h]; simp
      · right; simp [h3]

theorem max_head (l : List Int) (h : l ≠ []) : l.foldl max (l.headD 0) ∈ l ∧ ∀ x ∈ l, x ≤ l.foldl max (l.headD 0) := by
  obtain ⟨h1, -, h3⟩ := foldl_max_int l (l.headD 0)
  refine ⟨?_, h1⟩
  rcases h3 with h3 | h3
  · rw [h3]; cases l with
    | nil => exact absurd rfl h
    | cons a l => simp
  · exact h3

theorem min_head (l : List Int) (h : l ≠ []) : l.foldl min (l.headD 0) ∈ l ∧ ∀ x ∈ l, l.foldl min (l.headD 0) ≤ x := by
  obtain ⟨h1, -, h3⟩ := foldl_min_int l (l.headD 0)
  refine ⟨?_, h1⟩
  rcases h3 with h3 | h3
  · rw [h3]; cases l with
    | nil => exact absurd rfl h
    | cons a l => simp
  · exact h3

/-- **C110 (positions, partial).**  Without a pool size the positions are accepted exactly when they are `0, …, n-1` in
some order, and the pool has `n` samples.  With a pool size they are accepted exactly when there are `n` of them, all
below it, and it is at least `n`.  Missing: that accepted positions are then non-negative and distinct, which is false
(`C110_positions_violated`). -/
theorem C110_positions_partial (n : Nat) (hn : 0 < n) (idx : List Int) (u1 u2 : Option Int) (r : Int) :
    poolSize n idx u1 u2 = .ok r ↔
      (poolEntry u1 u2 = none ∧ idx.Perm ((List.range n).map fun i : Nat => (i : Int)) ∧ r = n) ∨
      (poolEntry u1 u2 = some r ∧ idx.length = n ∧ n ≤ r ∧ ∀ i ∈ idx, i < r) := by
  unfold poolSize
  by_cases hl : idx.length ≠ n
  · rw [if_pos hl]
    simp only [reduceCtorEq, false_iff]
    rintro (⟨-, hp, -⟩ | ⟨-, h, -⟩)
    · exact hl (by simpa using hp.length_eq)
    · exact hl h
  rw [if_neg hl]
  have hl' : idx.length = n := not_not.mp hl
  have hne : idx ≠ [] := by intro h0; rw [h0] at hl'; simp at hl'; omega
  obtain ⟨x1, x2⟩ := max_head idx hne
  obtain ⟨y1, y2⟩ := min_head idx hne
  cases he : poolEntry u1 u2 with
  | none =>
    simp only [true_and, reduceCtorEq, false_and, or_false]
    by_cases c1 : idx.foldl min (idx.headD 0) ≠ 0 ∨ idx.foldl max (idx.headD 0) ≠ (n : Int) - 1
    · rw [if_pos c1]
      simp only [reduceCtorEq, false_iff]
      rintro ⟨hp, -⟩
      have hmem : ∀ i : Int, i ∈ idx ↔ 0 ≤ i ∧ i < n := by
        intro i
        rw [hp.mem_iff]
        simp only [List.mem_map, List.mem_range]
        constructor
        · rintro ⟨k, hk, rfl⟩; omega
        · rintro ⟨a, b⟩; exact ⟨i.toNat, by omega, by omega⟩
      rcases c1 with c1 | c1
      · have a := y2 0 ((hmem 0).mpr ⟨le_rfl, by omega⟩)
        have b := ((hmem _).mp y1).1
        omega
      · have a := x2 (n - 1 : Int) ((hmem _).mpr ⟨by omega, by omega⟩)
        have b := ((hmem _).mp x1).2
        omega
    · rw [if_neg c1]
      push Not at c1
      by_cases c2 : idx.dedup.length ≠ n
      · rw [if_pos c2]
        simp only [reduceCtorEq, false_iff]
        rintro ⟨hp, -⟩
        apply c2
        have hnd : idx.Nodup := by
          rw [hp.nodup_iff]
          exact List.nodup_range.map (fun a b h => by exact_mod_cast h)
        rw [hnd.dedup, hl']
      · rw [if_neg c2]
        have c2' := not_not.mp c2
        have hnd : idx.Nodup := by
          have hs := List.dedup_sublist idx
          have := hs.eq_of_length (by rw [c2', hl'])
          rw [← this]; exact List.nodup_dedup idx
        have hsub : idx.Subperm ((List.range n).map fun i : Nat => (i : Int)) := by
          apply List.subperm_of_subset hnd
          intro i hi
          have a := y2 i hi
          have b := x2 i hi
          rw [c1.1] at a; rw [c1.2] at b
          exact List.mem_map.mpr ⟨i.toNat, by simp; omega, by omega⟩
        have hp := hsub.perm_of_length_le (by simp [hl'])
        simp only [Except.ok.injEq]
        constructor
        · rintro rfl; exact ⟨hp, rfl⟩
        · rintro ⟨-, rfl⟩; rfl
  | some u =>
    simp only [reduceCtorEq, false_and, false_or, Option.some.injEq]
    by_cases c1 : u < n
    · rw [if_pos c1]
      simp only [reduceCtorEq, false_iff]
      rintro ⟨rfl, -, h, -⟩
      omega
    · rw [if_neg c1]
      by_cases c2 : idx.foldl max (idx.headD 0) ≥ u
      · rw [if_pos c2]
        simp only [reduceCtorEq, false_iff]
        rintro ⟨rfl, -, -, h⟩
        have := h _ x1
        omega
      · rw [if_neg c2]
        simp only [Except.ok.injEq]
        constructor
        · rintro rfl
          exact ⟨rfl, hl', by omega, fun i hi => by have := x2 i hi; omega⟩
        · rintro ⟨rfl, -⟩; rfl

/-- **C110 (violated).**  With a pool size, negative and repeated positions are accepted; a negative position is then
the record of another sample: here the prediction for position -1 becomes the label of sample 1. -/
theorem C110_positions_violated :
    poolSize 2 [-1, 1] (some 2) none = .ok 2 ∧ poolSize 2 [0, 0] (some 2) none = .ok 2 ∧
    (flexFit (⟨1 / 2, true, 2⟩ : FlexCfg Rat) 2 none [[⟨-1, 3 / 4, 0⟩]]).map (·.2.selected) = .ok [-1, 0] := by
  decide +kernel

/-- **C110 (violated).**  A second `fit` of the same object starts from the thresholds of the first: the same batches
give another mask than on a fresh object; and if the pool is larger it can fail with `IndexError`. -/
theorem C110_refit_violated : ∃ (cfg : FlexCfg Rat) (pool : Nat) (first second : List (List (FlexPred Rat)))
    (st : FlexState Rat), (flexFit cfg pool none first).map (·.2) = .ok st ∧
    (flexFit cfg pool none second).map (·.1) = .ok [[true]] ∧
    (flexFit cfg pool (some st) second).map (·.1) = .ok [[false]] ∧
    (flexFit cfg 3 (some st) [[⟨2, 9 / 10, 0⟩]]).map (·.1) = .error .indexError :=
  ⟨⟨4 / 5, true, 2⟩, 2, [[⟨0, 9 / 10, 0⟩, ⟨1, 9 / 10, 0⟩]], [[⟨0, 3 / 5, 0⟩]], ⟨[0, 0], [1, 0]⟩, by decide +kernel,
    by decide +kernel, by decide +kernel, by decide +kernel⟩

/-- Three steps on a pool of three: the thresholds rise as samples of class 0 are learned. -/
example : (flexFit (⟨4 / 5, true, 2⟩ : FlexCfg Rat) 3 none
    [[⟨0, 9 / 10, 0⟩, ⟨1, 1 / 2, 1⟩], [⟨2, 9 / 10, 0⟩, ⟨1, 1 / 5, 0⟩], [⟨1, 1 / 2, 0⟩, ⟨0, 1 / 2, 1⟩]]) =
    .ok ([[true, true], [true, false], [false, true]], ⟨[0, -1, 0], [1, 0]⟩) := by decide +kernel

end ModSSC.Deep
