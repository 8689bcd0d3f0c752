import Verif.Deep.BankProps
import Mathlib.Analysis.SpecialFunctions.Exp

/-!
# C119 — CoMatch: pseudo-labels smoothed with the memory, and their graph
-/

set_option linter.unusedSectionVars false

namespace ModSSC.Deep
open ModSSC ModSSC.Deep.Spec

variable {K : Type} [Field K] [LinearOrder K] [IsStrictOrderedRing K]

theorem normRow_sum (x : List K) : (normRow x).sum = x.sum / max x.sum (1 / 10 ^ 12) := by
  unfold normRow
  simp only [div_eq_mul_inv, List.sum_map_mul_right, List.map_id']

theorem div_max_le_one (x : K) : x / max x (1 / 10 ^ 12) ≤ 1 := by
  rw [div_le_one (denom_pos x)]; exact le_max_left _ _

theorem alignedRow_sub (st : AlignState K) (C : Nat) (h1 : st.pModel.length = C) (h2 : st.pTarget.length = C)
    (ht : ∀ x ∈ st.pTarget, 0 ≤ x) (r : List K) (hr : IsSubDist C r) :
    IsSubDist C (alignedRow st r) ∧ ∃ z, 0 < z ∧ ∀ c < C, (alignedRow st r).getD c 0 =
      r.getD c 0 * (st.pTarget.getD c 0 / max (st.pModel.getD c 0) (1 / 10 ^ 6)) / z := by
  have hlen := rawAligned_length st C h1 h2 r hr.1
  have hget := rawAligned_get st C h1 h2 r hr.1
  have hz : (0 : K) < max (rawAligned st r).sum (1 / 10 ^ 12) := denom_pos _
  have hm6 : ∀ x : K, 0 < max x (1 / 10 ^ 6) := fun x => lt_max_of_lt_right (by positivity)
  have hraw0 : ∀ p ∈ rawAligned st r, 0 ≤ p := by
    intro p hp
    obtain ⟨c, hc, rfl⟩ := List.getElem_of_mem hp
    rw [hlen] at hc
    have := hget c hc
    rw [List.getD_eq_getElem _ _ (by rw [hlen]; exact hc), List.getD_eq_getElem r _ (by rw [hr.1]; exact hc),
      List.getD_eq_getElem st.pTarget _ (by rw [h2]; exact hc)] at this
    rw [this]
    exact mul_nonneg (hr.2.1 _ (List.getElem_mem _)) (div_nonneg (ht _ (List.getElem_mem _)) (hm6 _).le)
  have hs : (alignedRow st r).sum = (rawAligned st r).sum / max (rawAligned st r).sum (1 / 10 ^ 12) := normRow_sum _
  refine ⟨⟨by rw [alignedRow, List.length_map, hlen], ?_, by rw [hs]; exact div_max_le_one _⟩, _, hz, ?_⟩
  · intro p hp
    obtain ⟨q, hq, rfl⟩ := List.mem_map.mp hp
    exact div_nonneg (hraw0 q hq) hz.le
  · intro c hc
    rw [alignedRow, List.getD_eq_getElem _ _ (by rw [List.length_map, hlen]; exact hc), List.getElem_map]
    have := hget c hc
    rw [List.getD_eq_getElem _ _ (by rw [hlen]; exact hc)] at this
    rw [this]

/-- With target probabilities of at least `1e-12` the aligned row is a distribution. -/
theorem alignedRow_dist (st : AlignState K) (C : Nat) (d1 : IsDistN C st.pModel) (d2 : IsDistN C st.pTarget)
    (hbig : ∀ c < C, 1 / 10 ^ 12 ≤ st.pTarget.getD c 0) (r : List K) (hr : IsDistN C r) : IsDistN C (alignedRow st r) := by
  obtain ⟨⟨s1, s2, -⟩, -⟩ := alignedRow_sub st C d1.1 d2.1 d2.2.1 r ⟨hr.1, hr.2.1, hr.2.2.le⟩
  have hm6 : ∀ x : K, 0 < max x (1 / 10 ^ 6) := fun x => lt_max_of_lt_right (by positivity)
  refine ⟨s1, s2, ?_⟩
  have hlen := rawAligned_length st C d1.1 d2.1 r hr.1
  have hsum : 1 / 10 ^ 12 ≤ (rawAligned st r).sum := by
    have := sum_ge_of_entries (rawAligned st r) r (1 / 10 ^ 12) (by rw [hlen, hr.1]) (by
      intro c hc
      rw [hlen] at hc
      rw [rawAligned_get st C d1.1 d2.1 r hr.1 c hc, mul_comm]
      have hR : 0 ≤ r.getD c 0 := by
        rw [List.getD_eq_getElem _ _ (by rw [hr.1]; exact hc)]
        exact hr.2.1 _ (List.getElem_mem _)
      apply mul_le_mul_of_nonneg_left _ hR
      rw [le_div_iff₀ (hm6 _)]
      refine le_trans ?_ (hbig c hc)
      have hle : max (st.pModel.getD c 0) (1 / 10 ^ 6) ≤ 1 := by
        apply max_le _ (by norm_num)
        rw [List.getD_eq_getElem _ _ (by rw [d1.1]; exact hc)]
        exact dist_le_one C _ d1 _ (List.getElem_mem _)
      nlinarith [show (0 : K) < 1 / 10 ^ 12 by positivity])
    rwa [hr.2.2, mul_one] at this
  have hs : (alignedRow st r).sum = (rawAligned st r).sum / max (rawAligned st r).sum (1 / 10 ^ 12) := normRow_sum _
  rw [hs, max_eq_left hsum, div_self]
  exact ne_of_gt (lt_of_lt_of_le (by positivity) hsum)

/-! ## Reference run -/

/-- Order of the rows does not matter for column means. -/
theorem colMean_perm (C : Nat) (a b : List (List K)) (h : a.Perm b) : colMean C a = colMean C b := by
  unfold colMean mean
  refine List.map_congr_left fun c _ => ?_
  rw [(h.map _).sum_eq, (h.map (fun r : List K => r.getD c 0)).length_eq]

/-- Averages behind the alignment of step `i` after `past`. -/
def refState (cfg : CoCfg K) (past : List (CoInput K)) (i : CoInput K) : AlignState K :=
  ⟨colMean cfg.classes (lastN cfg.daLen ((past ++ [i]).map fun i => colMean cfg.classes i.probsU)),
   if cfg.uniform then uniformVec cfg.classes else colMean cfg.classes i.probsL⟩

/-- Aligned rows of step `i` after `past`. -/
def refAlign (cfg : CoCfg K) (past : List (CoInput K)) (i : CoInput K) : List (List K) :=
  if cfg.distAlign = false ∨ cfg.daLen = 0 then i.probsU else i.probsU.map (alignedRow (refState cfg past i))

/-- Aligned rows of all steps. -/
def refAll (cfg : CoCfg K) : List (CoInput K) → List (CoInput K) → List (List (List K))
  | _, [] => []
  | past, i :: is => refAlign cfg past i :: refAll cfg (past ++ [i]) is

/-- State of the window. -/
def DaInv (cfg : CoCfg K) (past : List (CoInput K)) (da : Bank (List K)) : Prop :=
  cfg.distAlign = false ∨ cfg.daLen = 0 ∨ BankInv cfg.daLen (past.map fun i => colMean cfg.classes i.probsU) da

theorem coAlign_eq (cfg : CoCfg K) (past : List (CoInput K)) (da : Bank (List K)) (h : DaInv cfg past da) (i : CoInput K) :
    (coAlign cfg da i.probsU i.probsL).1 = refAlign cfg past i ∧
      DaInv cfg (past ++ [i]) (coAlign cfg da i.probsU i.probsL).2 := by
  unfold coAlign refAlign
  by_cases hc : cfg.distAlign = false ∨ cfg.daLen = 0
  · rw [if_pos hc, if_pos hc]
    exact ⟨rfl, by rcases hc with hc | hc <;> simp [DaInv, hc]⟩
  · rw [if_neg hc, if_neg hc]
    have hb : BankInv cfg.daLen (past.map fun i => colMean cfg.classes i.probsU) da := by
      rcases h with h | h | h
      · exact absurd (.inl h) hc
      · exact absurd (.inr h) hc
      · exact h
    have hpos : 0 < cfg.daLen := Nat.pos_of_ne_zero fun h => hc (.inr h)
    have hw : windowPut da (colMean cfg.classes i.probsU) = bankWrite da [colMean cfg.classes i.probsU] :=
      windowPut_eq da (by rw [hb.ptr_eq, hb.size_eq]; exact Nat.mod_lt _ hpos) _
    have hb' := bankWrite_inv _ _ _ hb [colMean cfg.classes i.probsU]
    rw [List.take_of_length_le (show [colMean cfg.classes i.probsU].length ≤ cfg.daLen from hpos)] at hb'
    have hp := bankRead_rotate _ _ _ hb'
    refine ⟨?_, .inr (.inr (by simpa [hw] using hb'))⟩
    simp only [hw]
    rw [colMean_perm _ _ _ (List.rotate_perm _ _).symm, hp]
    simp [refState]

theorem coRun_inv (sqrt exp : K → K) (cfg : CoCfg K) : ∀ (is past : List (CoInput K)) (log : List (CoRow K)) (st : CoState K),
    BankInv cfg.queueSize log st.bank → DaInv cfg past st.da →
    (coRun sqrt exp cfg st is).1.length = is.length ∧ (refAll cfg past is).length = is.length ∧
    ∀ (t : Nat) (i : CoInput K), is[t]? = some i →
      (refAll cfg past is)[t]? = some (refAlign cfg (past ++ is.take t) i) ∧
      ∃ b : Bank (CoRow K), BankInv cfg.queueSize
        (log ++ (((is.zip (refAll cfg past is)).take t).map fun p =>
          (storedRows sqrt cfg.classes p.1 p.2).take cfg.queueSize).flatten) b ∧
        (coRun sqrt exp cfg st is).1[t]? =
          some (List.zipWith (smoothRow exp cfg b) (refAlign cfg (past ++ is.take t) i) (i.featsU.map (l2Row sqrt))) := by
  intro is
  induction is with
  | nil => intro past log st _ _; exact ⟨rfl, rfl, fun t i h => by simp at h⟩
  | cons i is ih =>
    intro past log st hb hd
    obtain ⟨ha, hd'⟩ := coAlign_eq cfg past st.da hd i
    have hstored : storedRows sqrt cfg.classes i (refAlign cfg past i) =
        (i.featsU.map (l2Row sqrt)).zip (coAlign cfg st.da i.probsU i.probsL).1 ++
          (i.featsL.map (l2Row sqrt)).zip (i.labels.map (hotRow cfg.classes)) := by
      rw [ha]
      have : (unitRow sqrt : List K → List K) = l2Row sqrt := by
        funext f
        unfold unitRow l2Row dotRow
        rw [List.zipWith_self]
      unfold storedRows
      rw [this]
      rfl
    have hb' := bankWrite_inv _ _ _ hb (storedRows sqrt cfg.classes i (refAlign cfg past i))
    obtain ⟨i1, i2, i3⟩ := ih (past ++ [i]) _ (coStep sqrt exp cfg st i).2 (by rw [hstored] at hb'; exact hb') hd'
    refine ⟨by simpa [coRun] using i1, by simpa [refAll] using i2, ?_⟩
    intro t i' ht
    cases t with
    | zero =>
      simp only [List.getElem?_cons_zero, Option.some.injEq] at ht
      subst ht
      refine ⟨by simp [refAll], st.bank, by simpa using hb, ?_⟩
      simp only [coRun, List.getElem?_cons_zero, coStep, ha, List.take_zero, List.append_nil]
    | succ t =>
      simp only [List.getElem?_cons_succ] at ht
      obtain ⟨j1, b, j2, j3⟩ := i3 t i' ht
      refine ⟨by simpa [refAll] using j1, b, ?_, by simpa [coRun] using j3⟩
      rw [← hstored] at j2
      simpa [refAll, List.append_assoc] using j2

/-! ## Smoothing -/

theorem recall_get (exp : K → K) (T : K) (C : Nat) (M : List (CoRow K)) (f : List K) (c : Nat) (hc : c < C) :
    (recall exp T C M f).getD c 0 = memoryLabel exp T M f c := by
  unfold recall memoryLabel
  simp only
  rw [List.getD_eq_getElem _ _ (by simpa using hc), List.getElem_map, List.getElem_range]
  unfold normRow
  rw [List.map_map, List.zipWith_map_left, List.zipWith_self]
  simp only [Function.comp_def, div_eq_mul_inv]
  rw [← List.sum_map_mul_right]
  congr 1
  refine List.map_congr_left fun r _ => ?_
  ring

theorem memoryLabel_perm (exp : K → K) (T : K) (M M' : List (CoRow K)) (h : M.Perm M') (f : List K) (c : Nat) :
    memoryLabel exp T M f c = memoryLabel exp T M' f c := by
  unfold memoryLabel
  rw [(h.map _).sum_eq, (h.map (fun r : CoRow K => exp (dotRow f r.1 / T))).sum_eq]

theorem recall_sum (exp : K → K) (T : K) (C : Nat) (M : List (CoRow K)) (hM : ∀ r ∈ M, r.2.length = C) (f : List K) :
    (recall exp T C M f).sum = (M.map fun r => exp (dotRow f r.1 / T) * r.2.sum).sum /
      max (M.map fun r => exp (dotRow f r.1 / T)).sum (1 / 10 ^ 12) := by
  have h1 : recall exp T C M f = (List.range C).map fun c => memoryLabel exp T M f c := by
    refine List.ext_getElem (by simp [recall]) fun c h1 h2 => ?_
    have hc : c < C := by simpa [recall] using h1
    have := recall_get exp T C M f c hc
    rw [List.getD_eq_getElem _ _ h1] at this
    simpa using this
  rw [h1]
  unfold memoryLabel
  simp only [div_eq_mul_inv]
  rw [List.sum_map_mul_right]
  congr 1
  clear h1
  induction M with
  | nil => simp
  | cons r M ih =>
    simp only [List.map_cons, List.sum_cons]
    rw [← ih (fun r' h' => hM r' (List.mem_cons_of_mem _ h')), List.sum_map_add, List.sum_map_mul_left,
      sum_range_getD r.2 C (hM r List.mem_cons_self)]

theorem recall_sub (exp : K → K) (he : Transductive.Spec.ExpLaw exp) (T : K) (C : Nat) (M : List (CoRow K))
    (hM : ∀ r ∈ M, IsSubDist C r.2) (f : List K) : IsSubDist C (recall exp T C M f) := by
  refine ⟨by simp [recall], ?_, ?_⟩
  · intro p hp
    obtain ⟨c, hc, rfl⟩ := List.getElem_of_mem hp
    have hcC : c < C := by simpa [recall] using hc
    have := recall_get exp T C M f c hcC
    rw [List.getD_eq_getElem _ _ hc] at this
    rw [this]
    refine div_nonneg (sum_map_nonneg _ _ fun r hr => mul_nonneg (he.pos _).le ?_) (denom_pos _).le
    rw [List.getD_eq_getElem _ _ (by rw [(hM r hr).1]; exact hcC)]
    exact (hM r hr).2.1 _ (List.getElem_mem _)
  · rw [recall_sum exp T C M (fun r hr => (hM r hr).1)]
    rw [div_le_one (denom_pos _)]
    refine le_trans (List.sum_le_sum fun r hr => ?_) (le_max_left _ _)
    have := (hM r hr).2.2
    have := (he.pos (dotRow f r.1 / T)).le
    nlinarith

theorem mix_get (a : K) (p q : List K) (C : Nat) (hp : p.length = C) (hq : q.length = C) (c : Nat) (hc : c < C) :
    (List.zipWith (fun x y => a * x + (1 - a) * y) p q).getD c 0 = a * p.getD c 0 + (1 - a) * q.getD c 0 := by
  rw [List.getD_eq_getElem _ _ (by simp; omega), List.getD_eq_getElem _ _ (by omega), List.getD_eq_getElem _ _ (by omega)]
  simp

theorem mix_sum (a : K) : ∀ (p q : List K), p.length = q.length →
    (List.zipWith (fun x y => a * x + (1 - a) * y) p q).sum = a * p.sum + (1 - a) * q.sum
  | [], [], _ => by simp
  | x :: p, y :: q, h => by
    simp only [List.zipWith_cons_cons, List.sum_cons]
    rw [mix_sum a p q (by simpa using h)]
    ring

theorem mix_nonneg (a : K) (h0 : 0 ≤ a) (h1 : a ≤ 1) (p q : List K) (hp : ∀ x ∈ p, 0 ≤ x) (hq : ∀ x ∈ q, 0 ≤ x) :
    ∀ x ∈ List.zipWith (fun x y => a * x + (1 - a) * y) p q, 0 ≤ x := by
  intro x hx
  obtain ⟨c, hc, rfl⟩ := List.getElem_of_mem hx
  rw [List.getElem_zipWith]
  have h2 := hp _ (List.getElem_mem (l := p) (n := c) (by simp at hc; omega))
  have h3 := hq _ (List.getElem_mem (l := q) (n := c) (by simp at hc; omega))
  have : 0 ≤ 1 - a := by linarith
  positivity

theorem smoothRow_sub (exp : K → K) (he : Transductive.Spec.ExpLaw exp) (cfg : CoCfg K) (h0 : 0 ≤ cfg.alpha)
    (b : Bank (CoRow K)) (hM : ∀ r ∈ bankRead b, IsSubDist cfg.classes r.2) (p f : List K) (hp : IsSubDist cfg.classes p) :
    IsSubDist cfg.classes (smoothRow exp cfg b p f) := by
  unfold smoothRow
  split_ifs with h1 h2 h3 h4
  · exact hp
  · exact hp
  · exact hp
  · exact hp
  · obtain ⟨r1, r2, r3⟩ := recall_sub exp he cfg.temp cfg.classes _ hM f
    rw [not_le] at h4
    refine ⟨by simp [hp.1, r1], mix_nonneg _ h0 h4.le _ _ hp.2.1 r2, ?_⟩
    rw [mix_sum _ _ _ (by rw [hp.1, r1])]
    have := hp.2.2
    nlinarith

/-- In the rows kept by the memory. -/
theorem mem_of_inv {α : Type} (size : Nat) (log : List α) (b : Bank α) (h : BankInv size log b) (x : α) (hx : x ∈ bankRead b) :
    x ∈ log := by
  have := (List.rotate_perm (bankRead b) b.ptr).mem_iff.mpr hx
  rw [bankRead_rotate _ _ _ h] at this
  exact List.mem_of_mem_drop this

theorem lastN_map {α β : Type} (f : α → β) (n : Nat) (l : List α) : lastN n (l.map f) = (lastN n l).map f := by
  simp [lastN, List.map_drop]

theorem lastN_ne {α : Type} (n : Nat) (hn : 0 < n) (l : List α) (h : l ≠ []) : lastN n l ≠ [] := by
  intro he
  have : 0 < l.length := List.length_pos_iff.mpr h
  have h2 := congrArg List.length he
  simp [lastN] at h2
  omega

theorem hotRow_dist (C y : Nat) (hy : y < C) : IsDistN C (hotRow C y : List K) := by
  refine ⟨by simp [hotRow], ?_, ?_⟩
  · intro x hx
    obtain ⟨c, -, rfl⟩ := List.mem_map.mp hx
    split <;> simp
  · unfold hotRow
    rw [List.sum_map_ite_eq]
    simp [hy]

theorem refState_dist (cfg : CoCfg K) (hC : 0 < cfg.classes) (hL : 0 < cfg.daLen) (past : List (CoInput K)) (i : CoInput K)
    (D : Nat) (hp : ∀ i' ∈ past ++ [i], CoOutputs cfg.classes D i') :
    IsDistN cfg.classes (refState cfg past i).pModel ∧ IsDistN cfg.classes (refState cfg past i).pTarget := by
  constructor
  · apply colMean_dist
    refine ⟨lastN_ne _ hL _ (by simp), fun r hr => ?_⟩
    have := List.mem_of_mem_drop hr
    obtain ⟨i', hi', rfl⟩ := List.mem_map.mp this
    exact colMean_dist _ _ (hp i' hi').unlabeled
  · unfold refState
    simp only
    split
    · exact uniform_dist _ hC
    · exact colMean_dist _ _ (hp i (by simp)).labeled

theorem dist_sub (C : Nat) (p : List K) (h : IsDistN C p) : IsSubDist C p := ⟨h.1, h.2.1, h.2.2.le⟩

theorem refAlign_aligned (cfg : CoCfg K) (hC : 0 < cfg.classes) (past : List (CoInput K)) (i : CoInput K)
    (D : Nat) (hp : ∀ i' ∈ past ++ [i], CoOutputs cfg.classes D i') : IsAligned cfg past i (refAlign cfg past i) := by
  unfold IsAligned refAlign
  have hr : ∀ r ∈ i.probsU, IsDistN cfg.classes r := (hp i (by simp)).unlabeled.2
  by_cases hc : cfg.distAlign = false ∨ cfg.daLen = 0
  · rw [if_pos hc]
    refine ⟨rfl, fun j r hj => ⟨r, hj, dist_sub _ _ (hr r (List.mem_of_getElem? hj)), ?_⟩⟩
    rw [if_neg]
    rintro ⟨h1, h2⟩
    rcases hc with hc | hc
    · rw [hc] at h1; exact absurd h1 (by simp)
    · omega
  · rw [if_neg hc]
    have hL : 0 < cfg.daLen := Nat.pos_of_ne_zero fun h => hc (.inr h)
    obtain ⟨d1, d2⟩ := refState_dist cfg hC hL past i D hp
    refine ⟨by simp, fun j r hj => ⟨alignedRow (refState cfg past i) r, by rw [List.getElem?_map, hj]; rfl, ?_⟩⟩
    obtain ⟨s1, z, hz, hs⟩ := alignedRow_sub (refState cfg past i) cfg.classes d1.1 d2.1 d2.2.1 r
      (dist_sub _ _ (hr r (List.mem_of_getElem? hj)))
    refine ⟨s1, ?_⟩
    rw [if_pos ⟨by simpa using fun h => hc (.inl h), hL⟩]
    refine ⟨z, hz, fun c hcC => ?_⟩
    rw [hs c hcC]
    have e1 : (refState cfg past i).pModel.getD c 0 =
        ((lastN cfg.daLen (past ++ [i])).map fun i => meanProb c i.probsU).sum /
          ((lastN cfg.daLen (past ++ [i])).length : K) := by
      unfold refState
      simp only
      rw [colMean_get _ _ hcC, meanProb, lastN_map, List.map_map, List.length_map]
      congr 2
      exact List.map_congr_left fun i' _ => colMean_get _ _ hcC _
    have e2 : (refState cfg past i).pTarget.getD c 0 =
        if cfg.uniform then 1 / (cfg.classes : K) else meanProb c i.probsL := by
      unfold refState
      simp only
      split
      · exact uniform_get _ _ hcC
      · exact colMean_get _ _ hcC _
    rw [e1, e2]
    rfl

/-- What every row of the log satisfies. -/
theorem log_rows (sqrt : K → K) (cfg : CoCfg K) (P : List K → Prop) (hot : ∀ y < cfg.classes, P (hotRow cfg.classes y)) (D : Nat) :
    ∀ (l : List (CoInput K × List (List K))), (∀ p ∈ l, CoOutputs cfg.classes D p.1 ∧ ∀ a ∈ p.2, P a) →
    ∀ r ∈ (l.map fun p => (storedRows sqrt cfg.classes p.1 p.2).take cfg.queueSize).flatten,
      P r.2 ∧ ∃ f : List K, f.length = D ∧ r.1 = unitRow sqrt f := by
  intro l hl r hr
  rw [List.mem_flatten] at hr
  obtain ⟨rows, hrows, hr⟩ := hr
  obtain ⟨p, hp, rfl⟩ := List.mem_map.mp hrows
  obtain ⟨ho, ha⟩ := hl p hp
  have hr := List.mem_of_mem_take hr
  unfold storedRows at hr
  rcases List.mem_append.mp hr with hr | hr
  · obtain ⟨f, hf, he⟩ := List.mem_map.mp (List.of_mem_zip hr).1
    exact ⟨ha _ (List.of_mem_zip hr).2, f, ho.featsU.2 f hf, he.symm⟩
  · obtain ⟨f, hf, he⟩ := List.mem_map.mp (List.of_mem_zip hr).1
    obtain ⟨y, hy, he'⟩ := List.mem_map.mp (List.of_mem_zip hr).2
    refine ⟨?_, f, ho.featsL.2 f hf, he.symm⟩
    rw [← he']
    exact hot y (ho.labels.2 y hy)

theorem refAll_get (cfg : CoCfg K) : ∀ (is past : List (CoInput K)) (p : CoInput K × List (List K)),
    p ∈ is.zip (refAll cfg past is) → ∃ t, is[t]? = some p.1 ∧ p.2 = refAlign cfg (past ++ is.take t) p.1
  | [], _, p, h => by simp at h
  | i :: is, past, p, h => by
    rw [refAll, List.zip_cons_cons, List.mem_cons] at h
    rcases h with rfl | h
    · exact ⟨0, by simp, by simp⟩
    · obtain ⟨t, h1, h2⟩ := refAll_get cfg is (past ++ [i]) p h
      exact ⟨t + 1, by simpa using h1, by simpa using h2⟩

theorem take_mem {α : Type} (l : List α) (t : Nat) (x : α) (h : l[t]? = some x) : ∀ y ∈ l.take t ++ [x], y ∈ l := by
  intro y hy
  rcases List.mem_append.mp hy with hy | hy
  · exact List.mem_of_mem_take hy
  · rw [List.mem_singleton.mp hy]; exact List.mem_of_getElem? h

theorem refAlign_of (cfg : CoCfg K) (hC : 0 < cfg.classes) (D : Nat) (is : List (CoInput K))
    (hi : ∀ i ∈ is, CoOutputs cfg.classes D i) (t : Nat) (i : CoInput K) (ht : is[t]? = some i) :
    IsAligned cfg (is.take t) i (refAlign cfg (is.take t) i) :=
  refAlign_aligned cfg hC _ i D fun i' h' => hi i' (take_mem is t i ht i' h')

theorem aligned_rows (cfg : CoCfg K) (past : List (CoInput K)) (i : CoInput K) (A : List (List K)) (h : IsAligned cfg past i A) :
    ∀ a ∈ A, IsSubDist cfg.classes a := by
  intro a ha
  obtain ⟨j, hj, rfl⟩ := List.getElem_of_mem ha
  have hj' : j < i.probsU.length := by rw [← h.1]; exact hj
  obtain ⟨a', h1, h2, -⟩ := h.2 j i.probsU[j] (List.getElem?_eq_getElem hj')
  rw [List.getElem?_eq_getElem hj, Option.some.injEq] at h1
  rw [h1]; exact h2

/-- **C119 (pseudo-labels).**  In every step of a training run the pseudo-labels are the aligned predictions, mixed with
the labels the memory proposes as soon as the memory is filled far enough.  Alignment divides by the average of the mean
predictions of the last `da_len` steps; the memory contains (in some order) the last `queue_size` rows stored by earlier
steps, of each step at most the first `queue_size`.  All pseudo-labels are non-negative with sum at most one. -/
theorem C119_pseudo (sqrt exp : K → K) (he : Transductive.Spec.ExpLaw exp) (cfg : CoCfg K) (hC : 0 < cfg.classes)
    (h0 : 0 ≤ cfg.alpha) (D : Nat) (is : List (CoInput K)) (hi : ∀ i ∈ is, CoOutputs cfg.classes D i) :
    (coRun sqrt exp cfg (coInit cfg) is).1.length = is.length ∧
    ∃ As : List (List (List K)), As.length = is.length ∧
    ∀ (t : Nat) (i : CoInput K), is[t]? = some i → ∃ A, As[t]? = some A ∧ IsAligned cfg (is.take t) i A ∧
      ∃ M : List (CoRow K), M.Perm (lastN cfg.queueSize (((is.zip As).take t).map fun p =>
          (storedRows sqrt cfg.classes p.1 p.2).take cfg.queueSize).flatten) ∧
      ∃ out, (coRun sqrt exp cfg (coInit cfg) is).1[t]? = some out ∧ out.length = i.probsU.length ∧
      ∀ (j : Nat) (a f : List K), A[j]? = some a → i.featsU[j]? = some f → ∃ p, out[j]? = some p ∧ IsSubDist cfg.classes p ∧
        ∀ c < cfg.classes, p.getD c 0 = if M = [] ∨ M.length < cfg.minFill ∨ 1 ≤ cfg.alpha then a.getD c 0
          else cfg.alpha * a.getD c 0 + (1 - cfg.alpha) * memoryLabel exp cfg.temp M (unitRow sqrt f) c := by
  obtain ⟨l1, l2, h⟩ := coRun_inv sqrt exp cfg is [] [] (coInit cfg) (bankInit_inv _ _) (.inr (.inr (bankInit_inv _ _)))
  refine ⟨l1, refAll cfg [] is, l2, fun t i ht => ?_⟩
  obtain ⟨h1, b, hb, hout⟩ := h t i ht
  rw [List.nil_append] at h1 hb hout
  have hal := refAlign_of cfg hC D is hi t i ht
  have hio := hi i (List.mem_of_getElem? ht)
  have hM : ∀ r ∈ bankRead b, IsSubDist cfg.classes r.2 := by
    intro r hr
    refine (log_rows sqrt cfg (IsSubDist cfg.classes) (fun y hy => dist_sub _ _ (hotRow_dist _ y hy)) D _ ?_ r
      (mem_of_inv _ _ b hb r hr)).1
    intro p hp
    obtain ⟨s, hs1, hs2⟩ := refAll_get cfg is [] p (List.mem_of_mem_take hp)
    refine ⟨hi _ (List.mem_of_getElem? hs1), ?_⟩
    rw [hs2, List.nil_append]
    exact aligned_rows _ _ _ _ (refAlign_of cfg hC D is hi s p.1 hs1)
  refine ⟨_, h1, hal, bankRead b, ?_, _, hout, ?_, ?_⟩
  · rw [← bankRead_rotate _ _ _ hb]; exact (List.rotate_perm _ _).symm
  · rw [List.length_zipWith, hal.1, List.length_map, hio.featsU.1, Nat.min_self]
  · intro j a f ha hf
    have hsub := aligned_rows _ _ _ _ hal a (List.mem_of_getElem? ha)
    refine ⟨smoothRow exp cfg b a (l2Row sqrt f), ?_, smoothRow_sub exp he cfg h0 b hM a _ hsub, ?_⟩
    · rw [List.getElem?_zipWith, ha, List.getElem?_map, hf]; rfl
    · intro c hc
      have hlen : (bankRead b).length = b.count := by
        unfold bankRead
        rw [List.length_take, hb.size_eq, hb.count_eq]; omega
      have hnil : bankRead b = [] ↔ b.count = 0 := by rw [← List.length_eq_zero_iff, hlen]
      have hz : b.slots.length = 0 → b.count = 0 := by
        intro h0
        rw [hb.size_eq] at h0
        rw [hb.count_eq, h0, Nat.zero_min]
      have hu : l2Row sqrt f = unitRow sqrt f := by unfold unitRow l2Row dotRow; rw [List.zipWith_self]
      rw [← hu]
      unfold smoothRow
      by_cases hcond : bankRead b = [] ∨ (bankRead b).length < cfg.minFill ∨ 1 ≤ cfg.alpha
      · rw [if_pos hcond]
        rw [hnil, hlen] at hcond
        split_ifs with g1 g2 g3 g4
        · rfl
        · rfl
        · rfl
        · rfl
        · exfalso
          rcases hcond with hc' | hc' | hc'
          · exact g2 hc'
          · exact g3 ⟨by omega, hc'⟩
          · exact g4 hc'
      · rw [if_neg hcond]
        rw [hnil, hlen, not_or, not_or] at hcond
        rw [if_neg (fun h => hcond.1 (hz h)), if_neg hcond.1, if_neg (fun h => hcond.2.1 h.2), if_neg hcond.2.2,
          mix_get _ _ _ cfg.classes hsub.1 (by simp [recall]) c hc, recall_get _ _ _ _ _ _ hc]

/-! ## When pseudo-labels are distributions -/

theorem sq_sum_unit (sqrt : K → K) (hs : Transductive.Spec.SqrtLaw sqrt) (f : List K) :
    ((unitRow sqrt f).map fun y => y * y).sum ≤ 1 := by
  unfold unitRow
  set S := (f.map fun y => y * y).sum with hS
  have hS0 : 0 ≤ S := sum_map_nonneg _ _ fun x _ => mul_self_nonneg x
  set d := max (sqrt S) (1 / 10 ^ 12) with hd
  have hd0 : 0 < d := denom_pos _
  have : ((f.map fun x => x / d).map fun y => y * y).sum = S / (d * d) := by
    rw [List.map_map, hS]
    simp only [Function.comp_def, div_mul_div_comm]
    simp only [div_eq_mul_inv, List.sum_map_mul_right]
  rw [this, div_le_one (by positivity)]
  rcases hS0.eq_or_lt with h | h
  · rw [← h]; positivity
  · obtain ⟨h1, h2⟩ := hs S h
    have h3 : sqrt S ≤ d := le_max_left _ _
    calc S = sqrt S * sqrt S := h2.symm
      _ ≤ d * d := mul_le_mul h3 h3 h1.le hd0.le

theorem dot_ge (x y : List K) (hx : (x.map fun a => a * a).sum ≤ 1) (hy : (y.map fun a => a * a).sum ≤ 1) : -1 ≤ dotRow x y := by
  have key : ∀ x y : List K, -((x.map fun a => a * a).sum + (y.map fun a => a * a).sum) ≤ 2 * dotRow x y := by
    intro x
    induction x with
    | nil =>
      intro y
      have := sum_map_nonneg (fun a : K => a * a) y fun x _ => mul_self_nonneg x
      simp [dotRow]
      exact this
    | cons a x ih =>
      intro y
      cases y with
      | nil =>
        have := sum_map_nonneg (fun a : K => a * a) (a :: x) fun x _ => mul_self_nonneg x
        simp only [dotRow, List.zipWith_nil_right, List.sum_nil, List.map_nil]
        linarith
      | cons b y =>
        have := ih y
        have h2 := mul_self_nonneg (a + b)
        simp only [dotRow, List.map_cons, List.sum_cons, List.zipWith_cons_cons] at this ⊢
        nlinarith
  have := key x y
  linarith

theorem recall_dist (sqrt exp : K → K) (hs : Transductive.Spec.SqrtLaw sqrt) (he : Transductive.Spec.ExpLaw exp) (T : K) (hT : 0 < T)
    (hfloor : 1 / 10 ^ 12 ≤ exp (-1 / T)) (C : Nat) (M : List (CoRow K)) (hne : M ≠ [])
    (hM : ∀ r ∈ M, IsDistN C r.2 ∧ ∃ g : List K, r.1 = unitRow sqrt g) (f : List K) :
    (recall exp T C M (unitRow sqrt f)).sum = 1 := by
  rw [recall_sum exp T C M (fun r hr => (hM r hr).1.1)]
  have h1 : (M.map fun r => exp (dotRow (unitRow sqrt f) r.1 / T) * r.2.sum) =
      M.map fun r => exp (dotRow (unitRow sqrt f) r.1 / T) :=
    List.map_congr_left fun r hr => by rw [(hM r hr).1.2.2, mul_one]
  rw [h1]
  have h2 : 1 / 10 ^ 12 ≤ (M.map fun r => exp (dotRow (unitRow sqrt f) r.1 / T)).sum := by
    obtain ⟨r, M', rfl⟩ := List.exists_cons_of_ne_nil hne
    rw [List.map_cons, List.sum_cons]
    have hrest := sum_map_nonneg (fun r : CoRow K => exp (dotRow (unitRow sqrt f) r.1 / T)) M' fun _ _ => (he.pos _).le
    obtain ⟨-, g, hg⟩ := hM r List.mem_cons_self
    have hdot : -1 ≤ dotRow (unitRow sqrt f) r.1 := by
      rw [hg]; exact dot_ge _ _ (sq_sum_unit sqrt hs f) (sq_sum_unit sqrt hs g)
    have hle : -1 / T ≤ dotRow (unitRow sqrt f) r.1 / T := div_le_div_of_nonneg_right hdot hT.le
    have hmono : exp (-1 / T) ≤ exp (dotRow (unitRow sqrt f) r.1 / T) := by
      rcases hle.eq_or_lt with h | h
      · rw [h]
      · exact (he.mono _ _ h).le
    linarith
  rw [max_eq_left h2, div_self]
  exact ne_of_gt (lt_of_lt_of_le (by positivity) h2)

/-- **C119 (partial: when pseudo-labels are distributions).**  With a uniform target (or without alignment), at most
`1e12` classes and a temperature for which `exp (-1 / T)` is at least `1e-12` (`T` above 0.0362), every pseudo-label of
every step is a distribution.  Missing: other temperatures and targets, see `C119_mass_violated`. -/
theorem C119_dist_partial (sqrt exp : K → K) (hs : Transductive.Spec.SqrtLaw sqrt) (he : Transductive.Spec.ExpLaw exp)
    (cfg : CoCfg K) (hC : 0 < cfg.classes) (hC' : cfg.classes ≤ 10 ^ 12) (h0 : 0 ≤ cfg.alpha) (hT : 0 < cfg.temp)
    (hfloor : 1 / 10 ^ 12 ≤ exp (-1 / cfg.temp)) (huni : cfg.uniform = true ∨ cfg.distAlign = false) (D : Nat)
    (is : List (CoInput K)) (hi : ∀ i ∈ is, CoOutputs cfg.classes D i) :
    ∀ out ∈ (coRun sqrt exp cfg (coInit cfg) is).1, ∀ p ∈ out, IsDistN cfg.classes p := by
  obtain ⟨l1, -, h⟩ := coRun_inv sqrt exp cfg is [] [] (coInit cfg) (bankInit_inv _ _) (.inr (.inr (bankInit_inv _ _)))
  intro out hout p hp
  obtain ⟨t, ht, rfl⟩ := List.getElem_of_mem hout
  have htis : t < is.length := by rw [← l1]; exact ht
  obtain ⟨-, b, hb, hout⟩ := h t is[t] (List.getElem?_eq_getElem htis)
  rw [List.getElem?_eq_getElem ht, Option.some.injEq] at hout
  rw [hout] at hp
  simp only [List.nil_append] at hb hp
  have hadist : ∀ s (i : CoInput K), is[s]? = some i → ∀ a ∈ refAlign cfg (is.take s) i, IsDistN cfg.classes a := by
    intro s i hs' a ha
    have hio := fun i' h' => hi i' (take_mem is s i hs' i' h')
    have hru : ∀ r ∈ i.probsU, IsDistN cfg.classes r := (hi i (List.mem_of_getElem? hs')).unlabeled.2
    unfold refAlign at ha
    by_cases hc : cfg.distAlign = false ∨ cfg.daLen = 0
    · rw [if_pos hc] at ha; exact hru a ha
    · rw [if_neg hc] at ha
      obtain ⟨r, hr, rfl⟩ := List.mem_map.mp ha
      have hL : 0 < cfg.daLen := Nat.pos_of_ne_zero fun h => hc (.inr h)
      obtain ⟨d1, d2⟩ := refState_dist cfg hC hL _ i D hio
      refine alignedRow_dist _ _ d1 d2 (fun c hcC => ?_) r (hru r hr)
      have hu : cfg.uniform = true := huni.resolve_right fun h => hc (.inl h)
      unfold refState
      simp only [hu, if_true]
      rw [uniform_get _ _ hcC]
      have : (cfg.classes : K) ≤ 10 ^ 12 := by exact_mod_cast hC'
      exact one_div_le_one_div_of_le (by exact_mod_cast hC) this
  have hM : ∀ r ∈ bankRead b, IsDistN cfg.classes r.2 ∧ ∃ g : List K, r.1 = unitRow sqrt g := by
    intro r hr
    obtain ⟨q1, f, -, q2⟩ := log_rows sqrt cfg (IsDistN cfg.classes) (fun y hy => hotRow_dist _ y hy) D _ (by
      intro p hp
      obtain ⟨s, hs1, hs2⟩ := refAll_get cfg is [] p (List.mem_of_mem_take hp)
      refine ⟨hi _ (List.mem_of_getElem? hs1), ?_⟩
      rw [hs2, List.nil_append]
      exact hadist s p.1 hs1) r (mem_of_inv _ _ b hb r hr)
    exact ⟨q1, f, q2⟩
  obtain ⟨j, hj, rfl⟩ := List.getElem_of_mem hp
  rw [List.getElem_zipWith]
  have ha := hadist t is[t] (List.getElem?_eq_getElem htis) _
    (List.getElem_mem (l := refAlign cfg (is.take t) is[t]) (n := j) (by simp at hj; omega))
  obtain ⟨q1, q2, -⟩ := smoothRow_sub exp he cfg h0 b (fun r hr => dist_sub _ _ (hM r hr).1)
    _ ((is[t].featsU.map (l2Row sqrt))[j]'(by simp at hj ⊢; omega)) (dist_sub _ _ ha)
  refine ⟨q1, q2, ?_⟩
  clear q1 q2
  unfold smoothRow
  split_ifs with g1 g2 g3 g4
  · exact ha.2.2
  · exact ha.2.2
  · exact ha.2.2
  · exact ha.2.2
  · rw [mix_sum _ _ _ (by rw [ha.1]; simp [recall]), ha.2.2]
    have hne : bankRead b ≠ [] := by
      intro h
      have := congrArg List.length h
      unfold bankRead at this
      rw [List.length_take, List.length_nil] at this
      omega
    have hu : ∀ f : List K, l2Row sqrt f = unitRow sqrt f := by
      intro f; unfold unitRow l2Row dotRow; rw [List.zipWith_self]
    rw [List.getElem_map, hu, recall_dist sqrt exp hs he cfg.temp hT hfloor cfg.classes _ hne hM]
    ring

/-! ## Pseudo-label graph -/

theorem dotRow_nonneg (x y : List K) (hx : ∀ a ∈ x, 0 ≤ a) (hy : ∀ a ∈ y, 0 ≤ a) : 0 ≤ dotRow x y := by
  apply List.sum_nonneg
  intro z hz
  obtain ⟨c, hc, rfl⟩ := List.getElem_of_mem hz
  rw [List.getElem_zipWith]
  exact mul_nonneg (hx _ (List.getElem_mem _)) (hy _ (List.getElem_mem _))

/-- **C119 (graph).**  For non-negative pseudo-labels and a threshold of at most one, the pseudo-label graph is a square
matrix with non-negative rows of sum one; every sample is its own neighbour; two different samples are neighbours exactly
if the inner product of their pseudo-labels is positive and reaches the threshold, and the weights of the neighbours are
proportional to these products (1 for the sample itself). -/
theorem C119_graph (threshold : K) (h1 : threshold ≤ 1) (probs : List (List K)) (hp : ∀ p ∈ probs, ∀ x ∈ p, 0 ≤ x) :
    (pseudoGraph threshold probs).length = probs.length ∧
    ∀ (i : Nat) (pi : List K), probs[i]? = some pi → ∃ row, (pseudoGraph threshold probs)[i]? = some row ∧
      row.length = probs.length ∧ row.sum = 1 ∧ (∀ x ∈ row, 0 ≤ x) ∧ 0 < row.getD i 0 ∧
      ∀ (j : Nat) (pj : List K), probs[j]? = some pj → j ≠ i →
        (0 < row.getD j 0 ↔ 0 < dotRow pi pj ∧ threshold ≤ dotRow pi pj) ∧
        (0 < row.getD j 0 → row.getD j 0 = dotRow pi pj * row.getD i 0) := by
  refine ⟨by simp [pseudoGraph], fun i pi hpi => ?_⟩
  have hi : i < probs.length := (List.getElem?_eq_some_iff.mp hpi).1
  set raw := (List.range probs.length).map (graphEntry threshold probs i) with hraw
  have hgetD : ∀ (j : Nat) (pj : List K), probs[j]? = some pj → probs.getD j [] = pj := by
    intro j pj h; rw [List.getD_eq_getElem?_getD, h]; rfl
  have hentry : ∀ (j : Nat) (pj : List K), probs[j]? = some pj → j ≠ i → graphEntry threshold probs i j =
      if threshold ≤ dotRow pi pj then dotRow pi pj else 0 := by
    intro j pj hpj hj
    have hnn : 0 ≤ dotRow pi pj := dotRow_nonneg _ _ (hp _ (List.mem_of_getElem? hpi)) (hp _ (List.mem_of_getElem? hpj))
    unfold graphEntry
    simp only [if_neg (Ne.symm hj), hgetD _ _ hpi, hgetD _ _ hpj, sub_zero, mul_one, add_zero]
    by_cases ht : 0 < threshold
    · rw [if_pos ht]; split <;> simp
    · rw [if_neg ht, if_pos (le_trans (not_lt.mp ht) hnn)]
  have hdiag : graphEntry threshold probs i i = 1 := by
    unfold graphEntry
    simp [h1]
  have hnn : ∀ x ∈ raw, 0 ≤ x := by
    intro x hx
    obtain ⟨j, hj, rfl⟩ := List.mem_map.mp hx
    rw [List.mem_range] at hj
    by_cases hji : j = i
    · rw [hji, hdiag]; exact zero_le_one
    · rw [hentry j _ (List.getElem?_eq_getElem hj) hji]
      split
      · exact dotRow_nonneg _ _ (hp _ (List.mem_of_getElem? hpi)) (hp _ (List.getElem_mem _))
      · exact le_refl _
  have hsum : 1 ≤ raw.sum := by
    have hm : graphEntry threshold probs i i ∈ raw := List.mem_map.mpr ⟨i, by simpa using hi, rfl⟩
    rw [← hdiag]
    exact List.single_le_sum hnn _ hm
  have hmax : max raw.sum (1 / 10 ^ 12) = raw.sum := max_eq_left (le_trans (by norm_num) hsum)
  have hpos : 0 < raw.sum := lt_of_lt_of_le one_pos hsum
  have hrow : ∀ j < probs.length, (normRow raw).getD j 0 = graphEntry threshold probs i j / raw.sum := by
    intro j hj
    unfold normRow
    rw [hmax, List.getD_eq_getElem _ _ (by simpa [hraw] using hj), List.getElem_map]
    simp [hraw]
  refine ⟨normRow raw, ?_, by simp [normRow, hraw], ?_, ?_, ?_, ?_⟩
  · unfold pseudoGraph
    rw [List.getElem?_map, List.getElem?_range hi]; rfl
  · rw [normRow_sum, hmax, div_self (ne_of_gt hpos)]
  · intro x hx
    unfold normRow at hx
    obtain ⟨y, hy, rfl⟩ := List.mem_map.mp hx
    rw [hmax]
    exact div_nonneg (hnn y hy) hpos.le
  · rw [hrow i hi, hdiag]; positivity
  · intro j pj hpj hj
    have hjl : j < probs.length := (List.getElem?_eq_some_iff.mp hpj).1
    rw [hrow j hjl, hrow i hi, hdiag, hentry j pj hpj hj, div_pos_iff_of_pos_right hpos]
    by_cases ht : threshold ≤ dotRow pi pj
    · rw [if_pos ht]
      exact ⟨⟨fun h => ⟨h, ht⟩, fun h => h.1⟩, fun _ => by rw [mul_one_div]⟩
    · rw [if_neg ht]
      exact ⟨⟨fun h => absurd h (lt_irrefl _), fun h => absurd h.2 ht⟩, fun h => absurd h (lt_irrefl _)⟩

/-! ## Cases -/

/-- The settings of the witness: queue of two rows, one feature, two classes, no alignment, temperature 0.01. -/
noncomputable def coldCfg : CoCfg ℝ := ⟨2, 0, 9 / 10, 1 / 100, 0, false, true, 2, 1⟩

/-- First step of the witness: one unlabeled and one labeled sample, both with feature -1. -/
noncomputable def coldFirst : CoInput ℝ := ⟨[[1, 0]], [[1, 0]], [[-1]], [[-1]], [0]⟩

/-- Second step of the witness: the unlabeled sample has feature 1. -/
noncomputable def coldSecond : CoInput ℝ := ⟨[[1, 0]], [[1, 0]], [[1]], [[1]], [0]⟩

theorem exp_cold : Real.exp (-100) ≤ 1 / 10 ^ 24 := by
  have h : (2 : ℝ) ≤ Real.exp 1 := by have := Real.add_one_le_exp (1 : ℝ); linarith
  have h2 : (2 : ℝ) ^ 100 ≤ Real.exp 100 := by
    have := pow_le_pow_left₀ (by norm_num) h 100
    rwa [← Real.exp_nat_mul, show ((100 : ℕ) : ℝ) * 1 = 100 by norm_num] at this
  rw [Real.exp_neg, ← one_div]
  apply one_div_le_one_div_of_le (by positivity)
  exact le_trans (by norm_num) h2

/-- **C119 (violated).**  At a low temperature pseudo-labels lose their mass: here, with the exponential function itself,
both predictions and all stored labels are distributions, but the pseudo-label of the second step sums to less than
0.91, so it can stay below `p_cutoff` although the network and the memory are certain. -/
theorem C119_mass_violated : (∀ i ∈ [coldFirst, coldSecond], CoOutputs 2 1 i) ∧
    ∃ o p, (coRun Real.sqrt Real.exp coldCfg (coInit coldCfg) [coldFirst, coldSecond]).1 = [o, [p]] ∧ p.sum < 91 / 100 := by
  constructor
  · intro i hi
    simp only [List.mem_cons, List.not_mem_nil, or_false] at hi
    rcases hi with rfl | rfl <;>
    · constructor <;>
        simp [coldFirst, coldSecond, IsBatch, IsDistN, IsDist]
  · have he := exp_cold
    have hp := Real.exp_pos (-100 : ℝ)
    have hm : max (1 : ℝ) (1 / 10 ^ 12) = 1 := max_eq_left (by norm_num)
    have hl : ∀ x : ℝ, x * x = 1 → l2Row Real.sqrt [x] = [x] := by
      intro x hx
      simp only [l2Row, dotRow, List.zipWith_cons_cons, List.zipWith_nil_left, List.sum_singleton, List.map_cons,
        List.map_nil, hx, Real.sqrt_one, hm, div_one]
    have h1 := hl (-1) (by norm_num)
    have h2 := hl 1 (by norm_num)
    have hb : (coStep Real.sqrt Real.exp coldCfg (coInit coldCfg) coldFirst).2.bank =
        ⟨[([-1], [1, 0]), ([-1], [1, 0])], 0, 2⟩ := by
      simp [coStep, coAlign, coInit, bankInit, bankWrite, bankPut, coldCfg, coldFirst, h1, hotRow, List.range_succ]
    have hs : smoothRow Real.exp coldCfg ⟨[([-1], [1, 0]), ([-1], [1, 0])], 0, 2⟩ [1, 0] [1] =
        [9 / 10 + (1 - 9 / 10) * (Real.exp (-100) / max (Real.exp (-100) + Real.exp (-100)) (1 / 10 ^ 12) +
          Real.exp (-100) / max (Real.exp (-100) + Real.exp (-100)) (1 / 10 ^ 12)), 0] := by
      have hq : ((-1 : ℝ) / (1 / 100)) = -100 := by norm_num
      simp [smoothRow, coldCfg, recall, bankRead, normRow, dotRow, List.range_succ]
      norm_num
    have hout : (coRun Real.sqrt Real.exp coldCfg (coInit coldCfg) [coldFirst, coldSecond]).1 =
        [(coStep Real.sqrt Real.exp coldCfg (coInit coldCfg) coldFirst).1, [smoothRow Real.exp coldCfg
          (coStep Real.sqrt Real.exp coldCfg (coInit coldCfg) coldFirst).2.bank [1, 0] (l2Row Real.sqrt [1])]] := rfl
    rw [h2, hb, hs] at hout
    refine ⟨_, _, hout, ?_⟩
    rw [max_eq_right (by norm_num at he ⊢; linarith)]
    simp only [List.sum_cons, List.sum_nil]
    norm_num at he ⊢
    linarith

/-- A run over the rationals: the hypotheses of `C119_pseudo` are met and the memory is used in the second step. -/
example : CoOutputs (K := Rat) 2 1 ⟨[[1 / 2, 1 / 2]], [[1, 0]], [[1]], [[1]], [0]⟩ := by
  constructor <;> simp [IsBatch, IsDistN, IsDist] <;> norm_num

/-- The second of two steps, with a constant weight function for the demonstration: aligned prediction `(1/2, 1/2)`
mixed half and half with the memory's `(3/4, 1/4)`. -/
example : (coRun (K := Rat) (fun _ => 1) (fun _ => 1) ⟨4, 0, 1 / 2, 1, 0, false, true, 2, 1⟩
    (coInit ⟨4, 0, 1 / 2, 1, 0, false, true, 2, 1⟩)
    [⟨[[1 / 2, 1 / 2]], [[1, 0]], [[1]], [[1]], [0]⟩, ⟨[[1 / 2, 1 / 2]], [[1, 0]], [[1]], [[1]], [0]⟩]).1 =
    [[[1 / 2, 1 / 2]], [[5 / 8, 3 / 8]]] := by decide +kernel

/-- Alignment over a window of one step. -/
example : (coRun (K := Rat) (fun _ => 1) (fun _ => 1) ⟨0, 0, 1, 1, 1, true, true, 2, 1⟩
    (coInit ⟨0, 0, 1, 1, 1, true, true, 2, 1⟩)
    [⟨[[1 / 4, 3 / 4]], [[1, 0]], [[1]], [[1]], [0]⟩, ⟨[[2 / 3, 1 / 3]], [[1, 0]], [[1]], [[1]], [0]⟩]).1 =
    [[[1 / 2, 1 / 2]], [[1 / 2, 1 / 2]]] := by decide +kernel

/-- A graph of three samples, the first two neighbours. -/
example : pseudoGraph (K := Rat) (1 / 2) [[1, 0], [3 / 4, 1 / 4], [0, 1]] =
    [[4 / 7, 3 / 7, 0], [3 / 7, 4 / 7, 0], [0, 0, 1]] := by decide +kernel

end ModSSC.Deep
