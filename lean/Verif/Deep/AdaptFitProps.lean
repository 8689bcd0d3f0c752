import Verif.Deep.FitProps
import Verif.Deep.FlexProps
import Verif.Deep.LossProps

/-!
# C179 — every loss of a FlexMatch, FreeMatch, AdaMatch, SoftMatch and annealed UDA training

The thresholds and weights of these methods depend on everything predicted before.  A training is the list of its steps:
the batch, the network at that moment and the loss of the optimizer step.
-/

/-! ### Specification -/

namespace ModSSC.Deep.Fit.Spec
open ModSSC ModSSC.Deep
open ModSSC.Deep.Spec

variable {X V K : Type} [Field K] [LinearOrder K]

/-- One step: the batch, the network and the loss. -/
abbrev Stepped (X V K : Type) := Batch X × V × Objective X K

/-- Probabilities (`f`) of the weak views of a step. -/
def weakProbs (f : V → X → List K) (p : Stepped X V K) : List (List K) := p.1.xw.map fun q => f p.2.1 q.1

/-- Probabilities of the labeled rows of a step. -/
def labeledProbs (f : V → X → List K) (p : Stepped X V K) : List (List K) := p.1.xl.map fun x => f p.2.1 x

/-- Weights of a mean over the used samples; zero for the others. -/
def meanOver (used : List Bool) : List K := used.map fun b => if b then 1 / ((used.filter id).length : K) else 0

/-- The loss of a step: mean cross entropy of the labels, plus `scale` times the sum over the unlabeled samples of `ws`
times the cross entropy of the strong view with the most probable class of the row in `rows` (soft: with the sharpened
row). -/
structure AdaptLoss (pow : K → K → K) (temp : K) (hard : Bool) (scale : K) (rows : List (List K)) (ws : List K)
    (s : Batch X) (o : Objective X K) : Prop where
  labeled : o.labeled = (s.xl.zip s.yl).map fun p => (p.1, p.2, 1 / (s.yl.length : K))
  number : o.unlabeled.length = s.xw.length ∧ s.xs.length = s.xw.length ∧ rows.length = s.xw.length ∧ ws.length = s.xw.length
  term : ∀ (j : Nat) (t : Term X K), o.unlabeled[j]? = some t → ∃ p x r k, s.xw[j]? = some p ∧ s.xs[j]? = some x ∧
    rows[j]? = some r ∧ ws[j]? = some k ∧ t.weak = p.1 ∧ t.strong = x ∧ t.weight = k ∧
    (hard = true → ∃ c, t.target = .hard c ∧ MostProbable r c) ∧
    (hard = false → t.target = .soft (if temp = 1 then r else sharpenRow pow temp r))
  scale : o.scale = scale

/-- What FlexMatch has predicted in some steps: position in the pool, confidence, class. -/
def flexPast (f : V → X → List K) (argmax : List K → Nat) (past : List (Stepped X V K)) : List (FlexPred K) :=
  past.flatMap fun p => p.1.xw.map fun q => ⟨q.2, rowMax (f p.2.1 q.1), argmax (f p.2.1 q.1)⟩

/-- `out` are the rows `raw` after alignment: multiplied by target over average prediction and rescaled, to a distribution
unless a target is tiny. -/
def AlignedBy (uniform : Bool) (m : K) (C : Nat) (bs : List (List (List K) × List (List K))) (raw out : List (List K)) :
    Prop :=
  out.length = raw.length ∧ ∃ w, IsWeight uniform m C bs w ∧
    ∀ (j : Nat) (r : List K), raw[j]? = some r → ∃ r', out[j]? = some r' ∧ r'.length = C ∧ (∀ p ∈ r', 0 ≤ p) ∧
      (∃ z, 0 < z ∧ ∀ c < C, r'.getD c 0 = r.getD c 0 * w c / z) ∧
      ((∀ c < C, 1 / 10 ^ 12 ≤ if uniform then 1 / (C : K) else weightedAverage m (1 / (C : K)) (bs.map fun b => meanProb c b.2)) →
        IsDist r')

/-- Mean and unbiased variance of the confidences in a batch that SoftMatch counts for class `c`: of the rows predicted as
`c` in per-class mode (0 and 1 if there are fewer than two), else of all rows. -/
def confStats (argmax : List K → Nat) (perClass : Bool) (c : Nat) (b : List (List K)) : K × K :=
  let l := (if perClass then b.filter fun r => argmax r = c else b).map rowMax
  let μ := l.sum / (l.length : K)
  let v := (l.map fun x => (x - μ) * (x - μ)).sum / ((l.length : K) - 1)
  if 1 < l.length then (μ, v) else if perClass then (0, 1) else (μ, 0)

/-- SoftMatch's weight before normalisation: a Gaussian below the mean, 1 above. -/
def gauss (exp : K → K) (nSigma μ v p : K) : K :=
  exp (-(min (p - μ) 0 * min (p - μ) 0) / max (2 * v / (nSigma * nSigma)) (1 / 10 ^ 12))

/-- The annealing threshold of UDA at `step` of `total`. -/
def annealed (exp : K → K) (schedule : String) (step total C : Nat) : K :=
  (if schedule = "linear" then (step : K) / (total : K)
   else if schedule = "exp" then exp (((step : K) / (total : K) - 1) * 5)
   else 1 - exp (-((step : K) / (total : K)) * 5)) * (1 - 1 / (C : K)) + 1 / (C : K)

end ModSSC.Deep.Fit.Spec

namespace ModSSC.Deep.Fit
open ModSSC ModSSC.Deep Spec
open ModSSC.Deep.Spec
set_option linter.unusedSectionVars false

variable {X W V K A σ : Type} [Field K] [LinearOrder K]

/-! ### Threading the state of a rule -/

/-- What a rule sees in a step. -/
def seenBy (g : V → X → List K) (C : Nat) (s : Batch X) (v : V) : Seen K :=
  ⟨C, s.xl.map (g v), s.yl, (s.xw.map (·.1)).map (g v), s.xw.map (·.2)⟩

/-- The decisions of a rule, with the state handed on. -/
def Chain (R : Rule A K) : A → List (Seen K × Said K) → Prop
  | _, [] => True
  | a, q :: l => ∃ a', R.apply a q.1 = (a', .ok q.2) ∧ Chain R a' l

theorem trainSteps_chain {N : Net X W K} {view : W → V} {g : V → X → List K} {C : Nat} (hN : Rowwise N view g C)
    {log : W → List (V × Objective X K)} (hL : Logs N view log) {R : Rule A K} {cat : Bool} {scale : K} :
    ∀ {ss : List (Batch X)} {st st' : A × W}, trainSteps N R cat scale st ss = (st', .ok ()) →
    ∃ rs : List (Batch X × V × Said K), ss = rs.map (·.1) ∧
      log st'.2 = log st.2 ++ rs.map (fun r => (r.2.1, objective scale r.1 r.2.2)) ∧
      Chain R st.1 (rs.map fun r => (seenBy g C r.1 r.2.1, r.2.2))
  | [], st, st', h => by
    simp only [trainSteps, Prod.mk.injEq, and_true] at h
    subst h
    exact ⟨[], rfl, by simp, trivial⟩
  | s :: ss, st, st', h => by
    simp only [trainSteps] at h
    cases h1 : trainStep N R cat scale st s with
    | mk st1 res =>
    rw [h1] at h
    cases res with
    | error e => cases h
    | ok u =>
    simp only at h
    obtain ⟨rs, e1, e2, e3⟩ := trainSteps_chain hN hL h
    rw [trainStep_rowwise hN] at h1
    unfold plainStep at h1
    cases ha : agree s.yl ⟨2, C, s.xl.map (g (view st.2))⟩ ⟨2, C, (s.xw.map (·.1)).map (g (view st.2))⟩
        (⟨2, C, s.xs.map (g (view st.2))⟩ : Out K) with
    | error e => rw [ha] at h1; cases h1
    | ok u2 =>
    rw [ha] at h1
    simp only at h1
    cases hr : R.apply st.1 ⟨C, s.xl.map (g (view st.2)), s.yl, (s.xw.map (·.1)).map (g (view st.2)), s.xw.map (·.2)⟩ with
    | mk a res2 =>
    rw [hr] at h1
    cases res2 with
    | error e => cases h1
    | ok d =>
    simp only [Prod.mk.injEq, and_true] at h1
    subst h1
    refine ⟨(s, view st.2, d) :: rs, by rw [e1]; rfl, ?_, ⟨a, hr, e3⟩⟩
    rw [e2]; simp only; rw [hL.step]; simp

/-- An invariant of the state, over the history of what the rule has seen, holds before and after each step. -/
theorem chain_at {R : Rule A K} {P : Seen K → Prop} {Inv : List (Seen K) → A → Prop}
    (hs : ∀ h a s a' d, P s → Inv h a → R.apply a s = (a', .ok d) → Inv (h ++ [s]) a') :
    ∀ {l : List (Seen K × Said K)} {h : List (Seen K)} {a : A}, Inv h a → Chain R a l → (∀ q ∈ l, P q.1) →
    ∀ (t : Nat) (q : Seen K × Said K), l[t]? = some q → ∃ a1 a2, Inv (h ++ (l.take t).map (·.1)) a1 ∧
      R.apply a1 q.1 = (a2, .ok q.2) ∧ Inv (h ++ (l.take (t + 1)).map (·.1)) a2
  | [], _, _, _, _, _, t, q, hq => by simp at hq
  | r :: l, h, a, hi, ⟨a', hr, hc⟩, hP, t, q, hq => by
    have h2 := hs h a r.1 a' r.2 (hP r (by simp)) hi hr
    cases t with
    | zero =>
      simp only [List.getElem?_cons_zero, Option.some.injEq] at hq
      subst hq
      exact ⟨a, a', by simpa using hi, hr, by simpa using h2⟩
    | succ t =>
      simp only [List.getElem?_cons_succ] at hq
      obtain ⟨a1, a2, i1, i2, i3⟩ := chain_at hs h2 hc (fun q hq => hP q (by simp [hq])) t q hq
      exact ⟨a1, a2, by simpa using i1, i2, by simpa using i3⟩

/-- What a successful `fit` did, with the states. -/
theorem fit_chain (G : TorchGen σ) (hG : G.Lawful) (N : Net X W K) (view : W → V) (g : V → X → List K) (C : Nat)
    (hN : Rowwise N view g C) (log : W → List (V × Objective X K)) (hL : Logs N view log) (R : Rule A K) (index : Index)
    (hidx : ∀ n idx, index n = .ok idx → idx.length = n) (torch : Bool) (cfg : Cfg K) (bundle : Option Bundle)
    (data : Option (Input X)) (seed : Int) (o o' : Obj A) (w w' : W)
    (h : fit G N R index torch cfg bundle data seed o w = ((o', w'), .ok ())) :
    ∃ d xw xs idx eps, ∃ rs : List (Batch X × V × Said K), data = some d ∧ Acceptable torch cfg bundle d xw xs ∧
      index xw.rows.length = .ok idx ∧
      Epochs d.xl.rows d.yl (xw.rows.zip idx) xs.rows cfg.batchSize cfg.maxEpochs eps ∧
      eps.flatten = rs.map (·.1) ∧ log w' = log w ++ rs.map (fun r => (r.2.1, objective cfg.lambdaU r.1 r.2.2)) ∧
      Chain R (R.start o.aux) (rs.map fun r => (seenBy g C r.1 r.2.1, r.2.2)) := by
  cases hc : check index torch cfg bundle data with
  | error e => unfold fit at h; rw [hc] at h; cases h
  | ok r =>
    obtain ⟨d, xw, xs, idx, rfl, hA, hi, -⟩ := check_ok.mp hc
    obtain ⟨eps, hE, hf⟩ := fit_eq G hG N R index torch cfg bundle d xw xs idx hA hi (hidx _ _ hi) seed
    rw [hf] at h
    cases ht : trainSteps N R cfg.cat cfg.lambdaU (R.start o.aux, N.train w) eps.flatten with
    | mk st res =>
    rw [ht] at h
    cases res with
    | error e => cases h
    | ok u =>
    simp only [Prod.mk.injEq, and_true] at h
    obtain ⟨rfl, rfl⟩ := h
    obtain ⟨rs, e1, e2, e3⟩ := trainSteps_chain hN hL ht
    exact ⟨d, xw, xs, idx, eps, rs, rfl, hA, hi, hE, e1, by rw [e2, hL.train], e3⟩

theorem Epochs.fine {xl : List X} {yl : List Int} {xw : List (X × Int)} {xs : List X} {b e : Int}
    {eps : List (List (Batch X))} (h : Epochs xl yl xw xs b e eps) :
    ∀ s ∈ eps.flatten, s.xl ≠ [] ∧ s.xw ≠ [] ∧ ∀ q ∈ s.xw, q ∈ xw := by
  intro s hs
  obtain ⟨ep, hep, hs⟩ := List.mem_flatten.mp hs
  obtain ⟨-, bl, bu, hE, hF, hG⟩ := h.each ep hep
  obtain ⟨t, ht, rfl⟩ := List.getElem_of_mem hs
  obtain ⟨r1, -, r3, -⟩ := hE.rows t ht
  have hl : bl.getD t [] ∈ bl := by
    rw [List.getD_eq_getElem _ _ (by rw [hE.len_l]; exact ht)]; exact List.getElem_mem _
  have hu : bu.getD t [] ∈ bu := by
    rw [List.getD_eq_getElem _ _ (by rw [hE.len_u]; exact ht)]; exact List.getElem_mem _
  refine ⟨fun e => hF.nonempty _ hl ?_, fun e => hG.nonempty _ hu ?_, fun q hq => ?_⟩
  · exact List.length_eq_zero_iff.mp (by rw [← rowsAt_length r1, e]; rfl)
  · exact List.length_eq_zero_iff.mp (by rw [← rowsAt_length r3, e]; rfl)
  · have h1 : some q ∈ (ep[t].xw).map some := List.mem_map_of_mem hq
    rw [r3, List.mem_map] at h1
    obtain ⟨i, -, hi⟩ := h1
    exact List.mem_of_getElem? hi

/-! ### From decisions to losses -/

theorem normed_ofMask [IsStrictOrderedRing K] (m : List Bool) : normed (ofMask m : List K) = meanOver m := by
  have hsum : (ofMask m : List K).sum = ((m.filter id).length : K) := by
    have := indicator_sum (K := K) (fun b : Bool => b = true) m
    unfold ofMask
    rw [this, List.filter_congr (q := id) (fun b _ => by cases b <;> rfl)]
  unfold normed meanOver
  rw [hsum]
  unfold ofMask
  rw [List.map_map]
  refine List.map_congr_left fun b hb => ?_
  cases b with
  | false => simp
  | true =>
    have hn : 1 ≤ (m.filter id).length :=
      List.length_pos_iff.mpr (List.ne_nil_of_mem (List.mem_filter.mpr ⟨hb, rfl⟩))
    simp only [Function.comp_apply, if_true]
    rw [max_eq_left (by exact_mod_cast hn)]

/-- `sharp_most` for rows that are only non-negative. -/
theorem sharp_top [IsStrictOrderedRing K] {T : Torch K} (hp : PowerLaw T.pow) (ha : ArgmaxLaw T.argmax) {temp : K}
    (ht : 0 < temp) {row : List K} (hd : ∀ p ∈ row, 0 ≤ p) (hne : row ≠ []) :
    MostProbable row (T.argmax (if temp = 1 then row else sharpenRow T.pow temp row)) := by
  have hs : sharpen T.pow temp [row] = .ok [if temp = 1 then row else sharpenRow T.pow temp row] := by
    unfold sharpen
    rw [if_neg (not_le.mpr ht)]
    by_cases c : temp = 1
    · rw [if_pos c, if_pos c]
    · rw [if_neg c, if_neg c]; rfl
  obtain ⟨-, h1⟩ := C107_order T.pow hp temp [row] _ (by simpa using hd) hs
  obtain ⟨h2, h3⟩ := h1 0 (by simp)
  simp only [List.getD_cons_zero] at h2 h3
  generalize (if temp = 1 then row else sharpenRow T.pow temp row) = r at *
  have hr : r ≠ [] := fun e => hne (List.length_eq_zero_iff.mp (by rw [← h2, e]; rfl))
  obtain ⟨m1, m2⟩ := ha r hr
  rw [h2] at m1
  exact ⟨m1, fun c' hc' => (h3 c' hc' _ m1).mp (m2 c' (by rw [h2]; exact hc'))⟩

theorem adaptLoss_of [IsStrictOrderedRing K] {T : Torch K} (hp : PowerLaw T.pow) (ha : ArgmaxLaw T.argmax) {temp scale : K}
    (ht : 0 < temp) {hard : Bool} {s : Batch X} {rows : List (List K)} {ws : List K}
    {f : Option (K × List Bool × List K × List K)} (h1 : s.xl.length = s.yl.length) (h2 : s.xw.length = s.xs.length)
    (hr : rows.length = s.xw.length) (hw : ws.length = s.xw.length) (hn : ∀ r ∈ rows, (∀ p ∈ r, 0 ≤ p) ∧ r ≠ []) :
    AdaptLoss T.pow temp hard scale rows ws s (objective scale s
      ⟨evenly s.yl.length, targetsOf T hard (rows.map fun p => if temp = 1 then p else sharpenRow T.pow temp p), ws, f⟩) := by
  refine ⟨labeled_even h1 rfl, ⟨?_, h2.symm, hr, hw⟩, ?_, rfl⟩
  · unfold objective targetsOf
    simp only [List.length_zipWith, List.length_zip, List.length_map]
    omega
  · intro j t hj
    unfold objective targetsOf at hj
    simp only at hj
    have hjl : j < s.xw.length := by
      have := (List.getElem?_eq_some_iff.mp hj).1
      simp only [List.length_zipWith, List.length_zip, List.length_map] at this
      omega
    have a1 := List.getElem?_eq_getElem hjl
    have a2 := List.getElem?_eq_getElem (l := s.xs) (i := j) (by omega)
    have a3 := List.getElem?_eq_getElem (l := rows) (i := j) (by omega)
    have a4 := List.getElem?_eq_getElem (l := ws) (i := j) (by omega)
    refine ⟨_, _, _, _, a1, a2, a3, a4, ?_⟩
    have hrow := hn _ (List.getElem_mem (l := rows) (n := j) (by omega))
    rw [List.getElem?_zipWith] at hj
    simp only [List.getElem?_zip_eq_some, List.zip, List.getElem?_zipWith, List.getElem?_map, a1, a2, a3, a4,
      Option.map_some, Option.some.injEq] at hj
    subst hj
    refine ⟨rfl, rfl, rfl, fun hh => ?_, fun hh => ?_⟩
    · exact ⟨_, by rw [if_pos hh], sharp_top hp ha ht hrow.1 hrow.2⟩
    · simp [hh]

theorem weak_eq (T : Torch K) (g : V → X → List K) (C : Nat) (s : Batch X) (v : V) (o : Objective X K) :
    (seenBy g C s v).weak.map T.softmax = weakProbs (fun v x => T.softmax (g v x)) (s, v, o) := by
  simp only [seenBy, weakProbs, List.map_map]
  rfl

theorem labeled_eq (T : Torch K) (g : V → X → List K) (C : Nat) (s : Batch X) (v : V) (o : Objective X K) :
    (seenBy g C s v).labeled.map T.softmax = labeledProbs (fun v x => T.softmax (g v x)) (s, v, o) := by
  simp only [seenBy, labeledProbs, List.map_map]
  rfl

theorem weak_batch {f : V → X → List K} {C : Nat} (hs : ∀ v x, IsDistN C (f v x)) {p : Stepped X V K} (h : p.1.xw ≠ []) :
    IsBatch C (weakProbs f p) := by
  refine ⟨by simpa [weakProbs] using h, fun r hr => ?_⟩
  obtain ⟨q, -, rfl⟩ := List.mem_map.mp hr
  exact hs _ _

theorem labeled_batch {f : V → X → List K} {C : Nat} (hs : ∀ v x, IsDistN C (f v x)) {p : Stepped X V K} (h : p.1.xl ≠ []) :
    IsBatch C (labeledProbs f p) := by
  refine ⟨by simpa [labeledProbs] using h, fun r hr => ?_⟩
  obtain ⟨q, -, rfl⟩ := List.mem_map.mp hr
  exact hs _ _

/-- The steps with their losses. -/
def stepped (scale : K) (r : Batch X × V × Said K) : Stepped X V K := (r.1, r.2.1, objective scale r.1 r.2.2)

/-! ### FlexMatch -/

/-- **C179 (FlexMatch).**  In a first `fit`, step `t` uses exactly the unlabeled samples whose largest probability reaches
`p_cutoff * beta / (2 - beta)`, where `beta` is the learning effect of the predicted class in everything predicted in the
steps before; its loss is the mean cross entropy of the labels plus `lambda_u` times the mean over the used samples of the
cross entropy of the strong view with the class predicted on the weak view. -/
theorem C179_flexmatch [IsStrictOrderedRing K] (T : Torch K) (hp : PowerLaw T.pow) (ha : ArgmaxLaw T.argmax)
    (cutoff : K) (hard warmup : Bool) (pool : Nat) (G : TorchGen σ) (hG : G.Lawful) (N : Net X W K) (view : W → V)
    (g : V → X → List K) (C : Nat) (hC : 0 < C) (hN : Rowwise N view g C) (hs : ∀ v x, IsDistN C (T.softmax (g v x)))
    (log : W → List (V × Objective X K)) (hL : Logs N view log) (index : Index)
    (hidx : ∀ n idx, index n = .ok idx → idx.length = n ∧ ∀ i ∈ idx, 0 ≤ i ∧ i < (pool : Int)) (torch : Bool) (cfg : Cfg K)
    (bundle : Option Bundle) (data : Option (Input X)) (seed : Int) (o o' : Obj (Option (FlexState K))) (w w' : W)
    (hfresh : o.aux = none)
    (h : fit G N (flexmatch T cutoff cfg.temperature hard warmup pool) index torch cfg bundle data seed o w = ((o', w'), .ok ())) :
    ∃ d xw xs idx eps, ∃ steps : List (Stepped X V K), data = some d ∧ d.xw = some xw ∧ d.xs = some xs ∧
      Epochs d.xl.rows d.yl (xw.rows.zip idx) xs.rows cfg.batchSize cfg.maxEpochs eps ∧ eps.flatten = steps.map (·.1) ∧
      log w' = log w ++ steps.map (·.2) ∧
      ∀ (t : Nat) p, steps[t]? = some p → ∃ used : List Bool,
        (∀ (j : Nat) r, (weakProbs (fun v x => T.softmax (g v x)) p)[j]? = some r → ∃ beta,
          IsEffect ⟨cutoff, warmup, C⟩ (flexPast (fun v x => T.softmax (g v x)) T.argmax (steps.take t)) pool (T.argmax r) beta ∧
          (used[j]? = some true ↔ Confident (cutoff * (beta / (2 - beta))) r)) ∧
        AdaptLoss T.pow cfg.temperature hard cfg.lambdaU (weakProbs (fun v x => T.softmax (g v x)) p) (meanOver used) p.1 p.2.2 ∧
        p.2.2.fairness = none := by
  obtain ⟨d, xw, xs, idx, eps, rs, rfl, hA, hi, hE, e1, e2, e3⟩ := fit_chain G hG N view g C hN log hL _ index
    (fun n idx hn => (hidx n idx hn).1) torch cfg bundle data seed o o' w w' h
  refine ⟨d, xw, xs, idx, eps, rs.map (stepped cfg.lambdaU), rfl, hA.weak, hA.strong, hE, by rw [e1, List.map_map]; rfl,
    by rw [e2, List.map_map]; rfl, ?_⟩
  intro t p ht
  rw [List.getElem?_map, Option.map_eq_some_iff] at ht
  obtain ⟨r, ht, rfl⟩ := ht
  have hflex : ∀ s : Seen K, s.classes = C → (⟨cutoff, warmup, s.classes⟩ : FlexCfg K) = ⟨cutoff, warmup, C⟩ := by
    rintro s rfl; rfl
  have hP : ∀ q ∈ rs.map (fun r => (seenBy g C r.1 r.2.1, r.2.2)), (fun s : Seen K => s.classes = C ∧
      ∀ p ∈ flexPreds T s, 0 ≤ p.idx ∧ p.idx < pool ∧ p.cls < C) q.1 := by
    intro q hq
    obtain ⟨r, hr, rfl⟩ := List.mem_map.mp hq
    refine ⟨rfl, fun p hp => ?_⟩
    have hmem : r.1 ∈ eps.flatten := by rw [e1]; exact List.mem_map_of_mem hr
    obtain ⟨-, -, hsub⟩ := Epochs.fine hE _ hmem
    simp only [flexPreds, seenBy, List.map_map, List.zipWith_map_left, List.zipWith_map_right, List.zipWith_self] at hp
    obtain ⟨q, hq, rfl⟩ := List.mem_map.mp hp
    have hq2 := (hidx _ _ hi).2 q.2 (List.of_mem_zip (hsub q hq)).2
    refine ⟨hq2.1, hq2.2, ?_⟩
    have hd := hs r.2.1 q.1
    have := (ha _ (dist_ne _ _ hd)).1
    rw [hd.1] at this
    exact this
  obtain ⟨a1, a2, i1, i2, -⟩ := chain_at (R := flexmatch T cutoff cfg.temperature hard warmup pool)
    (P := fun s : Seen K => s.classes = C ∧ ∀ p ∈ flexPreds T s, 0 ≤ p.idx ∧ p.idx < pool ∧ p.cls < C)
    (Inv := fun hst a => FlexInv ⟨cutoff, warmup, C⟩ pool (hst.flatMap (flexPreds T)) (a.getD (flexInit ⟨cutoff, warmup, C⟩ pool)) ∧
      ∀ p ∈ hst.flatMap (flexPreds T), p.cls < C)
    (by
      rintro hst a s a' d ⟨hc, hb⟩ ⟨hi1, hi2⟩ hap
      have hap : flexApply T cutoff cfg.temperature hard warmup pool a s = (a', .ok d) := hap
      unfold flexApply at hap
      simp only [hflex s hc] at hap
      obtain ⟨mask, st', f1, f2, -, -⟩ := flexStep_inv ⟨cutoff, warmup, C⟩ pool hC _ _ hi1 (flexPreds T s) hi2 hb
      rw [f1] at hap
      obtain ⟨rfl, -⟩ := Prod.mk.inj hap
      refine ⟨by simpa using f2, fun p hp => ?_⟩
      rw [List.flatMap_append, List.mem_append] at hp
      rcases hp with hp | hp
      · exact hi2 p hp
      · exact (hb p (by simpa using hp)).2.2)
    (h := []) (a := none) ⟨by simpa using flexInit_inv ⟨cutoff, warmup, C⟩ pool hC, by simp⟩
    (by have e3 : Chain _ (id o.aux) _ := e3; rw [hfresh] at e3; exact e3) hP t _ (by rw [List.getElem?_map, ht]; rfl)
  rw [List.nil_append] at i1
  have hap : flexApply T cutoff cfg.temperature hard warmup pool a1 (seenBy g C r.1 r.2.1) = (a2, .ok r.2.2) := i2
  unfold flexApply at hap
  simp only [hflex (seenBy g C r.1 r.2.1) rfl] at hap
  obtain ⟨mask, st', f1, f2, f3, f4⟩ := flexStep_inv ⟨cutoff, warmup, C⟩ pool hC _ _ i1.1 (flexPreds T (seenBy g C r.1 r.2.1))
    i1.2 (hP _ (List.mem_map_of_mem (List.mem_of_getElem? ht))).2
  rw [f1] at hap
  have hd := said_ok (Prod.mk.inj hap).2
  rw [weak_eq T g C r.1 r.2.1 (objective cfg.lambdaU r.1 r.2.2), normed_ofMask] at hd
  have hmem : r.1 ∈ eps.flatten := by rw [e1]; exact List.mem_map_of_mem (List.mem_of_getElem? ht)
  obtain ⟨s1, s2⟩ := Epochs.sizes hE _ hmem
  have hml : mask.length = r.1.xw.length := by rw [f3]; simp [flexPreds, seenBy]
  refine ⟨mask, ?_, ?_, ?_⟩
  · intro j row hj
    simp only [weakProbs, List.getElem?_map, Option.map_eq_some_iff, stepped] at hj
    obtain ⟨q, hj, rfl⟩ := hj
    obtain ⟨beta, b1, b2⟩ := f4 j ⟨q.2, rowMax (T.softmax (g r.2.1 q.1)), T.argmax (T.softmax (g r.2.1 q.1))⟩ (by
      simp [flexPreds, seenBy, List.zipWith_map_left, List.zipWith_map_right, List.zipWith_self, hj])
    refine ⟨beta, ?_, ?_⟩
    · have e : flexPast (fun v x => T.softmax (g v x)) T.argmax ((rs.map (stepped cfg.lambdaU)).take t) =
          (((rs.map fun r => (seenBy g C r.1 r.2.1, r.2.2)).take t).map (·.1)).flatMap (flexPreds T) := by
        rw [← List.map_take, ← List.map_take]
        simp only [flexPast, List.map_map, List.flatMap_map]
        congr 1
        funext r
        simp [flexPreds, seenBy, stepped, List.zipWith_map_left, List.zipWith_map_right, List.zipWith_self]
      rw [e]
      exact b1
    · rw [b2, ← confident_iff _ _ (dist_ne _ _ (hs _ _))]
      simp
  · have := adaptLoss_of (X := X) hp ha hA.temperature (hard := hard) (scale := cfg.lambdaU) (s := r.1)
      (rows := weakProbs (fun v x => T.softmax (g v x)) (stepped cfg.lambdaU r)) (ws := meanOver mask) (f := none) s1 s2
      (by simp [weakProbs, stepped]) (by simp [meanOver, hml]) (fun row hr => by
        obtain ⟨q, -, rfl⟩ := List.mem_map.mp hr
        exact ⟨(hs _ _).2.1, dist_ne _ _ (hs _ _)⟩)
    rw [show (stepped cfg.lambdaU r).2.2 = objective cfg.lambdaU r.1 r.2.2 from rfl, hd]
    exact this
  · rw [show (stepped cfg.lambdaU r).2.2 = objective cfg.lambdaU r.1 r.2.2 from rfl, hd]
    rfl

/-! ### FreeMatch -/

/-- **C179 (FreeMatch).**  In a first `fit`, step `t` uses exactly the samples whose largest probability reaches the global
threshold times the average probability of the predicted class relative to the largest one, both counting the batches up to
and including this one.  A fairness term with weight `lambda_e` is added exactly if some sample is used; it gets the strong views
of the used samples, the average histogram of predicted classes and the average prediction. -/
theorem C179_freematch [IsStrictOrderedRing K] (T : Torch K) (hp : PowerLaw T.pow) (ha : ArgmaxLaw T.argmax)
    (m lambdaE : K) (hm0 : 0 ≤ m) (hm1 : m < 1) (quant clip hard : Bool) (G : TorchGen σ) (hG : G.Lawful) (N : Net X W K) (view : W → V)
    (g : V → X → List K) (C : Nat) (hC : 0 < C) (hN : Rowwise N view g C) (hs : ∀ v x, IsDistN C (T.softmax (g v x)))
    (log : W → List (V × Objective X K)) (hL : Logs N view log) (index : Index)
    (hidx : ∀ n idx, index n = .ok idx → idx.length = n) (torch : Bool) (cfg : Cfg K)
    (bundle : Option Bundle) (data : Option (Input X)) (seed : Int)
    (hC' : C ≤ 10 ^ 12) (o o' : Obj (Option (FreeState K))) (w w' : W) (hfresh : o.aux = none)
    (h : fit G N (freematch T m cfg.temperature lambdaE quant clip hard) index torch cfg bundle data seed o w = ((o', w'), .ok ())) :
    ∃ d xw xs idx eps, ∃ steps : List (Stepped X V K), data = some d ∧ d.xw = some xw ∧ d.xs = some xs ∧
      Epochs d.xl.rows d.yl (xw.rows.zip idx) xs.rows cfg.batchSize cfg.maxEpochs eps ∧ eps.flatten = steps.map (·.1) ∧
      log w' = log w ++ steps.map (·.2) ∧
      ∀ (t : Nat) p, steps[t]? = some p → ∃ (used : List Bool) (top : Nat) (past : List (List (List K))),
        past = (steps.take (t + 1)).map (weakProbs fun v x => T.softmax (g v x)) ∧ top < C ∧
        0 < classAverage ⟨m, quant, clip, C⟩ past top ∧
        (∀ c < C, classAverage ⟨m, quant, clip, C⟩ past c ≤ classAverage ⟨m, quant, clip, C⟩ past top) ∧
        (∀ (j : Nat) r, (weakProbs (fun v x => T.softmax (g v x)) p)[j]? = some r →
          (used[j]? = some true ↔ Confident (globalThreshold T.quantile ⟨m, quant, clip, C⟩ past *
            (classAverage ⟨m, quant, clip, C⟩ past (T.argmax r) / classAverage ⟨m, quant, clip, C⟩ past top)) r)) ∧
        AdaptLoss T.pow cfg.temperature hard cfg.lambdaU (weakProbs (fun v x => T.softmax (g v x)) p) (meanOver used) p.1 p.2.2 ∧
        ((∀ b ∈ used, b = false) → p.2.2.fairness = none) ∧
        (true ∈ used → ∃ hist avg : List K, p.2.2.fairness =
            some ⟨lambdaE, ((p.1.xs.zip used).filter (·.2)).map (·.1), hist, avg⟩ ∧ IsDistN C hist ∧ IsDistN C avg ∧
          ∀ c < C, avg.getD c 0 = classAverage ⟨m, quant, clip, C⟩ past c ∧
            hist.getD c 0 = weightedAverage m (1 / (C : K)) (past.map (predictedShare T.argmax c))) := by
  obtain ⟨d, xw, xs, idx, eps, rs, rfl, hA, hi, hE, e1, e2, e3⟩ := fit_chain G hG N view g C hN log hL _ index
    hidx torch cfg bundle data seed o o' w w' h
  refine ⟨d, xw, xs, idx, eps, rs.map (stepped cfg.lambdaU), rfl, hA.weak, hA.strong, hE, by rw [e1, List.map_map]; rfl,
    by rw [e2, List.map_map]; rfl, ?_⟩
  intro t p ht
  rw [List.getElem?_map, Option.map_eq_some_iff] at ht
  obtain ⟨r, ht, rfl⟩ := ht
  have hP : ∀ q ∈ rs.map (fun r => (seenBy g C r.1 r.2.1, r.2.2)), (fun s : Seen K => s.classes = C ∧
      IsBatch C (s.weak.map T.softmax)) q.1 := by
    intro q hq
    obtain ⟨r, hr, rfl⟩ := List.mem_map.mp hq
    have hmem : r.1 ∈ eps.flatten := by rw [e1]; exact List.mem_map_of_mem hr
    refine ⟨rfl, ?_⟩
    rw [weak_eq T g C r.1 r.2.1 (objective cfg.lambdaU r.1 r.2.2)]
    exact weak_batch hs (Epochs.fine hE _ hmem).2.1
  obtain ⟨a1, a2, i1, i2, i3⟩ := chain_at (R := freematch T m cfg.temperature lambdaE quant clip hard)
    (P := fun s : Seen K => s.classes = C ∧ IsBatch C (s.weak.map T.softmax))
    (Inv := fun hst a => FreeInv T.quantile T.argmax ⟨m, quant, clip, C⟩ (hst.map fun s => s.weak.map T.softmax)
      (a.getD (freeInit C)))
    (by
      rintro hst a s a' d ⟨hc, hb⟩ hi1 hap
      have hap : freeApply T m cfg.temperature lambdaE quant clip hard a s = (a', .ok d) := hap
      unfold freeApply at hap
      simp only [hc] at hap
      obtain ⟨rfl, -⟩ := Prod.mk.inj hap
      rw [List.map_append]
      exact freeUpdate_inv T.quantile T.argmax ha ⟨m, quant, clip, C⟩ hm0 hm1.le _ _ hi1 _ hb)
    (h := []) (a := none) (by simpa using freeInit_inv T.quantile T.argmax ⟨m, quant, clip, C⟩ hC)
    (by have e3 : Chain _ (id o.aux) _ := e3; rw [hfresh] at e3; exact e3) hP t _ (by rw [List.getElem?_map, ht]; rfl)
  rw [List.nil_append] at i1 i3
  have hpast : ((rs.map (stepped cfg.lambdaU)).take (t + 1)).map (weakProbs fun v x => T.softmax (g v x)) =
      (((rs.map fun r => (seenBy g C r.1 r.2.1, r.2.2)).take (t + 1)).map (·.1)).map fun s => s.weak.map T.softmax := by
    rw [← List.map_take, ← List.map_take]
    simp only [List.map_map]
    apply List.map_congr_left
    intro r _
    exact (weak_eq T g C r.1 r.2.1 _).symm
  have hap : freeApply T m cfg.temperature lambdaE quant clip hard a1 (seenBy g C r.1 r.2.1) = (a2, .ok r.2.2) := i2
  unfold freeApply at hap
  simp only [show (seenBy g C r.1 r.2.1).classes = C from rfl] at hap
  obtain ⟨h2, h3⟩ := Prod.mk.inj hap
  have hd := said_ok h3
  rw [← h2, ← hpast] at i3
  simp only [Option.getD_some] at i3
  rw [weak_eq T g C r.1 r.2.1 (objective cfg.lambdaU r.1 r.2.2), normed_ofMask] at hd
  rw [weak_eq T g C r.1 r.2.1 (objective cfg.lambdaU r.1 r.2.2)] at i3
  generalize hst : a1.getD (freeInit C) = st at *
  generalize hbt : weakProbs (fun v x => T.softmax (g v x)) (r.1, r.2.1, objective cfg.lambdaU r.1 r.2.2) = bt at *
  have hbt' : weakProbs (fun v x => T.softmax (g v x)) (stepped cfg.lambdaU r) = bt := hbt
  have hbd : ∀ row ∈ bt, IsDistN C row := by
    intro row hr
    rw [← hbt] at hr
    obtain ⟨q, -, rfl⟩ := List.mem_map.mp hr
    exact hs _ _
  have hstep : (freeStep T.quantile T.argmax ⟨m, quant, clip, C⟩ st bt).1 =
      bt.map fun row => decide (freeThreshold (freeStep T.quantile T.argmax ⟨m, quant, clip, C⟩ st bt).2 (T.argmax row) ≤ rowMax row) :=
    rfl
  generalize freeStep T.quantile T.argmax ⟨m, quant, clip, C⟩ st bt = r1 at *
  obtain ⟨mask, st'⟩ := r1
  simp only at hstep i3 hd
  have hmem : r.1 ∈ eps.flatten := by rw [e1]; exact List.mem_map_of_mem (List.mem_of_getElem? ht)
  obtain ⟨s1, s2⟩ := Epochs.sizes hE _ hmem
  have hbl : bt.length = r.1.xw.length := by rw [← hbt]; simp [weakProbs]
  generalize hpa : ((rs.map (stepped cfg.lambdaU)).take (t + 1)).map (weakProbs fun v x => T.softmax (g v x)) = past at *
  have hml : mask.length = r.1.xw.length := by rw [hstep, List.length_map, hbl]
  have hpne := dist_ne _ _ i3.1
  obtain ⟨top, htop, hge⟩ := List.getElem_of_mem (rowMax_mem st'.pModel hpne)
  have htop' : top < C := by have := i3.1.1; simp only at this; rw [← this]; exact htop
  have hgetD : st'.pModel.getD top 0 = rowMax st'.pModel := by rw [List.getD_eq_getElem _ _ htop]; exact hge
  have hCK : (0 : K) < C := by exact_mod_cast hC
  have hbig : (1 : K) / 10 ^ 12 ≤ rowMax st'.pModel := by
    refine le_trans ?_ (dist_max _ _ i3.1).1
    apply one_div_le_one_div_of_le hCK
    exact_mod_cast hC'
  refine ⟨mask, top, past, rfl, htop', ?_, ?_, ?_, ?_, ?_, ?_⟩
  · rw [← i3.2.2.1 top htop', hgetD]; exact lt_of_lt_of_le (by positivity) hbig
  · intro c hc
    rw [← i3.2.2.1 top htop', ← i3.2.2.1 c hc, hgetD, List.getD_eq_getElem _ _ (by rw [i3.1.1]; exact hc)]
    exact rowMax_ge _ _ (List.getElem_mem _)
  · intro j row hj
    rw [hbt'] at hj
    have hrd := hbd row (List.mem_of_getElem? hj)
    have hargs : T.argmax row < C := by have := (ha row (dist_ne _ _ hrd)).1; rwa [hrd.1] at this
    rw [hstep, List.getElem?_map, hj, ← confident_iff _ _ (dist_ne _ _ hrd)]
    simp only [Option.map_some, Option.some.injEq, decide_eq_true_eq]
    unfold freeThreshold
    rw [i3.2.2.2.2, i3.2.2.1 _ hargs, max_eq_left hbig, ← hgetD, i3.2.2.1 top htop']
  · rw [hbt', show (stepped cfg.lambdaU r).2.2 = objective cfg.lambdaU r.1 r.2.2 from rfl, hd]
    exact adaptLoss_of hp ha hA.temperature s1 s2 hbl (by unfold meanOver; rw [List.length_map]; exact hml)
      (fun row hr => ⟨(hbd row hr).2.1, dist_ne _ _ (hbd row hr)⟩)
  · intro hn
    rw [show (stepped cfg.lambdaU r).2.2 = objective cfg.lambdaU r.1 r.2.2 from rfl, hd]
    simp only [objective]
    rw [if_neg (by simpa using fun hm => Bool.noConfusion (hn true hm))]
    rfl
  · intro hu
    refine ⟨st'.hist, st'.pModel, ?_, i3.2.1, i3.1, fun c hc => ⟨i3.2.2.1 c hc, i3.2.2.2.1 c hc⟩⟩
    rw [show (stepped cfg.lambdaU r).2.2 = objective cfg.lambdaU r.1 r.2.2 from rfl, hd]
    simp only [objective]
    rw [if_pos (by simpa using hu)]
    rfl

/-! ### Alignment -/

theorem aligned_by [IsStrictOrderedRing K] {uniform : Bool} {m : K} {C : Nat} (hC : 0 < C)
    {bs : List (List (List K) × List (List K))} {st : AlignState K} {raw : List (List K)} (hraw : IsBatch C raw)
    (hi : AlignInv uniform m C bs st) : AlignedBy uniform m C bs raw (raw.map (alignedRow st)) := by
  obtain ⟨d1, d2, e1, e2⟩ := hi
  refine ⟨by simp, fun c => st.pTarget.getD c 0 / max (st.pModel.getD c 0) (1 / 10 ^ 6), ?_, ?_⟩
  · intro c hc
    simp only
    rw [e1 c hc, e2 c hc]
  · intro j r hj
    have hr := hraw.2 r (List.mem_of_getElem? hj)
    have hlen := rawAligned_length st C d1.1 d2.1 r hr.1
    have hget := rawAligned_get st C d1.1 d2.1 r hr.1
    have hz : (0 : K) < max (rawAligned st r).sum (1 / 10 ^ 12) := denom_pos _
    have hm6 : ∀ x : K, 0 < max x (1 / 10 ^ 6) := fun x => lt_max_of_lt_right (by positivity)
    have hT : ∀ c < C, 0 ≤ st.pTarget.getD c 0 := by
      intro c hc
      rw [List.getD_eq_getElem _ _ (by rw [d2.1]; exact hc)]
      exact d2.2.1 _ (List.getElem_mem _)
    have hR : ∀ c < C, 0 ≤ r.getD c 0 := by
      intro c hc
      rw [List.getD_eq_getElem _ _ (by rw [hr.1]; exact hc)]
      exact hr.2.1 _ (List.getElem_mem _)
    have hraw0 : ∀ p ∈ rawAligned st r, 0 ≤ p := by
      intro p hp
      obtain ⟨c, hc, rfl⟩ := List.getElem_of_mem hp
      rw [hlen] at hc
      have := hget c hc
      rw [List.getD_eq_getElem _ _ (by rw [hlen]; exact hc)] at this
      rw [this]
      exact mul_nonneg (hR c hc) (div_nonneg (hT c hc) (hm6 _).le)
    have hnn : ∀ p ∈ alignedRow st r, 0 ≤ p := by
      intro p hp
      obtain ⟨q, hq, rfl⟩ := List.mem_map.mp hp
      exact div_nonneg (hraw0 q hq) hz.le
    refine ⟨alignedRow st r, by rw [List.getElem?_map, hj]; rfl, by rw [alignedRow, List.length_map, hlen], hnn,
      ⟨_, hz, ?_⟩, ?_⟩
    · intro c hc
      rw [alignedRow, List.getD_eq_getElem _ _ (by rw [List.length_map, hlen]; exact hc), List.getElem_map]
      have := hget c hc
      rw [List.getD_eq_getElem _ _ (by rw [hlen]; exact hc)] at this
      rw [this]
    · intro hbig
      refine ⟨hnn, ?_⟩
      have hsum : 1 / 10 ^ 12 ≤ (rawAligned st r).sum := by
        have := sum_ge_of_entries (rawAligned st r) r (1 / 10 ^ 12) (by rw [hlen, hr.1]) (by
          intro c hc
          rw [hlen] at hc
          rw [hget c hc, mul_comm]
          apply mul_le_mul_of_nonneg_left _ (hR c hc)
          have hb1 := hbig c hc
          rw [← e2 c hc] at hb1
          rw [le_div_iff₀ (hm6 _)]
          refine le_trans ?_ hb1
          have hle : max (st.pModel.getD c 0) (1 / 10 ^ 6) ≤ 1 := by
            apply max_le _ (by norm_num)
            rw [List.getD_eq_getElem _ _ (by rw [d1.1]; exact hc)]
            exact dist_le_one C _ d1 _ (List.getElem_mem _)
          nlinarith [show (0 : K) < 1 / 10 ^ 12 by positivity])
        rwa [hr.2.2, mul_one] at this
      have hs : (alignedRow st r).sum = (rawAligned st r).sum / max (rawAligned st r).sum (1 / 10 ^ 12) := by
        unfold alignedRow
        simp only [div_eq_mul_inv, List.sum_map_mul_right, List.map_id']
      rw [hs, max_eq_left hsum, div_self]
      exact ne_of_gt (lt_of_lt_of_le (by positivity) hsum)

theorem aligned_nonneg [IsStrictOrderedRing K] {uniform : Bool} {m : K} {C : Nat} (hC : 0 < C)
    {bs : List (List (List K) × List (List K))} {raw al : List (List K)} (hraw : IsBatch C raw)
    (h : AlignedBy uniform m C bs raw al) : ∀ r ∈ al, (∀ p ∈ r, 0 ≤ p) ∧ r ≠ [] := by
  intro r hr
  obtain ⟨j, hj, rfl⟩ := List.getElem_of_mem hr
  obtain ⟨w, -, hw⟩ := h.2
  have hj' : j < raw.length := by rw [← h.1]; exact hj
  obtain ⟨r', h1, h2, h3, -⟩ := hw j raw[j] (List.getElem?_eq_getElem hj')
  rw [List.getElem?_eq_getElem hj] at h1
  rw [Option.some.inj h1]
  exact ⟨h3, fun e => by rw [e] at h2; simp at h2; omega⟩

/-! ### AdaMatch -/

/-- **C179 (AdaMatch).**  In a first `fit`, step `t` aligns the predictions of its weak views with the averages counted up to
and including this batch (`AlignedBy`), uses exactly the samples whose largest aligned probability reaches `p_cutoff` times
the mean confidence on the labeled batch, and takes the targets from the aligned predictions. -/
theorem C179_adamatch [IsStrictOrderedRing K] (T : Torch K) (hp : PowerLaw T.pow) (ha : ArgmaxLaw T.argmax)
    (m cutoff : K) (hm0 : 0 ≤ m) (hm1 : m < 1) (hard : Bool) (G : TorchGen σ) (hG : G.Lawful) (N : Net X W K) (view : W → V)
    (g : V → X → List K) (C : Nat) (hC : 0 < C) (hN : Rowwise N view g C) (hs : ∀ v x, IsDistN C (T.softmax (g v x)))
    (log : W → List (V × Objective X K)) (hL : Logs N view log) (index : Index)
    (hidx : ∀ n idx, index n = .ok idx → idx.length = n) (torch : Bool) (cfg : Cfg K)
    (bundle : Option Bundle) (data : Option (Input X)) (seed : Int)
    (o o' : Obj (Option (AlignState K))) (w w' : W) (hfresh : o.aux = none)
    (h : fit G N (adamatch T m cutoff cfg.temperature hard) index torch cfg bundle data seed o w = ((o', w'), .ok ())) :
    ∃ d xw xs idx eps, ∃ steps : List (Stepped X V K), data = some d ∧ d.xw = some xw ∧ d.xs = some xs ∧
      Epochs d.xl.rows d.yl (xw.rows.zip idx) xs.rows cfg.batchSize cfg.maxEpochs eps ∧ eps.flatten = steps.map (·.1) ∧
      log w' = log w ++ steps.map (·.2) ∧
      ∀ (t : Nat) p, steps[t]? = some p → ∃ (used : List Bool) (al : List (List K)),
        AlignedBy false m C ((steps.take (t + 1)).map fun q => (weakProbs (fun v x => T.softmax (g v x)) q,
          labeledProbs (fun v x => T.softmax (g v x)) q)) (weakProbs (fun v x => T.softmax (g v x)) p) al ∧
        (∀ (j : Nat) r, al[j]? = some r → (used[j]? = some true ↔ Confident (cutoff *
          (((labeledProbs (fun v x => T.softmax (g v x)) p).map rowMax).sum / (p.1.xl.length : K))) r)) ∧
        AdaptLoss T.pow cfg.temperature hard cfg.lambdaU al (meanOver used) p.1 p.2.2 ∧ p.2.2.fairness = none := by
  obtain ⟨d, xw, xs, idx, eps, rs, rfl, hA, hi, hE, e1, e2, e3⟩ := fit_chain G hG N view g C hN log hL _ index
    hidx torch cfg bundle data seed o o' w w' h
  refine ⟨d, xw, xs, idx, eps, rs.map (stepped cfg.lambdaU), rfl, hA.weak, hA.strong, hE, by rw [e1, List.map_map]; rfl,
    by rw [e2, List.map_map]; rfl, ?_⟩
  intro t p ht
  rw [List.getElem?_map, Option.map_eq_some_iff] at ht
  obtain ⟨r, ht, rfl⟩ := ht
  have hP : ∀ q ∈ rs.map (fun r => (seenBy g C r.1 r.2.1, r.2.2)), (fun s : Seen K => s.classes = C ∧
      IsBatch C (s.weak.map T.softmax) ∧ IsBatch C (s.labeled.map T.softmax)) q.1 := by
    intro q hq
    obtain ⟨r, hr, rfl⟩ := List.mem_map.mp hq
    have hmem : r.1 ∈ eps.flatten := by rw [e1]; exact List.mem_map_of_mem hr
    refine ⟨rfl, ?_, ?_⟩
    · rw [weak_eq T g C r.1 r.2.1 (objective cfg.lambdaU r.1 r.2.2)]
      exact weak_batch hs (Epochs.fine hE _ hmem).2.1
    · rw [labeled_eq T g C r.1 r.2.1 (objective cfg.lambdaU r.1 r.2.2)]
      exact labeled_batch hs (Epochs.fine hE _ hmem).1
  obtain ⟨a1, a2, i1, i2, i3⟩ := chain_at (R := adamatch T m cutoff cfg.temperature hard)
    (P := fun s : Seen K => s.classes = C ∧ IsBatch C (s.weak.map T.softmax) ∧ IsBatch C (s.labeled.map T.softmax))
    (Inv := fun hst a => AlignInv false m C (hst.map fun s => (s.weak.map T.softmax, s.labeled.map T.softmax))
      (a.getD (alignInit C)))
    (by
      rintro hst a s a' d ⟨hc, hb1, hb2⟩ hi1 hap
      have hap : adaApply T m cutoff cfg.temperature hard a s = (a', .ok d) := hap
      unfold adaApply at hap
      simp only [hc] at hap
      obtain ⟨rfl, -⟩ := Prod.mk.inj hap
      rw [List.map_append]
      exact alignUpdate_inv false m C hm0 hm1.le _ _ hi1 _ _ hb1 hb2)
    (h := []) (a := none) (by simpa using alignInit_inv false m C hC)
    (by have e3 : Chain _ (id o.aux) _ := e3; rw [hfresh] at e3; exact e3) hP t _ (by rw [List.getElem?_map, ht]; rfl)
  rw [List.nil_append] at i1 i3
  have hpast : ((rs.map (stepped cfg.lambdaU)).take (t + 1)).map (fun q => (weakProbs (fun v x => T.softmax (g v x)) q,
        labeledProbs (fun v x => T.softmax (g v x)) q)) =
      (((rs.map fun r => (seenBy g C r.1 r.2.1, r.2.2)).take (t + 1)).map (·.1)).map
        fun s => (s.weak.map T.softmax, s.labeled.map T.softmax) := by
    rw [← List.map_take, ← List.map_take]
    simp only [List.map_map]
    apply List.map_congr_left
    intro r _
    exact Prod.ext (weak_eq T g C r.1 r.2.1 _).symm (labeled_eq T g C r.1 r.2.1 _).symm
  have hap : adaApply T m cutoff cfg.temperature hard a1 (seenBy g C r.1 r.2.1) = (a2, .ok r.2.2) := i2
  unfold adaApply at hap
  simp only [show (seenBy g C r.1 r.2.1).classes = C from rfl] at hap
  obtain ⟨h2, h3⟩ := Prod.mk.inj hap
  have hd := said_ok h3
  rw [← h2, ← hpast] at i3
  simp only [Option.getD_some] at i3
  rw [weak_eq T g C r.1 r.2.1 (objective cfg.lambdaU r.1 r.2.2), labeled_eq T g C r.1 r.2.1 (objective cfg.lambdaU r.1 r.2.2),
    normed_ofMask] at hd
  rw [weak_eq T g C r.1 r.2.1 (objective cfg.lambdaU r.1 r.2.2), labeled_eq T g C r.1 r.2.1 (objective cfg.lambdaU r.1 r.2.2)] at i3
  have hmem : r.1 ∈ eps.flatten := by rw [e1]; exact List.mem_map_of_mem (List.mem_of_getElem? ht)
  obtain ⟨s1, s2⟩ := Epochs.sizes hE _ hmem
  have hbatch := weak_batch (p := stepped cfg.lambdaU r) hs (Epochs.fine hE _ hmem).2.1
  have hal : AlignedBy false m C _ _ (alignStep false m C (a1.getD (alignInit C))
      (weakProbs (fun v x => T.softmax (g v x)) (stepped cfg.lambdaU r))
      (labeledProbs (fun v x => T.softmax (g v x)) (stepped cfg.lambdaU r))).1 := aligned_by hC hbatch i3
  have hnn := aligned_nonneg hC hbatch hal
  have hlen : (alignStep false m C (a1.getD (alignInit C)) (weakProbs (fun v x => T.softmax (g v x)) (stepped cfg.lambdaU r))
      (labeledProbs (fun v x => T.softmax (g v x)) (stepped cfg.lambdaU r))).1.length = r.1.xw.length := by
    rw [hal.1]; simp [weakProbs, stepped]
  obtain ⟨u1, u2⟩ := C112_relative cutoff _ (labeledProbs (fun v x => T.softmax (g v x)) (stepped cfg.lambdaU r))
    (fun row hr => (hnn row hr).2)
  refine ⟨adaMask cutoff (alignStep false m C (a1.getD (alignInit C))
      (weakProbs (fun v x => T.softmax (g v x)) (stepped cfg.lambdaU r))
      (labeledProbs (fun v x => T.softmax (g v x)) (stepped cfg.lambdaU r))).1
      (labeledProbs (fun v x => T.softmax (g v x)) (stepped cfg.lambdaU r)), _, hal, ?_, ?_⟩
  · intro j row hj
    rw [u2 j row hj]
    simp [labeledProbs, stepped]
  · rw [show (stepped cfg.lambdaU r).2.2 = objective cfg.lambdaU r.1 r.2.2 from rfl, hd]
    exact ⟨adaptLoss_of hp ha hA.temperature s1 s2 hlen (by unfold meanOver; rw [List.length_map]; exact u1.trans hlen) hnn, rfl⟩

/-! ### SoftMatch -/

theorem alignRun_snoc (u : Bool) (m : K) (C : Nat) (b : List (List K) × List (List K)) :
    ∀ (bs : List (List (List K) × List (List K))) (st : Option (AlignState K)), alignRun u m C st (bs ++ [b]) =
      ((alignRun u m C st bs).1 ++ [(alignStep u m C ((alignRun u m C st bs).2.getD (alignInit C)) b.1 b.2).1],
        some (alignStep u m C ((alignRun u m C st bs).2.getD (alignInit C)) b.1 b.2).2)
  | [], st => rfl
  | c :: bs, st => by
    simp only [List.cons_append, alignRun]
    rw [alignRun_snoc u m C b bs]

theorem alignRun_take (u : Bool) (m : K) (C : Nat) : ∀ (n : Nat) (bs : List (List (List K) × List (List K)))
    (st : Option (AlignState K)), (alignRun u m C st bs).1.take n = (alignRun u m C st (bs.take n)).1
  | 0, _, _ => by simp [alignRun]
  | _ + 1, [], _ => by simp [alignRun]
  | n + 1, b :: bs, st => by simp only [alignRun, List.take_succ_cons]; rw [alignRun_take u m C n bs]

/-- The batches SoftMatch measures confidence on. -/
def softAl (c : SoftCfg K) (C : Nat) (bs : List (List (List K) × List (List K))) : List (List (List K)) :=
  if c.align then (alignRun c.uniform c.m C none bs).1 else bs.map (·.1)

theorem softAl_take (c : SoftCfg K) (C : Nat) (n : Nat) (bs : List (List (List K) × List (List K))) :
    (softAl c C bs).take n = softAl c C (bs.take n) := by
  unfold softAl
  split
  · exact alignRun_take _ _ _ _ _ _
  · rw [List.map_take]

theorem softAl_length (c : SoftCfg K) (C : Nat) (bs : List (List (List K) × List (List K))) :
    (softAl c C bs).length = bs.length := by
  have : ∀ (bs : List (List (List K) × List (List K))) st, (alignRun c.uniform c.m C st bs).1.length = bs.length := by
    intro bs
    induction bs with
    | nil => intro st; rfl
    | cons b bs ih => intro st; simp only [alignRun, List.length_cons]; rw [ih]
  unfold softAl
  split
  · exact this _ _
  · simp

/-- Mean and variance that count for a row predicted as class `k`. -/
def statOf (c : SoftCfg K) (st : List (K × K)) (k : Nat) : K × K := if c.perClass then st.getD k (0, 0) else st.headD (0, 0)

/-- The averages over measured batches. -/
def StatInv (c : SoftCfg K) (T : Torch K) (C : Nat) (al : List (List (List K))) (st : List (K × K)) : Prop :=
  (c.perClass = true → st.length = C) ∧ (c.perClass = false → st ≠ []) ∧
  ∀ k < C, statOf c st k = (weightedAverage c.m (1 / (C : K)) (al.map fun b => (confStats T.argmax c.perClass k b).1),
    weightedAverage c.m 1 (al.map fun b => (confStats T.argmax c.perClass k b).2))

theorem stat_init (c : SoftCfg K) (T : Torch K) (C : Nat) :
    StatInv c T C [] (if c.perClass then List.replicate C (softInit C) else [softInit C]) := by
  unfold StatInv statOf
  cases c.perClass with
  | false => exact ⟨by simp, by simp, fun k hk => by simp [weightedAverage, softInit]⟩
  | true =>
    refine ⟨by simp, by simp, fun k hk => ?_⟩
    simp only [if_true, List.map_nil]
    rw [List.getD_eq_getElem _ _ (by simpa using hk)]
    simp [weightedAverage, softInit]

theorem stat_step [IsStrictOrderedRing K] (c : SoftCfg K) (T : Torch K) (C : Nat) (al : List (List (List K)))
    (a : Option (List (K × K)))
    (h : StatInv c T C al (a.getD (if c.perClass then List.replicate C (softInit C) else [softInit C]))) (b : List (List K)) :
    StatInv c T C (al ++ [b]) (softStats c T C a b) := by
  obtain ⟨h1, h0, h2⟩ := h
  unfold StatInv
  unfold statOf at h2 ⊢
  unfold softStats
  cases hp : c.perClass with
  | false =>
    simp only [hp, Bool.false_eq_true, if_false] at h0 h2 ⊢
    refine ⟨by simp, by simp, fun k hk => ?_⟩
    have h3 := h2 k hk
    generalize a.getD [softInit C] = l at h0 h3
    cases l with
    | nil => exact absurd rfl (h0 trivial)
    | cons x l =>
    simp only [List.headD_cons] at h3 ⊢
    rw [List.map_append, List.map_append, List.map_singleton, List.map_singleton, weightedAverage_snoc, weightedAverage_snoc]
    subst h3
    have e : batchStats (b.map rowMax) = confStats T.argmax false k b := by
      unfold batchStats confStats unbiasedVar mean
      by_cases hl : 1 < (b.map rowMax).length
      · simp only [Bool.false_eq_true, if_false]; rw [if_pos hl, if_pos hl]
      · simp only [Bool.false_eq_true, if_false]; rw [if_neg hl, if_neg hl]
    unfold softUpdate
    rw [e]
  | true =>
    simp only [hp, if_true] at h2 h1 ⊢
    refine ⟨by simp [softUpdateClass, h1 trivial], by simp, fun k hk => ?_⟩
    have h3 := h2 k hk
    rw [List.map_append, List.map_append, List.map_singleton, List.map_singleton, weightedAverage_snoc, weightedAverage_snoc]
    unfold softUpdateClass
    rw [h1 trivial, List.getD_eq_getElem _ _ (by simpa using hk)]
    simp only [List.getElem_map, List.getElem_range]
    rw [h3]
    have e : classStats (((b.map fun p => (rowMax p, T.argmax p)).filter fun p => p.2 = k).map (·.1)) =
        confStats T.argmax true k b := by
      unfold classStats confStats unbiasedVar mean
      rw [List.filter_map, List.map_map]
      rfl
    rw [e]

theorem softAl_step (c : SoftCfg K) (T : Torch K) (C : Nat) (bs : List (List (List K) × List (List K)))
    (a : Option (AlignState K)) (h : c.align = true → a = (alignRun c.uniform c.m C none bs).2) (u l : List (List K)) :
    (c.align = true → (softAlign c C a u l).2 = (alignRun c.uniform c.m C none (bs ++ [(u, l)])).2) ∧
    softAl c C (bs ++ [(u, l)]) = softAl c C bs ++ [(softAlign c C a u l).1] := by
  unfold softAl softAlign
  cases hc : c.align with
  | false => simp
  | true =>
    simp only [if_true, alignRun_snoc]
    rw [h hc]
    exact ⟨fun _ => rfl, rfl⟩

/-- **C179 (SoftMatch).**  In a first `fit`, step `t` measures the confidence of its weak views on the aligned predictions
(on the raw ones without alignment), keeps the exponentially weighted mean and variance of the confidences of all batches up
to this one (per predicted class in per-class mode), and weighs each unlabeled sample by a Gaussian below that mean, divided
by the sum of the weights of the batch or 1 if that is larger; targets come from the raw predictions. -/
theorem C179_softmatch [IsStrictOrderedRing K] (T : Torch K) (hp : PowerLaw T.pow) (ha : ArgmaxLaw T.argmax)
    (c : SoftCfg K) (hm0 : 0 ≤ c.m) (hm1 : c.m < 1) (hard : Bool) (G : TorchGen σ) (hG : G.Lawful) (N : Net X W K) (view : W → V)
    (g : V → X → List K) (C : Nat) (hC : 0 < C) (hN : Rowwise N view g C) (hs : ∀ v x, IsDistN C (T.softmax (g v x)))
    (log : W → List (V × Objective X K)) (hL : Logs N view log) (index : Index)
    (hidx : ∀ n idx, index n = .ok idx → idx.length = n) (torch : Bool) (cfg : Cfg K)
    (bundle : Option Bundle) (data : Option (Input X)) (seed : Int)
    (o o' : Obj (Option (AlignState K) × Option (List (K × K)))) (w w' : W) (hfresh : o.aux = (none, none))
    (h : fit G N (softmatch T c cfg.temperature hard) index torch cfg bundle data seed o w = ((o', w'), .ok ())) :
    ∃ d xw xs idx eps, ∃ steps : List (Stepped X V K), data = some d ∧ d.xw = some xw ∧ d.xs = some xs ∧
      Epochs d.xl.rows d.yl (xw.rows.zip idx) xs.rows cfg.batchSize cfg.maxEpochs eps ∧ eps.flatten = steps.map (·.1) ∧
      log w' = log w ++ steps.map (·.2) ∧
      ∃ al : List (List (List K)), al.length = steps.length ∧
      ∀ (t : Nat) p, steps[t]? = some p → ∃ (b : List (List K)) (ws : List K), al[t]? = some b ∧
        (c.align = false → b = weakProbs (fun v x => T.softmax (g v x)) p) ∧
        (c.align = true → AlignedBy c.uniform c.m C ((steps.take (t + 1)).map fun q => (weakProbs (fun v x => T.softmax (g v x)) q,
          labeledProbs (fun v x => T.softmax (g v x)) q)) (weakProbs (fun v x => T.softmax (g v x)) p) b) ∧
        (∀ (j : Nat) r, b[j]? = some r → ws[j]? = some (gauss T.exp c.nSigma
          (weightedAverage c.m (1 / (C : K)) ((al.take (t + 1)).map fun b => (confStats T.argmax c.perClass (T.argmax r) b).1))
          (weightedAverage c.m 1 ((al.take (t + 1)).map fun b => (confStats T.argmax c.perClass (T.argmax r) b).2)) (rowMax r))) ∧
        AdaptLoss T.pow cfg.temperature hard cfg.lambdaU (weakProbs (fun v x => T.softmax (g v x)) p)
          (ws.map (· / max ws.sum 1)) p.1 p.2.2 ∧ p.2.2.fairness = none := by
  obtain ⟨d, xw, xs, idx, eps, rs, rfl, hA, hi, hE, e1, e2, e3⟩ := fit_chain G hG N view g C hN log hL _ index
    hidx torch cfg bundle data seed o o' w w' h
  refine ⟨d, xw, xs, idx, eps, rs.map (stepped cfg.lambdaU), rfl, hA.weak, hA.strong, hE, by rw [e1, List.map_map]; rfl,
    by rw [e2, List.map_map]; rfl,
    softAl c C ((rs.map (stepped cfg.lambdaU)).map fun q => (weakProbs (fun v x => T.softmax (g v x)) q,
      labeledProbs (fun v x => T.softmax (g v x)) q)), ?_, ?_⟩
  · rw [softAl_length, List.length_map]
  intro t p ht
  rw [List.getElem?_map, Option.map_eq_some_iff] at ht
  obtain ⟨r, ht, rfl⟩ := ht
  have hP : ∀ q ∈ rs.map (fun r => (seenBy g C r.1 r.2.1, r.2.2)), (fun s : Seen K => s.classes = C ∧
      IsBatch C (s.weak.map T.softmax) ∧ IsBatch C (s.labeled.map T.softmax)) q.1 := by
    intro q hq
    obtain ⟨r, hr, rfl⟩ := List.mem_map.mp hq
    have hmem : r.1 ∈ eps.flatten := by rw [e1]; exact List.mem_map_of_mem hr
    refine ⟨rfl, ?_, ?_⟩
    · rw [weak_eq T g C r.1 r.2.1 (objective cfg.lambdaU r.1 r.2.2)]
      exact weak_batch hs (Epochs.fine hE _ hmem).2.1
    · rw [labeled_eq T g C r.1 r.2.1 (objective cfg.lambdaU r.1 r.2.2)]
      exact labeled_batch hs (Epochs.fine hE _ hmem).1
  have hpairs : ∀ n, ((rs.map (stepped cfg.lambdaU)).take n).map (fun q => (weakProbs (fun v x => T.softmax (g v x)) q,
        labeledProbs (fun v x => T.softmax (g v x)) q)) =
      (((rs.map fun r => (seenBy g C r.1 r.2.1, r.2.2)).take n).map (·.1)).map
        fun s => (s.weak.map T.softmax, s.labeled.map T.softmax) := by
    intro n
    rw [← List.map_take, ← List.map_take]
    simp only [List.map_map]
    apply List.map_congr_left
    intro r _
    exact Prod.ext (weak_eq T g C r.1 r.2.1 _).symm (labeled_eq T g C r.1 r.2.1 _).symm
  obtain ⟨a1, a2, i1, i2, i3⟩ := chain_at (R := softmatch T c cfg.temperature hard)
    (P := fun s : Seen K => s.classes = C ∧ IsBatch C (s.weak.map T.softmax) ∧ IsBatch C (s.labeled.map T.softmax))
    (Inv := fun hst a =>
      (c.align = true → a.1 = (alignRun c.uniform c.m C none
        (hst.map fun s => (s.weak.map T.softmax, s.labeled.map T.softmax))).2) ∧
      StatInv c T C (softAl c C (hst.map fun s => (s.weak.map T.softmax, s.labeled.map T.softmax)))
        (a.2.getD (if c.perClass then List.replicate C (softInit C) else [softInit C])))
    (by
      rintro hst a s a' d ⟨hc, hb1, hb2⟩ ⟨hi1, hi2⟩ hap
      have hap : softApply T c cfg.temperature hard a s = (a', .ok d) := hap
      unfold softApply at hap
      simp only [hc] at hap
      obtain ⟨rfl, -⟩ := Prod.mk.inj hap
      obtain ⟨j1, j2⟩ := softAl_step c T C (hst.map fun s => (s.weak.map T.softmax, s.labeled.map T.softmax)) a.1 hi1
        (s.weak.map T.softmax) (s.labeled.map T.softmax)
      rw [List.map_append, List.map_singleton]
      refine ⟨j1, ?_⟩
      rw [j2]
      exact stat_step c T C _ _ hi2 _)
    (h := []) (a := (none, none)) ⟨fun _ => rfl, by
      have : softAl c C [] = [] := by unfold softAl; split <;> rfl
      simpa [this] using stat_init c T C⟩
    (by have e3 : Chain _ (id o.aux) _ := e3; rw [hfresh] at e3; exact e3) hP t _ (by rw [List.getElem?_map, ht]; rfl)
  rw [List.nil_append, ← hpairs] at i1 i3
  have hap : softApply T c cfg.temperature hard a1 (seenBy g C r.1 r.2.1) = (a2, .ok r.2.2) := i2
  unfold softApply at hap
  simp only [show (seenBy g C r.1 r.2.1).classes = C from rfl] at hap
  obtain ⟨h2, h3⟩ := Prod.mk.inj hap
  have hd := said_ok h3
  obtain ⟨-, j2⟩ := softAl_step c T C _ a1.1 i1.1 ((seenBy g C r.1 r.2.1).weak.map T.softmax)
    ((seenBy g C r.1 r.2.1).labeled.map T.softmax)
  rw [← h2] at i3
  obtain ⟨-, i3⟩ := i3
  simp only [Option.getD_some] at i3
  rw [weak_eq T g C r.1 r.2.1 (objective cfg.lambdaU r.1 r.2.2), labeled_eq T g C r.1 r.2.1 (objective cfg.lambdaU r.1 r.2.2)]
    at hd i3 j2
  have hts : ((rs.map (stepped cfg.lambdaU)).take (t + 1)) = (rs.map (stepped cfg.lambdaU)).take t ++ [stepped cfg.lambdaU r] := by
    rw [List.take_add_one, List.getElem?_map, ht]; rfl
  have hmem : r.1 ∈ eps.flatten := by rw [e1]; exact List.mem_map_of_mem (List.mem_of_getElem? ht)
  obtain ⟨s1, s2⟩ := Epochs.sizes hE _ hmem
  have hbatch := weak_batch (p := stepped cfg.lambdaU r) hs (Epochs.fine hE _ hmem).2.1
  have htake : (softAl c C ((rs.map (stepped cfg.lambdaU)).map fun q => (weakProbs (fun v x => T.softmax (g v x)) q,
      labeledProbs (fun v x => T.softmax (g v x)) q))).take (t + 1) =
      softAl c C (((rs.map (stepped cfg.lambdaU)).take t).map fun q => (weakProbs (fun v x => T.softmax (g v x)) q,
        labeledProbs (fun v x => T.softmax (g v x)) q)) ++ [(softAlign c C a1.1
          (weakProbs (fun v x => T.softmax (g v x)) (stepped cfg.lambdaU r))
          (labeledProbs (fun v x => T.softmax (g v x)) (stepped cfg.lambdaU r))).1] := by
    rw [softAl_take, ← List.map_take, hts, List.map_append, List.map_singleton]
    exact j2
  rw [hts, List.map_append, List.map_singleton] at i3
  have htl : (softAl c C (((rs.map (stepped cfg.lambdaU)).take t).map fun q => (weakProbs (fun v x => T.softmax (g v x)) q,
        labeledProbs (fun v x => T.softmax (g v x)) q))).length = t := by
    have := (List.getElem?_eq_some_iff.mp ht).1
    rw [softAl_length, List.length_map, List.length_take, List.length_map]
    omega
  have hal : c.align = true → AlignedBy c.uniform c.m C (((rs.map (stepped cfg.lambdaU)).take (t + 1)).map fun q =>
        (weakProbs (fun v x => T.softmax (g v x)) q, labeledProbs (fun v x => T.softmax (g v x)) q))
      (weakProbs (fun v x => T.softmax (g v x)) (stepped cfg.lambdaU r))
      (softAlign c C a1.1 (weakProbs (fun v x => T.softmax (g v x)) (stepped cfg.lambdaU r))
        (labeledProbs (fun v x => T.softmax (g v x)) (stepped cfg.lambdaU r))).1 := by
    intro hc
    have hinv := (alignRun_inv c.uniform c.m C hm0 hm1.le (((rs.map (stepped cfg.lambdaU)).take t).map fun q =>
        (weakProbs (fun v x => T.softmax (g v x)) q, labeledProbs (fun v x => T.softmax (g v x)) q)) [] none
      (alignInit_inv _ _ C hC) (by
        intro b hb
        obtain ⟨q, hq, rfl⟩ := List.mem_map.mp hb
        obtain ⟨r, hr, rfl⟩ := List.mem_map.mp (List.mem_of_mem_take hq)
        have hmem : r.1 ∈ eps.flatten := by rw [e1]; exact List.mem_map_of_mem hr
        exact ⟨weak_batch hs (Epochs.fine hE _ hmem).2.1, labeled_batch hs (Epochs.fine hE _ hmem).1⟩)).1
    rw [List.nil_append, ← i1.1 hc] at hinv
    have h4 := aligned_by hC hbatch (alignUpdate_inv c.uniform c.m C hm0 hm1.le _ _ hinv _ _ hbatch
      (labeled_batch (p := stepped cfg.lambdaU r) hs (Epochs.fine hE _ hmem).1))
    rw [hts, List.map_append, List.map_singleton]
    unfold softAlign
    rw [if_pos hc]
    exact h4
  have hrows : ∀ row ∈ (softAlign c C a1.1 (weakProbs (fun v x => T.softmax (g v x)) (stepped cfg.lambdaU r))
      (labeledProbs (fun v x => T.softmax (g v x)) (stepped cfg.lambdaU r))).1, row.length = C ∧ row ≠ [] := by
    intro row hr
    have hl : row.length = C := by
      by_cases hc : c.align = true
      · obtain ⟨hl, w, -, hw⟩ := hal hc
        obtain ⟨j, hj, rfl⟩ := List.getElem_of_mem hr
        obtain ⟨r', q1, q2, -⟩ := hw j _ (List.getElem?_eq_getElem (by rw [← hl]; exact hj))
        rw [List.getElem?_eq_getElem hj] at q1
        rw [Option.some.inj q1]
        exact q2
      · unfold softAlign at hr
        rw [if_neg hc] at hr
        exact (hbatch.2 row hr).1
    exact ⟨hl, fun e => by rw [e] at hl; simp at hl; omega⟩
  have hlen : (softAlign c C a1.1 (weakProbs (fun v x => T.softmax (g v x)) (stepped cfg.lambdaU r))
      (labeledProbs (fun v x => T.softmax (g v x)) (stepped cfg.lambdaU r))).1.length = r.1.xw.length := by
    rw [softAlign_length]; simp [weakProbs, stepped]
  refine ⟨(softAlign c C a1.1 (weakProbs (fun v x => T.softmax (g v x)) (stepped cfg.lambdaU r))
      (labeledProbs (fun v x => T.softmax (g v x)) (stepped cfg.lambdaU r))).1,
    softWeights c T (softStats c T C a1.2 (softAlign c C a1.1 (weakProbs (fun v x => T.softmax (g v x)) (stepped cfg.lambdaU r))
      (labeledProbs (fun v x => T.softmax (g v x)) (stepped cfg.lambdaU r))).1)
      (softAlign c C a1.1 (weakProbs (fun v x => T.softmax (g v x)) (stepped cfg.lambdaU r))
      (labeledProbs (fun v x => T.softmax (g v x)) (stepped cfg.lambdaU r))).1, ?_, ?_, hal, ?_, ?_⟩
  · rw [← List.getElem?_take_of_lt (Nat.lt_succ_self t), htake, List.getElem?_append_right (by rw [htl]), htl]
    simp
  · intro hc
    unfold softAlign
    rw [hc]; rfl
  · intro j row hj
    obtain ⟨hrl, hrn⟩ := hrows row (List.mem_of_getElem? hj)
    have hlt : T.argmax row < C := by have := (ha row hrn).1; rwa [hrl] at this
    have hst := i3.2.2 _ hlt
    have j2' := j2
    rw [show (r.1, r.2.1, objective cfg.lambdaU r.1 r.2.2) = stepped cfg.lambdaU r from rfl] at hst j2'
    rw [j2'] at hst
    rw [htake]
    unfold softWeights
    rw [List.getElem?_map, hj]
    simp only [Option.map_some, Option.some.injEq]
    unfold statOf at hst
    rw [hst]
    rfl
  · rw [show (stepped cfg.lambdaU r).2.2 = objective cfg.lambdaU r.1 r.2.2 from rfl, hd]
    exact ⟨adaptLoss_of hp ha hA.temperature s1 s2 (by simp [weakProbs]) (by
      rw [List.length_map]; unfold softWeights; rw [List.length_map]; exact hlen)
      (fun row hr => ⟨(hbatch.2 row hr).2.1, dist_ne _ _ (hbatch.2 row hr)⟩), rfl⟩

/-! ### UDA -/

/-- **C179 (UDA with annealing).**  With a known schedule, step `t` counts exactly the labeled samples whose true class has
a predicted probability below the annealing threshold of step `t`, each with weight one over the batch; the unlabeled part
is that of UDA without annealing. -/
theorem C179_uda [IsStrictOrderedRing K] (T : Torch K) (cutoff : K) (schedule : String) (hsch : IsSchedule schedule)
    (total : Nat) (htot : 0 < total) (G : TorchGen σ) (hG : G.Lawful)
    (N : Net X W K) (view : W → V) (g : V → X → List K) (C : Nat) (hN : Rowwise N view g C)
    (cfg : Cfg K) (hs : ∀ v x, T.softmax ((g v x).map (· / cfg.temperature)) ≠ [])
    (log : W → List (V × Objective X K)) (hL : Logs N view log) (index : Index)
    (hidx : ∀ n idx, index n = .ok idx → idx.length = n) (torch : Bool) (bundle : Option Bundle)
    (data : Option (Input X)) (seed : Int) (o o' : Obj Nat) (w w' : W)
    (h : fit G N (uda T cutoff cfg.temperature schedule total) index torch cfg bundle data seed o w = ((o', w'), .ok ())) :
    ∃ d xw xs idx eps, ∃ steps : List (Stepped X V K), data = some d ∧ d.xw = some xw ∧ d.xs = some xs ∧
      Epochs d.xl.rows d.yl (xw.rows.zip idx) xs.rows cfg.batchSize cfg.maxEpochs eps ∧ eps.flatten = steps.map (·.1) ∧
      log w' = log w ++ steps.map (·.2) ∧
      ∀ (t : Nat) p, steps[t]? = some p →
        p.2.2.labeled = (p.1.xl.zip p.1.yl).map (fun q => (q.1, q.2,
          if (T.softmax (g p.2.1 q.1)).getD q.2.toNat 0 < annealed T.exp schedule t total C then 1 / (p.1.yl.length : K) else 0)) ∧
        UdaLoss cutoff cfg.lambdaU (fun x => T.softmax ((g p.2.1 x).map (· / cfg.temperature))) p.1
          { p.2.2 with labeled := (p.1.xl.zip p.1.yl).map fun q => (q.1, q.2, 1 / (p.1.yl.length : K)) } := by
  obtain ⟨d, xw, xs, idx, eps, rs, rfl, hA, hi, hE, e1, e2, e3⟩ := fit_chain G hG N view g C hN log hL _ index
    hidx torch cfg bundle data seed o o' w w' h
  refine ⟨d, xw, xs, idx, eps, rs.map (stepped cfg.lambdaU), rfl, hA.weak, hA.strong, hE, by rw [e1, List.map_map]; rfl,
    by rw [e2, List.map_map]; rfl, ?_⟩
  intro t p ht
  rw [List.getElem?_map, Option.map_eq_some_iff] at ht
  obtain ⟨r, ht, rfl⟩ := ht
  obtain ⟨a1, a2, i1, i2, -⟩ := chain_at (R := uda T cutoff cfg.temperature schedule total)
    (P := fun _ => True) (Inv := fun hst a => a = hst.length)
    (by
      rintro hst a s a' d - rfl hap
      obtain ⟨share, -, rfl, -⟩ := udaApply_ok (show udaApply T cutoff cfg.temperature schedule total _ s = (a', .ok d) from hap)
      simp)
    (h := []) (a := 0) rfl e3 (fun _ _ => trivial) t _ (by rw [List.getElem?_map, ht]; rfl)
  have htl : a1 = t := by
    have := (List.getElem?_eq_some_iff.mp ht).1
    rw [i1, List.nil_append, List.length_map, List.length_take, List.length_map]
    omega
  subst htl
  obtain ⟨share, h1, -, h2⟩ := udaApply_ok (show udaApply T cutoff cfg.temperature schedule total a1 (seenBy g C r.1 r.2.1) =
    (a2, .ok r.2.2) from i2)
  have hmem : r.1 ∈ eps.flatten := by rw [e1]; exact List.mem_map_of_mem (List.mem_of_getElem? ht)
  obtain ⟨s1, s2⟩ := Epochs.sizes hE _ hmem
  have hne : schedule ≠ "none" := by rcases hsch with rfl | rfl | rfl <;> decide
  unfold tsaShare at h1
  rw [if_neg hne, tsa_eq T.exp schedule hsch a1 total _ htot] at h1
  have h1 := (Except.ok.inj h1).symm
  rw [show (stepped cfg.lambdaU r).2.2 = objective cfg.lambdaU r.1 r.2.2 from rfl, h2]
  refine ⟨?_, rfl, ?_, rfl, rfl⟩
  · unfold objective
    simp only [stepped]
    rw [h1]
    simp only [seenBy]
    rw [List.zipWith_map_left]
    generalize (1 : K) / (r.1.yl.length : K) = u
    generalize r.1.xl = A at s1
    generalize r.1.yl = B at s1
    clear h2 hmem
    induction A generalizing B with
    | nil => simp
    | cons a A ih =>
      cases B with
      | nil => simp
      | cons b B =>
        simp only [List.zip_cons_cons, List.zipWith_cons_cons, List.map_cons]
        rw [ih B (by simpa using s1)]
        rfl
  · unfold objective
    simp only [stepped, seenBy]
    have em : ((r.1.xw.map (·.1)).map (g r.2.1)).map (fun l => T.softmax (l.map (· / cfg.temperature))) =
        (r.1.xw.map (·.1)).map fun x => T.softmax ((g r.2.1 x).map (· / cfg.temperature)) := by
      rw [List.map_map]; rfl
    rw [em, strict_mask cutoff (fun x => T.softmax ((g r.2.1 x).map (· / cfg.temperature))) (fun x => hs _ x), List.map_map]
    exact forall₂_terms (fun p x => ⟨rfl, rfl, rfl, rfl⟩) _ _

/-! ### Examples -/

theorem demo_distN (v x : Nat) : IsDistN 2 (demoTorch.softmax (demoLogits v x)) :=
  ⟨by unfold demoLogits; split <;> rfl, (demo_softmax v x).1⟩

/-- The hypotheses of `C179_flexmatch` are met by a training of two epochs. -/
example : ∃ r, demoFit (flexmatch demoTorch (3 / 5) (1 / 2) true true 3) (demoCfg 2 2) (demoData [0, 1] [4, 5, 6]) ⟨none, false⟩ demoW =
    (r, .ok ()) ∧ r.2.steps.length = 4 := by
  refine ⟨_, Prod.ext rfl ?_, ?_⟩ <;> decide +kernel

/-- Weights of the unlabeled samples in each step. -/
def demoWeights (w : DemoW) : List (List Rat) := w.steps.map fun p => p.2.unlabeled.map (·.weight)

/-- The others: a training each, with samples that are used and samples that are not. -/
example : (demoFit (freematch demoTorch (1 / 2) (1 / 2) 1 false true true) (demoCfg 2 1) (demoData [0, 1] [4, 5, 6]) ⟨none, false⟩
    demoW).2 = .ok () := by decide +kernel

example : let r := demoFit (adamatch demoTorch (1 / 2) 1 (1 / 2) true) (demoCfg 2 2) (demoData [0, 1] [4, 5, 6]) ⟨none, false⟩ demoW
    r.2 = .ok () ∧ demoWeights r.1.2 = [[1 / 2, 1 / 2], [0], [0, 1], [0]] := by decide +kernel

example : (demoFit (softmatch demoTorch ⟨1 / 2, 2, false, true, false⟩ (1 / 2) true) (demoCfg 2 1) (demoData [0, 1] [4, 5, 6])
    ⟨(none, none), false⟩ demoW).2 = .ok () := by decide +kernel

example : let r := demoFit (uda demoTorch (3 / 5) (1 / 2) "log" 4) (demoCfg 2 2) (demoData [0, 1] [4, 5, 6]) ⟨7, false⟩ demoW
    r.2 = .ok () ∧ r.1.2.steps.map (fun p => p.2.labeled.map (·.2.2)) = [[0, 0], [0, 0], [1 / 2, 1 / 2], [1 / 2, 1 / 2]] := by
  decide +kernel

end ModSSC.Deep.Fit
