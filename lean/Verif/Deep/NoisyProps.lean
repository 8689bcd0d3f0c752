import Verif.Deep.NoisyModel
import Verif.Deep.ConsProps

/-!
# Noisy Student: properties
-/

/-! ### Specification -/

namespace ModSSC.Deep.Noisy.Spec
open ModSSC ModSSC.Deep
open ModSSC.Deep.Fit (Out Feats Input Bundle Ready Batch Net Torch Objective Term)
open ModSSC.Deep.Spec (Confident MostProbable RowsAt)
open ModSSC.Deep.Fit.Spec (confident)
open ModSSC.Deep.Cons.Spec (Ramp)

variable {X W V K : Type} [Field K] [LinearOrder K]

/-- The data `fit` works with: weak views (else `X_u`) and strong views (else the weak ones). -/
structure Views (xu : Option (Feats X)) (d : Input X) (xw xs : Feats X) : Prop where
  weak : d.xw = some xw ∨ (d.xw = none ∧ xu = some xw)
  strong : d.xs = some xs ∨ (d.xs = none ∧ xs = xw)

/-- What `fit` asks for. -/
structure Acceptable (torch : Bool) (cfg : Cfg K) (bundle : Option Bundle) (xu : Option (Feats X)) (d : Input X)
    (xw xs : Feats X) : Prop where
  torch : torch = true
  rows : d.xl.rows.length = d.yl.length
  labels : d.yDims = 1 ∧ d.yInt64 = true
  nonempty : d.xl.rows ≠ []
  unsupervised : Views xu d xw xs
  unlabeled : xw.rows ≠ []
  views : xw.rows.length = xs.rows.length
  floats : d.xl.float = true ∧ xw.float = true ∧ xs.float = true
  bundle : ∃ b, bundle = some b ∧ b.valid = true ∧ b.placed = true
  batch : 0 < cfg.base.batchSize
  epochs : 0 < cfg.base.maxEpochs
  lambda : 0 ≤ cfg.base.lambdaU
  warmUp : 0 ≤ cfg.base.warmUp
  teacherEpochs : 0 ≤ cfg.teacherEpochs
  cutoff : 0 ≤ cfg.cutoff ∧ cfg.cutoff ≤ 1
  temperature : 0 < cfg.temperature

/-- In evaluation mode a network treats each row by itself and is not changed by a forward pass. -/
def Calm (N : Net X W K) (P : Copying W K) (view : W → V) (g : V → X → List K) (C : Nat) : Prop :=
  ∀ w xs, N.forward (P.evalMode w) xs = (⟨2, C, xs.map (g (view (P.evalMode w)))⟩, P.evalMode w)

/-- What torch does when weights are copied; parameters keep their shapes in training. -/
structure Copies (N : Net X W K) (P : Copying W K) : Prop where
  train : ∀ w, P.params (N.train w) = P.params w
  forward : ∀ w xs, P.params (N.forward w xs).2 = P.params w
  step : ∀ w o, (P.params (N.step w o)).map List.length = (P.params w).map List.length
  load : ∀ s t, P.params (P.load s t) = P.params s
  evalMode : ∀ w, P.params (P.evalMode w) = P.params w

/-- Passes over the labeled rows: each of the `e` passes visits each row exactly once, with its label, in batches of at
most `b` rows, none empty. -/
structure Passes (xl : List X) (yl : List Int) (b e : Int) (eps : List (List (List X × List Int))) : Prop where
  number : (eps.length : Int) = e
  each : ∀ ep ∈ eps, ∃ Bs : List (List Nat), Bs.flatten.Perm (List.range xl.length) ∧
    (∀ B ∈ Bs, B ≠ [] ∧ (B.length : Int) ≤ b) ∧
    List.Forall₂ (fun B p => RowsAt xl B p.1 ∧ RowsAt yl B p.2) Bs ep

/-- The loss of a step of the first phase: the mean cross entropy of the labeled rows, nothing else. -/
structure Supervised (p : List X × List Int) (o : Objective X K) : Prop where
  labeled : o.labeled = (p.1.zip p.2).map fun q => (q.1, q.2, 1 / (p.2.length : K))
  unlabeled : o.unlabeled = []
  fairness : o.fairness = none

/-- The unlabeled part of a loss of the second phase: the strong view of each sample against what the teacher says of
the weak view, averaged over the samples the teacher is confident of; nothing for the others.  `f` gives the class
probabilities of the teacher. -/
structure NoisyTerm (cutoff : K) (hard : Bool) (f : X → List K) (rows : List X) (p : (X × Int) × X) (t : Term X K) :
    Prop where
  weak : t.weak = p.1.1
  strong : t.strong = p.2
  weight : t.weight = if Confident cutoff (f p.1.1) then 1 / (confident cutoff f rows : K) else 0
  hardTarget : hard = true → ∃ c, t.target = .hard c ∧ MostProbable (f p.1.1) c
  softTarget : hard = false → t.target = .soft (f p.1.1)

/-- The loss of step `k` of the second phase. -/
structure NoisyLoss (cfg : Cfg K) (total k : Nat) (f : X → List K) (s : Batch X) (o : Objective X K) : Prop where
  labeled : o.labeled = (s.xl.zip s.yl).map fun p => (p.1, p.2, 1 / (s.yl.length : K))
  unlabeled : List.Forall₂ (NoisyTerm cfg.cutoff cfg.hard f (s.xw.map (·.1))) (s.xw.zip s.xs) o.unlabeled
  scale : ∃ r : Rat, Ramp cfg.base.warmUp total k r ∧ o.scale = cfg.base.lambdaU * (r : K)
  fairness : o.fairness = none

/-- Softmax of logits divided by the temperature. -/
def tempered (softmax : List K → List K) (temp : K) (l : List K) : List K := softmax (l.map (· / temp))

end ModSSC.Deep.Noisy.Spec

namespace ModSSC.Deep.Noisy
open ModSSC ModSSC.Deep Spec
open ModSSC.Deep.Fit (Out Feats Input Bundle Ready Batch Net Torch Objective Term)
open ModSSC.Deep.Spec (Confident MostProbable RowsAt ArgmaxLaw)
open ModSSC.Deep.Fit.Spec (confident Logs RowPerInput Rowwise)
open ModSSC.Deep.Cons (runSteps runSteps_ok runSteps_total chain_log numbered_length checkTeacher_ok totalSteps totalSteps_eq ramp_warm)
open ModSSC.Deep.Cons.Spec (numbered Epochs)
set_option linter.unusedSectionVars false

variable {X W V K σ : Type} [Field K] [LinearOrder K] [IsStrictOrderedRing K]

/-! ### Checks -/

theorem views_iff {xu : Option (Feats X)} {d : Input X} {xw xs : Feats X} :
    Views xu d xw xs ↔ (nsInput xu d).xw = some xw ∧ (nsInput xu d).xs = some xs := by
  unfold nsInput
  constructor
  · rintro ⟨h1, h2⟩
    rcases h1 with h1 | ⟨h1, h1'⟩ <;> rcases h2 with h2 | ⟨h2, h2'⟩ <;> simp_all
  · rintro ⟨h1, h2⟩
    cases hw : d.xw with
    | none =>
      rw [hw] at h1 h2
      simp only at h1 h2
      cases hs : d.xs with
      | none =>
        rw [hs] at h2
        simp only at h2
        exact ⟨.inr ⟨hw, h1⟩, .inr ⟨hs, by rw [h1] at h2; exact (Option.some.inj h2).symm⟩⟩
      | some y =>
        rw [hs] at h2
        simp only at h2
        exact ⟨.inr ⟨hw, h1⟩, .inl (by rw [hs, h2])⟩
    | some x =>
      rw [hw] at h1 h2
      simp only at h1 h2
      cases hs : d.xs with
      | none =>
        rw [hs] at h2
        simp only at h2
        exact ⟨.inl (by rw [hw, h1]), .inr ⟨hs, by rw [h1] at h2; exact (Option.some.inj h2).symm⟩⟩
      | some y =>
        rw [hs] at h2
        simp only at h2
        exact ⟨.inl (by rw [hw, h1]), .inl (by rw [hs, h2])⟩

theorem acceptable_iff {torch : Bool} {cfg : Cfg K} {bundle : Option Bundle} {xu : Option (Feats X)} {d : Input X}
    {xw xs : Feats X} : Acceptable torch cfg bundle xu d xw xs ↔
      Cons.Spec.Acceptable torch cfg.base bundle (nsInput xu d) xw xs ∧ ranges cfg = true := by
  unfold ranges
  simp only [Bool.and_eq_true, decide_eq_true_eq]
  constructor
  · intro h
    obtain ⟨h1, h2⟩ := views_iff.mp h.unsupervised
    exact ⟨⟨h.torch, h.rows, h.labels, h.nonempty, h1, h2, h.unlabeled, h.views, h.floats, h.bundle, h.batch, h.epochs,
      h.lambda, h.warmUp⟩, ⟨h.teacherEpochs, h.cutoff⟩, h.temperature⟩
  · rintro ⟨h, ⟨h1, h2⟩, h3⟩
    exact ⟨h.torch, h.rows, h.labels, h.nonempty, views_iff.mpr ⟨h.weak, h.strong⟩, h.unlabeled, h.views, h.floats, h.bundle,
      h.batch, h.epochs, h.lambda, h.warmUp, h1, h2, h3⟩

theorem check_ok {torch : Bool} {cfg : Cfg K} {bundle : Option Bundle} {xu : Option (Feats X)} {data : Option (Input X)}
    {r : Ready X} : Cons.check torch cfg.base (ranges cfg) bundle (data.map (nsInput xu)) = .ok r ↔
      ∃ d xw xs, data = some d ∧ Acceptable torch cfg bundle xu d xw xs ∧
        r = ⟨d.xl.rows, d.yl, numbered xw.rows, xs.rows⟩ := by
  rw [Cons.check_ok]
  constructor
  · rintro ⟨d', xw, xs, hd, hA, hr, rfl⟩
    cases data with
    | none => cases hd
    | some d =>
      obtain rfl := Option.some.inj hd
      exact ⟨d, xw, xs, rfl, acceptable_iff.mpr ⟨hA, hr⟩, rfl⟩
  · rintro ⟨d, xw, xs, rfl, hA, rfl⟩
    obtain ⟨h1, h2⟩ := acceptable_iff.mp hA
    exact ⟨nsInput xu d, xw, xs, rfl, h1, h2, rfl⟩

/-- **C169 (refused).**  A `fit` whose data, bundle or parameters are not acceptable raises, and leaves network, teacher
and object as they were. -/
theorem C169_refused (G : TorchGen σ) (N : Net X W K) (P : Copying W K) (T : Torch K) (torch : Bool) (cfg : Cfg K)
    (bundle : Option Bundle) (xu : Option (Feats X)) (data : Option (Input X)) (seed : Int) (fitted same : Bool) (w : W)
    (ema : Option W) (h : ∀ d xw xs, data = some d → ¬ Acceptable torch cfg bundle xu d xw xs) :
    ∃ e, fit G N P T torch cfg bundle xu data seed fitted same w ema = ((fitted, w, ema), .error e) := by
  unfold fit
  cases hc : Cons.check torch cfg.base (ranges cfg) bundle (data.map (nsInput xu)) with
  | error e => exact ⟨e, rfl⟩
  | ok r =>
    obtain ⟨d, xw, xs, hd, hA, -⟩ := check_ok.mp hc
    exact absurd hA (h d xw xs hd)

/-! ### First phase -/

theorem cycleFrom_pending (G : TorchGen σ) (n b : Nat) : ∀ (pending : List (List Nat)) (g : σ),
    cycleFrom G n b pending.length pending g = .ok (pending, g)
  | [], g => rfl
  | B :: rest, g => by simp only [List.length_cons, cycleFrom, cycleNext, cycleFrom_pending G n b rest g]

/-- Exactly enough steps for one pass: the batches of one permutation. -/
theorem cycle_once (G : TorchGen σ) (hG : G.Lawful) {n b : Nat} (hn : 0 < n) (hb : 0 < b) (g : σ) :
    ∃ Bs g', cycleBatchIndices G n b (numBatches n b) g = .ok (Bs, g') ∧ Bs.flatten.Perm (List.range n) ∧
      ∀ B ∈ Bs, B ≠ [] ∧ B.length ≤ b := by
  have hpos : 0 < (n + b - 1) / b := Nat.div_pos (by omega) hb
  have hl : ((G.randperm g n).1).length = n := by simpa using (hG g n).length_eq
  have hlen := iter_length n b (G.randperm g n).1
  have hfl := iter_flatten n b (G.randperm g n).1 hb hl
  have hmem := iter_mem n b (G.randperm g n).1 hb hl
  refine ⟨iterBatchIndices n b (G.randperm g n).1, (G.randperm g n).2, ?_, by rw [hfl]; exact hG g n,
    fun B hB => ⟨(hmem B hB).1, (hmem B hB).2.1⟩⟩
  have e1 : numBatches n b = (iterBatchIndices n b (G.randperm g n).1).length := by
    rw [hlen]; unfold numBatches; omega
  rw [e1]
  unfold cycleBatchIndices
  cases hi : iterBatchIndices n b (G.randperm g n).1 with
  | nil => rw [hi] at hlen; simp at hlen; omega
  | cons B rest =>
    simp only [List.length_cons, cycleFrom, cycleNext, hi, cycleFrom_pending]

theorem supEpochs_ok (G : TorchGen σ) (hG : G.Lawful) {xl : List X} {yl : List Int} (hl : xl.length = yl.length)
    (hn : 0 < xl.length) {b : Nat} (hb : 0 < b) : ∀ (e : Nat) (g : σ),
    ∃ eps, supEpochs G xl yl b e g = .ok eps ∧ Passes xl yl b e eps
  | 0, g => ⟨[], rfl, ⟨rfl, by simp⟩⟩
  | e + 1, g => by
    obtain ⟨Bs, g', h1, h2, h3⟩ := cycle_once G hG hn hb g
    have hr : ∀ B ∈ Bs, ∀ i ∈ B, i < xl.length := fun B hB i hi => by
      have := h2.mem_iff.mp (List.mem_flatten.mpr ⟨B, hB, hi⟩)
      simpa using this
    obtain ⟨ps, hps⟩ : ∃ ps, Bs.mapM (takePair xl yl) = .ok ps := by
      apply mapM_total
      intro B hB
      exact takePair_total xl yl B (hr B hB) (fun i hi => hl ▸ hr B hB i hi)
    have hc : cycleBatches G xl yl b (numBatches xl.length b) g = .ok (ps, g') := by
      unfold cycleBatches
      rw [if_neg (by omega)]
      simp only [h1, hps, bind, Except.bind, pure, Except.pure]
    obtain ⟨rest, h4, h5⟩ := supEpochs_ok G hG hl hn hb e g'
    refine ⟨ps :: rest, by simp only [supEpochs, hc, h4], ⟨by have := h5.number; simp; omega, ?_⟩⟩
    intro ep hep
    rcases List.mem_cons.mp hep with rfl | hep
    · refine ⟨Bs, h2, fun B hB => ⟨(h3 B hB).1, by exact_mod_cast (h3 B hB).2⟩, ?_⟩
      exact (mapM_ok.mp hps).imp fun B p hp => (takePair_ok _ _ _ _).mp hp
    · exact h5.each ep hep

theorem supStep_log {N : Net X W K} {view : W → V} {log : W → List (V × Objective X K)} (hL : Logs N view log) {w w' : W}
    {s : List X × List Int} (h : supStep N w s = (w', .ok ())) :
    ∃ p, log w' = log w ++ [p] ∧ Supervised s p.2 := by
  unfold supStep at h
  simp only at h
  by_cases c1 : (N.forward w s.1).1.ndim ≠ 2
  · rw [if_pos c1] at h; cases h
  rw [if_neg c1] at h
  by_cases c2 : s.2.any (fun c => decide (c < 0 ∨ ((N.forward w s.1).1.classes : Int) ≤ c)) = true
  · rw [if_pos c2] at h; cases h
  rw [if_neg c2] at h
  simp only [Prod.mk.injEq, and_true] at h
  subst h
  exact ⟨_, by rw [hL.step, hL.forward], rfl, rfl, rfl⟩

theorem Passes.sub {xl : List X} {yl : List Int} {b e : Int} {eps : List (List (List X × List Int))}
    (h : Passes xl yl b e eps) : ∀ s ∈ eps.flatten, ∀ y ∈ s.2, y ∈ yl := by
  intro s hs y hy
  obtain ⟨ep, hep, hs⟩ := List.mem_flatten.mp hs
  obtain ⟨Bs, -, -, hF⟩ := h.each ep hep
  obtain ⟨t, ht, rfl⟩ := List.getElem_of_mem hs
  have hR := (List.Forall₂.get hF (i := t) (by rw [hF.length_eq]; exact ht) ht).2
  have h1 : some y ∈ ep[t].2.map some := List.mem_map_of_mem hy
  simp only [List.get_eq_getElem] at hR
  rw [hR, List.mem_map] at h1
  obtain ⟨i, -, hi⟩ := h1
  exact List.mem_of_getElem? hi

/-- What the first phase records. -/
theorem trainTeacher_log (G : TorchGen σ) (hG : G.Lawful) {N : Net X W K} {view : W → V}
    {log : W → List (V × Objective X K)} (hL : Logs N view log) {xl : List X} {yl : List Int}
    (hl : xl.length = yl.length) (hn : 0 < xl.length) {b : Int} (hb : 0 < b) {e : Int} (he : 0 ≤ e) {seed : Int} {w w1 : W}
    (h : trainTeacher G N xl yl b.toNat e seed w = (w1, .ok ())) :
    ∃ eps obs, Passes xl yl b e eps ∧ log w1 = log w ++ obs ∧
      List.Forall₂ (fun s p => Supervised s p.2) eps.flatten obs := by
  unfold trainTeacher at h
  by_cases c : e ≤ 0
  · rw [if_pos c] at h
    simp only [Prod.mk.injEq, and_true] at h
    subst h
    exact ⟨[], [], ⟨by simp; omega, by simp⟩, by simp, by simp⟩
  rw [if_neg c] at h
  obtain ⟨eps, h1, h2⟩ := supEpochs_ok G hG hl hn (b := b.toNat) (by omega) e.toNat (G.manualSeed seed)
  rw [h1] at h
  simp only at h
  obtain ⟨T, t0, tn, hT⟩ := runSteps_ok h
  obtain ⟨obs, e1, e2, e3⟩ := chain_log (lg := log) (T := T) (n := eps.flatten.length)
    (P := fun t p => ∀ ht : t < eps.flatten.length, Supervised eps.flatten[t] p.2) (by
    intro t ht
    obtain ⟨p, q1, q2⟩ := supStep_log hL (hT t ht)
    exact ⟨p, q1, fun _ => q2⟩)
  refine ⟨eps, obs, ⟨by have := h2.number; omega, ?_⟩, by rw [← tn, e1, t0, hL.train], ?_⟩
  · intro ep hep
    obtain ⟨Bs, a1, a2, a3⟩ := h2.each ep hep
    exact ⟨Bs, a1, fun B hB => ⟨(a2 B hB).1, by have := (a2 B hB).2; omega⟩, a3⟩
  · rw [List.forall₂_iff_get]
    refine ⟨e2.symm, fun t h1 h2 => ?_⟩
    simp only [List.get_eq_getElem]
    exact e3 t obs[t] (List.getElem?_eq_getElem h2) h1

/-! ### Second phase -/

theorem look_log {N : Net X W K} {view : W → V} {log : W → List (V × Objective X K)} (hL : Logs N view log) {cat : Bool}
    {w w' : W} {s : Batch X} {o : Except PyErr (Out K × Out K)} (h : look N cat w s = (o, w')) : log w' = log w := by
  unfold look at h
  cases cat with
  | true =>
    simp only [if_true] at h
    by_cases c1 : (N.forward w (s.xl ++ s.xs)).1.ndim ≠ 2
    · rw [if_pos c1] at h; cases h; exact hL.forward _ _
    rw [if_neg c1] at h
    by_cases c2 : (N.forward w (s.xl ++ s.xs)).1.rows.length ≠ s.xl.length + s.xs.length
    · rw [if_pos c2] at h; cases h; exact hL.forward _ _
    rw [if_neg c2] at h
    cases h; exact hL.forward _ _
  | false =>
    simp only [Bool.false_eq_true, if_false, Prod.mk.injEq] at h
    rw [← h.2, hL.forward, hL.forward]

theorem agree_labels {s : Batch X} {l u : Out K} (h : agree s l u = .ok ()) :
    l.classes = u.classes ∧ ∀ c ∈ s.yl, 0 ≤ c ∧ c < l.classes := by
  unfold agree at h
  by_cases c1 : l.ndim ≠ 2 ∨ u.ndim ≠ 2
  · rw [if_pos c1] at h; cases h
  rw [if_neg c1] at h
  by_cases c2 : l.rows.length ≠ s.xl.length
  · rw [if_pos c2] at h; cases h
  rw [if_neg c2] at h
  by_cases c3 : u.rows.length ≠ s.xs.length
  · rw [if_pos c3] at h; cases h
  rw [if_neg c3] at h
  by_cases c4 : l.classes ≠ u.classes
  · rw [if_pos c4] at h; cases h
  rw [if_neg c4] at h
  by_cases c5 : s.yl.any (fun c => decide (c < 0 ∨ (l.classes : Int) ≤ c)) = true
  · rw [if_pos c5] at h; cases h
  refine ⟨not_not.mp c4, fun c hc => ?_⟩
  have h : ¬(c < 0 ∨ (l.classes : Int) ≤ c) := fun hb => c5 (List.any_eq_true.mpr ⟨c, hc, decide_eq_true hb⟩)
  omega

/-- The loss is the specified one, with the probabilities of the teacher. -/
theorem objective_loss (T : Torch K) (ha : ArgmaxLaw T.argmax) (cfg : Cfg K) (total k : Nat) (s : Batch X) (lg : X → List K)
    (hf : ∀ x, tempered T.softmax cfg.temperature (lg x) ≠ []) :
    NoisyLoss cfg total k (fun x => tempered T.softmax cfg.temperature (lg x)) s
      (objective T cfg total k s ((s.xw.map (·.1)).map lg)) := by
  refine ⟨rfl, ?_, ⟨_, ramp_warm _ _ _, rfl⟩, rfl⟩
  unfold objective
  simp only
  rw [List.map_map, show (fun r : List K => T.softmax (r.map (· / cfg.temperature))) ∘ lg =
    fun x => tempered T.softmax cfg.temperature (lg x) from rfl, Fit.strict_mask _ _ hf, Fit.targetsOf, List.map_map]
  refine Fit.forall₂_terms (f := fun x => if cfg.hard then .hard (T.argmax (tempered T.softmax cfg.temperature (lg x)))
    else .soft (tempered T.softmax cfg.temperature (lg x))) ?_ s.xw s.xs
  intro p x
  refine ⟨rfl, rfl, rfl, fun h => ⟨_, by rw [if_pos h], ha _ (hf _)⟩, fun h => by simp only [h]; rfl⟩

/-- One step of the second phase: student and teacher afterwards. -/
theorem noisyStep_log {N : Net X W K} {P : Copying W K} {view : W → V} {log : W → List (V × Objective X K)}
    (hL : Logs N view log) {g : V → X → List K} {C : Nat} (hC : Calm N P view g C) {T : Torch K}
    {cfg : Cfg K} {total : Nat} {w t0 : W} {k : Nat} {st' : (W × W) × Nat} {s : Batch X}
    (h : noisyStep N T cfg total ((w, P.evalMode t0), k) s = (st', .ok ())) :
    st'.2 = k + 1 ∧ st'.1.2 = P.evalMode t0 ∧ (∀ c ∈ s.yl, 0 ≤ c ∧ c < (C : Int)) ∧
      ∃ v, log st'.1.1 = log w ++ [(v, objective T cfg total k s ((s.xw.map (·.1)).map (g (view (P.evalMode t0)))))] := by
  unfold noisyStep at h
  simp only at h
  cases hl : look N (cfg.cat && !frozen cfg s) w s with
  | mk o w1 =>
  rw [hl] at h
  cases o with
  | error e => cases h
  | ok o =>
  simp only at h
  cases ha : agree s o.1 o.2 with
  | error e => rw [ha] at h; cases h
  | ok _ =>
  rw [ha, hC] at h
  simp only at h
  rw [if_neg (by simp)] at h
  by_cases c2 : C ≠ o.2.classes
  · rw [if_pos c2] at h; cases h
  rw [if_neg c2] at h
  simp only [Prod.mk.injEq, and_true] at h
  subst h
  obtain ⟨a1, a2⟩ := agree_labels ha
  refine ⟨rfl, rfl, fun c hc => ?_, view w1, by rw [hL.step, look_log hL hl]⟩
  have := a2 c hc
  have := not_not.mp c2
  omega

theorem keep_some {ema : Option W} {t : W} : keep ema t = ema.map fun _ => t := rfl

/-- What a `fit` that returns went through. -/
theorem fit_ok {G : TorchGen σ} (hG : G.Lawful) {N : Net X W K} {P : Copying W K} {T : Torch K} {torch : Bool} {cfg : Cfg K}
    {bundle : Option Bundle} {xu : Option (Feats X)} {data : Option (Input X)} {seed : Int} {fitted same : Bool} {w : W}
    {ema : Option W} {r : Bool × W × Option W}
    (h : fit G N P T torch cfg bundle xu data seed fitted same w ema = (r, .ok ())) :
    ∃ d xw xs w1 eps st, data = some d ∧ Acceptable torch cfg bundle xu d xw xs ∧
      trainTeacher G N d.xl.rows d.yl cfg.base.batchSize.toNat cfg.teacherEpochs seed w = (w1, .ok ()) ∧
      (∀ t, ema = some t → same = false ∧ (P.params w1).map List.length = (P.params t).map List.length) ∧
      Epochs (nsInput xu d) xw xs cfg.base eps ∧
      runSteps (noisyStep N T cfg eps.flatten.length) ((N.train w1, P.evalMode (P.load w1 (ema.getD w1))), 0) eps.flatten =
        (st, .ok ()) ∧ r = (true, st.1.1, ema.map fun _ => st.1.2) := by
  unfold fit at h
  cases hc : Cons.check torch cfg.base (ranges cfg) bundle (data.map (nsInput xu)) with
  | error e => rw [hc] at h; cases h
  | ok r' =>
  obtain ⟨d, xw, xs, rfl, hA, rfl⟩ := check_ok.mp hc
  rw [hc] at h
  simp only at h
  cases ht : trainTeacher G N d.xl.rows d.yl cfg.base.batchSize.toNat cfg.teacherEpochs seed w with
  | mk w1 res =>
  rw [ht] at h
  cases res with
  | error e => cases h
  | ok u =>
  simp only at h
  cases hk : checkTeacher (ema.isSome && same) (P.params w1) (P.params (ema.getD w1)) with
  | error e => rw [hk] at h; cases h
  | ok _ =>
  rw [hk] at h
  simp only at h
  obtain ⟨eps, b1, b2⟩ := Cons.batches_ok hG (acceptable_iff.mp hA).1 seed
  have b1' : fitBatches G d.xl.rows d.yl (numbered xw.rows) xs.rows cfg.base.batchSize cfg.base.maxEpochs seed = .ok eps := b1
  rw [b1'] at h
  simp only at h
  have hts : totalSteps ⟨d.xl.rows, d.yl, numbered xw.rows, xs.rows⟩ cfg.base = eps.flatten.length :=
    totalSteps_eq (acceptable_iff.mp hA).1 b2
  rw [hts] at h
  cases hs : runSteps (noisyStep N T cfg eps.flatten.length) ((N.train w1, P.evalMode (P.load w1 (ema.getD w1))), 0)
    eps.flatten with
  | mk st res =>
  rw [hs] at h
  cases res with
  | error e => cases h
  | ok _ =>
  simp only [Prod.mk.injEq, and_true] at h
  refine ⟨d, xw, xs, w1, eps, st, rfl, hA, ht, ?_, b2, hs, h.symm⟩
  rintro t rfl
  simpa using checkTeacher_ok.mp hk

/-- **C169 (training).**  Let the teacher, in evaluation mode, treat rows by themselves; the student may be any network.
A `fit` that returns had acceptable data, and what it did to the network is exactly this: `teacher_epochs` passes over
the labeled rows, each row once per pass, with the supervised loss alone; then one step for each batch of `max_epochs`
fair epochs.  All pseudo-labels of these steps come from one network, fixed before the first of them: the copy of the
student after the first phase, in evaluation mode.  Each is the teacher's prediction for the weak view of the same
sample, used for the strong view, and counts only if the teacher is confident.  That network is also what `ema_model`, if
given, is afterwards: it is never updated. -/
theorem C169_training (G : TorchGen σ) (hG : G.Lawful) (N : Net X W K) (P : Copying W K) (view : W → V)
    (log : W → List (V × Objective X K)) (hL : Logs N view log) (g : V → X → List K) (C : Nat) (hC : Calm N P view g C)
    (T : Torch K) (ha : ArgmaxLaw T.argmax) (torch : Bool) (cfg : Cfg K)
    (hf : ∀ v x, tempered T.softmax cfg.temperature (g v x) ≠ []) (bundle : Option Bundle) (xu : Option (Feats X))
    (data : Option (Input X)) (seed : Int) (fitted fitted' same : Bool) (w w' : W) (ema ema' : Option W)
    (h : fit G N P T torch cfg bundle xu data seed fitted same w ema = ((fitted', w', ema'), .ok ())) :
    fitted' = true ∧ ∃ d xw xs first eps w1 teacher obs₁ obs₂, data = some d ∧ Acceptable torch cfg bundle xu d xw xs ∧
      Passes d.xl.rows d.yl cfg.base.batchSize cfg.teacherEpochs first ∧ Epochs d xw xs cfg.base eps ∧
      log w1 = log w ++ obs₁ ∧ log w' = log w1 ++ obs₂ ∧
      List.Forall₂ (fun s p => Supervised s p.2) first.flatten obs₁ ∧
      teacher = P.evalMode (P.load w1 (ema.getD w1)) ∧ ema' = ema.map (fun _ => teacher) ∧
      obs₂.length = eps.flatten.length ∧
      ∀ t (ht : t < eps.flatten.length), ∃ v o, obs₂[t]? = some (v, o) ∧
        NoisyLoss cfg eps.flatten.length t (fun x => tempered T.softmax cfg.temperature (g (view teacher) x))
          eps.flatten[t] o := by
  obtain ⟨d, xw, xs, w1, eps, st, rfl, hA, h1, -, hE, h2, hr⟩ := fit_ok hG h
  simp only [Prod.mk.injEq] at hr
  obtain ⟨rfl, rfl, rfl⟩ := hr
  obtain ⟨first, obs₁, p1, p2, p3⟩ := trainTeacher_log G hG hL hA.rows (List.length_pos_iff.mpr hA.nonempty) hA.batch
    hA.teacherEpochs h1
  obtain ⟨S, s0, sn, hS⟩ := runSteps_ok h2
  have hk : ∀ t ≤ eps.flatten.length, (S t).2 = t ∧ (S t).1.2 = P.evalMode (P.load w1 (ema.getD w1)) := by
    intro t
    induction t with
    | zero => intro _; rw [s0]; exact ⟨rfl, rfl⟩
    | succ t ih =>
      intro ht
      obtain ⟨i1, i2⟩ := ih (by omega)
      have e : S t = (((S t).1.1, P.evalMode (P.load w1 (ema.getD w1))), t) := by
        rw [← i2]; exact Prod.ext rfl i1
      have hst := hS t (by omega)
      rw [e] at hst
      obtain ⟨q1, q2, -⟩ := noisyStep_log hL hC hst
      exact ⟨q1, q2⟩
  obtain ⟨obs₂, e1, e2, e3⟩ := chain_log (lg := fun st : (W × W) × Nat => log st.1.1) (T := S) (n := eps.flatten.length)
    (P := fun t p => ∀ ht : t < eps.flatten.length, NoisyLoss cfg eps.flatten.length t
      (fun x => tempered T.softmax cfg.temperature (g (view (P.evalMode (P.load w1 (ema.getD w1)))) x)) eps.flatten[t] p.2) (by
    intro t ht
    obtain ⟨i1, i2⟩ := hk t ht.le
    have e : S t = (((S t).1.1, P.evalMode (P.load w1 (ema.getD w1))), t) := by
      rw [← i2]; exact Prod.ext rfl i1
    have hst := hS t ht
    rw [e] at hst
    obtain ⟨-, -, -, v, q⟩ := noisyStep_log hL hC hst
    exact ⟨_, q, fun _ => objective_loss T ha cfg _ t _ _ (fun x => hf _ x)⟩)
  refine ⟨rfl, d, xw, xs, first, eps, w1, _, obs₁, obs₂, rfl, hA, p1, hE, p2, ?_, p3, rfl, ?_, e2, ?_⟩
  · rw [← sn, e1, s0]; simp only [hL.train]
  · rw [← sn, (hk _ le_rfl).2]
  · intro t ht
    exact ⟨obs₂[t].1, obs₂[t].2, List.getElem?_eq_getElem (by omega), e3 t obs₂[t] (List.getElem?_eq_getElem (by omega)) ht⟩

/-- **C169 (whose labels).**  The parameters of the network that gives the pseudo-labels are those of the student after
the first phase, whatever `ema_model` held before. -/
theorem C169_teacher (N : Net X W K) (P : Copying W K) (hP : Copies N P) (w1 : W) (ema : Option W) :
    P.params (P.evalMode (P.load w1 (ema.getD w1))) = P.params w1 := by rw [hP.evalMode, hP.load]

/-! ### Which fits succeed -/

theorem supStep_rowwise {N : Net X W K} {view : W → V} {g : V → X → List K} {C : Nat} (hN : Rowwise N view g C) {w : W}
    {s : List X × List Int} (hy : ∀ k ∈ s.2, 0 ≤ k ∧ k < (C : Int)) : ∃ o, supStep N w s = (N.step w o, .ok ()) := by
  have hF : ∀ w xs, N.forward w xs = (⟨2, C, xs.map (g (view w))⟩, w) := hN
  unfold supStep
  simp only [hF]
  rw [if_neg (by simp), if_neg]
  · exact ⟨_, rfl⟩
  · intro h
    obtain ⟨k, hk, hb⟩ := List.any_eq_true.mp h
    have := hy k hk
    have := of_decide_eq_true hb
    omega

theorem look_rowwise {N : Net X W K} {view : W → V} {g : V → X → List K} {C : Nat} (hN : Rowwise N view g C) {cat : Bool}
    {w : W} {s : Batch X} : look N cat w s =
      (.ok (⟨2, C, s.xl.map (g (view w))⟩, ⟨2, C, s.xs.map (g (view w))⟩), w) := by
  have hF : ∀ w xs, N.forward w xs = (⟨2, C, xs.map (g (view w))⟩, w) := hN
  unfold look
  cases cat with
  | false => simp only [Bool.false_eq_true, if_false, hF]
  | true =>
    simp only [if_true, hF]
    rw [if_neg (by simp), if_neg (by simp)]
    simp [Out.slice, List.map_append]

theorem noisyStep_rowwise {N : Net X W K} {view : W → V} {g : V → X → List K} {C : Nat} (hN : Rowwise N view g C)
    {T : Torch K} {cfg : Cfg K} {total : Nat} {st : (W × W) × Nat} {s : Batch X}
    (hy : ∀ k ∈ s.yl, 0 ≤ k ∧ k < (C : Int)) : ∃ st', noisyStep N T cfg total st s = (st', .ok ()) := by
  have hF : ∀ w xs, N.forward w xs = (⟨2, C, xs.map (g (view w))⟩, w) := hN
  unfold noisyStep
  rw [look_rowwise hN]
  simp only [hF]
  have : agree s (⟨2, C, s.xl.map (g (view st.1.1))⟩ : Out K) ⟨2, C, s.xs.map (g (view st.1.1))⟩ = .ok () := by
    unfold agree
    rw [if_neg (by simp), if_neg (by simp), if_neg (by simp), if_neg (by simp), if_neg]
    intro h
    obtain ⟨k, hk, hb⟩ := List.any_eq_true.mp h
    have := hy k hk
    have := of_decide_eq_true hb
    simp only at this
    omega
  rw [this]
  simp only
  rw [if_neg (by simp), if_neg (by simp)]
  exact ⟨_, rfl⟩

theorem supStep_shapes {N : Net X W K} {P : Copying W K} (hP : Copies N P) {w w' : W} {s : List X × List Int}
    (h : supStep N w s = (w', .ok ())) : (P.params w').map List.length = (P.params w).map List.length := by
  unfold supStep at h
  simp only at h
  by_cases c1 : (N.forward w s.1).1.ndim ≠ 2
  · rw [if_pos c1] at h; cases h
  rw [if_neg c1] at h
  by_cases c2 : s.2.any (fun c => decide (c < 0 ∨ ((N.forward w s.1).1.classes : Int) ≤ c)) = true
  · rw [if_pos c2] at h; cases h
  rw [if_neg c2] at h
  simp only [Prod.mk.injEq, and_true] at h
  subst h
  rw [hP.step, hP.forward]

theorem trainTeacher_shapes {G : TorchGen σ} {N : Net X W K} {P : Copying W K} (hP : Copies N P) {xl : List X} {yl : List Int}
    {b : Nat} {e seed : Int} {w w1 : W} (h : trainTeacher G N xl yl b e seed w = (w1, .ok ())) :
    (P.params w1).map List.length = (P.params w).map List.length := by
  unfold trainTeacher at h
  by_cases c : e ≤ 0
  · rw [if_pos c] at h; cases h; rfl
  rw [if_neg c] at h
  cases hs : supEpochs G xl yl b e.toNat (G.manualSeed seed) with
  | error e => rw [hs] at h; cases h
  | ok eps =>
  rw [hs] at h
  simp only at h
  obtain ⟨T, t0, tn, hT⟩ := runSteps_ok h
  have : ∀ t ≤ eps.flatten.length, (P.params (T t)).map List.length = (P.params w).map List.length := by
    intro t
    induction t with
    | zero => intro _; rw [t0, hP.train]
    | succ t ih => intro ht; rw [supStep_shapes hP (hT t (by omega)), ih (by omega)]
  rw [← tn]
  exact this _ le_rfl

theorem trainTeacher_total (G : TorchGen σ) (hG : G.Lawful) {N : Net X W K} {view : W → V} {g : V → X → List K} {C : Nat}
    (hN : Rowwise N view g C) {xl : List X} {yl : List Int} (hl : xl.length = yl.length) (hn : 0 < xl.length) {b : Nat}
    (hb : 0 < b) (hy : ∀ y ∈ yl, 0 ≤ y ∧ y < (C : Int)) (e seed : Int) (w : W) :
    ∃ w1, trainTeacher G N xl yl b e seed w = (w1, .ok ()) := by
  unfold trainTeacher
  by_cases c : e ≤ 0
  · rw [if_pos c]; exact ⟨_, rfl⟩
  rw [if_neg c]
  obtain ⟨eps, h1, h2⟩ := supEpochs_ok G hG hl hn hb e.toNat (G.manualSeed seed)
  rw [h1]
  obtain ⟨w1, h3, -⟩ := runSteps_total (f := supStep N) (I := fun _ => True) (ss := eps.flatten) (st := N.train w) trivial
    (fun st s _ hs => by
      obtain ⟨o, ho⟩ := supStep_rowwise hN (w := st) (s := s) (fun k hk => hy k (Passes.sub h2 s hs k hk))
      exact ⟨_, ho, trivial⟩)
  exact ⟨w1, h3⟩

/-- **C169 (which fits succeed).**  With a row-wise network over `C` classes: `fit` succeeds exactly if data, bundle and
parameters are acceptable, every label is a class of the network, and `ema_model`, if given, is another network with
parameters of the same shapes. -/
theorem C169_accepts (G : TorchGen σ) (hG : G.Lawful) (N : Net X W K) (P : Copying W K) (hP : Copies N P) (view : W → V)
    (log : W → List (V × Objective X K)) (hL : Logs N view log) (g : V → X → List K) (C : Nat) (hN : Rowwise N view g C)
    (T : Torch K) (torch : Bool) (cfg : Cfg K) (bundle : Option Bundle) (xu : Option (Feats X)) (data : Option (Input X))
    (seed : Int) (fitted same : Bool) (w : W) (ema : Option W) :
    (fit G N P T torch cfg bundle xu data seed fitted same w ema).2 = .ok () ↔
      ∃ d xw xs, data = some d ∧ Acceptable torch cfg bundle xu d xw xs ∧ (∀ y ∈ d.yl, 0 ≤ y ∧ y < (C : Int)) ∧
        ∀ t, ema = some t → same = false ∧ (P.params w).map List.length = (P.params t).map List.length := by
  have hC : Calm N P view g C := fun w xs => hN _ _
  constructor
  · intro h
    obtain ⟨d, xw, xs, w1, eps, st, rfl, hA, h1, h2, hE, h3, -⟩ :=
      fit_ok hG (r := (fit G N P T torch cfg bundle xu data seed fitted same w ema).1) (Prod.ext rfl h)
    refine ⟨d, xw, xs, rfl, hA, fun y hy => ?_, fun t ht => ⟨(h2 t ht).1, by rw [← (h2 t ht).2, trainTeacher_shapes hP h1]⟩⟩
    obtain ⟨s, hs, hys⟩ := Fit.Epochs.visits hE hA.epochs hA.rows y hy
    obtain ⟨t, ht, rfl⟩ := List.getElem_of_mem hs
    obtain ⟨S, s0, -, hS⟩ := runSteps_ok h3
    have hk : ∀ t ≤ eps.flatten.length, (S t).1.2 = P.evalMode (P.load w1 (ema.getD w1)) := by
      intro t
      induction t with
      | zero => intro _; rw [s0]
      | succ t ih =>
        intro ht
        have e : S t = (((S t).1.1, P.evalMode (P.load w1 (ema.getD w1))), (S t).2) := by
          rw [← ih (by omega)]
        have hst := hS t (by omega)
        rw [e] at hst
        exact (noisyStep_log hL hC hst).2.1
    have e : S t = (((S t).1.1, P.evalMode (P.load w1 (ema.getD w1))), (S t).2) := by
      rw [← hk t ht.le]
    have hst := hS t ht
    rw [e] at hst
    exact (noisyStep_log hL hC hst).2.2.1 y hys
  · rintro ⟨d, xw, xs, rfl, hA, hy, ht⟩
    have n1 := List.length_pos_iff.mpr hA.nonempty
    have hb := hA.batch
    obtain ⟨w1, h1⟩ := trainTeacher_total G hG hN hA.rows n1 (b := cfg.base.batchSize.toNat) (by omega) hy
      cfg.teacherEpochs seed w
    have hk : checkTeacher (ema.isSome && same) (P.params w1) (P.params (ema.getD w1)) = .ok () := by
      rw [checkTeacher_ok]
      cases ema with
      | none => exact ⟨rfl, rfl⟩
      | some t => exact ⟨by simp [(ht t rfl).1], by rw [trainTeacher_shapes hP h1]; exact (ht t rfl).2⟩
    obtain ⟨eps, b1, b2⟩ := Cons.batches_ok hG (acceptable_iff.mp hA).1 seed
    have b1' : fitBatches G d.xl.rows d.yl (numbered xw.rows) xs.rows cfg.base.batchSize cfg.base.maxEpochs seed = .ok eps := b1
    have hs : ∀ s ∈ eps.flatten, ∀ y ∈ s.yl, 0 ≤ y ∧ y < (C : Int) := fun s hs y hys => hy y (Fit.Epochs.sub b2 s hs y hys)
    unfold fit
    rw [check_ok.mpr ⟨d, xw, xs, rfl, hA, rfl⟩]
    simp only
    rw [h1]
    simp only
    rw [hk]
    simp only
    rw [b1']
    simp only
    obtain ⟨st, h2, -⟩ := runSteps_total (f := noisyStep N T cfg (totalSteps ⟨d.xl.rows, d.yl, numbered xw.rows, xs.rows⟩ cfg.base))
      (I := fun _ => True) (ss := eps.flatten) (st := ((N.train w1, P.evalMode (P.load w1 (ema.getD w1))), 0)) trivial
      (fun st s _ h => by
        obtain ⟨st', h'⟩ := noisyStep_rowwise hN (T := T) (cfg := cfg)
          (total := totalSteps ⟨d.xl.rows, d.yl, numbered xw.rows, xs.rows⟩ cfg.base) (st := st) (hs s h)
        exact ⟨st', h', trivial⟩)
    rw [h2]

/-! ### Examples -/

/-- A network for the examples: its optimizer steps, whether it is training, its parameters. -/
structure DemoW where
  /-- the optimizer steps -/
  steps : List (Nat × Objective Nat Rat)
  /-- the mode -/
  training : Bool
  /-- the parameters -/
  params : List (List Rat)
deriving DecidableEq, Repr

/-- The network. -/
def demoNet : Net Nat DemoW Rat where
  train w := { w with training := true }
  forward w xs := (⟨2, 2, xs.map (Fit.demoLogits w.steps.length)⟩, w)
  step w o := { w with steps := w.steps ++ [(w.steps.length, o)], params := w.params.map (List.map (· + 1)) }

/-- Its copies. -/
def demoCopying : Copying DemoW Rat where
  params w := w.params
  load s t := { t with params := s.params }
  evalMode w := { w with training := false }

theorem demo_rowwise : Rowwise demoNet (fun w => w.steps.length) Fit.demoLogits 2 := fun _ _ => rfl

theorem demo_calm : Calm demoNet demoCopying (fun w => w.steps.length) Fit.demoLogits 2 := fun _ _ => rfl

theorem demo_logs : Logs demoNet (fun w => w.steps.length) (fun w => w.steps) :=
  ⟨fun _ => rfl, fun _ _ => rfl, fun _ _ => rfl⟩

theorem demo_copies : Copies demoNet demoCopying :=
  ⟨fun _ => rfl, fun _ _ => rfl, fun w o => by simp [demoCopying, demoNet, List.map_map, Function.comp_def], fun _ _ => rfl,
    fun _ => rfl⟩

/-- Parameters for the examples. -/
def demoCfg (b e te : Int) (u : Rat) (hard cat : Bool) : Cfg Rat := ⟨⟨b, e, 3, u, true⟩, te, 3 / 5, 2, hard, cat, false⟩

/-- A fresh network. -/
def demoW : DemoW := ⟨[], false, [[1, 2], [3]]⟩

/-- Data with `X_u` only. -/
def demoData (y : List Int) : Input Nat := ⟨⟨List.range y.length, true⟩, y, 1, true, none, none⟩

theorem demo_acceptable (b e te : Int) (u : Rat) (hard cat : Bool) (hb : 0 < b) (he : 0 < e) (ht : 0 ≤ te) (hu : 0 ≤ u)
    (y : List Int) (hy : y ≠ []) (x : List Nat) (hx : x ≠ []) :
    Acceptable true (demoCfg b e te u hard cat) (some ⟨true, true⟩) (some ⟨x, true⟩) (demoData y) ⟨x, true⟩ ⟨x, true⟩ :=
  ⟨rfl, by simp [demoData], ⟨rfl, rfl⟩, by simpa [demoData] using hy, ⟨.inr ⟨rfl, rfl⟩, .inr ⟨rfl, rfl⟩⟩, hx, rfl,
    ⟨rfl, rfl, rfl⟩, ⟨_, rfl, rfl, rfl⟩, hb, he, by norm_num [demoCfg], hu, ht, by norm_num [demoCfg], by norm_num [demoCfg]⟩

/-- `fit` on the example. -/
abbrev demoFit (cfg : Cfg Rat) (y : List Int) (x : List Nat) (same : Bool) (ema : Option DemoW) :
    (Bool × DemoW × Option DemoW) × Except PyErr Unit :=
  fit TorchGen.demo demoNet demoCopying Fit.demoTorch true cfg (some ⟨true, true⟩) (some ⟨x, true⟩) (some (demoData y)) 0 false
    same demoW ema

example (y : List Int) (hy : y ≠ []) (hc : ∀ c ∈ y, 0 ≤ c ∧ c < ((2 : Nat) : Int)) (x : List Nat) (hx : x ≠ []) (hard cat : Bool) :
    (demoFit (demoCfg 2 3 1 (2 / 5) hard cat) y x false none).2 = .ok () :=
  (C169_accepts TorchGen.demo TorchGen.demo_lawful demoNet demoCopying demo_copies _ _ demo_logs _ _ demo_rowwise _ true _ _ _ _
    0 _ _ demoW none).mpr
    ⟨_, _, _, rfl, demo_acceptable 2 3 1 _ _ _ (by decide) (by decide) (by decide) (by norm_num) y hy x hx, hc, by simp⟩

/-- The premises of `C169_training` hold of the example. -/
example (v x : Nat) : tempered Fit.demoTorch.softmax 2 (Fit.demoLogits v x) ≠ [] := by
  unfold tempered Fit.demoTorch Fit.demoLogits; split_ifs <;> simp

example : ArgmaxLaw Fit.demoTorch.argmax := argmax_law

/-- Two supervised steps, then two with pseudo-labels of the network after these two. -/
example : (demoFit (demoCfg 2 1 2 0 true true) [0, 1] [4, 5, 6] false (some ⟨[], true, [[9, 9], [9]]⟩)) =
    ((true, ⟨[(0, ⟨[(1, 1, 1 / 2), (0, 0, 1 / 2)], [], 0, none⟩), (1, ⟨[(0, 0, 1 / 2), (1, 1, 1 / 2)], [], 0, none⟩),
      (2, ⟨[(1, 1, 1 / 2), (0, 0, 1 / 2)], [⟨4, 4, .hard 0, 1 / 2⟩, ⟨5, 5, .hard 1, 1 / 2⟩], 3, none⟩),
      (3, ⟨[(0, 0, 1 / 2), (1, 1, 1 / 2)], [⟨6, 6, .hard 0, 1⟩], 3, none⟩)], true, [[5, 6], [7]]⟩,
      some ⟨[], false, [[3, 4], [5]]⟩), .ok ()) := by decide +kernel

/-- **C169 (teacher checked late, violated).**  That `ema_model` does not fit is found only after the first phase: `fit`
fails with acceptable data and parameters, but has trained the network of the user. -/
theorem C169_late_violated : ∃ (cfg : Cfg Rat) (y : List Int) (x : List Nat) (xw xs : Feats Nat),
    Acceptable true cfg (some ⟨true, true⟩) (some ⟨x, true⟩) (demoData y) xw xs ∧
    ((demoFit cfg y x true (some demoW)).2 = .error .validation ∧ (demoFit cfg y x true (some demoW)).1.2.1.params ≠ demoW.params) ∧
    ((demoFit cfg y x false (some ⟨[], true, [[9]]⟩)).2 = .error .validation ∧
      (demoFit cfg y x false (some ⟨[], true, [[9]]⟩)).1.2.1.params ≠ demoW.params) :=
  ⟨demoCfg 2 1 1 0 true true, [0, 1], [4, 5, 6], _, _,
    demo_acceptable 2 1 1 0 _ _ (by decide) (by decide) (by decide) (by decide) _ (by decide) _ (by decide), by decide +kernel⟩

/-- **C169 (given teacher, violated).**  A user who hands over a trained teacher as `ema_model` and sets
`teacher_epochs=0` gets none of its labels: its weights are overwritten with those of the untrained student. -/
theorem C169_given_teacher_violated : ∃ (cfg : Cfg Rat) (y : List Int) (x : List Nat) (teacher : DemoW),
    cfg.teacherEpochs = 0 ∧ teacher.params ≠ demoW.params ∧ (demoFit cfg y x false (some teacher)).2 = .ok () ∧
    (demoFit cfg y x false (some teacher)).1.2.2.map (·.params) = some demoW.params :=
  ⟨demoCfg 2 1 0 0 true true, [0, 1], [4, 5, 6], ⟨[], true, [[9, 9], [9]]⟩, by decide +kernel⟩

end ModSSC.Deep.Noisy
