import Verif.Deep.ConsModel
import Verif.Deep.FitProps
import Verif.Deep.EnsProps

/-!
# Consistency training: properties
-/

/-! ### Specification -/

namespace ModSSC.Deep.Cons.Spec
open ModSSC ModSSC.Deep
open ModSSC.Deep.Fit (Out Feats Input Bundle Ready Batch)

variable {X W V K τ : Type} [Field K] [LinearOrder K]

/-- What every `fit` asks for. -/
structure Acceptable (torch : Bool) (cfg : Cfg K) (bundle : Option Bundle) (d : Input X) (xw xs : Feats X) : Prop where
  torch : torch = true
  rows : d.xl.rows.length = d.yl.length
  labels : d.yDims = 1 ∧ d.yInt64 = true
  nonempty : d.xl.rows ≠ []
  weak : d.xw = some xw
  strong : d.xs = some xs
  unlabeled : xw.rows ≠ []
  views : xw.rows.length = xs.rows.length
  floats : d.xl.float = true ∧ xw.float = true ∧ xs.float = true
  bundle : ∃ b, bundle = some b ∧ b.valid = true ∧ b.placed = true
  batch : 0 < cfg.batchSize
  epochs : 0 < cfg.maxEpochs
  lambda : 0 ≤ cfg.lambdaU
  warmUp : 0 ≤ cfg.warmUp

/-- `log` records the optimizer steps of a network: what the network was (as far as `view` sees it) and the loss. -/
structure Logs (N : Net X W K) (view : W → V) (log : W → List (V × Goal X K)) : Prop where
  train : ∀ w, log (N.train w) = log w
  forward : ∀ w xs, log (N.forward w xs).2 = log w
  step : ∀ w o, log (N.step w o) = log w ++ [(view w, o)]

/-- One row of logits per input row. -/
def RowPerInput (N : Net X W K) : Prop := ∀ w xs, (N.forward w xs).1.rows.length = xs.length

/-- A network without batch norm and dropout: each row is treated by itself, and nothing is changed. -/
def Rowwise (N : Net X W K) (view : W → V) (g : V → X → List K) (C : Nat) : Prop :=
  ∀ w xs, N.forward w xs = (⟨2, C, xs.map (g (view w))⟩, w)

/-- The factor of the unlabeled loss in step `k` of `total`: one without warm-up; otherwise it grows linearly over the
rounded share `u` of the steps, at least one. -/
def Ramp (u : Rat) (total k : Nat) (r : Rat) : Prop :=
  (u ≤ 0 → r = 1) ∧
    (0 < u → ∃ m : Int, Sampling.Spec.IsNearestEven (u * total) m ∧ r = min ((k : Rat) / ((max 1 m : Int) : Rat)) 1)

/-- The loss of step `k` of `total` is about exactly the rows of its batch: the mean of the cross entropies of the
labeled rows with their own labels; the unlabeled samples with their other version; the factor `lambda_u` times the
warm-up. -/
structure Loss (cfg : Cfg K) (total k : Nat) (s : Batch X) (strong : List X) (o : Goal X K) : Prop where
  labeled : o.labeled = (s.xl.zip s.yl).map fun p => (p.1, p.2, 1 / (s.yl.length : K))
  unlabeled : o.unlabeled.map (fun p => (p.weak, p.strong)) = (s.xw.map (·.1)).zip strong
  scale : ∃ r : Rat, Ramp cfg.warmUp total k r ∧ o.scale = cfg.lambdaU * (r : K)

/-- The positions that go with the weak views. -/
def numbered (xs : List X) : List (X × Int) := xs.zip ((List.range xs.length).map Int.ofNat)

/-- The epochs are fair, see `Fit.Spec.Epochs`. -/
abbrev Epochs (d : Input X) (xw xs : Feats X) (cfg : Cfg K) (eps : List (List (Batch X))) : Prop :=
  Fit.Spec.Epochs d.xl.rows d.yl (numbered xw.rows) xs.rows cfg.batchSize cfg.maxEpochs eps

/-- What torch does when weights are copied and averaged; parameters keep their shapes in a step. -/
structure Copies (N : Net X W K) (P : Copying W K) : Prop where
  train : ∀ w, P.params (N.train w) = P.params w
  step : ∀ w o, (P.params (N.step w o)).map List.length = (P.params w).map List.length
  load : ∀ s t, P.params (P.load s t) = P.params s
  average : ∀ d t s, P.params (P.average d t s) = updateTeacher d (P.params t) (P.params s)

/-- The predictions Temporal Ensembling makes for the samples of a batch with a network `v`. -/
def predicted (softmax : List K → List K) (g : V → X → List K) (v : V) (s : Batch X) : List (TePred K) :=
  List.zipWith (fun p x => ⟨p.2.toNat, softmax (g v p.1), softmax (g v x)⟩) s.xw s.xs

/-- The predictions of an epoch, from the networks of its steps. -/
def predictions (softmax : List K → List K) (g : V → X → List K) (vs : List V) (ss : List (Batch X)) :
    List (TePred K) :=
  (List.zipWith (predicted softmax g) vs ss).flatten

/-- The search for a perturbation leaves the network as it is, and perturbs each sample. -/
def Passive (A : Attack X W K τ) : Prop :=
  ∀ w t xs ps, (A w t xs ps).2.1 = w ∧ ∀ adv, (A w t xs ps).1 = .ok adv → adv.length = xs.length

end ModSSC.Deep.Cons.Spec

namespace ModSSC.Deep.Cons
open ModSSC ModSSC.Deep Spec
open ModSSC.Deep.Fit (Out Feats Input Bundle Ready Batch)
open ModSSC.Deep.Spec (IsDistN weightedAverage param lastProb FullEpoch)
set_option linter.unusedSectionVars false

variable {X W V K S B L σ τ : Type} [Field K] [LinearOrder K] [IsStrictOrderedRing K]

/-! ### Checks and batches -/

theorem check_ok {torch : Bool} {cfg : Cfg K} {ranges : Bool} {bundle : Option Bundle} {data : Option (Input X)}
    {r : Ready X} : check torch cfg ranges bundle data = .ok r ↔
      ∃ d xw xs, data = some d ∧ Acceptable torch cfg bundle d xw xs ∧ ranges = true ∧
        r = ⟨d.xl.rows, d.yl, numbered xw.rows, xs.rows⟩ := by
  unfold check
  rw [Fit.check_ok]
  constructor
  · rintro ⟨d, xw, xs, idx, rfl, hA, hi, rfl⟩
    obtain rfl := Except.ok.inj hi
    have hr := hA.ranges
    simp only [Bool.and_eq_true, decide_eq_true_eq] at hr
    exact ⟨d, xw, xs, rfl, ⟨hA.torch, hA.rows, hA.labels, hA.nonempty, hA.weak, hA.strong, hA.unlabeled, hA.views, hA.floats,
      hA.bundle, hA.batch, hA.epochs, hA.lambda, hr.1⟩, hr.2, rfl⟩
  · rintro ⟨d, xw, xs, rfl, hA, hr, rfl⟩
    exact ⟨d, xw, xs, _, rfl, ⟨hA.torch, hA.rows, hA.labels, hA.nonempty, hA.weak, hA.strong, hA.unlabeled, hA.views,
      hA.floats, hA.bundle, hA.batch, hA.epochs, hA.lambda, by simp [hA.warmUp, hr], by
        simp⟩, rfl, rfl⟩

theorem numbered_length (xs : List X) : (numbered xs).length = xs.length := by simp [numbered]

/-- After the checks the batches can be formed. -/
theorem batches_ok {G : TorchGen σ} (hG : G.Lawful) {torch : Bool} {cfg : Cfg K} {bundle : Option Bundle} {d : Input X}
    {xw xs : Feats X} (hA : Acceptable torch cfg bundle d xw xs) (seed : Int) :
    ∃ eps, fitBatches G d.xl.rows d.yl (numbered xw.rows) xs.rows cfg.batchSize cfg.maxEpochs seed = .ok eps ∧
      Epochs d xw xs cfg eps := by
  have n2 := List.length_pos_iff.mpr hA.unlabeled
  obtain ⟨eps, h⟩ := (C106_accepts G hG d.xl.rows d.yl (numbered xw.rows) xs.rows cfg.batchSize cfg.maxEpochs seed).mpr
    ⟨hA.rows, hA.nonempty, by rw [numbered_length, hA.views], by
      rw [← List.length_pos_iff, numbered_length]; exact n2, hA.batch, hA.epochs⟩
  obtain ⟨h1, h2⟩ := C106_epochs G hG _ _ _ _ _ _ _ _ h
  exact ⟨eps, h, h1, h2⟩

theorem numBatches_ceil {b : Int} (hb : 0 < b) {n : Nat} (hn : 0 < n) :
    ((numBatches n b.toNat : Nat) : Int) = ⌈(n : ℚ) / b⌉ := by
  obtain ⟨m, rfl⟩ := Int.eq_ofNat_of_zero_le hb.le
  have hm : 0 < m := by omega
  simp only [Int.toNat_natCast]
  have e1 : numBatches n m = (n + m - 1) / m := by
    have : 1 ≤ (n + m - 1) / m := by rw [Nat.one_le_div_iff hm]; omega
    unfold numBatches; omega
  rw [e1]
  symm
  rw [Int.ceil_eq_iff]
  have hq : (0 : ℚ) < m := by exact_mod_cast hm
  have d1 : m * ((n + m - 1) / m) ≤ n + m - 1 := Nat.mul_div_le _ _
  have d2 : n + m - 1 < m * ((n + m - 1) / m + 1) := Nat.lt_mul_div_succ _ hm
  generalize (n + m - 1) / m = q at *
  simp only [Int.cast_natCast]
  constructor
  · rw [lt_div_iff₀ hq]
    have h1 : m * q < n + m := by omega
    have h2 : ((m : ℚ) * q) < (n : ℚ) + m := by exact_mod_cast h1
    linarith
  · rw [div_le_iff₀ hq]
    have h1 : n ≤ m * q := by rw [Nat.mul_add] at d2; omega
    have h2 : (n : ℚ) ≤ (m : ℚ) * q := by exact_mod_cast h1
    linarith

theorem flatten_length_const {α : Type} {k : Nat} : ∀ {l : List (List α)}, (∀ x ∈ l, x.length = k) → l.flatten.length = l.length * k
  | [], _ => by simp
  | x :: l, h => by
    rw [List.flatten_cons, List.length_append, h x (by simp), flatten_length_const (fun y hy => h y (by simp [hy])),
      List.length_cons, Nat.add_mul, Nat.one_mul, Nat.add_comm]

/-- The total number of steps is what the warm-up is computed from. -/
theorem totalSteps_eq {torch : Bool} {cfg : Cfg K} {bundle : Option Bundle} {d : Input X} {xw xs : Feats X}
    (hA : Acceptable torch cfg bundle d xw xs) {eps : List (List (Batch X))} (hE : Epochs d xw xs cfg eps) :
    totalSteps ⟨d.xl.rows, d.yl, numbered xw.rows, xs.rows⟩ cfg = eps.flatten.length := by
  have n1 := List.length_pos_iff.mpr hA.nonempty
  have n2 : 0 < (numbered xw.rows).length := by rw [numbered_length]; exact List.length_pos_iff.mpr hA.unlabeled
  have hk : ∀ ep ∈ eps, ep.length = max (numBatches d.xl.rows.length cfg.batchSize.toNat)
      (numBatches (numbered xw.rows).length cfg.batchSize.toNat) := by
    intro ep hep
    have h := (hE.each ep hep).1
    rw [← numBatches_ceil hA.batch n1, ← numBatches_ceil hA.batch n2] at h
    omega
  rw [flatten_length_const hk]
  unfold totalSteps
  have := hE.number
  congr 1
  omega

/-! ### Runs -/

theorem runSteps_ok {f : S → B → S × Except PyErr Unit} : ∀ {ss : List B} {st st' : S},
    runSteps f st ss = (st', .ok ()) → ∃ T : Nat → S, T 0 = st ∧ T ss.length = st' ∧
      ∀ t (h : t < ss.length), f (T t) ss[t] = (T (t + 1), .ok ())
  | [], st, st', h => by
    simp only [runSteps, Prod.mk.injEq, and_true] at h
    subst h
    exact ⟨fun _ => st, rfl, rfl, fun t h => by simp at h⟩
  | s :: ss, st, st', h => by
    simp only [runSteps] at h
    cases h1 : f st s with
    | mk st1 res =>
    rw [h1] at h
    cases res with
    | error e => cases h
    | ok u =>
    simp only at h
    obtain ⟨T, t0, tn, ht⟩ := runSteps_ok h
    refine ⟨fun | 0 => st | n + 1 => T n, rfl, by simpa using tn, ?_⟩
    intro t hlt
    cases t with
    | zero => simp only [List.getElem_cons_zero]; rw [h1, t0]
    | succ t => simp only [List.getElem_cons_succ]; exact ht t (by simpa using hlt)

theorem runSteps_total {f : S → B → S × Except PyErr Unit} {I : S → Prop} : ∀ {ss : List B} {st : S}, I st →
    (∀ st s, I st → s ∈ ss → ∃ st', f st s = (st', .ok ()) ∧ I st') →
    ∃ st', runSteps f st ss = (st', .ok ()) ∧ I st'
  | [], st, hI, _ => ⟨st, rfl, hI⟩
  | s :: ss, st, hI, h => by
    obtain ⟨st1, e1, i1⟩ := h st s hI (by simp)
    obtain ⟨st2, e2, i2⟩ := runSteps_total (ss := ss) i1 (fun x y hx hy => h x y hx (List.mem_cons_of_mem _ hy))
    exact ⟨st2, by simp only [runSteps]; rw [e1]; exact e2, i2⟩

/-- What a run records, if every step records one entry. -/
theorem chain_log {lg : S → List L} {T : Nat → S} {P : Nat → L → Prop} : ∀ {n : Nat},
    (∀ t < n, ∃ p, lg (T (t + 1)) = lg (T t) ++ [p] ∧ P t p) →
    ∃ obs : List L, lg (T n) = lg (T 0) ++ obs ∧ obs.length = n ∧ ∀ t p, obs[t]? = some p → P t p
  | 0, _ => ⟨[], by simp, rfl, fun t p h => by simp at h⟩
  | n + 1, h => by
    obtain ⟨obs, e1, e2, e3⟩ := chain_log (n := n) (fun t ht => h t (by omega))
    obtain ⟨p, q1, q2⟩ := h n (by omega)
    refine ⟨obs ++ [p], by rw [q1, e1, List.append_assoc], by simp [e2], ?_⟩
    intro t r hr
    rcases Nat.lt_or_ge t obs.length with hlt | hge
    · rw [List.getElem?_append_left hlt] at hr
      exact e3 t r hr
    · rw [List.getElem?_append_right hge] at hr
      have : t - obs.length = 0 := by
        by_contra hne
        rw [List.getElem?_eq_none (by simp; omega)] at hr
        cases hr
      rw [this] at hr
      simp only [List.getElem?_cons_zero, Option.some.injEq] at hr
      subst hr
      rw [show t = n by omega]
      exact q2

/-! ### Losses -/

theorem ramp_warm (u : Rat) (total k : Nat) : Ramp u total k (warmFactor u total k) := by
  unfold Ramp warmFactor warmupSteps
  constructor
  · intro h; rw [if_pos h, if_pos (le_refl _)]
  · intro h
    rw [if_neg (not_le.mpr h), if_neg (by have := le_max_left 1 (pyRound (u * total)); omega)]
    exact ⟨_, Sampling.pyRound_nearest _, rfl⟩

theorem goal_loss {cfg : Cfg K} {total k : Nat} {kind : Kind} {att : Bool} {s : Batch X} {strong : List X}
    {targets : List (List K)} (h2 : strong.length = s.xw.length) (h3 : targets.length = s.xw.length) :
    Loss cfg total k s strong (goal cfg total k kind att s strong targets) := by
  refine ⟨rfl, ?_, _, ramp_warm _ _ _, rfl⟩
  unfold goal
  simp only
  rw [Fit.zipWith_map_left _ _ (fun p => p) (fun a b => rfl) _ _ (by simp [List.length_zip]; omega), List.map_id']

theorem goal_targets {cfg : Cfg K} {total k : Nat} {kind : Kind} {att : Bool} {s : Batch X} {strong : List X}
    {f : X → List K} : ∀ p ∈ (goal cfg total k kind att s strong ((s.xw.map (·.1)).map f)).unlabeled,
      p.target = f p.weak := by
  intro p hp
  unfold goal at hp
  simp only at hp
  generalize s.xw.map (·.1) = l at hp
  induction l generalizing strong with
  | nil => simp at hp
  | cons a l ih =>
    cases strong with
    | nil => simp at hp
    | cons b m =>
      simp only [List.zip_cons_cons, List.map_cons, List.zipWith_cons_cons, List.mem_cons] at hp
      rcases hp with rfl | hp
      · rfl
      · exact ih hp

theorem agree_ok {strict : Bool} {y : List Int} {l v u : Out K} (h : agree strict y l v u = .ok ()) :
    v.rows.length = u.rows.length ∧ v.classes = u.classes ∧ v.classes = l.classes ∧ ∀ c ∈ y, 0 ≤ c ∧ c < l.classes := by
  unfold agree at h
  by_cases c1 : strict = true ∧ (v.ndim ≠ 2 ∨ u.ndim ≠ 2)
  · rw [if_pos c1] at h; cases h
  rw [if_neg c1] at h
  by_cases c2 : v.ndim ≠ u.ndim ∨ v.rows.length ≠ u.rows.length ∨ v.classes ≠ u.classes
  · rw [if_pos c2] at h; cases h
  rw [if_neg c2] at h
  by_cases c3 : v.ndim < 2
  · rw [if_pos c3] at h; cases h
  rw [if_neg c3] at h
  by_cases c4 : v.classes ≠ l.classes
  · rw [if_pos c4] at h; cases h
  rw [if_neg c4] at h
  by_cases c5 : y.any (fun c => decide (c < 0 ∨ (l.classes : Int) ≤ c)) = true
  · rw [if_pos c5] at h; cases h
  simp only [not_or, not_not] at c2 c4
  refine ⟨c2.2.1, c2.2.2, c4, fun c hc => ?_⟩
  have h : ¬(c < 0 ∨ (l.classes : Int) ≤ c) := fun hb => c5 (List.any_eq_true.mpr ⟨c, hc, decide_eq_true hb⟩)
  omega

theorem agree_rowwise {strict : Bool} {y : List Int} {C : Nat} {a b c : List (List K)} (hbc : b.length = c.length)
    (hy : ∀ k ∈ y, 0 ≤ k ∧ k < (C : Int)) : agree strict y ⟨2, C, a⟩ ⟨2, C, b⟩ ⟨2, C, c⟩ = .ok () := by
  unfold agree
  rw [if_neg (by simp), if_neg (by simp [hbc]), if_neg (by simp), if_neg (by simp), if_neg]
  intro h
  obtain ⟨k, hk, hb⟩ := List.any_eq_true.mp h
  have := hy k hk
  have := of_decide_eq_true hb
  simp only at this
  omega

/-! ### Pi-Model -/

theorem piStep_log {N : Net X W K} {view : W → V} {log : W → List (V × Goal X K)} (hL : Logs N view log)
    (hN : RowPerInput N) {softmax : List K → List K} {cfg : Cfg K} {total : Nat} {st st' : W × Nat} {s : Batch X}
    (h2 : s.xw.length = s.xs.length) (h : piStep N softmax cfg total st s = (st', .ok ())) :
    st'.2 = st.2 + 1 ∧ ∃ v o, log st'.1 = log st.1 ++ [(v, o)] ∧ Loss cfg total st.2 s s.xs o ∧ o.kind = .strong ∧
      o.attached = !cfg.detach := by
  unfold piStep at h
  simp only at h
  by_cases c1 : (N.forward st.1 s.xl).1.ndim ≠ 2
  · rw [if_pos c1] at h; cases h
  rw [if_neg c1] at h
  generalize hv : N.forward (N.forward st.1 s.xl).2 (s.xw.map (·.1)) = v at h
  generalize hu : N.forward v.2 s.xs = u at h
  cases ha : agree false s.yl (N.forward st.1 s.xl).1 v.1 u.1 with
  | error e => rw [ha] at h; cases h
  | ok _ =>
  rw [ha] at h
  simp only [Prod.mk.injEq, and_true] at h
  subst h
  have lv : v.1.rows.length = s.xw.length := by rw [← hv, hN]; simp
  refine ⟨rfl, view u.2, goal cfg total st.2 .strong (!cfg.detach) s s.xs (v.1.rows.map softmax), ?_,
    goal_loss h2.symm (by simpa using lv), rfl, rfl⟩
  rw [hL.step, ← hu, hL.forward, ← hv, hL.forward, hL.forward]

/-- The step of a row-wise network. -/
theorem piStep_rowwise {N : Net X W K} {view : W → V} {g : V → X → List K} {C : Nat} (hN : Rowwise N view g C)
    {softmax : List K → List K} {cfg : Cfg K} {total : Nat} {st : W × Nat} {s : Batch X}
    (h2 : s.xw.length = s.xs.length) (hy : ∀ k ∈ s.yl, 0 ≤ k ∧ k < (C : Int)) :
    piStep N softmax cfg total st s = ((N.step st.1 (goal cfg total st.2 .strong (!cfg.detach) s s.xs
      ((s.xw.map (·.1)).map fun x => softmax (g (view st.1) x))), st.2 + 1), .ok ()) := by
  have hF : ∀ w xs, N.forward w xs = (⟨2, C, xs.map (g (view w))⟩, w) := hN
  unfold piStep
  simp only [hF]
  rw [if_neg (by simp), agree_rowwise (by simpa using h2) hy]
  simp only [List.map_map]
  rfl

theorem piStep_labels {N : Net X W K} {view : W → V} {g : V → X → List K} {C : Nat} (hN : Rowwise N view g C)
    {softmax : List K → List K} {cfg : Cfg K} {total : Nat} {st st' : W × Nat} {s : Batch X}
    (h : piStep N softmax cfg total st s = (st', .ok ())) : ∀ k ∈ s.yl, 0 ≤ k ∧ k < (C : Int) := by
  have hF : ∀ w xs, N.forward w xs = (⟨2, C, xs.map (g (view w))⟩, w) := hN
  unfold piStep at h
  simp only [hF] at h
  rw [if_neg (by simp)] at h
  cases ha : agree false s.yl ⟨2, C, s.xl.map (g (view st.1))⟩ ⟨2, C, (s.xw.map (·.1)).map (g (view st.1))⟩
    ⟨2, C, s.xs.map (g (view st.1))⟩ with
  | error e => rw [ha] at h; cases h
  | ok _ => exact (agree_ok ha).2.2.2

/-- What `fit` is on acceptable data. -/
theorem piFit_eq (G : TorchGen σ) (hG : G.Lawful) (N : Net X W K) (softmax : List K → List K) (torch : Bool) (cfg : Cfg K)
    (bundle : Option Bundle) (d : Input X) (xw xs : Feats X) (hA : Acceptable torch cfg bundle d xw xs) (seed : Int) :
    ∃ eps, Epochs d xw xs cfg eps ∧ ∀ (fitted : Bool) (w : W), piFit G N softmax torch cfg bundle (some d) seed fitted w =
      match runSteps (piStep N softmax cfg eps.flatten.length) (N.train w, 0) eps.flatten with
      | (st, .error e) => ((fitted, st.1), .error e)
      | (st, .ok _) => ((true, st.1), .ok ()) := by
  obtain ⟨eps, h1, h2⟩ := batches_ok hG hA seed
  refine ⟨eps, h2, fun fitted w => ?_⟩
  unfold piFit
  rw [check_ok.mpr ⟨d, xw, xs, rfl, hA, rfl, rfl⟩]
  simp only
  rw [h1]
  simp only
  rw [totalSteps_eq hA h2]
  rfl

/-- **C165 (Pi-Model refused).**  A `fit` whose data, bundle or parameters are not acceptable raises, and leaves network
and object as they were. -/
theorem C165_pi_refused (G : TorchGen σ) (N : Net X W K) (softmax : List K → List K) (torch : Bool) (cfg : Cfg K)
    (bundle : Option Bundle) (data : Option (Input X)) (seed : Int) (fitted : Bool) (w : W)
    (h : ∀ d xw xs, data = some d → ¬ Acceptable torch cfg bundle d xw xs) :
    ∃ e, piFit G N softmax torch cfg bundle data seed fitted w = ((fitted, w), .error e) := by
  unfold piFit
  cases hc : check torch cfg true bundle data with
  | error e => exact ⟨e, rfl⟩
  | ok r =>
    obtain ⟨d, xw, xs, hd, hA, -⟩ := check_ok.mp hc
    exact absurd hA (h d xw xs hd)

/-- **C165 (Pi-Model).**  For any network with one row of logits per row: a `fit` that returns had acceptable data; it
made exactly one optimizer step for each batch of `max_epochs` fair epochs, each with the loss of its batch: the labeled
rows with their own labels, each strong view with the weak view of the same sample, weighted by `lambda_u` and the
warm-up of that step. -/
theorem C165_pi_steps (G : TorchGen σ) (hG : G.Lawful) (N : Net X W K) (view : W → V) (log : W → List (V × Goal X K))
    (hL : Logs N view log) (hN : RowPerInput N) (softmax : List K → List K) (torch : Bool) (cfg : Cfg K)
    (bundle : Option Bundle) (data : Option (Input X)) (seed : Int) (fitted fitted' : Bool) (w w' : W)
    (h : piFit G N softmax torch cfg bundle data seed fitted w = ((fitted', w'), .ok ())) :
    fitted' = true ∧ ∃ d xw xs eps obs, data = some d ∧ Acceptable torch cfg bundle d xw xs ∧ Epochs d xw xs cfg eps ∧
      log w' = log w ++ obs ∧ obs.length = eps.flatten.length ∧
      ∀ t (ht : t < eps.flatten.length), ∃ v o, obs[t]? = some (v, o) ∧
        Loss cfg eps.flatten.length t eps.flatten[t] eps.flatten[t].xs o ∧ o.kind = .strong ∧ o.attached = !cfg.detach := by
  cases hc : check torch cfg true bundle data with
  | error e => unfold piFit at h; rw [hc] at h; cases h
  | ok r =>
    obtain ⟨d, xw, xs, rfl, hA, -⟩ := check_ok.mp hc
    obtain ⟨eps, hE, hf⟩ := piFit_eq G hG N softmax torch cfg bundle d xw xs hA seed
    rw [hf] at h
    cases ht : runSteps (piStep N softmax cfg eps.flatten.length) (N.train w, 0) eps.flatten with
    | mk st res =>
    rw [ht] at h
    cases res with
    | error e => cases h
    | ok u =>
    simp only [Prod.mk.injEq, and_true] at h
    obtain ⟨rfl, rfl⟩ := h
    obtain ⟨T, t0, tn, hT⟩ := runSteps_ok ht
    have hs := Fit.Epochs.sizes hE
    have hk : ∀ t ≤ eps.flatten.length, (T t).2 = t := by
      intro t
      induction t with
      | zero => intro _; rw [t0]
      | succ t ih =>
        intro ht
        have := (piStep_log hL hN (hs _ (List.getElem_mem (by omega))).2 (hT t (by omega))).1
        rw [this, ih (by omega)]
    obtain ⟨obs, e1, e2, e3⟩ := chain_log (lg := fun st : W × Nat => log st.1) (T := T) (n := eps.flatten.length)
      (P := fun t p => ∀ ht : t < eps.flatten.length, Loss cfg eps.flatten.length t eps.flatten[t] eps.flatten[t].xs p.2 ∧
        p.2.kind = .strong ∧ p.2.attached = !cfg.detach) (by
      intro t ht
      obtain ⟨-, v, o, q1, q2, q3⟩ := piStep_log hL hN (hs _ (List.getElem_mem ht)).2 (hT t ht)
      rw [hk t ht.le] at q2
      exact ⟨(v, o), q1, fun _ => ⟨q2, q3⟩⟩)
    refine ⟨rfl, d, xw, xs, eps, obs, rfl, hA, hE, ?_, e2, ?_⟩
    · rw [← tn, e1, t0]; simp only [hL.train]
    · intro t ht
      refine ⟨obs[t].1, obs[t].2, List.getElem?_eq_getElem (by omega), ?_⟩
      exact e3 t obs[t] (List.getElem?_eq_getElem (by omega)) ht

/-- **C165 (Pi-Model targets).**  With a row-wise network the target of every unlabeled sample is what the network itself
says of its weak view at that moment; gradients reach it exactly if `detach_target` is off. -/
theorem C165_pi_targets (G : TorchGen σ) (hG : G.Lawful) (N : Net X W K) (view : W → V) (log : W → List (V × Goal X K))
    (hL : Logs N view log) (g : V → X → List K) (C : Nat) (hN : Rowwise N view g C) (softmax : List K → List K)
    (torch : Bool) (cfg : Cfg K) (bundle : Option Bundle) (data : Option (Input X)) (seed : Int) (fitted fitted' : Bool)
    (w w' : W) (h : piFit G N softmax torch cfg bundle data seed fitted w = ((fitted', w'), .ok ())) :
    ∃ obs, log w' = log w ++ obs ∧ ∀ v o, (v, o) ∈ obs → o.attached = (!cfg.detach) ∧
      ∀ p ∈ o.unlabeled, p.target = softmax (g v p.weak) := by
  cases hc : check torch cfg true bundle data with
  | error e => unfold piFit at h; rw [hc] at h; cases h
  | ok r =>
    obtain ⟨d, xw, xs, rfl, hA, -⟩ := check_ok.mp hc
    obtain ⟨eps, hE, hf⟩ := piFit_eq G hG N softmax torch cfg bundle d xw xs hA seed
    rw [hf] at h
    cases ht : runSteps (piStep N softmax cfg eps.flatten.length) (N.train w, 0) eps.flatten with
    | mk st res =>
    rw [ht] at h
    cases res with
    | error e => cases h
    | ok u =>
    simp only [Prod.mk.injEq, and_true] at h
    obtain ⟨rfl, rfl⟩ := h
    obtain ⟨T, t0, tn, hT⟩ := runSteps_ok ht
    have hs := Fit.Epochs.sizes hE
    obtain ⟨obs, e1, e2, e3⟩ := chain_log (lg := fun st : W × Nat => log st.1) (T := T) (n := eps.flatten.length)
      (P := fun _ p => p.2.attached = (!cfg.detach) ∧ ∀ q ∈ p.2.unlabeled, q.target = softmax (g p.1 q.weak)) (by
      intro t ht
      have hstep := hT t ht
      rw [piStep_rowwise hN (hs _ (List.getElem_mem ht)).2 (piStep_labels hN hstep)] at hstep
      simp only [Prod.mk.injEq, and_true] at hstep
      refine ⟨(view (T t).1, goal cfg eps.flatten.length (T t).2 .strong (!cfg.detach) eps.flatten[t] eps.flatten[t].xs
        ((eps.flatten[t].xw.map (·.1)).map fun x => softmax (g (view (T t).1) x))), ?_, rfl, ?_⟩
      · rw [← hstep]; exact hL.step _ _
      · exact goal_targets)
    refine ⟨obs, by rw [← tn, e1, t0]; simp only [hL.train], ?_⟩
    intro v o hm
    obtain ⟨t, ht, he⟩ := List.getElem_of_mem hm
    have := e3 t obs[t] (List.getElem?_eq_getElem ht)
    rw [he] at this
    exact this

/-- **C165 (Pi-Model accepts).**  With a row-wise network over `C` classes `fit` succeeds exactly if data, bundle and
parameters are acceptable and every label is a class of the network. -/
theorem C165_pi_accepts (G : TorchGen σ) (hG : G.Lawful) (N : Net X W K) (view : W → V) (g : V → X → List K) (C : Nat)
    (hN : Rowwise N view g C) (softmax : List K → List K) (torch : Bool) (cfg : Cfg K) (bundle : Option Bundle)
    (data : Option (Input X)) (seed : Int) (fitted : Bool) (w : W) :
    (piFit G N softmax torch cfg bundle data seed fitted w).2 = .ok () ↔
      ∃ d xw xs, data = some d ∧ Acceptable torch cfg bundle d xw xs ∧ ∀ y ∈ d.yl, 0 ≤ y ∧ y < (C : Int) := by
  constructor
  · intro h
    cases hc : check torch cfg true bundle data with
    | error e => unfold piFit at h; rw [hc] at h; cases h
    | ok r =>
      obtain ⟨d, xw, xs, rfl, hA, -⟩ := check_ok.mp hc
      obtain ⟨eps, hE, hf⟩ := piFit_eq G hG N softmax torch cfg bundle d xw xs hA seed
      rw [hf] at h
      cases ht : runSteps (piStep N softmax cfg eps.flatten.length) (N.train w, 0) eps.flatten with
      | mk st res =>
      rw [ht] at h
      cases res with
      | error e => cases h
      | ok u =>
      obtain ⟨T, -, -, hT⟩ := runSteps_ok ht
      refine ⟨d, xw, xs, rfl, hA, fun y hy => ?_⟩
      obtain ⟨s, hs, hys⟩ := Fit.Epochs.visits hE hA.epochs hA.rows y hy
      obtain ⟨t, ht, rfl⟩ := List.getElem_of_mem hs
      exact piStep_labels hN (hT t ht) y hys
  · rintro ⟨d, xw, xs, rfl, hA, hy⟩
    obtain ⟨eps, hE, hf⟩ := piFit_eq G hG N softmax torch cfg bundle d xw xs hA seed
    obtain ⟨st', hst, -⟩ := runSteps_total (I := fun _ => True) (f := piStep N softmax cfg eps.flatten.length)
      (ss := eps.flatten) (st := (N.train w, 0)) trivial (fun st s _ hs =>
        ⟨_, piStep_rowwise hN (Fit.Epochs.sizes hE s hs).2 (fun y hys => hy y (Fit.Epochs.sub hE s hs y hys)), trivial⟩)
    rw [hf, hst]

/-! ### Mean Teacher -/

theorem mtStep_log {N : Net X W K} {P : Copying W K} {view : W → V} {log : W → List (V × Goal X K)} (hL : Logs N view log)
    (hN : RowPerInput N) {softmax : List K → List K} {cfg : Cfg K} {decay : K} {total : Nat} {st st' : (W × W) × Nat}
    {s : Batch X} (h2 : s.xw.length = s.xs.length)
    (hA : ∀ d t s, log (P.average d t s) = log t)
    (h : mtStep N P softmax cfg decay total st s = (st', .ok ())) :
    st'.2 = st.2 + 1 ∧ log st'.1.2 = log st.1.2 ∧ ∃ v o, log st'.1.1 = log st.1.1 ++ [(v, o)] ∧ Loss cfg total st.2 s s.xs o ∧
      o.kind = .strong ∧ o.attached = false := by
  unfold mtStep at h
  simp only at h
  by_cases c1 : (N.forward st.1.1 s.xl).1.ndim ≠ 2
  · rw [if_pos c1] at h; cases h
  rw [if_neg c1] at h
  generalize hu : N.forward (N.forward st.1.1 s.xl).2 s.xs = u at h
  generalize hv : N.forward st.1.2 (s.xw.map (·.1)) = v at h
  cases ha : agree false s.yl (N.forward st.1.1 s.xl).1 v.1 u.1 with
  | error e => rw [ha] at h; cases h
  | ok _ =>
  rw [ha] at h
  simp only [Prod.mk.injEq, and_true] at h
  subst h
  have lv : v.1.rows.length = s.xw.length := by rw [← hv, hN]; simp
  refine ⟨rfl, by simp only [hA]; rw [← hv, hL.forward], view u.2,
    goal cfg total st.2 .strong false s s.xs (v.1.rows.map softmax), ?_, goal_loss h2.symm (by simpa using lv), rfl, rfl⟩
  simp only
  rw [hL.step, ← hu, hL.forward, hL.forward]

theorem mtStep_rowwise {N : Net X W K} {P : Copying W K} {view : W → V} {g : V → X → List K} {C : Nat}
    (hN : Rowwise N view g C) {softmax : List K → List K} {cfg : Cfg K} {decay : K} {total : Nat} {st : (W × W) × Nat}
    {s : Batch X} (h2 : s.xw.length = s.xs.length) (hy : ∀ k ∈ s.yl, 0 ≤ k ∧ k < (C : Int)) :
    mtStep N P softmax cfg decay total st s =
      (((N.step st.1.1 (goal cfg total st.2 .strong false s s.xs
        ((s.xw.map (·.1)).map fun x => softmax (g (view st.1.2) x))),
        P.average decay st.1.2 (N.step st.1.1 (goal cfg total st.2 .strong false s s.xs
          ((s.xw.map (·.1)).map fun x => softmax (g (view st.1.2) x))))), st.2 + 1), .ok ()) := by
  have hF : ∀ w xs, N.forward w xs = (⟨2, C, xs.map (g (view w))⟩, w) := hN
  unfold mtStep
  simp only [hF]
  rw [if_neg (by simp), agree_rowwise (by simpa using h2) hy]
  simp only [List.map_map]
  rfl

theorem mtStep_labels {N : Net X W K} {P : Copying W K} {view : W → V} {g : V → X → List K} {C : Nat}
    (hN : Rowwise N view g C) {softmax : List K → List K} {cfg : Cfg K} {decay : K} {total : Nat} {st st' : (W × W) × Nat}
    {s : Batch X} (h : mtStep N P softmax cfg decay total st s = (st', .ok ())) : ∀ k ∈ s.yl, 0 ≤ k ∧ k < (C : Int) := by
  have hF : ∀ w xs, N.forward w xs = (⟨2, C, xs.map (g (view w))⟩, w) := hN
  unfold mtStep at h
  simp only [hF] at h
  rw [if_neg (by simp)] at h
  cases ha : agree false s.yl ⟨2, C, s.xl.map (g (view st.1.1))⟩ ⟨2, C, (s.xw.map (·.1)).map (g (view st.1.2))⟩
    ⟨2, C, s.xs.map (g (view st.1.1))⟩ with
  | error e => rw [ha] at h; cases h
  | ok _ => exact (agree_ok ha).2.2.2

theorem checkTeacher_ok {same : Bool} {s t : List (List K)} :
    checkTeacher same s t = .ok () ↔ same = false ∧ s.map List.length = t.map List.length := by
  have h1 := (C115_teacher (0 : K) same s t [] (by simp)).1
  unfold teacherRun at h1
  cases hc : checkTeacher same s t with
  | error e =>
    rw [hc] at h1
    simp only [reduceCtorEq, false_iff]
    rintro ⟨a, b⟩
    obtain ⟨r, hr⟩ := h1.mpr ⟨a, b, le_refl _, zero_le_one⟩
    cases hr
  | ok u =>
    rw [hc] at h1
    simp only [lt_self_iff_false, false_or, not_lt.mpr (zero_le_one (α := K)), if_false] at h1
    obtain ⟨a, b, -⟩ := h1.mp ⟨_, rfl⟩
    exact iff_of_true rfl ⟨a, b⟩

/-- The extra demands of Mean Teacher: another network with parameters of the same shapes, and a decay in `[0, 1]`. -/
def Spec.Teachable (decay : K) (same : Bool) (s t : List (List K)) : Prop :=
  0 ≤ decay ∧ decay ≤ 1 ∧ same = false ∧ s.map List.length = t.map List.length

theorem mtFit_eq (G : TorchGen σ) (hG : G.Lawful) (N : Net X W K) (P : Copying W K) (softmax : List K → List K)
    (torch : Bool) (cfg : Cfg K) (decay : K) (bundle : Option Bundle) (d : Input X) (xw xs : Feats X)
    (hA : Acceptable torch cfg bundle d xw xs) (seed : Int) :
    ∃ eps, Epochs d xw xs cfg eps ∧ ∀ (fitted same : Bool) (w t : W), Teachable decay same (P.params w) (P.params t) →
      mtFit G N P softmax torch cfg decay bundle (some d) seed fitted same w (some t) =
      match runSteps (mtStep N P softmax cfg decay eps.flatten.length) ((N.train w, N.train (P.load w t)), 0) eps.flatten with
      | (st, .error e) => ((fitted, st.1.1, some st.1.2), .error e)
      | (st, .ok _) => ((true, st.1.1, some st.1.2), .ok ()) := by
  obtain ⟨eps, h1, h2⟩ := batches_ok hG hA seed
  refine ⟨eps, h2, fun fitted same w t ht => ?_⟩
  unfold mtFit
  simp only
  rw [check_ok.mpr ⟨d, xw, xs, rfl, hA, by simp [ht.1, ht.2.1], rfl⟩]
  simp only
  rw [checkTeacher_ok.mpr ht.2.2, h1]
  simp only
  rw [totalSteps_eq hA h2]
  rfl

theorem mtFit_ok {G : TorchGen σ} (hG : G.Lawful) {N : Net X W K} {P : Copying W K} {softmax : List K → List K}
    {torch : Bool} {cfg : Cfg K} {decay : K} {bundle : Option Bundle} {data : Option (Input X)} {seed : Int}
    {fitted same : Bool} {w : W} {teacher : Option W} {r : Bool × W × Option W}
    (h : mtFit G N P softmax torch cfg decay bundle data seed fitted same w teacher = (r, .ok ())) :
    ∃ t d xw xs eps st, teacher = some t ∧ data = some d ∧ Acceptable torch cfg bundle d xw xs ∧
      Teachable decay same (P.params w) (P.params t) ∧ Epochs d xw xs cfg eps ∧
      runSteps (mtStep N P softmax cfg decay eps.flatten.length) ((N.train w, N.train (P.load w t)), 0) eps.flatten =
        (st, .ok ()) ∧ r = (true, st.1.1, some st.1.2) := by
  cases teacher with
  | none => cases h
  | some t =>
  cases hc : check torch cfg (decide (0 ≤ decay ∧ decay ≤ 1)) bundle data with
  | error e => unfold mtFit at h; simp only at h; rw [hc] at h; cases h
  | ok r' =>
  cases ht : checkTeacher same (P.params w) (P.params t) with
  | error e => unfold mtFit at h; simp only at h; rw [hc] at h; simp only at h; rw [ht] at h; cases h
  | ok u =>
  obtain ⟨d, xw, xs, rfl, hA, hr, -⟩ := check_ok.mp hc
  have hd := of_decide_eq_true hr
  have hT : Teachable decay same (P.params w) (P.params t) := ⟨hd.1, hd.2, checkTeacher_ok.mp ht⟩
  obtain ⟨eps, hE, hf⟩ := mtFit_eq G hG N P softmax torch cfg decay bundle d xw xs hA seed
  rw [hf _ _ _ _ hT] at h
  cases hrun : runSteps (mtStep N P softmax cfg decay eps.flatten.length) ((N.train w, N.train (P.load w t)), 0)
    eps.flatten with
  | mk st res =>
  rw [hrun] at h
  cases res with
  | error e => cases h
  | ok u =>
  simp only [Prod.mk.injEq, and_true] at h
  exact ⟨t, d, xw, xs, eps, st, rfl, rfl, hA, hT, hE, hrun, h.symm⟩

/-- **C165 (Mean Teacher refused).**  Without acceptable data, bundle or parameters, or without a teacher that can follow
the student, `fit` raises and leaves both networks and the object as they were. -/
theorem C165_teacher_refused (G : TorchGen σ) (N : Net X W K) (P : Copying W K) (softmax : List K → List K) (torch : Bool)
    (cfg : Cfg K) (decay : K) (bundle : Option Bundle) (data : Option (Input X)) (seed : Int) (fitted same : Bool) (w : W)
    (teacher : Option W)
    (h : ∀ d xw xs t, data = some d → teacher = some t → Acceptable torch cfg bundle d xw xs →
      ¬ Teachable decay same (P.params w) (P.params t)) :
    ∃ e, mtFit G N P softmax torch cfg decay bundle data seed fitted same w teacher = ((fitted, w, teacher), .error e) := by
  cases teacher with
  | none => exact ⟨_, rfl⟩
  | some t =>
  unfold mtFit
  simp only
  cases hc : check torch cfg (decide (0 ≤ decay ∧ decay ≤ 1)) bundle data with
  | error e => exact ⟨e, rfl⟩
  | ok r =>
    obtain ⟨d, xw, xs, hd, hA, hr, -⟩ := check_ok.mp hc
    have hd' := of_decide_eq_true hr
    simp only
    cases ht : checkTeacher same (P.params w) (P.params t) with
    | error e => exact ⟨e, rfl⟩
    | ok u => exact absurd ⟨hd'.1, hd'.2, checkTeacher_ok.mp ht⟩ (h d xw xs t hd rfl hA)

/-- **C165 (Mean Teacher).**  For any network with one row of logits per row: a `fit` that returns made one optimizer step
of the student for each batch of `max_epochs` fair epochs, each with the loss of its batch and the warm-up of that step,
and not a single one of the teacher; no gradient reaches the targets, whatever `detach_target` says. -/
theorem C165_teacher_steps (G : TorchGen σ) (hG : G.Lawful) (N : Net X W K) (P : Copying W K) (view : W → V)
    (log : W → List (V × Goal X K)) (hL : Logs N view log) (hload : ∀ s t, log (P.load s t) = log t)
    (havg : ∀ d t s, log (P.average d t s) = log t) (hN : RowPerInput N) (softmax : List K → List K) (torch : Bool)
    (cfg : Cfg K) (decay : K) (bundle : Option Bundle) (data : Option (Input X)) (seed : Int) (fitted fitted' same : Bool)
    (w w' : W) (teacher teacher' : Option W)
    (h : mtFit G N P softmax torch cfg decay bundle data seed fitted same w teacher = ((fitted', w', teacher'), .ok ())) :
    fitted' = true ∧ ∃ t t' d xw xs eps obs, teacher = some t ∧ teacher' = some t' ∧ log t' = log t ∧ data = some d ∧
      Acceptable torch cfg bundle d xw xs ∧ Teachable decay same (P.params w) (P.params t) ∧ Epochs d xw xs cfg eps ∧
      log w' = log w ++ obs ∧ obs.length = eps.flatten.length ∧
      ∀ k (hk : k < eps.flatten.length), ∃ v o, obs[k]? = some (v, o) ∧
        Loss cfg eps.flatten.length k eps.flatten[k] eps.flatten[k].xs o ∧ o.kind = .strong ∧ o.attached = false := by
  obtain ⟨t, d, xw, xs, eps, st, rfl, rfl, hA, hT, hE, hrun, hr⟩ := mtFit_ok hG h
  simp only [Prod.mk.injEq] at hr
  obtain ⟨rfl, rfl, rfl⟩ := hr
  obtain ⟨T, t0, tn, hst⟩ := runSteps_ok hrun
  have hs := Fit.Epochs.sizes hE
  have hk : ∀ k ≤ eps.flatten.length, (T k).2 = k ∧ log (T k).1.2 = log t := by
    intro k
    induction k with
    | zero => intro _; rw [t0]; simp only [hL.train, hload, and_self]
    | succ k ih =>
      intro hk
      have := mtStep_log hL hN (hs _ (List.getElem_mem (by omega))).2 havg (hst k (by omega))
      rw [this.1, this.2.1, (ih (by omega)).1]
      exact ⟨rfl, (ih (by omega)).2⟩
  obtain ⟨obs, e1, e2, e3⟩ := chain_log (lg := fun st : (W × W) × Nat => log st.1.1) (T := T) (n := eps.flatten.length)
    (P := fun k p => ∀ hk : k < eps.flatten.length, Loss cfg eps.flatten.length k eps.flatten[k] eps.flatten[k].xs p.2 ∧
      p.2.kind = .strong ∧ p.2.attached = false) (by
    intro k hlt
    obtain ⟨-, -, v, o, q1, q2, q3⟩ := mtStep_log hL hN (hs _ (List.getElem_mem hlt)).2 havg (hst k hlt)
    rw [(hk k hlt.le).1] at q2
    exact ⟨(v, o), q1, fun _ => ⟨q2, q3⟩⟩)
  refine ⟨rfl, t, st.1.2, d, xw, xs, eps, obs, rfl, rfl, ?_, rfl, hA, hT, hE, ?_, e2, ?_⟩
  · rw [← tn]; exact (hk _ (le_refl _)).2
  · rw [← tn, e1, t0]; simp only [hL.train]
  · intro k hlt
    exact ⟨obs[k].1, obs[k].2, List.getElem?_eq_getElem (by omega), e3 k obs[k] (List.getElem?_eq_getElem (by omega)) hlt⟩

theorem foldl_teacher {decay : K} {student : List (List K)} : ∀ (later : List (List (List K))),
    (∀ s ∈ later, s.map List.length = student.map List.length) → ∀ p i,
    param (later.foldl (updateTeacher decay) student) p i =
      weightedAverage decay (param student p i) (later.map fun s => param s p i) := by
  intro later
  have key : (∀ s ∈ later, s.map List.length = student.map List.length) →
      (later.foldl (updateTeacher decay) student).map List.length = student.map List.length ∧
      ∀ p i, param (later.foldl (updateTeacher decay) student) p i =
        weightedAverage decay (param student p i) (later.map fun s => param s p i) := by
    induction later using List.reverseRecOn with
    | nil => intro _; exact ⟨rfl, fun p i => by simp [weightedAverage_nil]⟩
    | append_singleton ls s ih =>
      intro h
      obtain ⟨i1, i2⟩ := ih (fun s' h' => h s' (List.mem_append_left _ h'))
      have hs := h s (by simp)
      rw [List.foldl_append, List.foldl_cons, List.foldl_nil]
      have hsh := i1.trans hs.symm
      refine ⟨(updateTeacher_shape _ _ _ hsh).trans hs, ?_⟩
      intro p i
      rw [updateTeacher_get _ _ _ hsh, i2, List.map_append, List.map_singleton, weightedAverage_snoc]
  exact fun h => (key h).2

/-- **C165 (Mean Teacher targets).**  With a network that treats rows by themselves and depends only on its parameters, the
target of every unlabeled sample in step `k` is what the teacher says of its weak view; the teacher's parameters are
the weighted averages of those the student had at the start and after each of the `k` steps before, whatever the teacher
held before `fit`. -/
theorem C165_teacher_targets (G : TorchGen σ) (hG : G.Lawful) (N : Net X W K) (P : Copying W K) (hP : Copies N P)
    (log : W → List (List (List K) × Goal X K)) (hL : Logs N P.params log) (g : List (List K) → X → List K) (C : Nat)
    (hN : Rowwise N P.params g C) (softmax : List K → List K) (torch : Bool) (cfg : Cfg K) (decay : K)
    (bundle : Option Bundle) (data : Option (Input X)) (seed : Int) (fitted fitted' same : Bool) (w w' : W)
    (teacher teacher' : Option W)
    (h : mtFit G N P softmax torch cfg decay bundle data seed fitted same w teacher = ((fitted', w', teacher'), .ok ())) :
    ∃ obs, log w' = log w ++ obs ∧ ∀ k v o, obs[k]? = some (v, o) → ∃ θ : List (List K),
      (∀ p i, param θ p i = weightedAverage decay (param (P.params w) p i)
        (((obs.take (k + 1)).drop 1).map fun q => param q.1 p i)) ∧
      ∀ q ∈ o.unlabeled, q.target = softmax (g θ q.weak) := by
  obtain ⟨t, d, xw, xs, eps, st, rfl, rfl, hA, hT, hE, hrun, hr⟩ := mtFit_ok hG h
  simp only [Prod.mk.injEq] at hr
  obtain ⟨rfl, rfl, rfl⟩ := hr
  obtain ⟨T, t0, tn, hst⟩ := runSteps_ok hrun
  have hs := Fit.Epochs.sizes hE
  -- the students seen by the steps
  have hstep : ∀ k (hk : k < eps.flatten.length), ∃ o, (∀ q ∈ o.unlabeled, q.target = softmax (g (P.params (T k).1.2) q.weak)) ∧
      (T (k + 1)).1.1 = N.step (T k).1.1 o ∧ (T (k + 1)).1.2 = P.average decay (T k).1.2 (T (k + 1)).1.1 := by
    intro k hk
    have h1 := hst k hk
    rw [mtStep_rowwise hN (hs _ (List.getElem_mem hk)).2 (mtStep_labels hN h1)] at h1
    simp only [Prod.mk.injEq, and_true] at h1
    refine ⟨goal cfg eps.flatten.length (T k).2 .strong false eps.flatten[k] eps.flatten[k].xs
      ((eps.flatten[k].xw.map (·.1)).map fun x => softmax (g (P.params (T k).1.2) x)), goal_targets, ?_, ?_⟩
    · rw [← h1]
    · rw [← h1]
  have hshape : ∀ k ≤ eps.flatten.length, (P.params (T k).1.1).map List.length = (P.params w).map List.length := by
    intro k
    induction k with
    | zero => intro _; rw [t0]; simp only [hP.train]
    | succ k ih =>
      intro hk
      obtain ⟨o, -, q, -⟩ := hstep k (by omega)
      rw [q, hP.step, ih (by omega)]
  have hteach : ∀ k ≤ eps.flatten.length, P.params (T k).1.2 =
      ((List.range k).map fun j => P.params (T (j + 1)).1.1).foldl (updateTeacher decay) (P.params w) := by
    intro k
    induction k with
    | zero => intro _; rw [t0]; simp [hP.train, hP.load]
    | succ k ih =>
      intro hk
      obtain ⟨o, -, -, q⟩ := hstep k (by omega)
      rw [q, hP.average, ih (by omega), List.range_succ, List.map_append, List.foldl_append]
      rfl
  obtain ⟨obs, e1, e2, e3⟩ := chain_log (lg := fun st : (W × W) × Nat => log st.1.1) (T := T) (n := eps.flatten.length)
    (P := fun k p => k < eps.flatten.length ∧ p.1 = P.params (T k).1.1 ∧
      ∀ q ∈ p.2.unlabeled, q.target = softmax (g (P.params (T k).1.2) q.weak)) (by
    intro k hlt
    obtain ⟨o, o1, o2, -⟩ := hstep k hlt
    exact ⟨(P.params (T k).1.1, o), by rw [o2]; exact hL.step _ _, hlt, rfl, o1⟩)
  refine ⟨obs, by rw [← tn, e1, t0]; simp only [hL.train], ?_⟩
  intro k v o hk
  obtain ⟨klt, -, ht⟩ := e3 k _ hk
  refine ⟨P.params (T k).1.2, ?_, ht⟩
  intro p i
  rw [hteach k klt.le, foldl_teacher _ (by
    intro s hs'
    obtain ⟨j, hj, rfl⟩ := List.mem_map.mp hs'
    exact hshape _ (by have := List.mem_range.mp hj; omega))]
  congr 1
  rw [List.map_map]
  apply List.ext_getElem
  · simp only [List.length_map, List.length_range, List.length_drop, List.length_take, e2]; omega
  · intro j h1 h2
    simp only [List.length_map, List.length_range] at h1
    simp only [List.getElem_map, List.getElem_range, Function.comp, List.getElem_drop, List.getElem_take]
    have := (e3 (1 + j) _ (List.getElem?_eq_getElem (by omega))).2.1
    rw [this, Nat.add_comm 1 j]

/-- **C165 (Mean Teacher accepts).** -/
theorem C165_teacher_accepts (G : TorchGen σ) (hG : G.Lawful) (N : Net X W K) (P : Copying W K) (view : W → V)
    (g : V → X → List K) (C : Nat) (hN : Rowwise N view g C) (softmax : List K → List K) (torch : Bool) (cfg : Cfg K)
    (decay : K) (bundle : Option Bundle) (data : Option (Input X)) (seed : Int) (fitted same : Bool) (w : W)
    (teacher : Option W) :
    (mtFit G N P softmax torch cfg decay bundle data seed fitted same w teacher).2 = .ok () ↔
      ∃ d xw xs t, data = some d ∧ teacher = some t ∧ Acceptable torch cfg bundle d xw xs ∧
        Teachable decay same (P.params w) (P.params t) ∧ ∀ y ∈ d.yl, 0 ≤ y ∧ y < (C : Int) := by
  constructor
  · intro h
    obtain ⟨t, d, xw, xs, eps, st, rfl, rfl, hA, hT, hE, hrun, hr⟩ :=
      mtFit_ok hG (r := (mtFit G N P softmax torch cfg decay bundle data seed fitted same w teacher).1) (Prod.ext rfl h)
    obtain ⟨T, -, -, hst⟩ := runSteps_ok hrun
    refine ⟨d, xw, xs, t, rfl, rfl, hA, hT, fun y hy => ?_⟩
    obtain ⟨s, hs, hys⟩ := Fit.Epochs.visits hE hA.epochs hA.rows y hy
    obtain ⟨k, hk, rfl⟩ := List.getElem_of_mem hs
    exact mtStep_labels hN (hst k hk) y hys
  · rintro ⟨d, xw, xs, t, rfl, rfl, hA, hT, hy⟩
    obtain ⟨eps, hE, hf⟩ := mtFit_eq G hG N P softmax torch cfg decay bundle d xw xs hA seed
    obtain ⟨st', hst, -⟩ := runSteps_total (I := fun _ => True) (f := mtStep N P softmax cfg decay eps.flatten.length)
      (ss := eps.flatten) (st := ((N.train w, N.train (P.load w t)), 0)) trivial (fun st s _ hs =>
        ⟨_, mtStep_rowwise hN (Fit.Epochs.sizes hE s hs).2 (fun y hys => hy y (Fit.Epochs.sub hE s hs y hys)), trivial⟩)
    rw [hf _ _ _ _ hT, hst]

/-! ### VAT -/

theorem vatStep_ok {N : Net X W K} {view : W → V} {log : W → List (V × Goal X K)} (hL : Logs N view log)
    (hN : RowPerInput N) {A : Attack X W K τ} (hP : Passive A) {softmax : List K → List K} {cfg : Cfg K} {total : Nat}
    {st st' : (W × τ) × Nat} {s : Batch X} (h : vatStep N A softmax cfg total st s = (st', .ok ())) :
    st'.2 = st.2 + 1 ∧ ∃ v o adv, log st'.1.1 = log st.1.1 ++ [(v, o)] ∧ adv.length = s.xw.length ∧
      Loss cfg total st.2 s adv o ∧ o.kind = .divergence ∧ o.attached = !cfg.detach := by
  unfold vatStep at h
  simp only at h
  by_cases c1 : (N.forward st.1.1 s.xl).1.ndim ≠ 2
  · rw [if_pos c1] at h; cases h
  rw [if_neg c1] at h
  by_cases c2 : s.yl.any (fun c => decide (c < 0 ∨ ((N.forward st.1.1 s.xl).1.classes : Int) ≤ c)) = true
  · rw [if_pos c2] at h; cases h
  rw [if_neg c2] at h
  generalize hv : N.forward (N.forward st.1.1 s.xl).2 (s.xw.map (·.1)) = v at h
  by_cases c3 : v.1.ndim ≠ 2
  · rw [if_pos c3] at h; cases h
  rw [if_neg c3] at h
  have hp := hP v.2 st.1.2 (s.xw.map (·.1)) (v.1.rows.map softmax)
  cases ha : A v.2 st.1.2 (s.xw.map (·.1)) (v.1.rows.map softmax) with
  | mk res gg =>
  rw [ha] at h hp
  cases res with
  | error e => cases h
  | ok adv =>
  simp only at h hp
  have hadv : adv.length = s.xw.length := by have := hp.2 adv rfl; simpa using this
  by_cases c4 : (N.forward gg.1 adv).1.ndim ≠ 2
  · rw [if_pos c4] at h; cases h
  rw [if_neg c4] at h
  simp only [Prod.mk.injEq, and_true] at h
  subst h
  have lv : v.1.rows.length = s.xw.length := by rw [← hv, hN]; simp
  refine ⟨rfl, view (N.forward gg.1 adv).2, goal cfg total st.2 .divergence (!cfg.detach) s adv (v.1.rows.map softmax), adv, ?_,
    hadv, goal_loss hadv (by simpa using lv), rfl, rfl⟩
  simp only
  rw [hL.step, hL.forward, hp.1, ← hv, hL.forward, hL.forward]

theorem vatStep_rowwise {N : Net X W K} {view : W → V} {g : V → X → List K} {C : Nat} (hN : Rowwise N view g C)
    {A : Attack X W K τ} (hP : Passive A) {softmax : List K → List K} {cfg : Cfg K} {total : Nat} {st st' : (W × τ) × Nat}
    {s : Batch X} (h : vatStep N A softmax cfg total st s = (st', .ok ())) :
    ∃ adv, st'.1.1 = N.step st.1.1 (goal cfg total st.2 .divergence (!cfg.detach) s adv
      ((s.xw.map (·.1)).map fun x => softmax (g (view st.1.1) x))) ∧ ∀ k ∈ s.yl, 0 ≤ k ∧ k < (C : Int) := by
  have hF : ∀ w xs, N.forward w xs = (⟨2, C, xs.map (g (view w))⟩, w) := hN
  unfold vatStep at h
  simp only [hF] at h
  rw [if_neg (by simp)] at h
  by_cases c2 : s.yl.any (fun c => decide (c < 0 ∨ (C : Int) ≤ c)) = true
  · rw [if_pos c2] at h; cases h
  rw [if_neg c2, if_neg (by simp)] at h
  have hp := hP st.1.1 st.1.2 (s.xw.map (·.1)) (((s.xw.map (·.1)).map (g (view st.1.1))).map softmax)
  cases ha : A st.1.1 st.1.2 (s.xw.map (·.1)) (((s.xw.map (·.1)).map (g (view st.1.1))).map softmax) with
  | mk res gg =>
  rw [ha] at h hp
  cases res with
  | error e => cases h
  | ok adv =>
  simp only at h hp
  rw [if_neg (by simp)] at h
  simp only [Prod.mk.injEq, and_true] at h
  subst h
  refine ⟨adv, ?_, fun c hc => ?_⟩
  · simp only [hp.1, List.map_map]; rfl
  · have h : ¬(c < 0 ∨ (C : Int) ≤ c) := fun hb => c2 (List.any_eq_true.mpr ⟨c, hc, decide_eq_true hb⟩)
    omega

theorem vatFit_ok {G : TorchGen σ} (hG : G.Lawful) {H : TorchGen τ} {N : Net X W K} {A : Attack X W K τ}
    {softmax : List K → List K} {torch : Bool} {cfg : Cfg K} {ranges : Bool} {bundle : Option Bundle} {xu : Option (Feats X)}
    {data : Option (Input X)} {seed : Int} {fitted : Bool} {w : W} {r : Bool × W}
    (h : vatFit G H N A softmax torch cfg ranges bundle xu data seed fitted w = (r, .ok ())) :
    ∃ d x xs eps st, data = some d ∧ ranges = true ∧ (xu <|> d.xw) = some x ∧
      Acceptable torch cfg bundle (vatInput xu d) x xs ∧ xs = x ∧ Epochs (vatInput xu d) x x cfg eps ∧
      runSteps (vatStep N A softmax cfg eps.flatten.length) ((N.train w, H.manualSeed (seed + 42)), 0) eps.flatten =
        (st, .ok ()) ∧ r = (true, st.1.1) := by
  unfold vatFit at h
  cases hc : check torch cfg ranges bundle (data.map (vatInput xu)) with
  | error e => rw [hc] at h; cases h
  | ok r' =>
  rw [hc] at h
  simp only at h
  obtain ⟨d', xw, xs, hd, hA, hr, rfl⟩ := check_ok.mp hc
  cases data with
  | none => cases hd
  | some d =>
  obtain rfl := Option.some.inj hd
  have hx : (xu <|> d.xw) = some xw ∧ xs = xw := by
    have e1 := hA.weak
    have e2 := hA.strong
    unfold vatInput at e1 e2
    cases xu with
    | none => simp only at e1 e2; rw [e1] at e2; exact ⟨by simp [e1], (Option.some.inj e2).symm⟩
    | some x => simp only [Option.some.injEq] at e1 e2; subst e1; exact ⟨by simp, e2.symm⟩
  obtain ⟨eps, h1, h2⟩ := batches_ok hG hA seed
  simp only at h
  rw [h1] at h
  simp only at h
  rw [totalSteps_eq hA h2] at h
  cases hrun : runSteps (vatStep N A softmax cfg eps.flatten.length) ((N.train w, H.manualSeed (seed + 42)), 0)
    eps.flatten with
  | mk st res =>
  rw [hrun] at h
  cases res with
  | error e => cases h
  | ok u =>
  simp only [Prod.mk.injEq, and_true] at h
  obtain ⟨hx1, rfl⟩ := hx
  exact ⟨d, xs, xs, eps, st, rfl, hr, hx1, hA, rfl, h2, hrun, h.symm⟩

/-- **C165 (VAT).**  A `fit` of VAT that returns made one optimizer step for each batch of `max_epochs` fair epochs over the
labeled rows and the unlabeled ones (`X_u`, or `X_u_w` if there is no `X_u`): the labeled rows with their own labels, each
unlabeled sample with its perturbed version, weighted by `lambda_u` and the warm-up of that step. -/
theorem C165_vat_steps (G : TorchGen σ) (hG : G.Lawful) (H : TorchGen τ) (N : Net X W K) (view : W → V)
    (log : W → List (V × Goal X K)) (hL : Logs N view log) (hN : RowPerInput N) (A : Attack X W K τ) (hP : Passive A)
    (softmax : List K → List K) (torch : Bool) (cfg : Cfg K) (ranges : Bool) (bundle : Option Bundle) (xu : Option (Feats X))
    (data : Option (Input X)) (seed : Int) (fitted fitted' : Bool) (w w' : W)
    (h : vatFit G H N A softmax torch cfg ranges bundle xu data seed fitted w = ((fitted', w'), .ok ())) :
    fitted' = true ∧ ranges = true ∧ ∃ d x eps obs, data = some d ∧ (xu <|> d.xw) = some x ∧
      Acceptable torch cfg bundle (vatInput xu d) x x ∧ Epochs (vatInput xu d) x x cfg eps ∧
      log w' = log w ++ obs ∧ obs.length = eps.flatten.length ∧
      ∀ k (hk : k < eps.flatten.length), ∃ v o adv, obs[k]? = some (v, o) ∧ adv.length = eps.flatten[k].xw.length ∧
        Loss cfg eps.flatten.length k eps.flatten[k] adv o ∧ o.kind = .divergence ∧ o.attached = !cfg.detach := by
  obtain ⟨d, x, xs, eps, st, rfl, hr, hx, hA, rfl, hE, hrun, hres⟩ := vatFit_ok hG h
  simp only [Prod.mk.injEq] at hres
  obtain ⟨rfl, rfl⟩ := hres
  obtain ⟨T, t0, tn, hst⟩ := runSteps_ok hrun
  have hk : ∀ k ≤ eps.flatten.length, (T k).2 = k := by
    intro k
    induction k with
    | zero => intro _; rw [t0]
    | succ k ih =>
      intro hk
      rw [(vatStep_ok hL hN hP (hst k (by omega))).1, ih (by omega)]
  obtain ⟨obs, e1, e2, e3⟩ := chain_log (lg := fun st : (W × τ) × Nat => log st.1.1) (T := T) (n := eps.flatten.length)
    (P := fun k p => ∀ hk : k < eps.flatten.length, ∃ adv, adv.length = eps.flatten[k].xw.length ∧
      Loss cfg eps.flatten.length k eps.flatten[k] adv p.2 ∧ p.2.kind = .divergence ∧ p.2.attached = !cfg.detach) (by
    intro k hlt
    obtain ⟨-, v, o, adv, q1, q2, q3, q4⟩ := vatStep_ok hL hN hP (hst k hlt)
    rw [hk k hlt.le] at q3
    exact ⟨(v, o), q1, fun _ => ⟨adv, q2, q3, q4⟩⟩)
  refine ⟨rfl, hr, d, xs, eps, obs, rfl, hx, hA, hE, by rw [← tn, e1, t0]; simp only [hL.train], e2, ?_⟩
  intro k hlt
  obtain ⟨adv, q⟩ := e3 k obs[k] (List.getElem?_eq_getElem (by omega)) hlt
  exact ⟨obs[k].1, obs[k].2, adv, List.getElem?_eq_getElem (by omega), q⟩

/-- **C165 (VAT targets).**  With a row-wise network the target of every perturbed sample is what the network says of the
unperturbed one at that moment. -/
theorem C165_vat_targets (G : TorchGen σ) (hG : G.Lawful) (H : TorchGen τ) (N : Net X W K) (view : W → V)
    (log : W → List (V × Goal X K)) (hL : Logs N view log) (g : V → X → List K) (C : Nat) (hN : Rowwise N view g C)
    (A : Attack X W K τ) (hP : Passive A)
    (softmax : List K → List K) (torch : Bool) (cfg : Cfg K) (ranges : Bool) (bundle : Option Bundle) (xu : Option (Feats X))
    (data : Option (Input X)) (seed : Int) (fitted fitted' : Bool) (w w' : W)
    (h : vatFit G H N A softmax torch cfg ranges bundle xu data seed fitted w = ((fitted', w'), .ok ())) :
    ∃ obs, log w' = log w ++ obs ∧ ∀ v o, (v, o) ∈ obs → ∀ p ∈ o.unlabeled, p.target = softmax (g v p.weak) := by
  obtain ⟨d, x, xs, eps, st, rfl, hr, hx, hA, rfl, hE, hrun, hres⟩ := vatFit_ok hG h
  simp only [Prod.mk.injEq] at hres
  obtain ⟨rfl, rfl⟩ := hres
  obtain ⟨T, t0, tn, hst⟩ := runSteps_ok hrun
  obtain ⟨obs, e1, e2, e3⟩ := chain_log (lg := fun st : (W × τ) × Nat => log st.1.1) (T := T) (n := eps.flatten.length)
    (P := fun _ p => ∀ q ∈ p.2.unlabeled, q.target = softmax (g p.1 q.weak)) (by
    intro k hlt
    obtain ⟨adv, q1, -⟩ := vatStep_rowwise hN hP (hst k hlt)
    refine ⟨(view (T k).1.1, goal cfg eps.flatten.length (T k).2 .divergence (!cfg.detach) eps.flatten[k] adv
      ((eps.flatten[k].xw.map (·.1)).map fun x => softmax (g (view (T k).1.1) x))), ?_, goal_targets⟩
    rw [q1]
    exact hL.step _ _)
  refine ⟨obs, by rw [← tn, e1, t0]; simp only [hL.train], ?_⟩
  intro v o hm
  obtain ⟨t, ht, he⟩ := List.getElem_of_mem hm
  have := e3 t obs[t] (List.getElem?_eq_getElem ht)
  rw [he] at this
  exact this

/-- **C165 (VAT refused).** -/
theorem C165_vat_refused (G : TorchGen σ) (H : TorchGen τ) (N : Net X W K) (A : Attack X W K τ) (softmax : List K → List K)
    (torch : Bool) (cfg : Cfg K) (ranges : Bool) (bundle : Option Bundle) (xu : Option (Feats X)) (data : Option (Input X))
    (seed : Int) (fitted : Bool) (w : W)
    (h : ∀ d x, data = some d → (xu <|> d.xw) = some x → Acceptable torch cfg bundle (vatInput xu d) x x → ranges = false) :
    ∃ e, vatFit G H N A softmax torch cfg ranges bundle xu data seed fitted w = ((fitted, w), .error e) := by
  unfold vatFit
  cases hc : check torch cfg ranges bundle (data.map (vatInput xu)) with
  | error e => exact ⟨e, rfl⟩
  | ok r =>
    obtain ⟨d', xw, xs, hd, hA, hr, rfl⟩ := check_ok.mp hc
    cases data with
    | none => cases hd
    | some d =>
    obtain rfl := Option.some.inj hd
    have hx : (xu <|> d.xw) = some xw ∧ xs = xw := by
      have e1 := hA.weak
      have e2 := hA.strong
      unfold vatInput at e1 e2
      cases xu with
      | none => simp only at e1 e2; rw [e1] at e2; exact ⟨by simp [e1], (Option.some.inj e2).symm⟩
      | some x => simp only [Option.some.injEq] at e1 e2; subst e1; exact ⟨by simp, e2.symm⟩
    obtain ⟨hx1, rfl⟩ := hx
    have := h d xs rfl hx1 hA
    rw [hr] at this
    cases this

/-! ### Temporal Ensembling -/

theorem writeRows_eq {softmax : List K → List K} {g : V → X → List K} {v : V} {s : Batch X} (h2 : s.xw.length = s.xs.length)
    (M : List (List K)) : writeRows M (s.xw.map (·.2)) (meanRows (((s.xw.map (·.1)).map (g v)).map softmax)
      ((s.xs.map (g v)).map softmax)) =
      (predicted softmax g v s).foldl (fun m p => m.set p.idx (teProb p)) M := by
  unfold writeRows meanRows predicted teProb
  generalize s.xw = a at h2 ⊢
  generalize s.xs = b at h2 ⊢
  induction a generalizing b M with
  | nil => rfl
  | cons p a ih =>
    cases b with
    | nil => simp at h2
    | cons x b =>
      simp only [List.map_cons, List.zipWith_cons_cons, List.zip_cons_cons, List.foldl_cons]
      apply ih
      simpa using h2

theorem ensStep_rowwise {N : Net X W K} {view : W → V} {g : V → X → List K} {C : Nat} (hN : Rowwise N view g C)
    {softmax : List K → List K} {cfg : Cfg K} {alpha : K} {n total epoch : Nat} {st : Ens W K}
    {s : Batch X} (h2 : s.xw.length = s.xs.length) (hy : ∀ k ∈ s.yl, 0 ≤ k ∧ k < (C : Int)) :
    ensStep N softmax cfg alpha n total epoch st s =
      (⟨N.step st.w (goal cfg total st.k .both false s s.xs (s.xw.map fun p =>
          (ensInit n C alpha epoch st).targets.getD p.2.toNat [])), st.k + 1, (ensInit n C alpha epoch st).ens,
        (predicted softmax g (view st.w) s).foldl (fun m p => m.set p.idx (teProb p)) (ensInit n C alpha epoch st).ep,
        (ensInit n C alpha epoch st).targets⟩, .ok ()) := by
  have hF : ∀ w xs, N.forward w xs = (⟨2, C, xs.map (g (view w))⟩, w) := hN
  unfold ensStep
  simp only [hF]
  rw [if_neg (by simp), agree_rowwise (by simpa using h2) hy]
  simp only
  rw [writeRows_eq h2]

theorem ensStep_labels {N : Net X W K} {view : W → V} {g : V → X → List K} {C : Nat} (hN : Rowwise N view g C)
    {softmax : List K → List K} {cfg : Cfg K} {alpha : K} {n total epoch : Nat} {st st' : Ens W K}
    {s : Batch X} (h : ensStep N softmax cfg alpha n total epoch st s = (st', .ok ())) :
    ∀ k ∈ s.yl, 0 ≤ k ∧ k < (C : Int) := by
  have hF : ∀ w xs, N.forward w xs = (⟨2, C, xs.map (g (view w))⟩, w) := hN
  unfold ensStep at h
  simp only [hF] at h
  rw [if_neg (by simp)] at h
  cases ha : agree true s.yl ⟨2, C, s.xl.map (g (view st.w))⟩ ⟨2, C, (s.xw.map (·.1)).map (g (view st.w))⟩
    ⟨2, C, s.xs.map (g (view st.w))⟩ with
  | error e => rw [ha] at h; cases h
  | ok _ => exact (agree_ok ha).2.2.2

/-- The steps of an epoch whose ensemble is there. -/
theorem ens_epoch {N : Net X W K} {view : W → V} {log : W → List (V × Goal X K)} (hL : Logs N view log)
    {g : V → X → List K} {C : Nat} (hN : Rowwise N view g C) {softmax : List K → List K} {cfg : Cfg K} {alpha : K}
    {n total epoch : Nat} {E : List (List K)} : ∀ {ss : List (Batch X)} {st st' : Ens W K}, st.ens = some E →
    (∀ s ∈ ss, s.xw.length = s.xs.length) →
    runSteps (ensStep N softmax cfg alpha n total epoch) st ss = (st', .ok ()) →
    ∃ obs, log st'.w = log st.w ++ obs ∧ obs.length = ss.length ∧ st'.k = st.k + ss.length ∧ st'.ens = some E ∧
      st'.ep = (predictions softmax g (obs.map (·.1)) ss).foldl (fun m p => m.set p.idx (teProb p)) st.ep ∧
      ∀ t (ht : t < ss.length), ∃ v, obs[t]? = some (v, goal cfg total (st.k + t) .both false ss[t] ss[t].xs
        (ss[t].xw.map fun p => st.targets.getD p.2.toNat []))
  | [], st, st', hE, _, h => by
    simp only [runSteps, Prod.mk.injEq, and_true] at h
    subst h
    exact ⟨[], by simp, rfl, rfl, hE, rfl, fun t ht => by simp at ht⟩
  | s :: ss, st, st', hE, h2, h => by
    simp only [runSteps] at h
    cases h1 : ensStep N softmax cfg alpha n total epoch st s with
    | mk st1 res =>
    rw [h1] at h
    cases res with
    | error e => cases h
    | ok u =>
    simp only at h
    have hi : ensInit n C alpha epoch st = st := by unfold ensInit; rw [hE]
    rw [ensStep_rowwise hN (h2 s (by simp)) (ensStep_labels hN h1), hi] at h1
    simp only [Prod.mk.injEq, and_true] at h1
    subst h1
    obtain ⟨obs, e1, e2, e3, e4, e5, e6⟩ := ens_epoch hL hN (by simpa using hE) (fun x hx => h2 x (by simp [hx])) h
    refine ⟨(view st.w, goal cfg total st.k .both false s s.xs (s.xw.map fun p => st.targets.getD p.2.toNat [])) :: obs,
      ?_, by simp [e2], by rw [e3]; simp only [List.length_cons]; omega, e4, ?_, ?_⟩
    · rw [e1]; simp only [hL.step, List.append_assoc, List.singleton_append]
    · rw [e5]
      simp only [predictions, List.map_cons, List.zipWith_cons_cons, List.flatten_cons, List.foldl_append]
    · intro t ht
      cases t with
      | zero => exact ⟨_, rfl⟩
      | succ t =>
        obtain ⟨v, hv⟩ := e6 t (by simpa using ht)
        refine ⟨v, ?_⟩
        simp only [List.getElem?_cons_succ, List.getElem_cons_succ]
        rw [hv]
        simp only [Nat.add_assoc, Nat.add_comm 1 t]

/-- The first step makes the ensemble. -/
theorem ens_first {N : Net X W K} {view : W → V} {g : V → X → List K} {C : Nat} (hN : Rowwise N view g C)
    {softmax : List K → List K} {cfg : Cfg K} {alpha : K} {n total epoch : Nat} {ss : List (Batch X)} {st st' : Ens W K}
    (hs : ss ≠ []) (h2 : ∀ s ∈ ss, s.xw.length = s.xs.length)
    (h : runSteps (ensStep N softmax cfg alpha n total epoch) st ss = (st', .ok ())) :
    runSteps (ensStep N softmax cfg alpha n total epoch) (ensInit n C alpha epoch st) ss = (st', .ok ()) := by
  cases ss with
  | nil => exact absurd rfl hs
  | cons s ss =>
    simp only [runSteps] at h ⊢
    cases h1 : ensStep N softmax cfg alpha n total epoch st s with
    | mk st1 res =>
    rw [h1] at h
    cases res with
    | error e => cases h
    | ok u =>
    have hy := ensStep_labels hN h1
    have hidem : ensInit n C alpha epoch (ensInit n C alpha epoch st) = ensInit n C alpha epoch st := by
      unfold ensInit
      cases he : st.ens with
      | none => simp
      | some E => simp [he]
    have hw : (ensInit n C alpha epoch st).w = st.w ∧ (ensInit n C alpha epoch st).k = st.k := by
      unfold ensInit
      cases st.ens with
      | none => simp
      | some E => simp
    rw [ensStep_rowwise hN (h2 s (by simp)) hy] at h1
    rw [ensStep_rowwise hN (h2 s (by simp)) hy, hidem, hw.1, hw.2, h1]
    exact h

/-- Ensembles have a row of `C` probabilities for each of the `n` samples. -/
def Shaped (n C : Nat) (E : List (List K)) : Prop := E.length = n ∧ ∀ r ∈ E, r.length = C

theorem tePass_shaped {n C : Nat} {preds : List (TePred K)}
    (hp : ∀ p ∈ preds, p.weak.length = C ∧ p.strong.length = C) : Shaped n C (tePass n C preds) := by
  unfold tePass
  have key : ∀ M : List (List K), Shaped n C M → Shaped n C (preds.foldl (fun m p => m.set p.idx (teProb p)) M) := by
    induction preds with
    | nil => exact fun M h => h
    | cons p ps ih =>
      intro M hM
      simp only [List.foldl_cons]
      refine ih (fun q hq => hp q (by simp [hq])) _ ⟨by simp [hM.1], fun r hr => ?_⟩
      rcases List.mem_or_eq_of_mem_set hr with h | rfl
      · exact hM.2 r h
      · have := hp p (by simp)
        simp [teProb, this.1, this.2]
  exact key _ ⟨by simp, fun r hr => by rw [(List.mem_replicate.mp hr).2]; simp⟩

theorem teBlend_shaped {n C : Nat} {alpha : K} {E P : List (List K)} (hE : Shaped n C E) (hP : Shaped n C P) :
    Shaped n C (teBlend alpha E P) := by
  unfold teBlend
  refine ⟨by simp [hE.1, hP.1], fun r hr => ?_⟩
  obtain ⟨i, hi, rfl⟩ := List.getElem_of_mem hr
  simp only [List.length_zipWith] at hi
  simp [hE.2 _ (List.getElem_mem (by omega : i < E.length)), hP.2 _ (List.getElem_mem (by omega : i < P.length))]

/-- What the predictions of the steps of the epochs are. -/
def Spec.history (softmax : List K → List K) (g : V → X → List K) (obss : List (List (V × Goal X K)))
    (eps : List (List (Batch X))) : List (List (TePred K)) :=
  List.zipWith (fun obs ss => predictions softmax g (obs.map (·.1)) ss) obss eps

theorem predictions_shape {softmax : List K → List K} {g : V → X → List K} {C : Nat}
    (hsm : ∀ v x, (softmax (g v x)).length = C) {vs : List V} {ss : List (Batch X)} :
    ∀ p ∈ predictions softmax g vs ss, p.weak.length = C ∧ p.strong.length = C := by
  intro p hp
  unfold predictions at hp
  obtain ⟨l, hl, hp⟩ := List.mem_flatten.mp hp
  obtain ⟨i, hi, rfl⟩ := List.getElem_of_mem hl
  simp only [List.getElem_zipWith, predicted] at hp
  obtain ⟨j, hj, rfl⟩ := List.getElem_of_mem hp
  simp [hsm]

/-- The epochs from an ensemble on: the targets are those of `teRun` on the predictions made. -/
theorem ens_epochs {N : Net X W K} {view : W → V} {log : W → List (V × Goal X K)} (hL : Logs N view log)
    {g : V → X → List K} {C : Nat} (hN : Rowwise N view g C) {softmax : List K → List K}
    (hsm : ∀ v x, (softmax (g v x)).length = C) {cfg : Cfg K} {alpha : K} {n total : Nat} (hn : 0 < n) :
    ∀ {eps : List (List (Batch X))} {epoch : Nat} {E : List (List K)} {st st' : Ens W K}, st.ens = some E → Shaped n C E →
    (∀ ss ∈ eps, ∀ s ∈ ss, s.xw.length = s.xs.length) →
    ensEpochs N softmax cfg alpha n total epoch st eps = (st', .ok ()) →
    ∃ obss, log st'.w = log st.w ++ obss.flatten ∧ obss.length = eps.length ∧
      ∀ e (he : e < eps.length), ∃ obs T, obss[e]? = some obs ∧ obs.length = eps[e].length ∧
        (teRun n C alpha epoch E (history softmax g obss eps)).1[e]? = some T ∧
        ∀ t (ht : t < eps[e].length), ∃ v, obs[t]? = some (v, goal cfg total (st.k + (eps.take e).flatten.length + t) .both
          false eps[e][t] eps[e][t].xs (eps[e][t].xw.map fun p => T.getD p.2.toNat []))
  | [], _, _, st, st', _, _, _, h => by
    simp only [ensEpochs, Prod.mk.injEq, and_true] at h
    subst h
    exact ⟨[], by simp, rfl, fun e he => by simp at he⟩
  | ss :: rest, epoch, E, st, st', hE, hS, h2, h => by
    simp only [ensEpochs] at h
    cases h1 : runSteps (ensStep N softmax cfg alpha n total epoch) (ensStart n alpha epoch st) ss with
    | mk st1 res =>
    rw [h1] at h
    cases res with
    | error e => cases h
    | ok u =>
    simp only at h
    have hw : (E.headD []).length = C := by
      cases E with
      | nil => have := hS.1; simp at this; omega
      | cons a E => exact hS.2 a (by simp)
    have hst : ensStart n alpha epoch st = { st with
        ep := List.replicate n (List.replicate C 0), targets := teTargets alpha epoch E } := by
      unfold ensStart; rw [hE]; simp only [hw]
    rw [hst] at h1
    obtain ⟨obs, e1, e2, e3, e4, e5, e6⟩ := ens_epoch hL hN (E := E) (by simpa using hE) (h2 ss (by simp)) h1
    have hep : st1.ep = tePass n C (predictions softmax g (obs.map (·.1)) ss) := e5
    have hf : ensFinish alpha st1 = ({ st1 with ens := some (teBlend alpha E st1.ep) }, .ok ()) := by
      unfold ensFinish; rw [e4]
    rw [hf] at h
    simp only at h
    obtain ⟨obss, f1, f2, f3⟩ := ens_epochs hL hN hsm hn (E := teBlend alpha E st1.ep) rfl
      (by rw [hep]; exact teBlend_shaped hS (tePass_shaped (predictions_shape hsm)))
      (fun x hx => h2 x (by simp [hx])) h
    refine ⟨obs :: obss, by rw [f1]; simp only [e1, List.flatten_cons, List.append_assoc], by simp [f2], ?_⟩
    intro e he
    cases e with
    | zero =>
      refine ⟨obs, teTargets alpha epoch E, rfl, e2, by simp [history, teRun], ?_⟩
      intro t ht
      simp only [List.take_zero, List.flatten_nil, List.length_nil, Nat.add_zero]
      exact e6 t ht
    | succ e =>
      obtain ⟨obs', T, q1, q2, q3, q4⟩ := f3 e (by simpa using he)
      refine ⟨obs', T, by simpa using q1, by simpa using q2, ?_, ?_⟩
      · simp only [history, List.zipWith_cons_cons, teRun, List.getElem?_cons_succ]
        rw [← hep]
        exact q3
      · intro t ht
        obtain ⟨v, hv⟩ := q4 t (by simpa using ht)
        refine ⟨v, ?_⟩
        rw [hv]
        simp only [List.getElem_cons_succ, e3, List.take_succ_cons, List.flatten_cons, List.length_append]
        simp only [Nat.add_assoc]

theorem ensFit_ok {G : TorchGen σ} (hG : G.Lawful) {N : Net X W K} {softmax : List K → List K}
    {torch : Bool} {cfg : Cfg K} {alpha : K} {bundle : Option Bundle} {data : Option (Input X)} {seed : Int}
    {fitted : Bool} {w : W} {r : Bool × W}
    (h : ensFit G N softmax torch cfg alpha bundle data seed fitted w = (r, .ok ())) :
    ∃ d xw xs eps st, data = some d ∧ 0 ≤ alpha ∧ alpha < 1 ∧ Acceptable torch cfg bundle d xw xs ∧ Epochs d xw xs cfg eps ∧
      ensEpochs N softmax cfg alpha xw.rows.length eps.flatten.length 0 ⟨N.train w, 0, none, [], []⟩ eps = (st, .ok ()) ∧
      r = (true, st.w) := by
  unfold ensFit at h
  cases hc : check torch cfg (decide (0 ≤ alpha ∧ alpha < 1)) bundle data with
  | error e => rw [hc] at h; cases h
  | ok r' =>
  rw [hc] at h
  simp only at h
  obtain ⟨d, xw, xs, rfl, hA, hr, rfl⟩ := check_ok.mp hc
  have hd := of_decide_eq_true hr
  obtain ⟨eps, h1, h2⟩ := batches_ok hG hA seed
  simp only at h
  rw [h1] at h
  simp only at h
  rw [totalSteps_eq hA h2, numbered_length] at h
  cases hrun : ensEpochs N softmax cfg alpha xw.rows.length eps.flatten.length 0 ⟨N.train w, 0, none, [], []⟩ eps with
  | mk st res =>
  rw [hrun] at h
  cases res with
  | error e => cases h
  | ok u =>
  simp only [Prod.mk.injEq, and_true] at h
  exact ⟨d, xw, xs, eps, st, rfl, hd.1, hd.2, hA, h2, hrun, h.symm⟩

/-- **C165 (Temporal Ensembling refused).** -/
theorem C165_ensemble_refused (G : TorchGen σ) (N : Net X W K) (softmax : List K → List K) (torch : Bool) (cfg : Cfg K)
    (alpha : K) (bundle : Option Bundle) (data : Option (Input X)) (seed : Int) (fitted : Bool) (w : W)
    (h : ∀ d xw xs, data = some d → Acceptable torch cfg bundle d xw xs → alpha < 0 ∨ 1 ≤ alpha) :
    ∃ e, ensFit G N softmax torch cfg alpha bundle data seed fitted w = ((fitted, w), .error e) := by
  unfold ensFit
  cases hc : check torch cfg (decide (0 ≤ alpha ∧ alpha < 1)) bundle data with
  | error e => exact ⟨e, rfl⟩
  | ok r =>
    obtain ⟨d, xw, xs, hd, hA, hr, -⟩ := check_ok.mp hc
    have hd' := of_decide_eq_true hr
    rcases h d xw xs hd hA with h | h
    · exact absurd hd'.1 (not_le.mpr h)
    · exact absurd hd'.2 (not_lt.mpr h)

theorem ensStep_log {N : Net X W K} {view : W → V} {log : W → List (V × Goal X K)} (hL : Logs N view log)
    {softmax : List K → List K} {cfg : Cfg K} {alpha : K} {n total epoch : Nat} {st st' : Ens W K} {s : Batch X}
    (h2 : s.xw.length = s.xs.length) (h : ensStep N softmax cfg alpha n total epoch st s = (st', .ok ())) :
    st'.k = st.k + 1 ∧ ∃ v o, log st'.w = log st.w ++ [(v, o)] ∧ Loss cfg total st.k s s.xs o ∧ o.kind = .both ∧
      o.attached = false := by
  unfold ensStep at h
  simp only at h
  by_cases c1 : (N.forward st.w s.xl).1.ndim ≠ 2
  · rw [if_pos c1] at h; cases h
  rw [if_neg c1] at h
  generalize hv : N.forward (N.forward st.w s.xl).2 (s.xw.map (·.1)) = v at h
  generalize hu : N.forward v.2 s.xs = u at h
  cases ha : agree true s.yl (N.forward st.w s.xl).1 v.1 u.1 with
  | error e => rw [ha] at h; cases h
  | ok _ =>
  rw [ha] at h
  simp only [Prod.mk.injEq, and_true] at h
  subst h
  refine ⟨rfl, view u.2, goal cfg total st.k .both false s s.xs (s.xw.map fun p =>
    (ensInit n v.1.classes alpha epoch st).targets.getD p.2.toNat []), ?_, goal_loss h2.symm (by simp), rfl, rfl⟩
  simp only
  rw [hL.step, ← hu, hL.forward, ← hv, hL.forward, hL.forward]

theorem ensSteps_log {N : Net X W K} {view : W → V} {log : W → List (V × Goal X K)} (hL : Logs N view log)
    {softmax : List K → List K} {cfg : Cfg K} {alpha : K} {n total epoch : Nat} {ss : List (Batch X)} {st st' : Ens W K}
    (h2 : ∀ s ∈ ss, s.xw.length = s.xs.length)
    (h : runSteps (ensStep N softmax cfg alpha n total epoch) st ss = (st', .ok ())) :
    st'.k = st.k + ss.length ∧ ∃ obs, log st'.w = log st.w ++ obs ∧ obs.length = ss.length ∧
      ∀ t (ht : t < ss.length), ∃ v o, obs[t]? = some (v, o) ∧ Loss cfg total (st.k + t) ss[t] ss[t].xs o ∧ o.kind = .both ∧
        o.attached = false := by
  obtain ⟨T, t0, tn, hT⟩ := runSteps_ok h
  have hk : ∀ t ≤ ss.length, (T t).k = st.k + t := by
    intro t
    induction t with
    | zero => intro _; rw [t0]; rfl
    | succ t ih =>
      intro ht
      rw [(ensStep_log hL (h2 _ (List.getElem_mem (by omega))) (hT t (by omega))).1, ih (by omega)]
      rfl
  obtain ⟨obs, e1, e2, e3⟩ := chain_log (lg := fun st : Ens W K => log st.w) (T := T) (n := ss.length)
    (P := fun t p => ∀ ht : t < ss.length, Loss cfg total (st.k + t) ss[t] ss[t].xs p.2 ∧ p.2.kind = .both ∧
      p.2.attached = false) (by
    intro t ht
    obtain ⟨-, v, o, q1, q2, q3⟩ := ensStep_log hL (h2 _ (List.getElem_mem ht)) (hT t ht)
    rw [hk t ht.le] at q2
    exact ⟨(v, o), q1, fun _ => ⟨q2, q3⟩⟩)
  refine ⟨by rw [← tn]; exact hk _ (le_refl _), obs, by rw [← tn, e1, t0], e2, fun t ht => ?_⟩
  exact ⟨obs[t].1, obs[t].2, List.getElem?_eq_getElem (by omega), e3 t obs[t] (List.getElem?_eq_getElem (by omega)) ht⟩

theorem ensEpochs_log {N : Net X W K} {view : W → V} {log : W → List (V × Goal X K)} (hL : Logs N view log)
    {softmax : List K → List K} {cfg : Cfg K} {alpha : K} {n total : Nat} : ∀ {eps : List (List (Batch X))} {epoch : Nat}
    {st st' : Ens W K}, (∀ ss ∈ eps, ∀ s ∈ ss, s.xw.length = s.xs.length) →
    ensEpochs N softmax cfg alpha n total epoch st eps = (st', .ok ()) →
    ∃ obs, log st'.w = log st.w ++ obs ∧ obs.length = eps.flatten.length ∧
      ∀ t (ht : t < eps.flatten.length), ∃ v o, obs[t]? = some (v, o) ∧
        Loss cfg total (st.k + t) eps.flatten[t] eps.flatten[t].xs o ∧ o.kind = .both ∧ o.attached = false
  | [], _, st, st', _, h => by
    simp only [ensEpochs, Prod.mk.injEq, and_true] at h
    subst h
    exact ⟨[], by simp, rfl, fun t ht => by simp at ht⟩
  | ss :: rest, epoch, st, st', h2, h => by
    simp only [ensEpochs] at h
    cases h1 : runSteps (ensStep N softmax cfg alpha n total epoch) (ensStart n alpha epoch st) ss with
    | mk st1 res =>
    rw [h1] at h
    cases res with
    | error e => cases h
    | ok u =>
    simp only at h
    have hst : (ensStart n alpha epoch st).w = st.w ∧ (ensStart n alpha epoch st).k = st.k := by
      unfold ensStart; cases st.ens with
      | none => simp
      | some E => simp
    obtain ⟨k1, obs, e1, e2, e3⟩ := ensSteps_log hL (h2 ss (by simp)) h1
    rw [hst.2] at k1 e3
    rw [hst.1] at e1
    cases hf : ensFinish alpha st1 with
    | mk st2 res2 =>
    rw [hf] at h
    cases res2 with
    | error e => cases h
    | ok u =>
    simp only at h
    have hst2 : st2.w = st1.w ∧ st2.k = st1.k := by
      unfold ensFinish at hf
      cases he : st1.ens with
      | none => rw [he] at hf; cases hf
      | some E =>
        rw [he] at hf
        simp only [Prod.mk.injEq, and_true] at hf
        rw [← hf]
        exact ⟨rfl, rfl⟩
    obtain ⟨obs2, f1, f2, f3⟩ := ensEpochs_log hL (fun x hx => h2 x (by simp [hx])) h
    rw [hst2.2, k1] at f3
    refine ⟨obs ++ obs2, by rw [f1, hst2.1, e1, List.append_assoc], by
      rw [List.flatten_cons, List.length_append, List.length_append, e2, f2], ?_⟩
    intro t ht
    simp only [List.flatten_cons]
    rcases Nat.lt_or_ge t ss.length with hlt | hge
    · obtain ⟨v, o, q1, q2, q3⟩ := e3 t hlt
      refine ⟨v, o, by rw [List.getElem?_append_left (by omega)]; exact q1, ?_, q3⟩
      rw [List.getElem_append_left hlt]
      exact q2
    · simp only [List.flatten_cons, List.length_append] at ht
      obtain ⟨v, o, q1, q2, q3⟩ := f3 (t - ss.length) (by omega)
      refine ⟨v, o, by rw [List.getElem?_append_right (by omega), e2]; exact q1, ?_, q3⟩
      rw [List.getElem_append_right hge]
      rw [show st.k + ss.length + (t - ss.length) = st.k + t by omega] at q2
      exact q2

/-- **C165 (Temporal Ensembling).**  A `fit` that returns made one optimizer step for each batch of `max_epochs` fair
epochs, each with the loss of its batch and the warm-up of that step; no gradient reaches the targets. -/
theorem C165_ensemble_steps (G : TorchGen σ) (hG : G.Lawful) (N : Net X W K) (view : W → V)
    (log : W → List (V × Goal X K)) (hL : Logs N view log) (softmax : List K → List K) (torch : Bool) (cfg : Cfg K)
    (alpha : K) (bundle : Option Bundle) (data : Option (Input X)) (seed : Int) (fitted fitted' : Bool) (w w' : W)
    (h : ensFit G N softmax torch cfg alpha bundle data seed fitted w = ((fitted', w'), .ok ())) :
    fitted' = true ∧ 0 ≤ alpha ∧ alpha < 1 ∧ ∃ d xw xs eps obs, data = some d ∧ Acceptable torch cfg bundle d xw xs ∧
      Epochs d xw xs cfg eps ∧ log w' = log w ++ obs ∧ obs.length = eps.flatten.length ∧
      ∀ t (ht : t < eps.flatten.length), ∃ v o, obs[t]? = some (v, o) ∧
        Loss cfg eps.flatten.length t eps.flatten[t] eps.flatten[t].xs o ∧ o.kind = .both ∧ o.attached = false := by
  obtain ⟨d, xw, xs, eps, st, rfl, h0, h1, hA, hE, hrun, hr⟩ := ensFit_ok hG h
  simp only [Prod.mk.injEq] at hr
  obtain ⟨rfl, rfl⟩ := hr
  have hs := Fit.Epochs.sizes hE
  obtain ⟨obs, e1, e2, e3⟩ := ensEpochs_log hL
    (fun ss hss s hs' => (hs s (List.mem_flatten.mpr ⟨ss, hss, hs'⟩)).2) hrun
  simp only [Nat.zero_add] at e3
  refine ⟨rfl, h0, h1, d, xw, xs, eps, obs, rfl, hA, hE, by rw [e1]; simp only [hL.train], e2, e3⟩

theorem rowsAt_get {α : Type} {Y : List α} {B : List Nat} {rows : List α} (h : Deep.Spec.RowsAt Y B rows) {i : Nat}
    (hi : i < rows.length) : ∃ hb : i < B.length, Y[B[i]]? = some rows[i] := by
  have hl := Fit.rowsAt_length h
  refine ⟨by omega, ?_⟩
  have h1 : (rows.map some)[i]? = (B.map fun i => Y[i]?)[i]? := congrArg (·[i]?) h
  rw [List.getElem?_map, List.getElem?_map, List.getElem?_eq_getElem hi, List.getElem?_eq_getElem (by omega)] at h1
  exact (Option.some.inj h1).symm

theorem numbered_get {xs : List X} {i : Nat} {p : X × Int} (h : (numbered xs)[i]? = some p) :
    i < xs.length ∧ p.2 = i ∧ xs[i]? = some p.1 := by
  have hi : i < (numbered xs).length := (List.getElem?_eq_some_iff.mp h).1
  have hi' := hi
  rw [numbered_length] at hi'
  rw [List.getElem?_eq_getElem hi] at h
  obtain rfl := Option.some.inj h
  refine ⟨hi', ?_, ?_⟩
  · simp [numbered]
  · simp [numbered]

/-- The predictions of a fair epoch are complete. -/
theorem epoch_full {softmax : List K → List K} {g : V → X → List K} {C : Nat} (hsm : ∀ v x, IsDistN C (softmax (g v x)))
    {d : Input X} {xw xs : Feats X} {cfg : Cfg K} {eps : List (List (Batch X))} (hE : Epochs d xw xs cfg eps)
    {ss : List (Batch X)} (hss : ss ∈ eps) {vs : List V} (hv : vs.length = ss.length) :
    FullEpoch xw.rows.length C (predictions softmax g vs ss) := by
  obtain ⟨-, bl, bu, hO, -, hF⟩ := hE.each ss hss
  constructor
  · intro p hp
    unfold predictions at hp
    obtain ⟨l, hl, hp⟩ := List.mem_flatten.mp hp
    obtain ⟨t, ht, rfl⟩ := List.getElem_of_mem hl
    simp only [List.length_zipWith] at ht
    simp only [List.getElem_zipWith, predicted] at hp
    obtain ⟨j, hj, rfl⟩ := List.getElem_of_mem hp
    simp only [List.length_zipWith] at hj
    simp only [List.getElem_zipWith]
    refine ⟨?_, hsm _ _, hsm _ _⟩
    obtain ⟨-, -, r3, -⟩ := hO.rows t (by omega)
    obtain ⟨hb, h3⟩ := rowsAt_get r3 (i := j) (by omega)
    obtain ⟨n1, n2, -⟩ := numbered_get h3
    rw [n2]
    simpa using n1
  · intro s hs
    have hv' := hF.covers s (by rw [numbered_length]; exact hs)
    have hmem : s ∈ bu.flatten := List.count_pos_iff.mp hv'
    obtain ⟨B, hB, hiB⟩ := List.mem_flatten.mp hmem
    obtain ⟨t, ht, rfl⟩ := List.getElem_of_mem hB
    have ht' : t < ss.length := by rw [← hO.len_u]; exact ht
    obtain ⟨-, -, r3, r4⟩ := hO.rows t ht'
    rw [List.getD_eq_getElem _ _ ht] at r3 r4
    obtain ⟨j, hj, hje⟩ := List.getElem_of_mem hiB
    have l3 := Fit.rowsAt_length r3
    have l4 := Fit.rowsAt_length r4
    obtain ⟨hb, h3⟩ := rowsAt_get r3 (i := j) (by omega)
    rw [hje] at h3
    obtain ⟨-, n2, -⟩ := numbered_get h3
    refine ⟨⟨(ss[t].xw[j]'(by omega)).2.toNat, softmax (g vs[t] (ss[t].xw[j]'(by omega)).1),
      softmax (g vs[t] (ss[t].xs[j]'(by omega)))⟩, ?_, ?_⟩
    · unfold predictions
      refine List.mem_flatten.mpr ⟨predicted softmax g vs[t] ss[t], ?_, ?_⟩
      · refine List.mem_iff_getElem.mpr ⟨t, by simp; omega, by simp⟩
      · refine List.mem_iff_getElem.mpr ⟨j, by simp [predicted]; omega, by simp [predicted]⟩
    · simp [n2]

/-- **C165 (Temporal Ensembling targets).**  With a row-wise network, in epoch `e` (from 0) the target of the unlabeled
sample number `s` is, class by class, the weighted average of the last predictions made for it in the earlier epochs,
over `1 - alpha ^ (e + 1)`.  `history` are the predictions of the networks that were there in the steps. -/
theorem C165_ensemble_targets (G : TorchGen σ) (hG : G.Lawful) (N : Net X W K) (view : W → V)
    (log : W → List (V × Goal X K)) (hL : Logs N view log) (g : V → X → List K) (C : Nat) (hN : Rowwise N view g C)
    (softmax : List K → List K) (hsm : ∀ v x, IsDistN C (softmax (g v x))) (torch : Bool) (cfg : Cfg K)
    (alpha : K) (bundle : Option Bundle) (data : Option (Input X)) (seed : Int) (fitted fitted' : Bool) (w w' : W)
    (h : ensFit G N softmax torch cfg alpha bundle data seed fitted w = ((fitted', w'), .ok ())) :
    ∃ d xw xs eps obss, data = some d ∧ Acceptable torch cfg bundle d xw xs ∧ Epochs d xw xs cfg eps ∧
      log w' = log w ++ obss.flatten ∧ obss.length = eps.length ∧
      ∀ e (he : e < eps.length) t (ht : t < eps[e].length), ∃ obs v o, obss[e]? = some obs ∧ obs[t]? = some (v, o) ∧
        o.unlabeled.length = eps[e][t].xw.length ∧
        ∀ j (hj : j < eps[e][t].xw.length), ∃ (s : Nat) (q : Pull X K), eps[e][t].xw[j].2 = (s : Int) ∧ xw.rows[s]? = some q.weak ∧
          xs.rows[s]? = some q.strong ∧ o.unlabeled[j]? = some q ∧
          ∀ c < C, q.target.getD c 0 = weightedAverage alpha 0
            (((history softmax g obss eps).take e).map fun ep => lastProb ep s c) / max (1 - alpha ^ (e + 1)) (1 / 10 ^ 12) := by
  obtain ⟨d, xw, xs, eps, st, rfl, h0, h1, hA, hE, hrun, hr⟩ := ensFit_ok hG h
  simp only [Prod.mk.injEq] at hr
  obtain ⟨rfl, rfl⟩ := hr
  have hs := Fit.Epochs.sizes hE
  have h2 : ∀ ss ∈ eps, ∀ s ∈ ss, s.xw.length = s.xs.length :=
    fun ss hss s hs' => (hs s (List.mem_flatten.mpr ⟨ss, hss, hs'⟩)).2
  have hn : 0 < xw.rows.length := List.length_pos_iff.mpr hA.unlabeled
  -- the first epoch makes the ensemble
  have hrun' : ensEpochs N softmax cfg alpha xw.rows.length eps.flatten.length 0
      ⟨N.train w, 0, some (List.replicate xw.rows.length (List.replicate C 0)), [], []⟩ eps = (st, .ok ()) := by
    cases eps with
    | nil => have := hE.number; have := hA.epochs; simp at *; omega
    | cons ss rest =>
      have hne : ss ≠ [] := by
        intro e
        have := (hE.each ss (by simp)).1
        have n1 := List.length_pos_iff.mpr hA.nonempty
        rw [← numBatches_ceil hA.batch n1, e] at this
        have : 1 ≤ numBatches d.xl.rows.length cfg.batchSize.toNat := le_max_left _ _
        simp at *
        omega
      simp only [ensEpochs] at hrun ⊢
      cases hr1 : runSteps (ensStep N softmax cfg alpha xw.rows.length (ss :: rest).flatten.length 0)
          (ensStart xw.rows.length alpha 0 ⟨N.train w, 0, none, [], []⟩) ss with
      | mk st1 res =>
      rw [hr1] at hrun
      cases res with
      | error e => cases hrun
      | ok u =>
      have hf := ens_first hN hne (h2 ss (by simp)) hr1
      have e1 : ensInit xw.rows.length C alpha 0 (ensStart xw.rows.length alpha 0 ⟨N.train w, 0, none, [], []⟩) =
          ensStart xw.rows.length alpha 0
            ⟨N.train w, 0, some (List.replicate xw.rows.length (List.replicate C (0 : K))), [], []⟩ := by
        unfold ensInit ensStart
        obtain ⟨m, hm⟩ : ∃ m, xw.rows.length = m + 1 := ⟨xw.rows.length - 1, by omega⟩
        rw [hm]
        simp [List.replicate_succ]
      rw [e1] at hf
      rw [hf]
      exact hrun
  obtain ⟨obss, e1, e2, e3⟩ := ens_epochs hL hN (fun v x => (hsm v x).1) hn rfl
    ⟨by simp, fun r hr => by rw [(List.mem_replicate.mp hr).2]; simp⟩ h2 hrun'
  refine ⟨d, xw, xs, eps, obss, rfl, hA, hE, by rw [e1]; simp only [hL.train], e2, ?_⟩
  have hfull : ∀ ep ∈ history softmax g obss eps, FullEpoch xw.rows.length C ep := by
    intro ep hep
    obtain ⟨i, hi, rfl⟩ := List.getElem_of_mem hep
    simp only [history, List.length_zipWith] at hi
    simp only [history, List.getElem_zipWith]
    obtain ⟨obs, T, q1, q2, -⟩ := e3 i (by omega)
    have : obss[i]'(by omega) = obs := by
      rw [List.getElem?_eq_getElem (by omega)] at q1
      exact Option.some.inj q1
    exact epoch_full hsm hE (List.getElem_mem _) (by rw [this]; simpa using q2)
  have hhist : (history softmax g obss eps).length = eps.length := by simp [history, e2]
  obtain ⟨-, hT⟩ := C113_targets_partial xw.rows.length C alpha h0 h1 _ hfull
  intro e he t ht
  obtain ⟨obs, T, q1, q2, q3, q4⟩ := e3 e he
  obtain ⟨v, hv⟩ := q4 t ht
  obtain ⟨T', t1, t2, t3⟩ := hT e (by omega)
  have hTT : T' = T := by
    have : (Deep.teFit xw.rows.length C alpha (history softmax g obss eps)).1[e]? = some T := q3
    rw [this] at t1
    exact (Option.some.inj t1).symm
  subst hTT
  have hlen : eps[e][t].xw.length = eps[e][t].xs.length := h2 _ (List.getElem_mem he) _ (List.getElem_mem ht)
  refine ⟨obs, v, _, q1, hv, by simp [goal, List.length_zip]; omega, ?_⟩
  intro j hj
  obtain ⟨-, bl, bu, hO, -, hF⟩ := hE.each eps[e] (List.getElem_mem he)
  obtain ⟨-, -, r3, r4⟩ := hO.rows t ht
  obtain ⟨hb, h3⟩ := rowsAt_get r3 (i := j) (by omega)
  obtain ⟨hb', h4⟩ := rowsAt_get r4 (i := j) (by omega)
  obtain ⟨n1, n2, n3⟩ := numbered_get h3
  refine ⟨(bu.getD t [])[j], ⟨(eps[e][t].xw[j]).1, eps[e][t].xs[j]'(by omega), T'.getD (eps[e][t].xw[j]).2.toNat []⟩, n2,
    n3, h4, ?_, ?_⟩
  · rw [List.getElem?_eq_getElem (by simp [goal, List.length_zip]; omega)]
    simp [goal]
  · intro c hc
    simp only [n2, Int.toNat_natCast]
    exact (t3 _ n1).2.1 c hc

/-- **C165 (Temporal Ensembling accepts).** -/
theorem C165_ensemble_accepts (G : TorchGen σ) (hG : G.Lawful) (N : Net X W K) (view : W → V) (g : V → X → List K) (C : Nat)
    (hN : Rowwise N view g C) (softmax : List K → List K) (torch : Bool) (cfg : Cfg K) (alpha : K) (bundle : Option Bundle)
    (data : Option (Input X)) (seed : Int) (fitted : Bool) (w : W) :
    (ensFit G N softmax torch cfg alpha bundle data seed fitted w).2 = .ok () ↔
      ∃ d xw xs, data = some d ∧ Acceptable torch cfg bundle d xw xs ∧ 0 ≤ alpha ∧ alpha < 1 ∧
        ∀ y ∈ d.yl, 0 ≤ y ∧ y < (C : Int) := by
  constructor
  · intro h
    obtain ⟨d, xw, xs, eps, st, rfl, h0, h1, hA, hE, hrun, hr⟩ :=
      ensFit_ok hG (r := (ensFit G N softmax torch cfg alpha bundle data seed fitted w).1) (Prod.ext rfl h)
    refine ⟨d, xw, xs, rfl, hA, h0, h1, fun y hy => ?_⟩
    obtain ⟨s, hs, hys⟩ := Fit.Epochs.visits hE hA.epochs hA.rows y hy
    clear hE h hr hA
    generalize (⟨N.train w, 0, none, [], []⟩ : Ens W K) = st0 at hrun
    generalize 0 = epoch at hrun
    generalize eps.flatten.length = total at hrun
    induction eps generalizing epoch st0 with
    | nil => simp at hs
    | cons ss rest ih =>
      simp only [ensEpochs] at hrun
      cases hr1 : runSteps (ensStep N softmax cfg alpha xw.rows.length total epoch)
          (ensStart xw.rows.length alpha epoch st0) ss with
      | mk st1 res =>
      rw [hr1] at hrun
      cases res with
      | error e => cases hrun
      | ok u =>
      simp only at hrun
      cases hf : ensFinish alpha st1 with
      | mk st2 res2 =>
      rw [hf] at hrun
      cases res2 with
      | error e => cases hrun
      | ok u =>
      simp only at hrun
      rw [List.flatten_cons, List.mem_append] at hs
      rcases hs with hs | hs
      · obtain ⟨T, -, -, hT⟩ := runSteps_ok hr1
        obtain ⟨k, hk, rfl⟩ := List.getElem_of_mem hs
        exact ensStep_labels hN (hT k hk) y hys
      · exact ih hs _ _ hrun
  · rintro ⟨d, xw, xs, rfl, hA, h0, h1, hy⟩
    obtain ⟨eps, e1, hE⟩ := batches_ok hG hA seed
    unfold ensFit
    rw [check_ok.mpr ⟨d, xw, xs, rfl, hA, by simp [h0, h1], rfl⟩]
    simp only
    rw [e1]
    simp only
    have hsz : ∀ ss ∈ eps, ss ≠ [] ∧ ∀ s ∈ ss, s.xw.length = s.xs.length ∧ ∀ k ∈ s.yl, 0 ≤ k ∧ k < (C : Int) := by
      intro ss hss
      refine ⟨?_, fun s hs => ?_⟩
      · intro e
        have := (hE.each ss hss).1
        have n1 := List.length_pos_iff.mpr hA.nonempty
        rw [← numBatches_ceil hA.batch n1, e] at this
        have : 1 ≤ numBatches d.xl.rows.length cfg.batchSize.toNat := le_max_left _ _
        simp at *
        omega
      · have hm : s ∈ eps.flatten := List.mem_flatten.mpr ⟨ss, hss, hs⟩
        exact ⟨(Fit.Epochs.sizes hE s hm).2, fun y hys => hy y (Fit.Epochs.sub hE s hm y hys)⟩
    have key : ∀ (eps : List (List (Batch X))) (n total epoch : Nat) (st : Ens W K),
        (∀ ss ∈ eps, ss ≠ [] ∧ ∀ s ∈ ss, s.xw.length = s.xs.length ∧ ∀ k ∈ s.yl, 0 ≤ k ∧ k < (C : Int)) →
        ∃ st', ensEpochs N softmax cfg alpha n total epoch st eps = (st', .ok ()) := by
      intro eps
      induction eps with
      | nil => intro n total epoch st _; exact ⟨st, rfl⟩
      | cons ss rest ih =>
        intro n total epoch st hsz
        obtain ⟨hne, hss⟩ := hsz ss (by simp)
        cases ss with
        | nil => exact absurd rfl hne
        | cons s ss =>
        have hstep : ∀ st', ∀ s' ∈ s :: ss, ∃ st'', ensStep N softmax cfg alpha n total epoch st' s' = (st'', .ok ()) ∧
            st''.ens.isSome = true := fun st' s' hs' =>
          ⟨_, ensStep_rowwise hN (hss s' hs').1 (hss s' hs').2, by
            show Option.isSome (ensInit n C alpha epoch st').ens = true
            unfold ensInit
            cases h : st'.ens with
            | none => rfl
            | some E => simp [h]⟩
        simp only [ensEpochs, runSteps]
        obtain ⟨stx, x1, x2⟩ := hstep (ensStart n alpha epoch st) s (by simp)
        rw [x1]
        simp only
        obtain ⟨st1, r1, r2⟩ := runSteps_total (I := fun st : Ens W K => st.ens.isSome = true)
          (f := ensStep N softmax cfg alpha n total epoch) (ss := ss) (st := stx) x2
          (fun st' s' _ hs' => hstep st' s' (by simp [hs']))
        rw [r1]
        simp only
        obtain ⟨E, hE'⟩ := Option.isSome_iff_exists.mp r2
        unfold ensFinish
        rw [hE']
        exact ih _ _ _ _ (fun x hx => hsz x (by simp [hx]))
    obtain ⟨st', hst⟩ := key eps (numbered xw.rows).length (totalSteps ⟨d.xl.rows, d.yl, numbered xw.rows, xs.rows⟩ cfg) 0
      ⟨N.train w, 0, none, [], []⟩ hsz
    rw [hst]

/-! ### The first step -/

/-- **C165 (first step).**  With a warm-up the unlabeled samples have no part in the loss of the first step. -/
theorem C165_first_step {cfg : Cfg K} {total : Nat} {s : Batch X} {strong : List X} {o : Goal X K}
    (h : Loss cfg total 0 s strong o) (hw : 0 < cfg.warmUp) : o.scale = 0 := by
  obtain ⟨r, ⟨-, h2⟩, h3⟩ := h.scale
  obtain ⟨m, -, rfl⟩ := h2 hw
  rw [h3]
  simp

/-! ### Witnesses -/

/-- A network that remembers its steps and has two parameters. -/
structure DemoW where
  /-- steps -/
  steps : List (Nat × Goal Nat Rat)
  /-- training mode -/
  training : Bool
  /-- parameters -/
  params : List (List Rat)
deriving DecidableEq

/-- The network. -/
def demoNet : Net Nat DemoW Rat where
  train w := { w with training := true }
  forward w xs := (⟨2, 2, xs.map (Fit.demoLogits w.steps.length)⟩, w)
  step w o := { w with steps := w.steps ++ [(w.steps.length, o)], params := w.params.map (List.map (· + 1)) }

/-- Its copies. -/
def demoCopying : Copying DemoW Rat where
  params w := w.params
  load s t := { t with params := s.params }
  average d t s := { t with params := updateTeacher d t.params s.params }

theorem demo_rowwise : Rowwise demoNet (fun w => w.steps.length) Fit.demoLogits 2 := fun _ _ => rfl

theorem demo_logs : Logs demoNet (fun w => w.steps.length) (fun w => w.steps) :=
  ⟨fun _ => rfl, fun _ _ => rfl, fun _ _ => rfl⟩

theorem demo_copies : Copies demoNet demoCopying :=
  ⟨fun _ => rfl, fun w o => by simp [demoCopying, demoNet, List.map_map, Function.comp_def], fun _ _ => rfl, fun _ _ _ => rfl⟩

theorem demo_dist (v x : Nat) : IsDistN 2 (Fit.demoTorch.softmax (Fit.demoLogits v x)) :=
  ⟨by unfold Fit.demoTorch Fit.demoLogits; split_ifs <;> rfl, (Fit.demo_softmax v x).1⟩

/-- A perturbation for the examples; the generator counts its calls. -/
def demoAttack : Attack Nat DemoW Rat Nat := fun w t xs _ => (.ok (xs.map (· + 100 + t)), w, t + 1)

theorem demo_passive : Passive demoAttack := fun w t xs ps =>
  ⟨rfl, fun adv h => by simp only [demoAttack, Except.ok.injEq] at h; rw [← h]; simp⟩

/-- Parameters for the examples. -/
def demoCfg (b e : Int) (u : Rat) : Cfg Rat := ⟨b, e, 3, u, true⟩

/-- A fresh network. -/
def demoW : DemoW := ⟨[], false, [[1, 2], [3]]⟩

theorem demo_acceptable (b e : Int) (u : Rat) (hb : 0 < b) (he : 0 < e) (hu : 0 ≤ u) (y : List Int) (hy : y ≠ []) (x : List Nat)
    (hx : x ≠ []) : Acceptable true (demoCfg b e u) (some ⟨true, true⟩) (Fit.demoData y x) ⟨x, true⟩ ⟨x.map (· + 10), true⟩ :=
  ⟨rfl, by simp [Fit.demoData], ⟨rfl, rfl⟩, by simpa [Fit.demoData] using hy, rfl, rfl, hx, by simp, ⟨rfl, rfl, rfl⟩,
    ⟨_, rfl, rfl, rfl⟩, hb, he, by norm_num [demoCfg], hu⟩

/-- `fit` of the Pi-Model on the example. -/
abbrev demoPi (cfg : Cfg Rat) (d : Input Nat) : (Bool × DemoW) × Except PyErr Unit :=
  piFit TorchGen.demo demoNet Fit.demoTorch.softmax true cfg (some ⟨true, true⟩) (some d) 0 false demoW

/-- `fit` of Mean Teacher on the example. -/
abbrev demoMt (cfg : Cfg Rat) (d : Input Nat) : (Bool × DemoW × Option DemoW) × Except PyErr Unit :=
  mtFit TorchGen.demo demoNet demoCopying Fit.demoTorch.softmax true cfg (1 / 2) (some ⟨true, true⟩) (some d) 0 false false demoW
    (some ⟨[], false, [[9, 9], [9]]⟩)

/-- `fit` of Temporal Ensembling on the example. -/
abbrev demoEns (cfg : Cfg Rat) (d : Input Nat) : (Bool × DemoW) × Except PyErr Unit :=
  ensFit TorchGen.demo demoNet Fit.demoTorch.softmax true cfg (3 / 5) (some ⟨true, true⟩) (some d) 0 false demoW

/-- `fit` of VAT on the example. -/
abbrev demoVat (cfg : Cfg Rat) (d : Input Nat) : (Bool × DemoW) × Except PyErr Unit :=
  vatFit TorchGen.demo (τ := Nat) ⟨fun s => s.toNat, fun n s => (List.range n, s)⟩ demoNet demoAttack
    Fit.demoTorch.softmax true cfg true (some ⟨true, true⟩) none (some d) 0 false demoW

/-- **C165 (single step, violated).**  A user who gives unlabeled data with a positive `lambda_u` expects them to be
used.  If a batch holds everything and there is one epoch, all four train on the labeled rows alone: the only step is the
first one of the warm-up (`unsup_warm_up` is 0.4 by default), and nothing is reported. -/
theorem C165_single_step_violated : ∃ (cfg : Cfg Rat) (d : Input Nat), 0 < cfg.lambdaU ∧
    ((demoPi cfg d).2 = .ok () ∧ ∀ p ∈ (demoPi cfg d).1.2.steps, p.2.scale = 0) ∧
    ((demoMt cfg d).2 = .ok () ∧ ∀ p ∈ (demoMt cfg d).1.2.1.steps, p.2.scale = 0) ∧
    ((demoEns cfg d).2 = .ok () ∧ ∀ p ∈ (demoEns cfg d).1.2.steps, p.2.scale = 0) ∧
    ((demoVat cfg d).2 = .ok () ∧ ∀ p ∈ (demoVat cfg d).1.2.steps, p.2.scale = 0) :=
  ⟨demoCfg 8 1 (2 / 5), Fit.demoData [0, 1] [4, 5, 6], by decide +kernel⟩

/-- **C165 (labels, violated).**  A label the network has no class for is found only when its batch comes up: `fit` fails
after steps that have changed the network of the user. -/
theorem C165_label_violated : ∃ (cfg : Cfg Rat) (d : Input Nat) (xw xs : Feats Nat),
    Acceptable true cfg (some ⟨true, true⟩) d xw xs ∧
    (demoPi cfg d).2 = .error .validation ∧ (demoPi cfg d).1.2.params ≠ demoW.params ∧
    (demoMt cfg d).2 = .error .validation ∧ (demoMt cfg d).1.2.1.params ≠ demoW.params ∧
    (demoEns cfg d).2 = .error .validation ∧ (demoEns cfg d).1.2.params ≠ demoW.params ∧
    (demoVat cfg d).2 = .error .validation ∧ (demoVat cfg d).1.2.params ≠ demoW.params :=
  ⟨demoCfg 1 1 0, Fit.demoData [7, 1] [4, 5], _, _,
    demo_acceptable 1 1 0 (by decide) (by decide) (by decide) _ (by decide) _ (by decide), by decide +kernel⟩

/-- **C165 (first epoch, violated).**  The targets of the first epoch of Temporal Ensembling are no probabilities: all
are zero, and if there is no warm-up the predictions are pulled towards them. -/
theorem C165_zero_target_violated : ∃ (cfg : Cfg Rat) (d : Input Nat), (demoEns cfg d).2 = .ok () ∧
    ∃ p ∈ (demoEns cfg d).1.2.steps, 0 < p.2.scale ∧ ∃ q ∈ p.2.unlabeled, q.target = [0, 0] :=
  ⟨demoCfg 2 1 0, Fit.demoData [0, 1] [4, 5, 6], by decide +kernel⟩

example (y : List Int) (hy : y ≠ []) (hc : ∀ c ∈ y, 0 ≤ c ∧ c < ((2 : Nat) : Int)) (x : List Nat) (hx : x ≠ []) :
    (demoPi (demoCfg 2 3 (2 / 5)) (Fit.demoData y x)).2 = .ok () :=
  (C165_pi_accepts TorchGen.demo TorchGen.demo_lawful demoNet _ _ _ demo_rowwise _ true _ _ _ 0 _ demoW).mpr
    ⟨_, _, _, rfl, demo_acceptable 2 3 _ (by decide) (by decide) (by norm_num) y hy x hx, hc⟩

example (y : List Int) (hy : y ≠ []) (hc : ∀ c ∈ y, 0 ≤ c ∧ c < ((2 : Nat) : Int)) (x : List Nat) (hx : x ≠ []) :
    (demoEns (demoCfg 2 3 (2 / 5)) (Fit.demoData y x)).2 = .ok () :=
  (C165_ensemble_accepts TorchGen.demo TorchGen.demo_lawful demoNet _ _ _ demo_rowwise _ true _ _ _ _ 0 _ demoW).mpr
    ⟨_, _, _, rfl, demo_acceptable 2 3 _ (by decide) (by decide) (by norm_num) y hy x hx, by norm_num, by norm_num, hc⟩

example : (demoPi (demoCfg 2 2 (2 / 5)) (Fit.demoData [0, 1] [4, 5, 6])).2 = .ok () := by decide +kernel
example : (demoMt (demoCfg 2 2 (2 / 5)) (Fit.demoData [0, 1] [4, 5, 6])).2 = .ok () := by decide +kernel
example : (demoEns (demoCfg 2 2 (2 / 5)) (Fit.demoData [0, 1] [4, 5, 6])).2 = .ok () := by decide +kernel
example : (demoVat (demoCfg 2 2 (2 / 5)) (Fit.demoData [0, 1] [4, 5, 6])).2 = .ok () := by decide +kernel

/-- The teacher follows the student. -/
example : ((demoMt (demoCfg 8 2 (2 / 5)) (Fit.demoData [0, 1] [4, 5])).1.2.1.params,
    (demoMt (demoCfg 8 2 (2 / 5)) (Fit.demoData [0, 1] [4, 5])).1.2.2.map (·.params)) =
    ([[3, 4], [5]], some [[9 / 4, 13 / 4], [17 / 4]]) := by decide +kernel

end ModSSC.Deep.Cons
