import Verif.Deep.DasoFitModel
import Verif.Deep.DasoProps
import Verif.Deep.ConsProps
import Verif.Deep.CoFitProps
import Verif.Deep.AdaptFitProps

/-!
# C181 — training with DASO
-/

/-! ### Specification -/

namespace ModSSC.Deep.DasoFit.Spec
open ModSSC ModSSC.Deep ModSSC.Deep.Fit
open ModSSC.Deep.Spec
open ModSSC.Deep.Cons (Copying)

variable {X W V K : Type} [Field K] [LinearOrder K]

/-- What `fit` asks for. -/
structure Acceptable (torch : Bool) (cfg : SCfg K) (bundle : Option Bundle) (d : Input X) (xw xs : Feats X) : Prop where
  torch : torch = true
  rows : d.xl.rows.length = d.yl.length
  labels : d.yDims = 1 ∧ d.yInt64 = true
  nonempty : d.xl.rows ≠ []
  weak : d.xw = some xw
  strong : d.xs = some xs
  unlabeled : xw.rows ≠ []
  views : xw.rows.length = xs.rows.length
  floats : d.xl.float = true ∧ xw.float = true ∧ xs.float = true
  bundle : ∃ b, bundle = some b ∧ b.valid = true ∧ b.placed = true
  batch : 0 < cfg.batchSize
  epochs : 0 < cfg.maxEpochs
  lambdas : 0 ≤ cfg.lambdaU ∧ 0 ≤ cfg.lambdaA
  cutoff : 0 ≤ cfg.cutoff ∧ cfg.cutoff ≤ 1
  temps : 0 < cfg.tProto ∧ 0 < cfg.tDist
  queue : 0 < cfg.queueSize
  pretrain : 0 ≤ cfg.pretrain
  period : 0 < cfg.period
  decay : 0 ≤ cfg.decay ∧ cfg.decay ≤ 1
  alpha : 0 ≤ cfg.alpha ∧ cfg.alpha ≤ 1

/-- What `fit` asks of the bundle's `ema_model` if it is to be used: another network with parameters of the same shapes. -/
def Teachable (P : Copying W K) (ema same : Bool) (w : W) (teacher : Option W) : Prop :=
  ema = true → ∀ t, teacher = some t → same = false ∧ (P.params w).map List.length = (P.params t).map List.length

/-- The epochs are fair, see `Fit.Spec.Epochs`. -/
abbrev Epochs (d : Input X) (xw xs : Feats X) (cfg : SCfg K) (eps : List (List (Batch X))) : Prop :=
  Fit.Spec.Epochs d.xl.rows d.yl (Cons.Spec.numbered xw.rows) xs.rows cfg.batchSize cfg.maxEpochs eps

/-- `log` records the optimizer steps of a network: what the network was (as far as `view` sees it) and the loss. -/
structure Logs (N : SNet X W K) (view : W → V) (log : W → List (V × SObjective X K)) : Prop where
  train : ∀ w, log (N.train w) = log w
  step : ∀ w o, log (N.step w o) = log w ++ [(view w, o)]

/-- A network without batch norm and dropout: each row is treated by itself, `g` giving its logits over `C` classes and `h` its
`D` features, and nothing is changed. -/
structure Rowwise (N : SNet X W K) (view : W → V) (g h : V → X → List K) (C D : Nat) : Prop where
  forward : ∀ w xs, N.forward w xs = (⟨true, ⟨2, C, xs.map (g (view w))⟩, ⟨2, D, xs.map (h (view w))⟩⟩, w)
  features : ∀ w xs, N.features w xs = (some ⟨2, D, xs.map (h (view w))⟩, w)

/-- What torch does when weights are copied and averaged; parameters keep their shapes in a step. -/
structure Copies (N : SNet X W K) (P : Copying W K) : Prop where
  train : ∀ w, P.params (N.train w) = P.params w
  eval : ∀ w, P.params (N.eval w) = P.params w
  step : ∀ w o, (P.params (N.step w o)).map List.length = (P.params w).map List.length
  load : ∀ s t, P.params (P.load s t) = P.params s
  average : ∀ d t s, P.params (P.average d t s) = updateTeacher d (P.params t) (P.params s)

/-- One step: the batch, the network and the loss. -/
abbrev SStepped (X V K : Type) := Batch X × V × SObjective X K

/-- What the networks say in a step: features `h θ` of the labeled rows with their labels, class probabilities and features of the
weak views. -/
def saidIn (softmax : List K → List K) (g h : V → X → List K) (p : SStepped X V K) (θ : V) : DasoInput K :=
  ⟨p.1.xl.map (h θ), p.1.yl.map Int.toNat, p.1.xw.map fun x => softmax (g p.2.1 x.1), p.1.xw.map fun x => h p.2.1 x.1⟩

/-- `θs` are the parameters that give the features of the labeled rows: without averaging those of the network itself; otherwise the
weighted averages of those the network had at the start (`init`) and after each step so far. -/
def Averaged (cfg : SCfg K) (init : List (List K)) (ps : List (SStepped X (List (List K)) K)) (θs : List (List (List K))) :
    Prop :=
  (cfg.ema = false → θs = ps.map fun p => p.2.1) ∧
  (cfg.ema = true → θs.length = ps.length ∧ ∀ (t : Nat) (θ : List (List K)), θs[t]? = some θ → ∀ p i,
    param θ p i = weightedAverage cfg.decay (param init p i) (((ps.take (t + 1)).drop 1).map fun q => param q.2.1 p i))

/-- `rows` are the pseudo-labels of step `t`, and `protos` the prototypes, of a training in which the networks said `is` and the
pseudo-labels were `outs`: a prototype is the mean of the last `queue_size` features of its class; a pseudo-label is the prediction,
mixed with the softmax of the similarities to the prototypes after the first `pretrain_steps` steps, with weight `interp_alpha` or,
if `dist_aware`, one that grows with the share of the predicted class among the pseudo-labels of the last complete period. -/
def IsPseudo (sqrt exp : K → K) (argmax : List K → Nat) (c : DasoCfg K) (is : List (DasoInput K)) (outs : List (List (List K)))
    (t : Nat) (protos : Nat → List K) (rows : List (List K)) : Prop :=
  ∃ i, is[t]? = some i ∧ outs[t]? = some rows ∧ rows.length = i.probs.length ∧
    (∀ k < c.classes, IsPrototype c (is.take (t + 1)) k (protos k)) ∧
    ∃ w : Nat → K, (∀ k < c.classes, 0 < w k ∧ w k ≤ 1 ∧ ∀ k' < c.classes,
        classShare argmax c (outs.take t) k ≤ classShare argmax c (outs.take t) k' → w k ≤ w k') ∧
    ∀ (j : Nat) (p f : List K), i.probs[j]? = some p → i.featsU[j]? = some f → ∃ p', rows[j]? = some p' ∧ IsDistN c.classes p' ∧
      (t < c.pretrain → p' = p) ∧
      (c.pretrain ≤ t → ∃ q, IsProtoLabel sqrt exp c protos f q ∧ ∀ k < c.classes, p'.getD k 0 =
        (1 - if c.aware then w (argmax p) else c.alpha) * p.getD k 0 + (if c.aware then w (argmax p) else c.alpha) * q.getD k 0)

/-- The loss of step `t` with pseudo-labels `rows`: mean cross entropy of the labels; `lambda_u` times the mean, over the samples with
a confident pseudo-label, of the cross entropy of the strong view with it; after the first `pretrain_steps` steps `lambda_align`
times the mean over the samples of the cross entropy between the similarities to the prototypes of the strong view and of the
weak view, whose features are `h`. -/
structure DasoLoss (sqrt exp : K → K) (cfg : SCfg K) (c : DasoCfg K) (t : Nat) (h : X → List K) (s : Batch X)
    (protos : Nat → List K) (rows : List (List K)) (o : SObjective X K) : Prop where
  labeled : o.labeled = (s.xl.zip s.yl).map fun p => (p.1, p.2, 1 / (s.yl.length : K))
  number : o.unlabeled.length = s.xw.length ∧ s.xs.length = s.xw.length ∧ rows.length = s.xw.length
  term : ∀ (j : Nat) (u : Term X K), o.unlabeled[j]? = some u → ∃ x r, s.xw[j]? = some x ∧ s.xs[j]? = some u.strong ∧
    rows[j]? = some r ∧ u.weak = x.1 ∧
    (u.weight = if Confident cfg.cutoff r then 1 / ((rows.filter fun r => Confident cfg.cutoff r).length : K) else 0) ∧
    (cfg.hard = true → ∃ c, u.target = .hard c ∧ MostProbable r c) ∧ (cfg.hard = false → u.target = .soft r)
  noAlign : (t : Int) < cfg.pretrain ∨ cfg.lambdaA = 0 → o.align = none
  align : cfg.pretrain ≤ (t : Int) → cfg.lambdaA ≠ 0 → ∃ a, o.align = some a ∧ a.protos.length = c.classes ∧
    (∀ k < c.classes, a.protos[k]? = some (protos k)) ∧ a.rows.length = s.xs.length ∧
    ∀ (j : Nat) (u : X × List K × K), a.rows[j]? = some u → ∃ x, s.xw[j]? = some x ∧ s.xs[j]? = some u.1 ∧
      IsProtoLabel sqrt exp c protos (h x.1) u.2.1 ∧ u.2.2 = 1 / (s.xs.length : K)
  scales : o.scale = cfg.lambdaU ∧ o.alignScale = cfg.lambdaA
  through : o.through = true ↔ cfg.detach = false

end ModSSC.Deep.DasoFit.Spec

namespace ModSSC.Deep.DasoFit
open ModSSC ModSSC.Deep ModSSC.Deep.Fit Spec
open ModSSC.Deep.Spec
open ModSSC.Deep.Cons (Copying runSteps runSteps_ok runSteps_total checkTeacher_ok foldl_teacher numbered_length)
set_option linter.unusedSectionVars false

variable {X W V K σ : Type} [Field K] [LinearOrder K] [IsStrictOrderedRing K]

/-! ### Checks -/

theorem check_ok {torch : Bool} {cfg : SCfg K} {bundle : Option Bundle} {data : Option (Input X)} {r : Ready X}
    : check torch cfg bundle data = .ok r ↔ ∃ d xw xs, data = some d ∧
      Acceptable torch cfg bundle d xw xs ∧ r = ⟨d.xl.rows, d.yl, Cons.Spec.numbered xw.rows, xs.rows⟩ := by
  unfold check
  rw [Fit.check_ok]
  constructor
  · rintro ⟨d, xw, xs, idx, rfl, hA, hi, rfl⟩
    obtain rfl := Except.ok.inj hi
    have hr : ranges cfg = true := hA.ranges
    simp only [ranges, Bool.and_eq_true, decide_eq_true_eq] at hr
    obtain ⟨⟨⟨⟨⟨⟨⟨⟨r1, r2⟩, r3⟩, r4⟩, r5⟩, r6⟩, r7⟩, r8⟩, r9⟩ := hr
    exact ⟨d, xw, xs, rfl, ⟨hA.torch, hA.rows, hA.labels, hA.nonempty, hA.weak, hA.strong, hA.unlabeled, hA.views, hA.floats,
      hA.bundle, hA.batch, hA.epochs, ⟨hA.lambda, r1⟩, r2, ⟨r3, r4⟩, r5, r6, r7, r8, r9⟩, rfl⟩
  · rintro ⟨d, xw, xs, rfl, hA, rfl⟩
    refine ⟨d, xw, xs, _, rfl, ⟨hA.torch, hA.rows, hA.labels, hA.nonempty, hA.weak, hA.strong, hA.unlabeled, hA.views,
      hA.floats, hA.bundle, hA.batch, hA.epochs, hA.lambdas.1, ?_, by simp⟩, rfl, rfl⟩
    simp only [ranges, Bool.and_eq_true, decide_eq_true_eq]
    exact ⟨⟨⟨⟨⟨⟨⟨⟨hA.lambdas.2, hA.cutoff⟩, hA.temps.1⟩, hA.temps.2⟩, hA.queue⟩, hA.pretrain⟩, hA.period⟩, hA.decay⟩, hA.alpha⟩

theorem startEma_ok {N : SNet X W K} {P : Copying W K} {ema same : Bool} {w : W} {teacher : Option W} :
    (∃ t, startEma N P ema same w teacher = .ok t) ↔ Teachable P ema same w teacher := by
  unfold startEma Teachable
  cases ema with
  | false => simp
  | true =>
    cases teacher with
    | none => simp
    | some t =>
      have hk : (∃ u, checkTeacher same (P.params w) (P.params t) = .ok u) ↔ same = false ∧
          (P.params w).map List.length = (P.params t).map List.length := by
        rw [← checkTeacher_ok]
        exact ⟨fun ⟨_, h⟩ => h, fun h => ⟨_, h⟩⟩
      simp only [Bool.true_eq_false, if_false, Option.some.injEq, forall_eq', true_implies]
      rw [← hk]
      cases checkTeacher same (P.params w) (P.params t) <;> simp

/-- The averaged network starts with the parameters of the network; there is one iff averaging is on. -/
theorem startEma_params {N : SNet X W K} {P : Copying W K} (hP : Copies N P) {ema same : Bool} {w : W}
    {teacher t : Option W} (h : startEma N P ema same w teacher = .ok t) :
    (ema = false → t = none) ∧ (ema = true → ∃ t', t = some t' ∧ P.params t' = P.params w) := by
  unfold startEma at h
  cases ema with
  | false => simp at h; simp [h]
  | true =>
    cases teacher with
    | none =>
      simp at h
      subst h
      simp [hP.eval, hP.load]
    | some u =>
      simp only [Bool.true_eq_false, if_false] at h
      cases hc : checkTeacher same (P.params w) (P.params u) with
      | error e => rw [hc] at h; cases h
      | ok _ =>
        rw [hc] at h
        obtain rfl := Except.ok.inj h
        simp [hP.eval, hP.load]

/-- **C181 (refused untouched).**  A `fit` whose data, bundle, parameters or averaged network are not acceptable raises, and leaves
network and object as they were. -/
theorem C181_refused (G : TorchGen σ) (N : SNet X W K) (P : Copying W K) (T : Torch K) (sqrt : K → K)
    (torch : Bool) (cfg : SCfg K) (bundle : Option Bundle) (data : Option (Input X)) (seed : Int) (o : SObj W) (same : Bool) (w : W)
    (teacher : Option W)
    (h : ∀ d xw xs, data = some d → Acceptable torch cfg bundle d xw xs → ¬ Teachable P cfg.ema same w teacher) :
    ∃ e, fit G N P T sqrt torch cfg bundle data seed o same w teacher = ((o, w), .error e) := by
  unfold fit
  cases hc : check torch cfg bundle data with
  | error e => exact ⟨e, rfl⟩
  | ok r =>
    obtain ⟨d, xw, xs, hd, hA, -⟩ := check_ok.mp hc
    have := h d xw xs hd hA
    rw [← startEma_ok (N := N)] at this
    cases ht : startEma N P cfg.ema same w teacher with
    | error e => exact ⟨e, rfl⟩
    | ok t => exact absurd ⟨t, ht⟩ this

theorem batches_ok {G : TorchGen σ} (hG : G.Lawful) {torch : Bool} {cfg : SCfg K} {bundle : Option Bundle} {d : Input X}
    {xw xs : Feats X} (hA : Acceptable torch cfg bundle d xw xs) (seed : Int) :
    ∃ eps, fitBatches G d.xl.rows d.yl (Cons.Spec.numbered xw.rows) xs.rows cfg.batchSize cfg.maxEpochs seed = .ok eps ∧
      DasoFit.Spec.Epochs d xw xs cfg eps := by
  have n2 := List.length_pos_iff.mpr hA.unlabeled
  obtain ⟨eps, h⟩ := (C106_accepts G hG d.xl.rows d.yl (Cons.Spec.numbered xw.rows) xs.rows cfg.batchSize cfg.maxEpochs
    seed).mpr ⟨hA.rows, hA.nonempty, by rw [numbered_length, hA.views], by
      rw [← List.length_pos_iff, numbered_length]; exact n2, hA.batch, hA.epochs⟩
  obtain ⟨h1, h2⟩ := C106_epochs G hG _ _ _ _ _ _ _ _ h
  exact ⟨eps, h, h1, h2⟩

/-! ### One step of a row-wise network -/

theorem slice_out (C : Nat) (f : X → List K) (a b c : List X) (n m : Nat) (hn : a.length = n) (hm : b.length = m) :
    (Out.mk 2 C ((a ++ b ++ c).map f)).slice n m = ⟨2, C, b.map f⟩ := by
  subst hn hm
  unfold Out.slice
  simp

/-- Its outputs. -/
def outs (C D : Nat) (f h : X → List K) (s : Batch X) : SOuts K :=
  ⟨⟨2, C, s.xl.map f⟩, ⟨2, C, (s.xw.map (·.1)).map f⟩, ⟨2, D, (s.xw.map (·.1)).map h⟩, ⟨2, C, s.xs.map f⟩, ⟨2, D, s.xs.map h⟩⟩

theorem flatten_two (n D : Nat) (rows : List (List K)) (h : rows.length = n) : flatten n ⟨2, D, rows⟩ = .ok ⟨2, D, rows⟩ := by
  unfold flatten
  rw [if_neg (by simp), if_neg (by simpa using h)]

theorem look_rowwise {N : SNet X W K} {view : W → V} {g h : V → X → List K} {C D : Nat} (hN : Rowwise N view g h C D)
    (cat : Bool) (w : W) (s : Batch X) : look N cat w s = (.ok (outs C D (g (view w)) (h (view w)) s), w) := by
  unfold look
  cases cat with
  | false =>
    rw [if_neg (by simp)]
    simp only [hN.forward]
    rw [if_neg (by simp), if_neg (by simp), if_neg (by simp), flatten_two _ _ _ (by simp), flatten_two _ _ _ (by simp)]
    rfl
  | true =>
    rw [if_pos rfl]
    simp only [hN.forward]
    rw [if_neg (by simp), if_neg (by simp), if_neg (by simp; omega), flatten_two _ _ _ (by simp; omega)]
    have e1 := slice_out C (g (view w)) [] s.xl (s.xw.map (·.1) ++ s.xs) 0 s.xl.length rfl rfl
    have e2 := fun C f => slice_out (K := K) C f s.xl (s.xw.map (·.1)) s.xs s.xl.length s.xw.length rfl (by simp)
    have e3 := fun C f => slice_out (K := K) C f (s.xl ++ s.xw.map (·.1)) s.xs [] (s.xl.length + s.xw.length) s.xs.length
      (by simp) rfl
    simp only [List.nil_append, List.append_nil, List.append_assoc] at e1 e2 e3 ⊢
    rw [e1, e2, e2, e3, e3]
    rfl

theorem agree_outs {C D : Nat} {f h : X → List K} {s : Batch X} (h1 : s.xl.length = s.yl.length)
    (h2 : s.xw.length = s.xs.length) :
    agree s (outs C D f h s) = if s.yl.any (fun c => decide (c < 0 ∨ (C : Int) ≤ c)) then .error .validation else .ok () := by
  unfold agree outs
  rw [if_neg (by simp), if_neg (by simp [h2]), if_neg (by simp), if_neg (by simp [h2])]
  simp only
  rw [if_neg (c := _ ∨ _) (by simp [h1])]

theorem labeledFeats_rowwise {N : SNet X W K} {view : W → V} {g h : V → X → List K} {C D : Nat} (hN : Rowwise N view g h C D)
    (st : W × Option W) (s : Batch X) :
    labeledFeats N st D s = (.ok (s.xl.map (h (view (st.2.getD st.1)))), st) := by
  obtain ⟨w, t⟩ := st
  unfold labeledFeats
  simp only [hN.features]
  rw [flatten_two _ _ _ (by simp)]
  cases t <;> simp

/-- What the networks say in a step, before the loss is known. -/
def heard (T : Torch K) (g h : V → X → List K) (s : Batch X) (v θ : V) : DasoInput K :=
  ⟨s.xl.map (h θ), s.yl.map Int.toNat, s.xw.map fun x => T.softmax (g v x.1), s.xw.map fun x => h v x.1⟩

/-- A memory that fits the network. -/
def Fits (C D : Nat) (m : Mem K) : Prop := ∀ q, m = some q → q.1 = C ∧ q.2.1 = D

/-- The state of a memory. -/
def stateOf (c : DasoCfg K) (m : Mem K) : DasoState K := (m.map (·.2.2)).getD (dasoInit c)

/-- The loss of a step with state `d` before it and `d'` after it. -/
def lossAt (T : Torch K) (sqrt : K → K) (cfg : SCfg K) (D : Nat) (h : X → List K) (d d' : DasoState K) (rows : List (List K))
    (s : Batch X) : SObjective X K :=
  objective T cfg d.step s rows (d'.queues.map (prototype D))
    (s.xw.map fun x => protoLabel sqrt T.exp cfg.tProto (d'.queues.map (prototype D)) (h x.1))

theorem trainStep_rowwise {N : SNet X W K} {view : W → V} {g h : V → X → List K} {C D : Nat} (hN : Rowwise N view g h C D)
    (P : Copying W K) (T : Torch K) (sqrt : K → K) (cfg : SCfg K) (st : Mem K × (W × Option W)) (hm : Fits C D st.1)
    (s : Batch X) (h1 : s.xl.length = s.yl.length) (h2 : s.xw.length = s.xs.length) :
    trainStep N P T sqrt cfg st s =
      if s.yl.any (fun c => decide (c < 0 ∨ (C : Int) ≤ c)) then (st, .error .validation)
      else
        let d := stateOf (stepCfg cfg C D) st.1
        let r := dasoStep sqrt T.exp T.pow T.argmax (stepCfg cfg C D) d
          (heard T g h s (view st.2.1) (view (st.2.2.getD st.2.1)))
        let w' := N.step st.2.1 (lossAt T sqrt cfg D (h (view st.2.1)) d r.2 r.1 s)
        ((some (C, D, r.2), w', st.2.2.map fun t => P.average cfg.decay t w'), .ok ()) := by
  obtain ⟨m, w, t⟩ := st
  unfold trainStep
  rw [look_rowwise hN]
  simp only
  rw [agree_outs h1 h2]
  by_cases c : s.yl.any (fun c => decide (c < 0 ∨ (C : Int) ≤ c)) = true
  · rw [if_pos c, if_pos c]
  · rw [if_neg c, if_neg c]
    simp only
    rw [show (outs C D (g (view w)) (h (view w)) s).fw.classes = D from rfl,
      show (outs C D (g (view w)) (h (view w)) s).l.classes = C from rfl, labeledFeats_rowwise hN]
    simp only
    have hmis : Option.any (fun q => decide (q.1 ≠ C ∨ q.2.1 ≠ D)) m = false := by
      cases m with
      | none => rfl
      | some q =>
        obtain ⟨a, b⟩ := hm q rfl
        simp [a, b]
    have hin : (⟨s.xl.map (h (view (t.getD w))), s.yl.map Int.toNat,
        (outs C D (g (view w)) (h (view w)) s).w.rows.map T.softmax, (outs C D (g (view w)) (h (view w)) s).fw.rows⟩ : DasoInput K) =
        heard T g h s (view w) (view (t.getD w)) := by
      unfold outs heard
      simp [List.map_map, Function.comp_def]
    rw [hmis, if_neg (by simp), hin]
    unfold lossAt
    simp only [outs, List.map_map, Function.comp_def]
    rfl

theorem trainStep_ok {N : SNet X W K} {view : W → V} {g h : V → X → List K} {C D : Nat} (hN : Rowwise N view g h C D)
    {P : Copying W K} {T : Torch K} {sqrt : K → K} {cfg : SCfg K} {st st' : Mem K × (W × Option W)} (hm : Fits C D st.1)
    {s : Batch X} (h1 : s.xl.length = s.yl.length) (h2 : s.xw.length = s.xs.length)
    (hf : trainStep N P T sqrt cfg st s = (st', .ok ())) :
    (∀ y ∈ s.yl, 0 ≤ y ∧ y < (C : Int)) ∧ Fits C D st'.1 ∧
    ∃ r, r = dasoStep sqrt T.exp T.pow T.argmax (stepCfg cfg C D) (stateOf (stepCfg cfg C D) st.1)
      (heard T g h s (view st.2.1) (view (st.2.2.getD st.2.1))) ∧
      stateOf (stepCfg cfg C D) st'.1 = r.2 ∧
      st'.2.1 = N.step st.2.1 (lossAt T sqrt cfg D (h (view st.2.1)) (stateOf (stepCfg cfg C D) st.1) r.2 r.1 s) ∧
      st'.2.2 = st.2.2.map fun t => P.average cfg.decay t st'.2.1 := by
  rw [trainStep_rowwise hN P T sqrt cfg st hm s h1 h2] at hf
  by_cases c : s.yl.any (fun c => decide (c < 0 ∨ (C : Int) ≤ c)) = true
  · rw [if_pos c] at hf; cases hf
  · rw [if_neg c] at hf
    simp only [Prod.mk.injEq, and_true] at hf
    subst hf
    refine ⟨fun y hy => ?_, ?_, _, rfl, rfl, rfl, rfl⟩
    · simp only [List.any_eq_true, decide_eq_true_eq, not_exists, not_and, not_or, not_lt, not_le] at c
      exact c y hy
    · rintro q hq
      obtain rfl := Option.some.inj hq
      exact ⟨rfl, rfl⟩

theorem trainStep_total {N : SNet X W K} {view : W → V} {g h : V → X → List K} {C D : Nat} (hN : Rowwise N view g h C D)
    {P : Copying W K} {T : Torch K} {sqrt : K → K} {cfg : SCfg K} {st : Mem K × (W × Option W)} (hm : Fits C D st.1)
    {s : Batch X} (h1 : s.xl.length = s.yl.length) (h2 : s.xw.length = s.xs.length) (hy : ∀ y ∈ s.yl, 0 ≤ y ∧ y < (C : Int)) :
    ∃ st', trainStep N P T sqrt cfg st s = (st', .ok ()) ∧ Fits C D st'.1 := by
  rw [trainStep_rowwise hN P T sqrt cfg st hm s h1 h2, if_neg (by
    simp only [List.any_eq_true, decide_eq_true_eq, not_exists, not_and, not_or, not_lt, not_le]
    exact hy)]
  refine ⟨_, rfl, ?_⟩
  rintro q hq
  obtain rfl := Option.some.inj hq
  exact ⟨rfl, rfl⟩

theorem fit_eq (G : TorchGen σ) (hG : G.Lawful) (N : SNet X W K) (P : Copying W K) (T : Torch K) (sqrt : K → K) (torch : Bool)
    (cfg : SCfg K) (bundle : Option Bundle) (d : Input X) (xw xs : Feats X) (hA : Acceptable torch cfg bundle d xw xs)
    (seed : Int) :
    ∃ eps, DasoFit.Spec.Epochs d xw xs cfg eps ∧ ∀ o same w teacher t, startEma N P cfg.ema same w teacher = .ok t →
      fit G N P T sqrt torch cfg bundle (some d) seed o same w teacher =
        match runSteps (trainStep N P T sqrt cfg) (none, N.train w, t) eps.flatten with
        | (st, .error e) => ((⟨st.2.2, o.fitted⟩, st.2.1), .error e)
        | (st, .ok _) => ((⟨st.2.2, true⟩, st.2.1), .ok ()) := by
  obtain ⟨eps, h1, h2⟩ := batches_ok hG hA seed
  refine ⟨eps, h2, fun o same w teacher t ht => ?_⟩
  unfold fit
  rw [check_ok.mpr ⟨d, xw, xs, rfl, hA, rfl⟩]
  simp only
  rw [ht]
  simp only
  rw [h1]
  rfl

theorem fit_ok {G : TorchGen σ} (hG : G.Lawful) {N : SNet X W K} {P : Copying W K} {T : Torch K} {sqrt : K → K} {torch : Bool}
    {cfg : SCfg K} {bundle : Option Bundle} {data : Option (Input X)} {seed : Int} {o o' : SObj W} {same : Bool} {w w' : W}
    {teacher : Option W} (h : fit G N P T sqrt torch cfg bundle data seed o same w teacher = ((o', w'), .ok ())) :
    ∃ d xw xs t eps st, data = some d ∧ Acceptable torch cfg bundle d xw xs ∧ startEma N P cfg.ema same w teacher = .ok t ∧
      DasoFit.Spec.Epochs d xw xs cfg eps ∧
      runSteps (trainStep N P T sqrt cfg) (none, N.train w, t) eps.flatten = (st, .ok ()) ∧ o' = ⟨st.2.2, true⟩ ∧ w' = st.2.1 := by
  cases hc : check torch cfg bundle data with
  | error e => unfold fit at h; rw [hc] at h; cases h
  | ok r =>
  obtain ⟨d, xw, xs, rfl, hA, -⟩ := check_ok.mp hc
  cases ht : startEma N P cfg.ema same w teacher with
  | error e => unfold fit at h; rw [hc] at h; simp only at h; rw [ht] at h; cases h
  | ok t =>
  obtain ⟨eps, hE, hq⟩ := fit_eq G hG N P T sqrt torch cfg bundle d xw xs hA seed
  rw [hq _ _ _ _ _ ht] at h
  cases hr : runSteps (trainStep N P T sqrt cfg) (none, N.train w, t) eps.flatten with
  | mk st res =>
  rw [hr] at h
  cases res with
  | error e => cases h
  | ok u =>
  simp only [Prod.mk.injEq, and_true] at h
  exact ⟨d, xw, xs, t, eps, st, rfl, hA, rfl, hE, hr, h.1.symm, h.2.symm⟩

/-- **C181 (which fits succeed).**  With a row-wise network over `C` classes, `fit` succeeds exactly if data, bundle, parameters and
the averaged network are acceptable and every label is a class of the network. -/
theorem C181_accepts (G : TorchGen σ) (hG : G.Lawful) (N : SNet X W K) (view : W → V) (g h : V → X → List K) (C D : Nat)
    (hN : Rowwise N view g h C D) (P : Copying W K) (T : Torch K) (sqrt : K → K) (torch : Bool) (cfg : SCfg K)
    (bundle : Option Bundle) (data : Option (Input X)) (seed : Int) (o : SObj W) (same : Bool) (w : W) (teacher : Option W) :
    (fit G N P T sqrt torch cfg bundle data seed o same w teacher).2 = .ok () ↔
      ∃ d xw xs, data = some d ∧ Acceptable torch cfg bundle d xw xs ∧ Teachable P cfg.ema same w teacher ∧
        ∀ y ∈ d.yl, 0 ≤ y ∧ y < (C : Int) := by
  constructor
  · intro hf
    obtain ⟨d, xw, xs, t, eps, st, rfl, hA, ht, hE, hrun, -, -⟩ := fit_ok hG (Prod.ext (x := fit G N P T sqrt torch cfg bundle
      data seed o same w teacher) (y := ((_, _), _)) rfl hf)
    obtain ⟨S, s0, -, hst⟩ := runSteps_ok hrun
    have hs := Fit.Epochs.sizes hE
    have hfit : ∀ k ≤ eps.flatten.length, Fits C D (S k).1 := by
      intro k
      induction k with
      | zero => intro _; rw [s0]; rintro q hq; cases hq
      | succ k ih =>
        intro hk
        exact (trainStep_ok hN (ih (by omega)) (hs _ (List.getElem_mem (by omega))).1
          (hs _ (List.getElem_mem (by omega))).2 (hst k (by omega))).2.1
    refine ⟨d, xw, xs, rfl, hA, startEma_ok.mp ⟨t, ht⟩, fun y hy => ?_⟩
    obtain ⟨s, hms, hys⟩ := Fit.Epochs.visits hE hA.epochs hA.rows y hy
    obtain ⟨k, hk, rfl⟩ := List.getElem_of_mem hms
    exact (trainStep_ok hN (hfit k hk.le) (hs _ (List.getElem_mem hk)).1 (hs _ (List.getElem_mem hk)).2 (hst k hk)).1 y hys
  · rintro ⟨d, xw, xs, rfl, hA, hT, hy⟩
    obtain ⟨t, ht⟩ := (startEma_ok (N := N)).mpr hT
    obtain ⟨eps, hE, hq⟩ := fit_eq G hG N P T sqrt torch cfg bundle d xw xs hA seed
    obtain ⟨st', hst, -⟩ := runSteps_total (I := fun st : Mem K × (W × Option W) => Fits C D st.1)
      (f := trainStep N P T sqrt cfg) (ss := eps.flatten) (st := (none, N.train w, t)) (by rintro q hq; cases hq)
      (fun st s hI hs => trainStep_total hN hI (Fit.Epochs.sizes hE s hs).1 (Fit.Epochs.sizes hE s hs).2
        (fun y hys => hy y (Fit.Epochs.sub hE s hs y hys)))
    rw [hq _ _ _ _ _ ht, hst]

/-! ### The loss -/

theorem dasoRun_chain (sqrt exp : K → K) (pow : K → K → K) (argmax : List K → Nat) (c : DasoCfg K) :
    ∀ (is : List (DasoInput K)) (S : Nat → DasoState K),
    (∀ t (h : t < is.length), S (t + 1) = (dasoStep sqrt exp pow argmax c (S t) is[t]).2) →
    dasoRun sqrt exp pow argmax c (S 0) is =
      (is.mapIdx fun t i => (dasoStep sqrt exp pow argmax c (S t) i).1, S is.length)
  | [], S, _ => rfl
  | i :: is, S, h => by
    have h0 := h 0 (by simp)
    simp only [List.getElem_cons_zero, Nat.zero_add] at h0
    have ih := dasoRun_chain sqrt exp pow argmax c is (fun t => S (t + 1)) (fun t ht => by
      have := h (t + 1) (by simp; omega)
      simpa using this)
    simp only [dasoRun]
    simp only [Nat.zero_add] at ih
    rw [← h0, ih]
    simp [List.mapIdx_cons]

theorem loss_of {T : Torch K} (he : Transductive.Spec.ExpLaw T.exp) (ha : ArgmaxLaw T.argmax) (sqrt : K → K) (cfg : SCfg K)
    (c : DasoCfg K) (hc : 0 < c.classes) (ht : c.tProto = cfg.tProto) (t : Nat) (h : X → List K) (s : Batch X)
    (is : List (DasoInput K)) (rows : List (List K)) (h1 : s.xl.length = s.yl.length) (h2 : s.xw.length = s.xs.length)
    (h3 : rows.length = s.xw.length) (hr : ∀ r ∈ rows, r ≠ []) :
    DasoLoss sqrt T.exp cfg c t h s (fun k => (protosOf c is).getD k []) rows
      (objective T cfg t s rows (protosOf c is) (s.xw.map fun x => protoLabel sqrt T.exp cfg.tProto (protosOf c is) (h x.1))) := by
  have hlen : (protosOf c is).length = c.classes := by simp [protosOf]
  refine ⟨?_, ⟨?_, h2.symm, h3⟩, ?_, ?_, ?_, ⟨rfl, rfl⟩, by simp [objective]⟩
  · unfold objective evenly
    simp only
    apply List.ext_getElem
    · simp
    · intro j a b; simp
  · simp [objective, targetsOf, normed, maskOf]; omega
  · intro j t hj
    unfold objective at hj
    simp only [CoFit.normed_rows cfg.cutoff rows hr] at hj
    unfold targetsOf at hj
    have hjl : j < s.xw.length := by
      have := (List.getElem?_eq_some_iff.mp hj).1
      simp only [List.length_zipWith, List.length_zip, List.length_map] at this
      omega
    rw [List.getElem?_eq_getElem (by simp; omega), List.getElem_zipWith, Option.some.injEq] at hj
    simp only [List.getElem_zip, List.getElem_map] at hj
    subst hj
    refine ⟨s.xw[j], rows[j]'(by omega), List.getElem?_eq_getElem _, List.getElem?_eq_getElem _,
      List.getElem?_eq_getElem _, rfl, rfl, fun hh => ?_, fun hh => ?_⟩
    · exact ⟨_, by simp only [hh, if_true], ha _ (hr _ (List.getElem_mem _))⟩
    · simp [hh]
  · intro hk
    simp only [objective]
    rw [if_pos hk]
  · intro hk hl
    simp only [objective]
    rw [if_neg (by rw [not_or]; exact ⟨by omega, hl⟩)]
    refine ⟨_, rfl, hlen, fun k hk => ?_, ?_, ?_⟩
    · show (protosOf c is)[k]? = _
      rw [List.getElem?_eq_getElem (by omega), List.getD_eq_getElem _ _ (by omega)]
    · simp [evenly]; omega
    · intro j u hj
      have hjl : j < s.xs.length := by
        have := (List.getElem?_eq_some_iff.mp hj).1
        simp only [List.length_zipWith, List.length_zip, List.length_map] at this
        omega
      simp only at hj
      rw [List.getElem?_eq_getElem (by simp [evenly]; omega), List.getElem_zipWith, Option.some.injEq] at hj
      simp only [List.getElem_zip, List.getElem_map, evenly, List.getElem_replicate] at hj
      subst hj
      refine ⟨s.xw[j]'(by omega), List.getElem?_eq_getElem _, List.getElem?_eq_getElem _, ?_, rfl⟩
      have := (protoLabel_is sqrt T.exp he c hc is (h (s.xw[j]'(by omega)).1)).2
      rw [ht] at this
      exact this

/-- **C181 (training).**  A successful `fit` made one optimizer step per batch of its fair epochs, in which both views of a sample
stay together and labels go with their rows.  Each step had the DASO loss over its batch, with prototypes and pseudo-labels that
follow from everything the networks said before in this training; the features of labeled rows are those of the averaged network,
whose parameters are the weighted averages of those the network had, whatever the bundle's `ema_model` held before. -/
theorem C181_training (T : Torch K) (he : Transductive.Spec.ExpLaw T.exp) (hp : PowerLaw T.pow) (ha : ArgmaxLaw T.argmax)
    (sqrt : K → K) (G : TorchGen σ) (hG : G.Lawful) (N : SNet X W K) (P : Copying W K) (hP : Copies N P)
    (g h : List (List K) → X → List K) (C D : Nat) (hC : 0 < C) (hN : Rowwise N P.params g h C D) (cfg : SCfg K)
    (hs : ∀ v x, IsDistN C (T.softmax (g v x))) (hh : ∀ v x, (h v x).length = D)
    (log : W → List (List (List K) × SObjective X K)) (hL : Logs N P.params log) (torch : Bool) (bundle : Option Bundle)
    (data : Option (Input X)) (seed : Int) (o o' : SObj W) (same : Bool) (w w' : W) (teacher : Option W)
    (hf : fit G N P T sqrt torch cfg bundle data seed o same w teacher = ((o', w'), .ok ())) :
    ∃ d xw xs eps, ∃ ps : List (SStepped X (List (List K)) K), data = some d ∧ Acceptable torch cfg bundle d xw xs ∧
      DasoFit.Spec.Epochs d xw xs cfg eps ∧ o'.fitted = true ∧ eps.flatten = ps.map (·.1) ∧ log w' = log w ++ ps.map (·.2) ∧
      ∃ θs, Averaged cfg (P.params w) ps θs ∧ ∃ outs : List (List (List K)), outs.length = ps.length ∧
        ∀ (t : Nat) (p : SStepped X (List (List K)) K), ps[t]? = some p → ∃ protos rows,
          IsPseudo sqrt T.exp T.argmax (stepCfg cfg C D) (List.zipWith (saidIn T.softmax g h) ps θs) outs t protos rows ∧
          DasoLoss sqrt T.exp cfg (stepCfg cfg C D) t (h p.2.1) p.1 protos rows p.2.2 := by
  obtain ⟨d, xw, xs, t0, eps, st, rfl, hA, ht, hE, hrun, rfl, rfl⟩ := fit_ok hG hf
  obtain ⟨S, s0, sn, hst⟩ := runSteps_ok hrun
  have hz := Fit.Epochs.sizes hE
  set n := eps.flatten.length with hn
  set c := stepCfg cfg C D with hc
  have hfit : ∀ k ≤ n, Fits C D (S k).1 := by
    intro k
    induction k with
    | zero => intro _; rw [s0]; rintro q hq; cases hq
    | succ k ih =>
      intro hk
      exact (trainStep_ok hN (ih (by omega)) (hz _ (List.getElem_mem (by omega))).1
        (hz _ (List.getElem_mem (by omega))).2 (hst k (by omega))).2.1
  -- states, parameters and inputs of the steps
  let Q : Nat → DasoState K := fun k => stateOf c (S k).1
  let v : Nat → List (List K) := fun k => P.params (S k).2.1
  let θ : Nat → List (List K) := fun k => P.params ((S k).2.2.getD (S k).2.1)
  let is : List (DasoInput K) := eps.flatten.mapIdx fun k s => heard T g h s (v k) (θ k)
  have il : is.length = n := by simp [is, hn]
  have ig : ∀ k (hk : k < n), is[k]'(by omega) = heard T g h eps.flatten[k] (v k) (θ k) := by
    intro k hk; simp [is]
  let r : Nat → List (List K) × DasoState K := fun k =>
    if hk : k < n then dasoStep sqrt T.exp T.pow T.argmax c (Q k) (is[k]'(by omega)) else ([], Q k)
  let L : Nat → SObjective X K := fun k =>
    if hk : k < n then lossAt T sqrt cfg D (h (v k)) (Q k) (Q (k + 1)) (r k).1 eps.flatten[k] else ⟨[], [], 0, none, 0, false⟩
  have hstep : ∀ k (hk : k < n), (∀ y ∈ eps.flatten[k].yl, 0 ≤ y ∧ y < (C : Int)) ∧ Q (k + 1) = (r k).2 ∧
      (S (k + 1)).2.1 = N.step (S k).2.1 (L k) ∧ (S (k + 1)).2.2 = (S k).2.2.map fun t => P.average cfg.decay t (S (k + 1)).2.1 := by
    intro k hk
    obtain ⟨a1, -, q, a3, a4, a5, a6⟩ := trainStep_ok hN (hfit k hk.le) (hz _ (List.getElem_mem hk)).1
      (hz _ (List.getElem_mem hk)).2 (hst k hk)
    have hq : r k = q := by
      simp only [r]
      rw [dif_pos hk, a3, ig k hk]
    refine ⟨a1, by rw [hq]; exact a4, ?_, a6⟩
    rw [a5]
    simp only [L]
    rw [dif_pos hk, hq, show Q (k + 1) = q.2 from a4]
  have hQ0 : Q 0 = dasoInit c := by simp only [Q]; rw [s0]; rfl
  have hchain : ∀ k (hk : k < is.length), Q (k + 1) = (dasoStep sqrt T.exp T.pow T.argmax c (Q k) is[k]).2 := by
    intro k hk
    have hk' : k < n := by omega
    rw [(hstep k hk').2.1]
    simp only [r]
    rw [dif_pos hk']
  have hout : ∀ i ∈ is, DasoOutputs c.classes c.width i := by
    intro i hi
    obtain ⟨k, hk, rfl⟩ := List.getElem_of_mem hi
    have hk' : k < n := by omega
    rw [ig k hk']
    obtain ⟨z1, z2⟩ := hz _ (List.getElem_mem hk')
    have hne : eps.flatten[k].xw ≠ [] := (Fit.Epochs.fine hE _ (List.getElem_mem hk')).2.1
    refine ⟨⟨by simpa [heard] using hne, ?_⟩, ⟨by simp [heard], ?_⟩, ⟨by simp [heard, z1], ?_⟩, ?_⟩
    · intro q hq; obtain ⟨x, -, rfl⟩ := List.mem_map.mp hq; exact hs _ x.1
    · intro q hq; obtain ⟨x, -, rfl⟩ := List.mem_map.mp hq; exact hh _ x.1
    · intro q hq; obtain ⟨x, -, rfl⟩ := List.mem_map.mp hq; exact hh _ x
    · intro q hq
      obtain ⟨y, hy, rfl⟩ := List.mem_map.mp hq
      have := (hstep k hk').1 y hy
      change y.toNat < C
      omega
  have hper : 0 < c.period := by
    have := hA.period
    show 0 < cfg.period.toNat
    omega
  -- the states after a number of steps
  have hinv : ∀ k ≤ n, ∃ past, past.length = k ∧ DasoInv T.argmax c (is.take k) past (Q k) := by
    intro k hk
    have hrun := dasoRun_chain sqrt T.exp T.pow T.argmax c (is.take k) Q (fun t ht => by
      rw [List.getElem_take]
      exact hchain t (by rw [List.length_take] at ht; omega))
    obtain ⟨i1, i2, -⟩ := dasoRun_inv sqrt T.exp he T.pow hp T.argmax ha c hC hper hA.temps.2 hA.alpha.1 hA.alpha.2 (is.take k) []
      [] (dasoInit c) (dasoInit_inv T.argmax c hper) (by simp) (fun i hi => hout i (List.mem_of_mem_take hi))
    rw [← hQ0] at i1 i2
    have hlen : (is.take k).length = k := by rw [List.length_take]; omega
    refine ⟨(dasoRun sqrt T.exp T.pow T.argmax c (Q 0) (is.take k)).1, by rw [i2, hlen], ?_⟩
    have e : (dasoRun sqrt T.exp T.pow T.argmax c (Q 0) (is.take k)).2 = Q k := by rw [hrun]; simp only; rw [hlen]
    rw [e] at i1
    simpa using i1
  have hqs : ∀ k ≤ n, (Q k).queues.map (prototype D) = protosOf c (is.take k) := by
    intro k hk
    obtain ⟨past, -, hi⟩ := hinv k hk
    rw [hi.queues, List.map_map]
    rfl
  have hstepno : ∀ k ≤ n, (Q k).step = k := by
    intro k hk
    obtain ⟨past, hl, hi⟩ := hinv k hk
    rw [hi.step_eq, hl]
  have hfull := dasoRun_chain sqrt T.exp T.pow T.argmax c is Q hchain
  obtain ⟨l1, hps⟩ := pseudo_explicit sqrt T.exp he T.pow hp T.argmax ha c hC hper hA.temps.2 hA.alpha.1 hA.alpha.2 is hout
  rw [← hQ0] at l1 hps
  set os := (dasoRun sqrt T.exp T.pow T.argmax c (Q 0) is).1 with hos
  have hor : ∀ k (hk : k < n), os[k]? = some (r k).1 := by
    intro k hk
    rw [hos, hfull]
    simp only [List.getElem?_mapIdx, r]
    rw [dif_pos hk, List.getElem?_eq_getElem (by omega)]
    rfl
  -- the log
  obtain ⟨obs, e1, e2, e3⟩ := Cons.chain_log (lg := fun st : Mem K × (W × Option W) => log st.2.1) (T := S) (n := n)
    (P := fun k p => p = (v k, L k)) (by
    intro k hlt
    exact ⟨_, by rw [(hstep k hlt).2.2.1]; exact hL.step _ _, rfl⟩)
  let ps : List (SStepped X (List (List K)) K) := eps.flatten.zip obs
  have lp : ps.length = n := by simp [ps, e2, hn]
  have hpg : ∀ k (hk : k < n), ps[k]? = some (eps.flatten[k], v k, L k) := by
    intro k hk
    simp only [ps]
    rw [List.getElem?_eq_getElem (by rw [List.length_zip, e2]; omega), List.getElem_zip, e3 k _ (List.getElem?_eq_getElem (by omega))]
  let θs := (List.range n).map θ
  have m3 : List.zipWith (saidIn T.softmax g h) ps θs = is := by
    apply List.ext_getElem
    · simp [lp, il, θs]
    · intro t a b
      have ht' : t < n := by rw [il] at b; exact b
      have := hpg t ht'
      rw [List.getElem?_eq_getElem (by rw [lp]; exact ht'), Option.some.injEq] at this
      rw [List.getElem_zipWith, this, ig t ht']
      simp [θs, saidIn, heard]
  refine ⟨d, xw, xs, eps, ps, rfl, hA, hE, rfl, ?_, ?_, θs, ?_, os, by rw [l1, il, lp], ?_⟩
  · simp only [ps]
    rw [List.map_fst_zip (by omega)]
  · simp only [ps]
    rw [List.map_snd_zip (by omega), ← sn, e1, s0]
    simp only [hL.train]
  · -- the averaged network
    obtain ⟨em1, em2⟩ := startEma_params hP ht
    refine ⟨fun hem => ?_, fun hem => ⟨by simp [θs, lp], ?_⟩⟩
    · have hnone : ∀ k ≤ n, (S k).2.2 = none := by
        intro k
        induction k with
        | zero => intro _; rw [s0]; exact em1 hem
        | succ k ih => intro hk; rw [(hstep k (by omega)).2.2.2, ih (by omega)]; rfl
      apply List.ext_getElem
      · simp [θs, lp]
      · intro k a b
        have hk : k < n := by simpa [θs] using a
        have := hpg k hk
        rw [List.getElem?_eq_getElem (by omega), Option.some.injEq] at this
        have e1 : θs[k] = θ k := by simp [θs]
        have e2 : (ps.map fun p => p.2.1)[k] = v k := by
          simp only [List.getElem_map]
          rw [this]
        rw [e1, e2]
        simp only [θ, v]
        rw [hnone k hk.le]
        rfl
    · obtain ⟨t', rfl, ht'⟩ := em2 hem
      have hshape : ∀ k ≤ n, (v k).map List.length = (P.params w).map List.length := by
        intro k
        induction k with
        | zero => intro _; simp only [v]; rw [s0]; simp only [hP.train]
        | succ k ih =>
          intro hk
          simp only [v] at ih ⊢
          rw [(hstep k (by omega)).2.2.1, hP.step, ih (by omega)]
      have hteach : ∀ k ≤ n, ∃ u, (S k).2.2 = some u ∧ P.params u =
          ((List.range k).map fun j => v (j + 1)).foldl (updateTeacher cfg.decay) (P.params w) := by
        intro k
        induction k with
        | zero => intro _; rw [s0]; exact ⟨t', rfl, ht'⟩
        | succ k ih =>
          intro hk
          obtain ⟨u, u1, u2⟩ := ih (by omega)
          refine ⟨_, by rw [(hstep k (by omega)).2.2.2, u1]; rfl, ?_⟩
          rw [hP.average, u2, List.range_succ, List.map_append, List.foldl_append]
          rfl
      intro k θ' hk p i
      have hkn : k < n := by
        have := (List.getElem?_eq_some_iff.mp hk).1
        simpa [θs] using this
      obtain ⟨u, u1, u2⟩ := hteach k hkn.le
      have hθ : θ' = P.params u := by
        simp only [θs, List.getElem?_map, List.getElem?_range hkn, Option.map_some, Option.some.injEq, θ] at hk
        rw [← hk, u1]
        rfl
      rw [hθ, u2, foldl_teacher _ (by
        intro s hs'
        obtain ⟨j, hj, rfl⟩ := List.mem_map.mp hs'
        exact hshape _ (by have := List.mem_range.mp hj; omega))]
      congr 1
      rw [List.map_map]
      apply List.ext_getElem
      · simp only [List.length_map, List.length_range, List.length_drop, List.length_take, lp]; omega
      · intro j h1 h2
        simp only [List.length_map, List.length_range] at h1
        simp only [List.getElem_map, List.getElem_range, Function.comp, List.getElem_drop, List.getElem_take]
        have := hpg (1 + j) (by omega)
        rw [List.getElem?_eq_getElem (by omega), Option.some.injEq] at this
        rw [this]
        simp only
        rw [Nat.add_comm j 1]
  · intro t p htp
    have htn : t < n := by
      have := (List.getElem?_eq_some_iff.mp htp).1
      omega
    rw [hpg t htn, Option.some.injEq] at htp
    subst htp
    rw [m3]
    have hit : is[t]? = some (heard T g h eps.flatten[t] (v t) (θ t)) := by
      rw [List.getElem?_eq_getElem (by omega), ig t htn]
    obtain ⟨out, o1, o2, o3, wt, o4, o5⟩ := hps t _ hit
    rw [hor t htn, Option.some.injEq] at o1
    subst o1
    refine ⟨fun k => (protosOf c (is.take (t + 1))).getD k [], (r t).1, ⟨_, hit, hor t htn, o2, o3, wt, o4, o5⟩, ?_⟩
    obtain ⟨z1, z2⟩ := hz _ (List.getElem_mem htn)
    have hLt : L t = objective T cfg t eps.flatten[t] (r t).1 (protosOf c (is.take (t + 1)))
        (eps.flatten[t].xw.map fun x => protoLabel sqrt T.exp cfg.tProto (protosOf c (is.take (t + 1))) (h (v t) x.1)) := by
      simp only [L, lossAt]
      rw [dif_pos htn, hqs (t + 1) (by omega), hstepno t htn.le]
    simp only
    rw [hLt]
    have hrl : (r t).1.length = eps.flatten[t].xw.length := by rw [o2]; simp [heard]
    refine loss_of he ha sqrt cfg c hC rfl t (h (v t)) _ _ _ z1 z2 hrl ?_
    intro q hq
    obtain ⟨j, hj, rfl⟩ := List.getElem_of_mem hq
    have hj2 : j < eps.flatten[t].xw.length := by omega
    obtain ⟨p', q1, q2, -⟩ := o5 j _ _ (by simp only [heard, List.getElem?_map, List.getElem?_eq_getElem hj2]; rfl)
      (by simp only [heard, List.getElem?_map, List.getElem?_eq_getElem hj2]; rfl)
    rw [List.getElem?_eq_getElem hj, Option.some.injEq] at q1
    rw [q1]
    intro e
    have := q2.1
    rw [e] at this
    change 0 = C at this
    omega

/-- **C181 (`use_cat`).**  With a row-wise network it makes no difference whether the rows of a step go through it together. -/
theorem C181_cat (G : TorchGen σ) (N : SNet X W K) (view : W → V) (g h : V → X → List K) (C D : Nat)
    (hN : Rowwise N view g h C D) (P : Copying W K) (T : Torch K) (sqrt : K → K) (torch : Bool) (cfg : SCfg K) (cat : Bool)
    (bundle : Option Bundle) (data : Option (Input X)) (seed : Int) (o : SObj W) (same : Bool) (w : W) (teacher : Option W) :
    fit G N P T sqrt torch { cfg with cat := cat } bundle data seed o same w teacher =
      fit G N P T sqrt torch cfg bundle data seed o same w teacher := by
  have hstep : trainStep N P T sqrt { cfg with cat := cat } = trainStep N P T sqrt cfg := by
    funext st s
    unfold trainStep
    rw [look_rowwise hN, look_rowwise hN]
    rfl
  unfold fit
  rw [hstep]
  rfl

theorem objective_pretrain (T : Torch K) (cfg : SCfg K) (k : Nat) (hk : (k : Int) < cfg.pretrain) (s : Batch X)
    (rows protos q : List (List K)) : objective T cfg k s rows protos q = objective T cfg k s rows [] [] := by
  unfold objective
  rw [if_pos (.inl hk), if_pos (.inl hk)]

theorem rows_pretrain (sqrt exp : K → K) (pow : K → K → K) (argmax : List K → Nat) (c : DasoCfg K) (d : DasoState K)
    (i : DasoInput K) (hd : d.step < c.pretrain) (hl : i.featsU.length = i.probs.length) :
    (dasoStep sqrt exp pow argmax c d i).1 = i.probs := by
  simp only [dasoStep]
  apply List.ext_getElem
  · simp [hl]
  · intro j a b
    rw [List.getElem_zipWith, dasoBlend, if_pos hd]

/-- How many steps a training has. -/
theorem steps_number {d : Input X} {xw xs : Feats X} {cfg : SCfg K} {eps : List (List (Batch X))}
    (hE : DasoFit.Spec.Epochs d xw xs cfg eps) : (eps.flatten.length : Int) =
      cfg.maxEpochs * max ⌈(d.xl.rows.length : ℚ) / cfg.batchSize⌉ ⌈(xw.rows.length : ℚ) / cfg.batchSize⌉ := by
  obtain ⟨h1, h2⟩ := hE
  rw [numbered_length] at h2
  rw [← h1]
  clear h1
  generalize max ⌈(d.xl.rows.length : ℚ) / cfg.batchSize⌉ ⌈(xw.rows.length : ℚ) / cfg.batchSize⌉ = m at *
  induction eps with
  | nil => simp
  | cons ep eps ih =>
    have e := (h2 ep (by simp)).1
    have := ih fun x hx => h2 x (by simp [hx])
    rw [List.flatten_cons, List.length_append, List.length_cons]
    push_cast
    rw [this, e]
    ring

/-- A configuration with other values of the parameters that matter only after pretraining. -/
def later (cfg : SCfg K) (tProto tDist decay alpha : K) (queueSize period : Int) (ema aware : Bool) : SCfg K :=
  ⟨cfg.batchSize, cfg.maxEpochs, cfg.lambdaU, cfg.lambdaA, cfg.cutoff, tProto, tDist, queueSize, cfg.pretrain, period, decay, ema,
    aware, alpha, cfg.hard, cfg.cat, cfg.detach⟩

theorem runs_pretrain {N : SNet X W K} {view : W → V} {g h : V → X → List K} {C D : Nat} (hN : Rowwise N view g h C D)
    {P : Copying W K} {T : Torch K} {sqrt : K → K} {cfg : SCfg K} {tProto tDist decay alpha : K} {queueSize period : Int}
    {ema aware : Bool} : ∀ (ss : List (Batch X)) (st st' : Mem K × (W × Option W)),
    (∀ s ∈ ss, s.xl.length = s.yl.length ∧ s.xw.length = s.xs.length) → Fits C D st.1 → Fits C D st'.1 → st.2.1 = st'.2.1 →
    (stateOf (stepCfg cfg C D) st.1).step =
      (stateOf (stepCfg (later cfg tProto tDist decay alpha queueSize period ema aware) C D) st'.1).step →
    (((stateOf (stepCfg cfg C D) st.1).step + ss.length : Nat) : Int) ≤ cfg.pretrain →
    (runSteps (trainStep N P T sqrt cfg) st ss).1.2.1 =
      (runSteps (trainStep N P T sqrt (later cfg tProto tDist decay alpha queueSize period ema aware)) st' ss).1.2.1 ∧
    (runSteps (trainStep N P T sqrt cfg) st ss).2 =
      (runSteps (trainStep N P T sqrt (later cfg tProto tDist decay alpha queueSize period ema aware)) st' ss).2
  | [], st, st', _, _, _, hw, _, _ => ⟨hw, rfl⟩
  | s :: ss, st, st', hz, hm, hm', hw, hk, hl => by
    obtain ⟨z1, z2⟩ := hz s (by simp)
    simp only [runSteps]
    rw [trainStep_rowwise hN P T sqrt cfg st hm s z1 z2,
      trainStep_rowwise hN P T sqrt (later cfg tProto tDist decay alpha queueSize period ema aware) st' hm' s z1 z2]
    by_cases c : s.yl.any (fun c => decide (c < 0 ∨ (C : Int) ≤ c)) = true
    · rw [if_pos c, if_pos c]
      exact ⟨hw, rfl⟩
    · rw [if_neg c, if_neg c]
      have hlt : ((stateOf (stepCfg cfg C D) st.1).step : Int) < cfg.pretrain := by
        simp only [List.length_cons] at hl
        omega
      dsimp only
      apply runs_pretrain hN ss
      · intro x hx; exact hz x (by simp [hx])
      · rintro q hq; obtain rfl := Option.some.inj hq; exact ⟨rfl, rfl⟩
      · rintro q hq; obtain rfl := Option.some.inj hq; exact ⟨rfl, rfl⟩
      · dsimp only
        rw [hw]
        congr 1
        unfold lossAt
        rw [rows_pretrain _ _ _ _ _ _ _ (by show _ < cfg.pretrain.toNat; omega) (by simp [heard]),
          rows_pretrain _ _ _ _ _ _ _ (by rw [← hk]; show _ < cfg.pretrain.toNat; omega) (by simp [heard]),
          objective_pretrain _ cfg _ hlt, ← hk,
          objective_pretrain _ (later cfg tProto tDist decay alpha queueSize period ema aware) _ hlt]
        rfl
      · show (stateOf (stepCfg cfg C D) st.1).step + 1 = (stateOf (stepCfg (later ..) C D) st'.1).step + 1
        rw [hk]
      · show (((stateOf (stepCfg cfg C D) st.1).step + 1 + ss.length : Nat) : Int) ≤ cfg.pretrain
        simp only [List.length_cons] at hl
        omega

/-- **C181 (pretraining).**  During the first `pretrain_steps` steps nothing but the predictions themselves enters the loss: in a
training that is not longer, temperatures, queue size, period, mixing weight, `dist_aware` and the averaged network have no
influence on the network that results. -/
theorem C181_pretraining (T : Torch K) (sqrt : K → K) (G : TorchGen σ) (hG : G.Lawful) (N : SNet X W K) (view : W → V)
    (g h : V → X → List K) (C D : Nat) (hN : Rowwise N view g h C D) (P : Copying W K) (cfg : SCfg K)
    (tProto tDist decay alpha : K) (queueSize period : Int) (ema aware : Bool)
    (torch : Bool) (bundle : Option Bundle) (d : Input X) (xw xs : Feats X) (hA : Acceptable torch cfg bundle d xw xs)
    (hA' : Acceptable torch (later cfg tProto tDist decay alpha queueSize period ema aware) bundle d xw xs) (seed : Int)
    (o o' : SObj W) (same same' : Bool) (w : W) (teacher teacher' : Option W) (hT : Teachable P cfg.ema same w teacher)
    (hT' : Teachable P ema same' w teacher')
    (hlong : cfg.maxEpochs * max ⌈(d.xl.rows.length : ℚ) / cfg.batchSize⌉ ⌈(xw.rows.length : ℚ) / cfg.batchSize⌉ ≤ cfg.pretrain) :
    (fit G N P T sqrt torch cfg bundle (some d) seed o same w teacher).1.2 =
      (fit G N P T sqrt torch (later cfg tProto tDist decay alpha queueSize period ema aware) bundle (some d) seed o' same' w
        teacher').1.2 ∧
    (fit G N P T sqrt torch cfg bundle (some d) seed o same w teacher).2 =
      (fit G N P T sqrt torch (later cfg tProto tDist decay alpha queueSize period ema aware) bundle (some d) seed o' same' w
        teacher').2 := by
  obtain ⟨t, ht⟩ := (startEma_ok (N := N)).mpr hT
  obtain ⟨t', ht'⟩ := (startEma_ok (N := N)).mpr hT'
  obtain ⟨eps, hb, hE⟩ := batches_ok hG hA seed
  have key := runs_pretrain hN (P := P) (T := T) (sqrt := sqrt) (cfg := cfg) (tProto := tProto) (tDist := tDist) (decay := decay)
    (alpha := alpha) (queueSize := queueSize) (period := period) (ema := ema) (aware := aware) eps.flatten
    (none, N.train w, t) (none, N.train w, t') (Fit.Epochs.sizes hE) (by rintro q hq; cases hq) (by rintro q hq; cases hq) rfl rfl
    (by
      have := steps_number hE
      simp only [stateOf, dasoInit, Option.map_none, Option.getD_none, Nat.zero_add]
      rw [this]
      exact hlong)
  unfold fit
  rw [check_ok.mpr ⟨d, xw, xs, rfl, hA, rfl⟩, check_ok.mpr ⟨d, xw, xs, rfl, hA', rfl⟩]
  dsimp only
  rw [ht, show startEma N P (later cfg tProto tDist decay alpha queueSize period ema aware).ema same' w teacher' = .ok t' from ht']
  dsimp only
  rw [hb, show fitBatches G d.xl.rows d.yl (Cons.Spec.numbered xw.rows) xs.rows
    (later cfg tProto tDist decay alpha queueSize period ema aware).batchSize
    (later cfg tProto tDist decay alpha queueSize period ema aware).maxEpochs seed = .ok eps from hb]
  dsimp only
  rcases hr : runSteps (trainStep N P T sqrt cfg) (none, N.train w, t) eps.flatten with ⟨s1, r1⟩
  rcases hr' : runSteps (trainStep N P T sqrt (later cfg tProto tDist decay alpha queueSize period ema aware)) (none, N.train w, t')
    eps.flatten with ⟨s2, r2⟩
  rw [hr, hr'] at key
  obtain ⟨k1, k2⟩ := key
  dsimp only at k1 k2
  subst k2
  cases r1 with
  | error e => exact ⟨k1, rfl⟩
  | ok u => exact ⟨k1, rfl⟩

/-! ### Witnesses -/

/-- A network that remembers its steps and has two parameters; the first one moves its features. -/
structure DemoW where
  /-- steps -/
  steps : List (List (List Rat) × SObjective Nat Rat)
  /-- training mode -/
  training : Bool
  /-- parameters -/
  params : List (List Rat)

/-- Its logits. -/
def demoLogits (_ : List (List Rat)) (x : Nat) : List Rat := Fit.demoLogits 0 x

/-- Its features. -/
def demoFeats (θ : List (List Rat)) (x : Nat) : List Rat := [param θ 0 0, if x % 2 = 0 then 1 else -1]

/-- The network. -/
def demoNet : SNet Nat DemoW Rat where
  train w := { w with training := true }
  eval w := { w with training := false }
  forward w xs := (⟨true, ⟨2, 2, xs.map (demoLogits w.params)⟩, ⟨2, 2, xs.map (demoFeats w.params)⟩⟩, w)
  features w xs := (some ⟨2, 2, xs.map (demoFeats w.params)⟩, w)
  step w o := { w with steps := w.steps ++ [(w.params, o)], params := w.params.map (List.map (· + 1)) }

/-- Its copies. -/
def demoCopying : Copying DemoW Rat where
  params w := w.params
  load s t := { t with params := s.params }
  average d t s := { t with params := updateTeacher d t.params s.params }

theorem demo_rowwise : Rowwise demoNet demoCopying.params demoLogits demoFeats 2 2 := ⟨fun _ _ => rfl, fun _ _ => rfl⟩

theorem demo_logs : Logs demoNet demoCopying.params (fun w => w.steps) := ⟨fun _ => rfl, fun _ _ => rfl⟩

theorem demo_copies : Copies demoNet demoCopying :=
  ⟨fun _ => rfl, fun _ => rfl, fun w o => by simp [demoCopying, demoNet, List.map_map, Function.comp_def], fun _ _ => rfl,
    fun _ _ _ => rfl⟩

/-- Parameters for the examples: two steps of pretraining, averaging, an alignment term. -/
def demoCfg : SCfg Rat := ⟨2, 2, 1, 1 / 2, 3 / 5, 1 / 2, 2, 4, 2, 1, 9 / 10, true, true, 1 / 2, true, false, true⟩

/-- A fresh network. -/
def demoW : DemoW := ⟨[], false, [[1, 2], [3]]⟩

theorem demo_acceptable (y : List Int) (hy : y ≠ []) (u : List Nat) (hu : u ≠ []) :
    Acceptable true demoCfg (some ⟨true, true⟩) (Fit.demoData y u) ⟨u, true⟩ ⟨u.map (· + 10), true⟩ :=
  ⟨rfl, by simp [Fit.demoData], ⟨rfl, rfl⟩, by simpa [Fit.demoData] using hy, rfl, rfl, hu, by simp, ⟨rfl, rfl, rfl⟩,
    ⟨_, rfl, rfl, rfl⟩, by decide, by decide, by norm_num [demoCfg], by norm_num [demoCfg], by norm_num [demoCfg], by decide,
    by decide, by decide, by norm_num [demoCfg], by norm_num [demoCfg]⟩

/-- `fit` on the example, with an `ema_model` that held something else. -/
def demoFit (cfg : SCfg Rat) (y : List Int) (u : List Nat) : (SObj DemoW × DemoW) × Except PyErr Unit :=
  fit TorchGen.demo demoNet demoCopying Fit.demoTorch id true cfg (some ⟨true, true⟩) (some (Fit.demoData y u)) 0 ⟨none, false⟩ false
    demoW (some ⟨[], true, [[7, 7], [7]]⟩)

theorem demo_teachable (ema : Bool) : Teachable demoCopying ema false demoW (some ⟨[], true, [[7, 7], [7]]⟩) := by
  rintro - t ht
  obtain rfl := Option.some.inj ht
  exact ⟨rfl, rfl⟩

/-- Training succeeds on all data of two classes. -/
theorem demo_ok (y : List Int) (hy : y ≠ []) (hc : ∀ c ∈ y, 0 ≤ c ∧ c < 2) (u : List Nat) (hu : u ≠ []) :
    (demoFit demoCfg y u).2 = .ok () :=
  (C181_accepts TorchGen.demo TorchGen.demo_lawful demoNet _ _ _ 2 2 demo_rowwise _ _ _ _ _ _ _ _ _ _ _ _).mpr
    ⟨_, _, _, rfl, demo_acceptable y hy u hu, demo_teachable _, hc⟩

/-- The same network as averaged network is refused. -/
example : ∃ e, fit TorchGen.demo demoNet demoCopying Fit.demoTorch id true demoCfg (some ⟨true, true⟩)
    (some (Fit.demoData [0, 1] [4, 5])) 0 ⟨none, false⟩ true demoW (some demoW) = ((⟨none, false⟩, demoW), .error e) :=
  C181_refused _ _ _ _ _ _ _ _ _ _ _ _ _ _ fun _ _ _ _ _ h => by simpa using (h rfl demoW rfl).1

theorem demo_softmax (v : List (List Rat)) (x : Nat) : IsDistN 2 (Fit.demoTorch.softmax (demoLogits v x)) := by
  refine ⟨?_, (Fit.demo_softmax 0 x).1⟩
  unfold Fit.demoTorch demoLogits Fit.demoLogits
  split_ifs <;> rfl

/-- The hypotheses of `C181_training` are met by a training of four steps: the first two without, the others with an alignment
term. -/
example : ∃ eps, ∃ ps : List (SStepped Nat (List (List Rat)) Rat),
    Fit.Spec.Epochs [0, 1] [0, 1] (Cons.Spec.numbered [4, 5, 6]) [14, 15, 16] 2 2 eps ∧ eps.flatten = ps.map (·.1) ∧
    (demoFit demoCfg [0, 1] [4, 5, 6]).1.2.steps = ps.map (·.2) ∧
    ps.map (fun p => p.2.2.align.isSome) = [false, false, true, true] := by
  have hok := demo_ok [0, 1] (by decide) (by decide) [4, 5, 6] (by decide)
  have hal : (demoFit demoCfg [0, 1] [4, 5, 6]).1.2.steps.map (fun p => p.2.align.isSome) = [false, false, true, true] := by
    decide +kernel
  rcases hq : demoFit demoCfg [0, 1] [4, 5, 6] with ⟨⟨o, w⟩, r⟩
  rw [hq] at hok hal
  obtain rfl : r = .ok () := hok
  obtain ⟨d, xw, xs, eps, ps, h1, h2, h3, -, h4, h5, -⟩ := C181_training Fit.demoTorch CoFit.demo_exp demoPower_law argmax_law id
    TorchGen.demo TorchGen.demo_lawful demoNet demoCopying demo_copies demoLogits demoFeats 2 2 (by decide) demo_rowwise demoCfg
    demo_softmax (fun v x => rfl) _ demo_logs true _ _ 0 _ o _ _ w _ hq
  obtain rfl := Option.some.inj h1
  obtain rfl : _ = xw := Option.some.inj h2.weak
  obtain rfl : _ = xs := Option.some.inj h2.strong
  refine ⟨eps, ps, h3, h4, h5, ?_⟩
  have h5' : w.steps = ps.map (·.2) := h5
  change w.steps.map _ = _ at hal
  rw [h5', List.map_map] at hal
  exact hal

/-- `C181_pretraining` on a training of one epoch with one batch: other temperatures, no averaging. -/
example : (demoFit { demoCfg with maxEpochs := 1 } [0, 1] [4, 5]).1.2 =
    (demoFit (later { demoCfg with maxEpochs := 1 } 1 1 0 1 9 9 false false) [0, 1] [4, 5]).1.2 :=
  (C181_pretraining Fit.demoTorch id TorchGen.demo TorchGen.demo_lawful demoNet _ _ _ 2 2 demo_rowwise demoCopying
    { demoCfg with maxEpochs := 1 } 1 1 0 1 9 9 false false true _ _ _ _
    { demo_acceptable [0, 1] (by decide) [4, 5] (by decide) with epochs := by decide }
    { demo_acceptable [0, 1] (by decide) [4, 5] (by decide) with
      epochs := by decide, temps := by norm_num [later], queue := by decide, period := by decide, decay := by norm_num [later],
      alpha := by norm_num [later] } 0 _ _ _ _ _ _ _ (demo_teachable _) (demo_teachable _) (by norm_num [Fit.demoData, demoCfg])).1

end ModSSC.Deep.DasoFit
