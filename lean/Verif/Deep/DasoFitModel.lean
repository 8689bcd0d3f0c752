import Verif.Deep.ConsModel
import Verif.Deep.CoFitModel
import Verif.Deep.DasoModel

/-!
# Training with DASO

Models the whole `fit` of `src/modssc/inductive/methods/daso.py`: the checks, the averaged network, the batches (`BatchModel`), the
forward passes, pseudo-labels and prototypes (`DasoModel`), the loss and the optimizer steps.  Conventions are those of
`FitModel` and `ConsModel`; graph dictionaries are not modelled here.
-/

namespace ModSSC.Deep.DasoFit
open ModSSC ModSSC.Deep.Fit
open ModSSC.Deep.CoFit (Both)
open ModSSC.Deep.Cons (Copying runSteps)

variable {X W K σ : Type}

/-- `DASOSpec`, daso.py l.196-217, without the bundle. -/
structure SCfg (K : Type) where
  /-- `batch_size` -/
  batchSize : Int
  /-- `max_epochs` -/
  maxEpochs : Int
  /-- `lambda_u` -/
  lambdaU : K
  /-- `lambda_align` -/
  lambdaA : K
  /-- `p_cutoff` -/
  cutoff : K
  /-- `t_proto` -/
  tProto : K
  /-- `t_dist` -/
  tDist : K
  /-- `queue_size` -/
  queueSize : Int
  /-- `pretrain_steps` -/
  pretrain : Int
  /-- `dist_update_period` -/
  period : Int
  /-- `ema_decay` -/
  decay : K
  /-- `use_ema` -/
  ema : Bool
  /-- `dist_aware` -/
  aware : Bool
  /-- `interp_alpha` -/
  alpha : K
  /-- `hard_label` -/
  hard : Bool
  /-- `use_cat` -/
  cat : Bool
  /-- `detach_target` -/
  detach : Bool

/-- The term that aligns strong views with prototypes, daso.py l.511-518: `Σ weight * -(target * log q).sum()`, `q` being the softmax
of the cosine similarities of the features of the strong view with the prototypes, divided by `t_proto`. -/
structure Align (X K : Type) where
  /-- `C` -/
  protos : List (List K)
  /-- strong views, targets, weights -/
  rows : List (X × List K × K)
deriving DecidableEq, Repr

/-- The loss of a step, daso.py l.470-524:
`Σ share * CE(x, y) + scale * Σ weight * loss(strong, target) + alignScale * align`. -/
structure SObjective (X K : Type) where
  /-- labeled rows, labels, weights -/
  labeled : List (X × Int × K)
  /-- unlabeled rows -/
  unlabeled : List (Term X K)
  /-- `lambda_u` -/
  scale : K
  /-- `none`: zero -/
  align : Option (Align X K)
  /-- `lambda_align` -/
  alignScale : K
  /-- whether gradients flow through the pseudo-labels -/
  through : Bool
deriving DecidableEq, Repr

/-- A network with its optimizer (external), daso.py l.79-165, l.360, l.539-541. -/
structure SNet (X W K : Type) where
  /-- `model.train()` -/
  train : W → W
  /-- `ema_model.eval()` -/
  eval : W → W
  /-- `_forward_logits_features`: logits and features, or an error -/
  forward : W → List X → Both K × W
  /-- `_forward_features`: `none` for an error -/
  features : W → List X → Option (Out K) × W
  /-- `optimizer.zero_grad(); loss.backward(); optimizer.step()` -/
  step : W → SObjective X K → W

variable [Field K] [LinearOrder K]

/-- The checks of the parameters beside `lambda_u`, `batch_size`, `max_epochs`, daso.py l.319-336. -/
def ranges (cfg : SCfg K) : Bool :=
  decide (0 ≤ cfg.lambdaA) && decide (0 ≤ cfg.cutoff ∧ cfg.cutoff ≤ 1) && decide (0 < cfg.tProto) && decide (0 < cfg.tDist) &&
    decide (0 < cfg.queueSize) && decide (0 ≤ cfg.pretrain) && decide (0 < cfg.period) &&
    decide (0 ≤ cfg.decay ∧ cfg.decay ≤ 1) && decide (0 ≤ cfg.alpha ∧ cfg.alpha ≤ 1)

/-- The checks, daso.py l.269-336; all failures are `InductiveValidationError`. -/
def check (torch : Bool) (cfg : SCfg K) (bundle : Option Bundle) (data : Option (Input X)) : Except PyErr (Ready X) :=
  Fit.check (fun n => .ok ((List.range n).map Int.ofNat)) torch
    ⟨cfg.batchSize, cfg.maxEpochs, cfg.lambdaU, 1, false, ranges cfg⟩ bundle data

/-- `_flatten_features`, daso.py l.55-67: `rows` are those of the tensor with the other axes flattened, a single row if there is only
one axis. -/
def flatten (n : Nat) (o : Out K) : Except PyErr (Out K) :=
  if o.ndim = 0 then .error .validation
  else if o.rows.length ≠ n then .error .validation
  else .ok ⟨2, o.classes, o.rows⟩

/-- The outputs of a step: logits of the labeled rows, logits and features of weak and strong views. -/
structure SOuts (K : Type) where
  /-- `logits_l` -/
  l : Out K
  /-- `logits_uw` -/
  w : Out K
  /-- `feats_uw` -/
  fw : Out K
  /-- `logits_us` -/
  s : Out K
  /-- `feats_us` -/
  fs : Out K

/-- The forward passes, daso.py l.380-411: one pass over the concatenated rows, or three, in the order labeled, weak, strong. -/
def look (N : SNet X W K) (cat : Bool) (w : W) (s : Batch X) : Except PyErr (SOuts K) × W :=
  let n := s.xl.length
  let m := s.xw.length
  if cat then
    let r := N.forward w (s.xl ++ s.xw.map (·.1) ++ s.xs)
    if r.1.valid = false then (.error .validation, r.2)
    else if r.1.logits.ndim ≠ 2 then (.error .validation, r.2)
    else if r.1.logits.rows.length ≠ n + m + s.xs.length then (.error .validation, r.2)
    else
      match flatten (n + m + s.xs.length) r.1.feats with
      | .error e => (.error e, r.2)
      | .ok f => (.ok ⟨r.1.logits.slice 0 n, r.1.logits.slice n m, f.slice n m, r.1.logits.slice (n + m) s.xs.length,
          f.slice (n + m) s.xs.length⟩, r.2)
  else
    let a := N.forward w s.xl
    if a.1.valid = false then (.error .validation, a.2)
    else
      let b := N.forward a.2 (s.xw.map (·.1))
      if b.1.valid = false then (.error .validation, b.2)
      else
        let c := N.forward b.2 s.xs
        if c.1.valid = false then (.error .validation, c.2)
        else
          match flatten m b.1.feats with
          | .error e => (.error e, c.2)
          | .ok fw =>
            match flatten s.xs.length c.1.feats with
            | .error e => (.error e, c.2)
            | .ok fs => (.ok ⟨a.1.logits, b.1.logits, fw, c.1.logits, fs⟩, c.2)

/-- The checks on the outputs, daso.py l.413-424.  The last line stands for the errors torch raises later when a network does not
return one row of logits per input row (that torch may broadcast a single row is not modelled). -/
def agree (s : Batch X) (o : SOuts K) : Except PyErr Unit :=
  if o.l.ndim ≠ 2 ∨ o.w.ndim ≠ 2 ∨ o.s.ndim ≠ 2 then .error .validation
  else if o.w.rows.length ≠ o.s.rows.length ∨ o.w.classes ≠ o.s.classes then .error .validation
  else if o.w.classes ≠ o.l.classes then .error .validation
  else if o.fw.rows.length ≠ o.fs.rows.length ∨ o.fw.classes ≠ o.fs.classes then .error .validation
  else if s.yl.any (fun c => decide (c < 0 ∨ (o.l.classes : Int) ≤ c)) then .error .validation
  else if o.l.rows.length ≠ s.yl.length ∨ o.w.rows.length ≠ o.fw.rows.length then .error .runtimeError
  else .ok ()

/-- The features of the labeled rows, daso.py l.441-447: of the averaged network if there is one. -/
def labeledFeats (N : SNet X W K) (st : W × Option W) (width : Nat) (s : Batch X) :
    Except PyErr (List (List K)) × (W × Option W) :=
  let r := N.features (st.2.getD st.1) s.xl
  let st' := match st.2 with
    | some _ => (st.1, some r.2)
    | none => (r.2, none)
  match r.1 with
  | none => (.error .validation, st')
  | some f =>
    match flatten s.xl.length f with
    | .error e => (.error e, st')
    | .ok f => if f.classes ≠ width then (.error .validation, st') else (.ok f.rows, st')

/-- `self.spec` (daso.py l.196-217) with the number of classes and the width of the features, as `DasoModel` wants it. -/
def stepCfg (cfg : SCfg K) (classes width : Nat) : DasoCfg K :=
  ⟨cfg.queueSize.toNat, cfg.pretrain.toNat, cfg.period.toNat, cfg.tProto, cfg.tDist, cfg.aware, cfg.alpha, classes, width⟩

/-- The loss from the pseudo-labels `rows`, the prototypes and the labels `q` they propose, daso.py l.470, l.495-524; `k` is
`step_idx`. -/
def objective (T : Torch K) (cfg : SCfg K) (k : Nat) (s : Batch X) (rows protos q : List (List K)) : SObjective X K :=
  ⟨List.zipWith (fun p k => (p.1, p.2, k)) (s.xl.zip s.yl) (evenly s.yl.length),
    List.zipWith (fun (p : X × X) q => ⟨p.1, p.2, q.1, q.2⟩) ((s.xw.map (·.1)).zip s.xs)
      ((targetsOf T cfg.hard rows).zip (normed (maskOf cfg.cutoff rows))),
    cfg.lambdaU,
    if (k : Int) < cfg.pretrain ∨ cfg.lambdaA = 0 then none
    else some ⟨protos, List.zipWith (fun p k => (p.1, p.2, k)) (s.xs.zip q) (evenly s.xs.length)⟩,
    cfg.lambdaA, !cfg.detach⟩

/-- `queue`, `m_hat`, `dist_accum`, `step_idx` with the numbers of classes and features, daso.py l.355-359: `none` before the first
step. -/
abbrev Mem (K : Type) := Option (Nat × Nat × DasoState K)

/-- One training step, daso.py l.376-557.  That the numbers of classes and features change between steps (torch then raises, or goes
on with queues of the old number) is treated as an error. -/
def trainStep (N : SNet X W K) (P : Copying W K) (T : Torch K) (sqrt : K → K) (cfg : SCfg K) (st : Mem K × (W × Option W))
    (s : Batch X) : (Mem K × (W × Option W)) × Except PyErr Unit :=
  match look N cfg.cat st.2.1 s with
  | (.error e, w) => ((st.1, w, st.2.2), .error e)
  | (.ok o, w) =>
    match agree s o with
    | .error e => ((st.1, w, st.2.2), .error e)
    | .ok _ =>
      let classes := o.l.classes
      let width := o.fw.classes
      match labeledFeats N (w, st.2.2) width s with
      | (.error e, v) => ((st.1, v), .error e)
      | (.ok f, v) =>
        if st.1.any (fun q => decide (q.1 ≠ classes ∨ q.2.1 ≠ width)) then ((st.1, v), .error .runtimeError)
        else
          let c := stepCfg cfg classes width
          let d := (st.1.map (·.2.2)).getD (dasoInit c)
          let r := dasoStep sqrt T.exp T.pow T.argmax c d ⟨f, s.yl.map Int.toNat, o.w.rows.map T.softmax, o.fw.rows⟩
          let protos := r.2.queues.map (prototype width)
          let w' := N.step v.1 (objective T cfg d.step s r.1 protos (o.fw.rows.map (protoLabel sqrt T.exp cfg.tProto protos)))
          ((some (classes, width, r.2), w', v.2.map fun t => P.average cfg.decay t w'), .ok ())

/-- The object: `_ema_model`, and whether `_bundle` is set, daso.py l.234-238. -/
structure SObj (W : Type) where
  /-- `_ema_model` -/
  ema : Option W
  /-- `_bundle is not None` -/
  fitted : Bool
deriving DecidableEq, Repr

/-- The averaged network at the start, daso.py l.338-345: the bundle's `ema_model` (`teacher`) or a copy of the model, with the state
of the model.  `same`: the bundle's `ema_model` is its `model`. -/
def startEma (N : SNet X W K) (P : Copying W K) (ema same : Bool) (w : W) (teacher : Option W) : Except PyErr (Option W) :=
  if ema = false then .ok none
  else
    match teacher with
    | none => .ok (some (N.eval (P.load w w)))
    | some t =>
      match checkTeacher same (P.params w) (P.params t) with
      | .error e => .error e
      | .ok _ => .ok (some (N.eval (P.load w t)))

/-- `fit`, daso.py l.240-562.  Returns object and network as they are afterwards, with or without an error; the bundle's `ema_model`,
if there is one, is then the network in the object. -/
def fit (G : TorchGen σ) (N : SNet X W K) (P : Copying W K) (T : Torch K) (sqrt : K → K) (torch : Bool) (cfg : SCfg K)
    (bundle : Option Bundle) (data : Option (Input X)) (seed : Int) (o : SObj W) (same : Bool) (w : W) (teacher : Option W) :
    (SObj W × W) × Except PyErr Unit :=
  match check torch cfg bundle data with
  | .error e => ((o, w), .error e)
  | .ok r =>
    match startEma N P cfg.ema same w teacher with
    | .error e => ((o, w), .error e)
    | .ok t =>
      match fitBatches G r.xl r.yl r.xw r.xs cfg.batchSize cfg.maxEpochs seed with
      | .error e => ((⟨t, o.fitted⟩, w), .error e)
      | .ok eps =>
        match runSteps (trainStep N P T sqrt cfg) (none, N.train w, t) eps.flatten with
        | (st, .error e) => ((⟨st.2.2, o.fitted⟩, st.2.1), .error e)
        | (st, .ok _) => ((⟨st.2.2, true⟩, st.2.1), .ok ())

end ModSSC.Deep.DasoFit
