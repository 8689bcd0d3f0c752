import Verif.Deep.FitModel
import Verif.Deep.EnsModel

/-!
# Consistency training: Pi-Model, Mean Teacher, Temporal Ensembling, VAT

Models the whole `fit` of `src/modssc/inductive/methods/pi_model.py`, `mean_teacher.py`, `temporal_ensembling.py` and
`vat.py`: the checks, the batches (`BatchModel`), the forward passes, the targets, the warm-up and the optimizer steps.

As in `FitModel` the network with its optimizer is a parameter, a state `W` that is changed in place, and the loss of a
step is handed to the optimizer as a description, here a `Goal`.  Batch norm freezing is part of the network; graph
dictionaries are not modelled.
-/

namespace ModSSC.Deep.Cons
open ModSSC ModSSC.Deep
open ModSSC.Deep.Fit (Out Feats Input Bundle Ready Batch)

variable {X W K S B σ τ : Type}

/-- What is compared with the target of an unlabeled sample. -/
inductive Kind where
  /-- squared distance of the prediction for the strong view, pi_model.py l.191-195, mean_teacher.py l.236-240 -/
  | strong
  /-- squared distance of the mean of the predictions for both views, temporal_ensembling.py l.209-211 and l.232 -/
  | both
  /-- divergence of the prediction for the perturbed sample, vat.py l.195-196 -/
  | divergence
deriving DecidableEq, Repr

/-- An unlabeled sample of a loss: weak view (VAT: the sample), strong view (VAT: the perturbed sample), target. -/
structure Pull (X K : Type) where
  /-- weak view -/
  weak : X
  /-- strong view -/
  strong : X
  /-- probabilities it is pulled to -/
  target : List K
deriving DecidableEq, Repr

/-- The loss of a step, e.g. pi_model.py l.190-198:
`Σ share * CE(x, y) + scale * mean over the unlabeled samples of the distance to the target`. -/
structure Goal (X K : Type) where
  /-- labeled rows, labels, weights -/
  labeled : List (X × Int × K)
  /-- unlabeled samples -/
  unlabeled : List (Pull X K)
  /-- the distance -/
  kind : Kind
  /-- gradients reach the targets (`detach_target=False`) -/
  attached : Bool
  /-- `lambda_u * warm` -/
  scale : K
deriving DecidableEq, Repr

/-- A network with its optimizer (external). -/
structure Net (X W K : Type) where
  /-- `model.train()` -/
  train : W → W
  /-- `extract_logits(model(x))` -/
  forward : W → List X → Out K × W
  /-- `optimizer.zero_grad(); loss.backward(); optimizer.step()` -/
  step : W → Goal X K → W

/-- The parameters the four have in common. -/
structure Cfg (K : Type) where
  /-- `batch_size` -/
  batchSize : Int
  /-- `max_epochs` -/
  maxEpochs : Int
  /-- `lambda_u` -/
  lambdaU : K
  /-- `unsup_warm_up` -/
  warmUp : Rat
  /-- `detach_target` -/
  detach : Bool

variable [Field K] [LinearOrder K]

/-- The checks shared with `FitModel`; positions in the pool go with the weak views.  `ranges` are the checks of further
parameters, pi_model.py l.85-135, mean_teacher.py l.112-172, temporal_ensembling.py l.87-143, vat.py l.217-271.  All
failures are `InductiveValidationError`. -/
def check (torch : Bool) (cfg : Cfg K) (ranges : Bool) (bundle : Option Bundle) (data : Option (Input X)) :
    Except PyErr (Ready X) :=
  Fit.check (fun n => .ok ((List.range n).map Int.ofNat)) torch
    ⟨cfg.batchSize, cfg.maxEpochs, cfg.lambdaU, 1, false, decide (0 ≤ cfg.warmUp) && ranges⟩ bundle data

/-- `total_steps`, pi_model.py l.137-140 (same in the others). -/
def totalSteps (r : Ready X) (cfg : Cfg K) : Nat :=
  cfg.maxEpochs.toNat *
    max (numBatches r.xl.length cfg.batchSize.toNat) (numBatches r.xw.length cfg.batchSize.toNat)

/-- The checks on the logits, pi_model.py l.182-188, mean_teacher.py l.228-233: those of the labeled rows are known to
have two axes; `shape[1]` of a tensor with one axis raises `IndexError`.  Temporal Ensembling also asks for two axes
of the others (`strict`), temporal_ensembling.py l.200-207. -/
def agree (strict : Bool) (y : List Int) (l v u : Out K) : Except PyErr Unit :=
  if strict = true ∧ (v.ndim ≠ 2 ∨ u.ndim ≠ 2) then .error .validation
  else if v.ndim ≠ u.ndim ∨ v.rows.length ≠ u.rows.length ∨ v.classes ≠ u.classes then .error .validation
  else if v.ndim < 2 then .error .indexError
  else if v.classes ≠ l.classes then .error .validation
  else if y.any (fun c => decide (c < 0 ∨ (l.classes : Int) ≤ c)) then .error .validation
  else .ok ()

/-- The loss of a step. -/
def goal (cfg : Cfg K) (total k : Nat) (kind : Kind) (attached : Bool) (s : Batch X) (strong : List X)
    (targets : List (List K)) : Goal X K :=
  ⟨(s.xl.zip s.yl).map fun p => (p.1, p.2, 1 / (s.yl.length : K)),
    List.zipWith (fun p t => ⟨p.1, p.2, t⟩) ((s.xw.map (·.1)).zip strong) targets, kind, attached,
    cfg.lambdaU * (warmFactor cfg.warmUp total k : K)⟩

/-- The steps one after the other; the first error ends the training. -/
def runSteps (f : S → B → S × Except PyErr Unit) : S → List B → S × Except PyErr Unit
  | st, [] => (st, .ok ())
  | st, s :: ss =>
    match f st s with
    | (st', .error e) => (st', .error e)
    | (st', .ok _) => runSteps f st' ss

/-! ## Pi-Model -/

/-- One step, pi_model.py l.166-213.  The state is the network with `step_idx`. -/
def piStep (N : Net X W K) (softmax : List K → List K) (cfg : Cfg K) (total : Nat) (st : W × Nat) (s : Batch X) :
    (W × Nat) × Except PyErr Unit :=
  let l := N.forward st.1 s.xl
  if l.1.ndim ≠ 2 then ((l.2, st.2), .error .validation)
  else
    let v := N.forward l.2 (s.xw.map (·.1))
    let u := N.forward v.2 s.xs
    match agree false s.yl l.1 v.1 u.1 with
    | .error e => ((u.2, st.2), .error e)
    | .ok _ =>
      ((N.step u.2 (goal cfg total st.2 .strong (!cfg.detach) s s.xs (v.1.rows.map softmax)), st.2 + 1), .ok ())

/-- `fit`, pi_model.py l.69-218.  Returns whether `_bundle` is set and the network, with or without an error. -/
def piFit (G : TorchGen σ) (N : Net X W K) (softmax : List K → List K) (torch : Bool) (cfg : Cfg K)
    (bundle : Option Bundle) (data : Option (Input X)) (seed : Int) (fitted : Bool) (w : W) :
    (Bool × W) × Except PyErr Unit :=
  match check torch cfg true bundle data with
  | .error e => ((fitted, w), .error e)
  | .ok r =>
    match fitBatches G r.xl r.yl r.xw r.xs cfg.batchSize cfg.maxEpochs seed with
    | .error e => ((fitted, w), .error e)
    | .ok eps =>
      match runSteps (piStep N softmax cfg (totalSteps r cfg)) (N.train w, 0) eps.flatten with
      | (st, .error e) => ((fitted, st.1), .error e)
      | (st, .ok _) => ((true, st.1), .ok ())

/-! ## Mean Teacher -/

/-- What Mean Teacher does with whole networks (external). -/
structure Copying (W K : Type) where
  /-- `list(model.parameters())`, each flattened -/
  params : W → List (List K)
  /-- `teacher.load_state_dict(student.state_dict())`: the teacher afterwards, mean_teacher.py l.83-89 -/
  load : W → W → W
  /-- `_update_teacher`: the teacher afterwards, mean_teacher.py l.91-93 -/
  average : K → W → W → W

/-- One step, mean_teacher.py l.206-260: the student sees labeled rows and strong views, the teacher the weak ones. -/
def mtStep (N : Net X W K) (P : Copying W K) (softmax : List K → List K) (cfg : Cfg K) (decay : K) (total : Nat)
    (st : (W × W) × Nat) (s : Batch X) : ((W × W) × Nat) × Except PyErr Unit :=
  let l := N.forward st.1.1 s.xl
  if l.1.ndim ≠ 2 then (((l.2, st.1.2), st.2), .error .validation)
  else
    let u := N.forward l.2 s.xs
    let v := N.forward st.1.2 (s.xw.map (·.1))
    match agree false s.yl l.1 v.1 u.1 with
    | .error e => (((u.2, v.2), st.2), .error e)
    | .ok _ =>
      let w := N.step u.2 (goal cfg total st.2 .strong false s s.xs (v.1.rows.map softmax))
      (((w, P.average decay v.2 w), st.2 + 1), .ok ())

/-- `fit`, mean_teacher.py l.95-265.  `same`: the bundle's `ema_model` is its `model`; `teacher` is `none` without
`ema_model`. -/
def mtFit (G : TorchGen σ) (N : Net X W K) (P : Copying W K) (softmax : List K → List K) (torch : Bool) (cfg : Cfg K)
    (decay : K) (bundle : Option Bundle) (data : Option (Input X)) (seed : Int) (fitted : Bool) (same : Bool) (w : W)
    (teacher : Option W) : (Bool × W × Option W) × Except PyErr Unit :=
  match teacher with
  | none => ((fitted, w, none), .error .validation)
  | some t =>
    match check torch cfg (decide (0 ≤ decay ∧ decay ≤ 1)) bundle data with
    | .error e => ((fitted, w, some t), .error e)
    | .ok r =>
      match checkTeacher same (P.params w) (P.params t) with
      | .error e => ((fitted, w, some t), .error e)
      | .ok _ =>
        match fitBatches G r.xl r.yl r.xw r.xs cfg.batchSize cfg.maxEpochs seed with
        | .error e => ((fitted, w, some t), .error e)
        | .ok eps =>
          match runSteps (mtStep N P softmax cfg decay (totalSteps r cfg)) ((N.train w, N.train (P.load w t)), 0)
              eps.flatten with
          | (st, .error e) => ((fitted, st.1.1, some st.1.2), .error e)
          | (st, .ok _) => ((true, st.1.1, some st.1.2), .ok ())

/-! ## Temporal Ensembling -/

/-- The state within `fit`. -/
structure Ens (W K : Type) where
  /-- the network -/
  w : W
  /-- `step_idx` -/
  k : Nat
  /-- `ensemble_predictions` -/
  ens : Option (List (List K))
  /-- `epoch_predictions` -/
  ep : List (List K)
  /-- `targets` -/
  targets : List (List K)

/-- The beginning of an epoch, temporal_ensembling.py l.161-168. -/
def ensStart (n : Nat) (alpha : K) (epoch : Nat) (st : Ens W K) : Ens W K :=
  match st.ens with
  | none => { st with ep := [], targets := [] }
  | some E =>
    { st with ep := List.replicate n (List.replicate (E.headD []).length 0), targets := teTargets alpha epoch E }

/-- The ensemble at the first step, temporal_ensembling.py l.213-222; `C` classes. -/
def ensInit (n C : Nat) (alpha : K) (epoch : Nat) (st : Ens W K) : Ens W K :=
  match st.ens with
  | some _ => st
  | none =>
    let Z := List.replicate n (List.replicate C 0)
    { st with ens := some Z, ep := Z, targets := teTargets alpha epoch Z }

/-- `prob_u`, temporal_ensembling.py l.209-211. -/
def meanRows (a b : List (List K)) : List (List K) := List.zipWith (List.zipWith fun x y => 1 / 2 * (x + y)) a b

/-- `epoch_predictions[idx_u] = prob_u`, temporal_ensembling.py l.252. -/
def writeRows (M : List (List K)) (idx : List Int) (rows : List (List K)) : List (List K) :=
  (idx.zip rows).foldl (fun m p => m.set p.1.toNat p.2) M

/-- One step, temporal_ensembling.py l.184-253.  The number of classes is taken not to change between steps. -/
def ensStep (N : Net X W K) (softmax : List K → List K) (cfg : Cfg K) (alpha : K) (n total epoch : Nat) (st : Ens W K)
    (s : Batch X) : Ens W K × Except PyErr Unit :=
  let l := N.forward st.w s.xl
  if l.1.ndim ≠ 2 then ({ st with w := l.2 }, .error .validation)
  else
    let v := N.forward l.2 (s.xw.map (·.1))
    let u := N.forward v.2 s.xs
    match agree true s.yl l.1 v.1 u.1 with
    | .error e => ({ st with w := u.2 }, .error e)
    | .ok _ =>
      let q := meanRows (v.1.rows.map softmax) (u.1.rows.map softmax)
      let st1 := ensInit n v.1.classes alpha epoch st
      let o := goal cfg total st.k .both false s s.xs (s.xw.map fun p => st1.targets.getD p.2.toNat [])
      ({ st1 with w := N.step u.2 o, k := st.k + 1, ep := writeRows st1.ep (s.xw.map (·.2)) q }, .ok ())

/-- The end of an epoch, temporal_ensembling.py l.255-260. -/
def ensFinish (alpha : K) (st : Ens W K) : Ens W K × Except PyErr Unit :=
  match st.ens with
  | none => (st, .error .validation)
  | some E => ({ st with ens := some (teBlend alpha E st.ep) }, .ok ())

/-- The epochs, temporal_ensembling.py l.160-260. -/
def ensEpochs (N : Net X W K) (softmax : List K → List K) (cfg : Cfg K) (alpha : K) (n total : Nat) :
    Nat → Ens W K → List (List (Batch X)) → Ens W K × Except PyErr Unit
  | _, st, [] => (st, .ok ())
  | epoch, st, ss :: rest =>
    match runSteps (ensStep N softmax cfg alpha n total epoch) (ensStart n alpha epoch st) ss with
    | (st1, .error e) => (st1, .error e)
    | (st1, .ok _) =>
      match ensFinish alpha st1 with
      | (st2, .error e) => (st2, .error e)
      | (st2, .ok _) => ensEpochs N softmax cfg alpha n total (epoch + 1) st2 rest

/-- `fit`, temporal_ensembling.py l.70-265. -/
def ensFit (G : TorchGen σ) (N : Net X W K) (softmax : List K → List K) (torch : Bool) (cfg : Cfg K) (alpha : K)
    (bundle : Option Bundle) (data : Option (Input X)) (seed : Int) (fitted : Bool) (w : W) :
    (Bool × W) × Except PyErr Unit :=
  match check torch cfg (decide (0 ≤ alpha ∧ alpha < 1)) bundle data with
  | .error e => ((fitted, w), .error e)
  | .ok r =>
    match fitBatches G r.xl r.yl r.xw r.xs cfg.batchSize cfg.maxEpochs seed with
    | .error e => ((fitted, w), .error e)
    | .ok eps =>
      match ensEpochs N softmax cfg alpha r.xw.length (totalSteps r cfg) 0 ⟨N.train w, 0, none, [], []⟩ eps with
      | (st, .error e) => ((fitted, st.w), .error e)
      | (st, .ok _) => ((true, st.w), .ok ())

/-! ## VAT -/

/-- The search for the perturbation (external, see `AdvModel.perturbation`), vat.py l.139-187: from the network, the
generator `gen_vat`, the samples and their probabilities; it runs the network, so that this changes too.  Fails if the
gradient does not reach the samples or the logits are not of two axes. -/
abbrev Attack (X W K τ : Type) := W → τ → List X → List (List K) → Except PyErr (List X) × W × τ

/-- `X_u = ds.X_u if ds.X_u is not None else ds.X_u_w`, vat.py l.227-229, as the two views of the shared checks.
`data` carries `X_u_w` in `xw`. -/
def vatInput (xu : Option (Feats X)) (d : Input X) : Input X :=
  match xu with
  | some x => { d with xw := some x, xs := some x }
  | none => { d with xs := d.xw }

/-- One step, vat.py l.306-348 with `_vat_loss`, l.109-196. -/
def vatStep (N : Net X W K) (A : Attack X W K τ) (softmax : List K → List K) (cfg : Cfg K) (total : Nat)
    (st : (W × τ) × Nat) (s : Batch X) : ((W × τ) × Nat) × Except PyErr Unit :=
  let l := N.forward st.1.1 s.xl
  if l.1.ndim ≠ 2 then (((l.2, st.1.2), st.2), .error .validation)
  else if s.yl.any (fun c => decide (c < 0 ∨ (l.1.classes : Int) ≤ c)) then (((l.2, st.1.2), st.2), .error .validation)
  else
    let v := N.forward l.2 (s.xw.map (·.1))
    if v.1.ndim ≠ 2 then (((v.2, st.1.2), st.2), .error .validation)
    else
      match A v.2 st.1.2 (s.xw.map (·.1)) (v.1.rows.map softmax) with
      | (.error e, g) => ((g, st.2), .error e)
      | (.ok adv, g) =>
        let u := N.forward g.1 adv
        if u.1.ndim ≠ 2 then (((u.2, g.2), st.2), .error .validation)
        else
          (((N.step u.2 (goal cfg total st.2 .divergence (!cfg.detach) s adv (v.1.rows.map softmax)), g.2), st.2 + 1),
            .ok ())

/-- `fit`, vat.py l.198-353.  `ranges`: `xi`, `eps` and `num_iters` are positive. -/
def vatFit (G : TorchGen σ) (H : TorchGen τ) (N : Net X W K) (A : Attack X W K τ) (softmax : List K → List K)
    (torch : Bool) (cfg : Cfg K) (ranges : Bool) (bundle : Option Bundle) (xu : Option (Feats X))
    (data : Option (Input X)) (seed : Int) (fitted : Bool) (w : W) : (Bool × W) × Except PyErr Unit :=
  match check torch cfg ranges bundle (data.map (vatInput xu)) with
  | .error e => ((fitted, w), .error e)
  | .ok r =>
    match fitBatches G r.xl r.yl r.xw r.xs cfg.batchSize cfg.maxEpochs seed with
    | .error e => ((fitted, w), .error e)
    | .ok eps =>
      match runSteps (vatStep N A softmax cfg (totalSteps r cfg)) ((N.train w, H.manualSeed (seed + 42)), 0)
          eps.flatten with
      | (st, .error e) => ((fitted, st.1.1), .error e)
      | (st, .ok _) => ((true, st.1.1), .ok ())

end ModSSC.Deep.Cons
