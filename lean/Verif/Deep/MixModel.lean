import Verif.Deep.FitModel
import Verif.Deep.EnsModel
import Verif.Deep.SharpModel

/-!
# MixMatch

Models the whole `fit` of `src/modssc/inductive/methods/mixmatch.py`: the checks, the batches, the guesses for the unlabeled
rows, MixUp (`EnsModel`), the loss and the step.  The generator of the labeled batches is also that of the permutations of
MixUp, so batches and steps are modelled together.

The network with its optimizer is a parameter, a state that is changed in place; the loss is handed to the optimizer as a
description.  Tensors are lists of rows of numbers; graph dictionaries are not modelled.
-/

namespace ModSSC.Deep.Mix
open ModSSC ModSSC.Deep
open ModSSC.Deep.Fit (Out Feats Input Bundle Ready)

variable {W K σ τ : Type}

/-- The loss of a step, mixmatch.py l.356-366: the mean cross entropy of the `labeled` rows with their targets, plus `scale`
times the mean squared error of the predictions for the `unlabeled` rows. -/
structure Goal (K : Type) where
  /-- the rows are features for the head of the network (`mixup_manifold`) -/
  manifold : Bool
  /-- mixed rows and targets that count as labeled -/
  labeled : List (List K × List K)
  /-- the others -/
  unlabeled : List (List K × List K)
  /-- `lambda_u * warm` -/
  scale : K
deriving DecidableEq, Repr

/-- A network with its optimizer (external). -/
structure Net (W K : Type) where
  /-- `model.train()` -/
  train : W → W
  /-- `extract_logits(model(x))` within `freeze_batchnorm` and without gradients, mixmatch.py l.314-316; whether batch norm is
  frozen depends on the sizes of the batch only -/
  glance : W → List (List K) → Out K × W
  /-- `extract_logits(model(x))` -/
  forward : W → List (List K) → Out K × W
  /-- `_forward_features`, mixmatch.py l.151-167 -/
  features : W → List (List K) → List (List K) × W
  /-- `extract_logits(_forward_head(x))`, mixmatch.py l.88-102 -/
  head : W → List (List K) → Out K × W
  /-- `optimizer.zero_grad(); loss.backward(); optimizer.step()` -/
  step : W → Goal K → W

/-- `MixMatchSpec`, mixmatch.py l.170-182; `freeze_bn` is part of `Net.glance`.  `manifold` also holds when the bundle prefers
it (l.105-109). -/
structure Cfg (K : Type) where
  /-- `lambda_u` -/
  lambdaU : K
  /-- `temperature` -/
  temperature : K
  /-- `mixup_alpha` -/
  alpha : K
  /-- `unsup_warm_up` -/
  warmUp : Rat
  /-- `mixup_manifold` -/
  manifold : Bool
  /-- `batch_size` -/
  batchSize : Int
  /-- `max_epochs` -/
  maxEpochs : Int

/-- Functions of torch on rows and the sampling of the Beta distribution from the global generator. -/
structure Torch (K τ : Type) where
  /-- `torch.softmax` -/
  softmax : List K → List K
  /-- power -/
  pow : K → K → K
  /-- `Beta(alpha, alpha).sample((n,))` -/
  beta : K → τ → Nat → List K × τ

/-- The state of the loop. -/
structure St (W σ τ : Type) where
  /-- the network -/
  w : W
  /-- `gen_l` -/
  gl : σ
  /-- batches `iter_l` still holds -/
  pl : List (List Nat)
  /-- `gen_u` -/
  gu : σ
  /-- batches `iter_u_idx` still holds -/
  pu : List (List Nat)
  /-- `step_idx` -/
  idx : Nat
  /-- torch's global generator -/
  rng : τ
deriving DecidableEq, Repr

variable [Field K] [LinearOrder K]

/-- The checks, mixmatch.py l.224-283, are those of `FitModel`; `Feats.float` is the answer of
`_ensure_mixmatch_tensor_input` (l.126-148). -/
def check (torch : Bool) (cfg : Cfg K) (bundle : Option Bundle) (data : Option (Input (List K))) :
    Except PyErr (Ready (List K)) :=
  Fit.check (fun n => .ok ((List.range n).map Int.ofNat)) torch
    ⟨cfg.batchSize, cfg.maxEpochs, cfg.lambdaU, cfg.temperature, false, decide (0 ≤ cfg.alpha) && decide (0 ≤ cfg.warmUp)⟩
    bundle data

/-- `steps_per_epoch`, mixmatch.py l.285-287. -/
def stepsPerEpoch (r : Ready (List K)) (cfg : Cfg K) : Nat :=
  max (numBatches r.xl.length cfg.batchSize.toNat) (numBatches r.xw.length cfg.batchSize.toNat)

/-- The mean of two rows, mixmatch.py l.323. -/
def meanRow (a b : List K) : List K := List.zipWith (fun x y => (x + y) / 2) a b

/-- The guesses, mixmatch.py l.318-330, from the logits of both views; with them the number of classes. -/
def guesses (T : Torch K τ) (cfg : Cfg K) (y : List Int) (a b : Out K) : Except PyErr (List (List K)) :=
  if a.ndim ≠ b.ndim ∨ a.rows.length ≠ b.rows.length ∨ a.classes ≠ b.classes then .error .validation
  else if a.ndim ≠ 2 then .error .validation
  else
    match sharpen T.pow cfg.temperature (List.zipWith meanRow (a.rows.map T.softmax) (b.rows.map T.softmax)) with
    | .error e => .error e
    | .ok p => if y.any (fun c => decide (c < 0 ∨ (a.classes : Int) ≤ c)) then .error .validation else .ok p

/-- What is mixed, mixmatch.py l.336-347: the rows of the batch or their features. -/
def inputs (N : Net W K) (manifold : Bool) (w : W) (xl xw xs : List (List K)) : List (List K) × W :=
  if manifold then
    let l := N.features w xl
    let u := N.features l.2 xw
    let v := N.features u.2 xs
    (l.1 ++ u.1 ++ v.1, v.2)
  else (xl ++ xw ++ xs, w)

/-- One step with the rows of its batch, mixmatch.py l.308-378; `gl` is `gen_l` after the labeled batch.  Wrong shapes of the
logits of the mixed rows make torch raise a `RuntimeError` (broadcasting of single classes is not modelled). -/
def learn (G : TorchGen σ) (N : Net W K) (T : Torch K τ) (cfg : Cfg K) (total : Nat) (st : St W σ τ)
    (xl : List (List K)) (yl : List Int) (xw xs : List (List K)) : St W σ τ × Except PyErr Unit :=
  let a := N.glance st.w xw
  let b := N.glance a.2 xs
  match guesses T cfg yl a.1 b.1 with
  | .error e => ({ st with w := b.2 }, .error e)
  | .ok p =>
    let i := inputs N cfg.manifold b.2 xl xw xs
    match mixup G T.beta cfg.alpha i.1 (mixTargets a.1.classes (yl.map Int.toNat) p) st.gl st.rng with
    | .error e => ({ st with w := i.2 }, .error e)
    | .ok m =>
      let o := if cfg.manifold then N.head i.2 m.1.1 else N.forward i.2 m.1.1
      let st := { st with w := o.2, gl := m.2.1, rng := m.2.2 }
      if o.1.ndim ≠ 2 then (st, .error .validation)
      else if o.1.rows.length ≠ m.1.1.length ∨ o.1.classes ≠ a.1.classes then (st, .error .runtimeError)
      else
        ({ st with
            w := N.step st.w ⟨cfg.manifold, (m.1.1.zip m.1.2).take xl.length, (m.1.1.zip m.1.2).drop xl.length,
              cfg.lambdaU * (warmFactor cfg.warmUp total st.idx : K)⟩
            idx := st.idx + 1 }, .ok ())

/-- The rows of one batch: the rows and labels at the positions of the labeled one, both views at those of the other,
mixmatch.py l.304-306. -/
def rowsOf (r : Ready (List K)) (l u : List Nat) :
    Except PyErr (List (List K) × List Int × List (List K) × List (List K)) := do
  let p ← takePair r.xl r.yl l
  let w ← takeRows (r.xw.map (·.1)) u
  let s ← takeRows r.xs u
  pure (p.1, p.2, w, s)

/-- One round of the loop, mixmatch.py l.304-378: the next batches, then the step. -/
def round (G : TorchGen σ) (N : Net W K) (T : Torch K τ) (cfg : Cfg K) (r : Ready (List K)) (total : Nat) (st : St W σ τ) :
    St W σ τ × Except PyErr Unit :=
  match cycleNext G r.xl.length cfg.batchSize.toNat st.pl st.gl with
  | .error e => (st, .error e)
  | .ok l =>
    match cycleNext G r.xw.length cfg.batchSize.toNat st.pu st.gu with
    | .error e => ({ st with pl := l.2.1, gl := l.2.2 }, .error e)
    | .ok u =>
      let st := { st with pl := l.2.1, gl := l.2.2, pu := u.2.1, gu := u.2.2 }
      match rowsOf r l.1 u.1 with
      | .error e => (st, .error e)
      | .ok b => learn G N T cfg total st b.1 b.2.1 b.2.2.1 b.2.2.2

/-- `n` rounds; the first error ends the training. -/
def rounds {S : Type} (f : S → S × Except PyErr Unit) : Nat → S → S × Except PyErr Unit
  | 0, st => (st, .ok ())
  | n + 1, st =>
    match f st with
    | (st', .error e) => (st', .error e)
    | (st', .ok _) => rounds f n st'

/-- One epoch, mixmatch.py l.290-378: new iterators, which have drawn nothing yet, with the old generators. -/
def epoch (G : TorchGen σ) (N : Net W K) (T : Torch K τ) (cfg : Cfg K) (r : Ready (List K)) (st : St W σ τ) :
    St W σ τ × Except PyErr Unit :=
  rounds (round G N T cfg r (cfg.maxEpochs.toNat * stepsPerEpoch r cfg)) (stepsPerEpoch r cfg) { st with pl := [], pu := [] }

/-- `fit`, mixmatch.py l.206-383.  Returns whether the bundle is set, the network and torch's global generator, with or
without an error. -/
def fit (G : TorchGen σ) (N : Net W K) (T : Torch K τ) (torch : Bool) (cfg : Cfg K) (bundle : Option Bundle)
    (data : Option (Input (List K))) (seed : Int) (fitted : Bool) (w : W) (rng : τ) : (Bool × W × τ) × Except PyErr Unit :=
  match check torch cfg bundle data with
  | .error e => ((fitted, w, rng), .error e)
  | .ok r =>
    match rounds (epoch G N T cfg r) cfg.maxEpochs.toNat
        ⟨N.train w, G.manualSeed seed, [], G.manualSeed (seed + 1), [], 0, rng⟩ with
    | (st, .error e) => ((fitted, st.w, st.rng), .error e)
    | (st, .ok _) => ((true, st.w, st.rng), .ok ())

end ModSSC.Deep.Mix
