import Verif.Deep.BatchModel
import Verif.Deep.SharpModel
import Verif.Deep.FlexModel
import Verif.Deep.EmaModel
import Verif.Deep.LossModel

/-!
# Training with pseudo-labels: FixMatch, FlexMatch, FreeMatch, SoftMatch, AdaMatch, UDA

Models the whole `fit` of `src/modssc/inductive/methods/fixmatch.py`, `flexmatch.py`, `free_match.py`, `softmatch.py`,
`adamatch.py` and `uda.py`: the checks, the batches (`BatchModel`), the forward passes, the choice of pseudo-labels and
weights, and the optimizer steps.  The six share everything but the choice of pseudo-labels, which is a `Rule`.

The network with its optimizer is a parameter: a state `W` that is changed in place (parameters, batch norm, dropout),
so that what a failed `fit` leaves behind is visible.  The loss of a step is passed to the optimizer as a description,
the `Objective`: which rows with which targets and weights.  Tensors are lists of rows; graph dictionaries are not
modelled here.
-/

namespace ModSSC.Deep.Fit
open ModSSC

variable {X W K A σ : Type}

/-- A tensor of logits: `ndim`, the size of the last axis, and (for two axes) the rows. -/
structure Out (K : Type) where
  /-- number of axes -/
  ndim : Nat
  /-- `shape[1]` -/
  classes : Nat
  /-- the rows -/
  rows : List (List K)
deriving DecidableEq, Repr

/-- The target of an unlabeled row: a class or a distribution. -/
inductive Target (K : Type) where
  /-- `cross_entropy(logits_us, pseudo)` -/
  | hard (c : Nat)
  /-- `-(pseudo_soft * log_probs).sum(dim=1)` -/
  | soft (p : List K)
deriving DecidableEq, Repr

/-- An unlabeled row of a loss: weak view, strong view, target of the strong view, weight. -/
structure Term (X K : Type) where
  /-- the weak view -/
  weak : X
  /-- the strong view -/
  strong : X
  /-- its target -/
  target : Target K
  /-- its weight in the mean -/
  weight : K
deriving DecidableEq, Repr

/-- The entropy term of FreeMatch (free_match.py l.301-303): its rows and the two distributions. -/
structure Fairness (X K : Type) where
  /-- `lambda_e` -/
  scale : K
  /-- the strong views with confident pseudo-labels -/
  rows : List X
  /-- `_label_hist` -/
  hist : List K
  /-- `_p_model` -/
  model : List K
deriving DecidableEq, Repr

/-- The loss of a step, e.g. fixmatch.py l.204-235:
`Σ share * CE(x, y) + scale * Σ weight * loss(strong, target) (+ fairness)`. -/
structure Objective (X K : Type) where
  /-- labeled rows, labels, weights -/
  labeled : List (X × Int × K)
  /-- unlabeled rows -/
  unlabeled : List (Term X K)
  /-- `lambda_u` -/
  scale : K
  /-- FreeMatch only -/
  fairness : Option (Fairness X K)
deriving DecidableEq, Repr

/-- A network with its optimizer (external). -/
structure Net (X W K : Type) where
  /-- `model.train()` -/
  train : W → W
  /-- `extract_logits(model(x))` -/
  forward : W → List X → Out K × W
  /-- `optimizer.zero_grad(); loss.backward(); optimizer.step()` -/
  step : W → Objective X K → W

/-- What the choice of pseudo-labels sees of a step. -/
structure Seen (K : Type) where
  /-- number of classes -/
  classes : Nat
  /-- logits of the labeled rows -/
  labeled : List (List K)
  /-- their labels -/
  labels : List Int
  /-- logits of the weak views -/
  weak : List (List K)
  /-- positions of the unlabeled rows in the pool (`idx_global`) -/
  idx : List Int

/-- What it decides: weights of the labeled rows, targets and weights of the strong views; for FreeMatch also the
fairness term (scale, which rows, histogram, average prediction). -/
structure Said (K : Type) where
  /-- weight of each labeled row -/
  share : List K
  /-- target of each unlabeled row -/
  targets : List (Target K)
  /-- weight of each unlabeled row -/
  weights : List K
  /-- FreeMatch only -/
  fairness : Option (K × List Bool × List K × List K)
deriving DecidableEq, Repr

/-- The part of a method that differs.  `A` is its state, kept in the object. -/
structure Rule (A K : Type) where
  /-- the state at the start of `fit` -/
  start : A → A
  /-- one step: the new state, which stays even if the step fails, and the decision -/
  apply : A → Seen K → A × Except PyErr (Said K)

/-- A tensor of features: rows and whether its dtype is float32 or float64. -/
structure Feats (X : Type) where
  /-- rows -/
  rows : List X
  /-- dtype accepted by `ensure_float_tensor`, torch_support.py l.165-183 -/
  float : Bool

/-- A dataset after `ensure_torch_data` (see `Verif.Inductive.AdaptModel`). -/
structure Input (X : Type) where
  /-- `X_l` -/
  xl : Feats X
  /-- `y_l` -/
  yl : List Int
  /-- `y_l.ndim` -/
  yDims : Nat
  /-- `y_l.dtype == torch.int64` -/
  yInt64 : Bool
  /-- `X_u_w` -/
  xw : Option (Feats X)
  /-- `X_u_s` -/
  xs : Option (Feats X)

/-- `spec.model_bundle`: whether `validate_torch_model_bundle` (inductive/deep/validation.py l.9-36) and
`ensure_model_device` (torch_support.py l.19-28) accept it. -/
structure Bundle where
  /-- a model with parameters and an optimizer of these parameters -/
  valid : Bool
  /-- all parameters on the device of the data -/
  placed : Bool

/-- The parameters all six have. -/
structure Cfg (K : Type) where
  /-- `batch_size` -/
  batchSize : Int
  /-- `max_epochs` -/
  maxEpochs : Int
  /-- `lambda_u` -/
  lambdaU : K
  /-- `temperature` -/
  temperature : K
  /-- `use_cat` -/
  cat : Bool
  /-- the other parameters are in their ranges -/
  ranges : Bool

/-- The rows `fit` works with. -/
structure Ready (X : Type) where
  /-- `X_l` -/
  xl : List X
  /-- `y_l` -/
  yl : List Int
  /-- `X_u_w` with `idx_u_all` -/
  xw : List (X × Int)
  /-- `X_u_s` -/
  xs : List X

/-- `meta.idx_u` of the unlabeled rows: FlexMatch asks for it (`_get_idx_u`, flexmatch.py l.105-150, see `poolSize`),
the others do not use it. -/
abbrev Index := Nat → Except PyErr (List Int)

variable [Field K] [LinearOrder K]

/-- Everything `fit` checks before it touches the network, fixmatch.py l.92-145, flexmatch.py l.173-230, free_match.py
l.157-212, softmatch.py l.165-220, adamatch.py l.112-182, uda.py l.106-159.  `torch` says whether `detect_backend`
answers "torch".  All failures are `InductiveValidationError`; the checks of `ensure_1d_labels_torch`
(classifier_bridge.py l.91-107) on dtypes are subsumed by the one on int64.  That `X_l` and `y_l` have equally many rows
is checked by `ensure_torch_data`. -/
def check (index : Index) (torch : Bool) (cfg : Cfg K) (bundle : Option Bundle) (data : Option (Input X)) :
    Except PyErr (Ready X) :=
  match data with
  | none => .error .validation
  | some d =>
    if torch = false then .error .validation
    else if d.xl.rows.length ≠ d.yl.length then .error .validation
    else
      match d.xw, d.xs with
      | some xw, some xs =>
        if d.yDims ≠ 1 ∨ d.yl.length = 0 then .error .validation
        else if d.xl.rows.length = 0 then .error .validation
        else if xw.rows.length = 0 ∨ xs.rows.length = 0 then .error .validation
        else if xw.rows.length ≠ xs.rows.length then .error .validation
        else if d.xl.float = false ∨ xw.float = false ∨ xs.float = false then .error .validation
        else if d.yInt64 = false then .error .validation
        else
          match bundle with
          | none => .error .validation
          | some b =>
            if b.valid = false ∨ b.placed = false then .error .validation
            else if cfg.batchSize ≤ 0 ∨ cfg.maxEpochs ≤ 0 ∨ cfg.lambdaU < 0 ∨ cfg.ranges = false ∨
                cfg.temperature ≤ 0 then .error .validation
            else
              match index xw.rows.length with
              | .error e => .error e
              | .ok idx => .ok ⟨d.xl.rows, d.yl, xw.rows.zip idx, xs.rows⟩
      | _, _ => .error .validation

/-- One batch: labeled rows, labels, weak views with positions, strong views. -/
abbrev Batch (X : Type) := Step X Int (X × Int) X

/-- `logits[a:b]`. -/
def Out.slice (o : Out K) (a n : Nat) : Out K := ⟨o.ndim, o.classes, (o.rows.drop a).take n⟩

/-- The forward passes, fixmatch.py l.174-194 (same in the others): one pass over the concatenated rows, or three, in
the order labeled, strong, weak. -/
def look (N : Net X W K) (cat : Bool) (w : W) (s : Batch X) : Except PyErr (Out K × Out K × Out K) × W :=
  if cat then
    let r := N.forward w (s.xl ++ s.xw.map (·.1) ++ s.xs)
    if r.1.ndim ≠ 2 then (.error .validation, r.2)
    else if r.1.rows.length ≠ s.xl.length + s.xw.length + s.xs.length then (.error .validation, r.2)
    else
      (.ok (r.1.slice 0 s.xl.length, r.1.slice s.xl.length s.xw.length,
        r.1.slice (s.xl.length + s.xw.length) s.xs.length), r.2)
  else
    let l := N.forward w s.xl
    let u := N.forward l.2 s.xs
    let v := N.forward u.2 (s.xw.map (·.1))
    (.ok (l.1, v.1, u.1), v.2)

/-- The checks on the logits, fixmatch.py l.195-202: `l`, `v`, `u` are those of the labeled rows, weak and strong
views. -/
def agree (y : List Int) (l v u : Out K) : Except PyErr Unit :=
  if l.ndim ≠ 2 ∨ v.ndim ≠ 2 ∨ u.ndim ≠ 2 then .error .validation
  else if v.rows.length ≠ u.rows.length ∨ v.classes ≠ u.classes then .error .validation
  else if v.classes ≠ l.classes then .error .validation
  else if y.any (fun c => decide (c < 0 ∨ (l.classes : Int) ≤ c)) then .error .validation
  else .ok ()

/-- The loss of a step as handed to the optimizer. -/
def objective (scale : K) (s : Batch X) (d : Said K) : Objective X K :=
  ⟨List.zipWith (fun p k => (p.1, p.2, k)) (s.xl.zip s.yl) d.share,
    List.zipWith (fun p q => ⟨p.1, p.2, q.1, q.2⟩) ((s.xw.map (·.1)).zip s.xs) (d.targets.zip d.weights), scale,
    d.fairness.map fun f => ⟨f.1, ((s.xs.zip f.2.1).filter (·.2)).map (·.1), f.2.2.1, f.2.2.2⟩⟩

/-- One training step, fixmatch.py l.170-239 (same skeleton in the others). -/
def trainStep (N : Net X W K) (R : Rule A K) (cat : Bool) (scale : K) (st : A × W) (s : Batch X) :
    (A × W) × Except PyErr Unit :=
  match look N cat st.2 s with
  | (.error e, w) => ((st.1, w), .error e)
  | (.ok o, w) =>
    match agree s.yl o.1 o.2.1 o.2.2 with
    | .error e => ((st.1, w), .error e)
    | .ok _ =>
      match R.apply st.1 ⟨o.1.classes, o.1.rows, s.yl, o.2.1.rows, s.xw.map (·.2)⟩ with
      | (a, .error e) => ((a, w), .error e)
      | (a, .ok d) => ((a, N.step w (objective scale s d)), .ok ())

/-- The steps of all epochs; the first error ends the training. -/
def trainSteps (N : Net X W K) (R : Rule A K) (cat : Bool) (scale : K) :
    A × W → List (Batch X) → (A × W) × Except PyErr Unit
  | st, [] => (st, .ok ())
  | st, s :: ss =>
    match trainStep N R cat scale st s with
    | (st', .error e) => (st', .error e)
    | (st', .ok _) => trainSteps N R cat scale st' ss

/-- The method object: its state and whether `_bundle` is set. -/
structure Obj (A : Type) where
  /-- thresholds and averages -/
  aux : A
  /-- `_bundle is not None` -/
  fitted : Bool
deriving DecidableEq, Repr

/-- `fit`, fixmatch.py l.74-244, flexmatch.py l.153-345, free_match.py l.135-334, softmatch.py l.142-351, adamatch.py
l.93-318, uda.py l.88-281.  Returns object and network as they are afterwards, with or without an error. -/
def fit (G : TorchGen σ) (N : Net X W K) (R : Rule A K) (index : Index) (torch : Bool) (cfg : Cfg K)
    (bundle : Option Bundle) (data : Option (Input X)) (seed : Int) (o : Obj A) (w : W) :
    (Obj A × W) × Except PyErr Unit :=
  match check index torch cfg bundle data with
  | .error e => ((o, w), .error e)
  | .ok r =>
    match fitBatches G r.xl r.yl r.xw r.xs cfg.batchSize cfg.maxEpochs seed with
    | .error e => ((o, w), .error e)
    | .ok eps =>
      match trainSteps N R cfg.cat cfg.lambdaU (R.start o.aux, N.train w) eps.flatten with
      | (st, .error e) => ((⟨st.1, o.fitted⟩, st.2), .error e)
      | (st, .ok _) => ((⟨st.1, true⟩, st.2), .ok ())

/-! ## The six rules -/

/-- What torch provides. -/
structure Torch (K : Type) where
  /-- `softmax` of a row -/
  softmax : List K → List K
  /-- `pow` -/
  pow : K → K → K
  /-- `argmax` of a row -/
  argmax : List K → Nat
  /-- `exp` -/
  exp : K → K
  /-- `torch.quantile(_, 0.8)` -/
  quantile : List K → K

/-- Mean over the labeled batch. -/
def evenly (n : Nat) : List K := List.replicate n (1 / (n : K))

/-- `(loss_u * mask).sum() / mask.sum().clamp_min(1.0)`. -/
def normed (m : List K) : List K := m.map (· / max m.sum 1)

/-- A mask as numbers. -/
def ofMask (m : List Bool) : List K := m.map fun b => if b then 1 else 0

/-- Hard or soft pseudo-labels, fixmatch.py l.211-216. -/
def targetsOf (T : Torch K) (hard : Bool) (soft : List (List K)) : List (Target K) :=
  soft.map fun p => if hard then .hard (T.argmax p) else .soft p

/-- FixMatch, fixmatch.py l.204-222. -/
def fixDecide (T : Torch K) (cutoff temp : K) (hard : Bool) (s : Seen K) : Except PyErr (Said K) := do
  let probs := s.weak.map T.softmax
  let soft ← sharpen T.pow temp probs
  .ok ⟨evenly s.labels.length, targetsOf T hard soft, normed (maskOf cutoff probs), none⟩

/-- The rule of FixMatch: no state. -/
def fixmatch (T : Torch K) (cutoff temp : K) (hard : Bool) : Rule Unit K :=
  ⟨id, fun _ s => ((), fixDecide T cutoff temp hard s)⟩

/-- The predictions as FlexMatch sees them, flexmatch.py l.257, l.300-301. -/
def flexPreds (T : Torch K) (s : Seen K) : List (FlexPred K) :=
  List.zipWith (fun (i : Int) p => ⟨i, rowMax p, T.argmax p⟩) s.idx (s.weak.map T.softmax)

/-- FlexMatch, flexmatch.py l.290-333; `pool` is `_ulb_size`. -/
def flexApply (T : Torch K) (cutoff temp : K) (hard warmup : Bool) (pool : Nat) (a : Option (FlexState K)) (s : Seen K) :
    Option (FlexState K) × Except PyErr (Said K) :=
  let cfg : FlexCfg K := ⟨cutoff, warmup, s.classes⟩
  let st := a.getD (flexInit cfg pool)
  match flexStep cfg st (flexPreds T s) with
  | .error e => (some st, .error e)
  | .ok (mask, st') =>
    (some st', do
      let soft ← sharpen T.pow temp (s.weak.map T.softmax)
      .ok ⟨evenly s.labels.length, targetsOf T hard soft, normed (ofMask mask), none⟩)

/-- The rule of FlexMatch: the state is kept from an earlier `fit`. -/
def flexmatch (T : Torch K) (cutoff temp : K) (hard warmup : Bool) (pool : Nat) : Rule (Option (FlexState K)) K :=
  ⟨id, flexApply T cutoff temp hard warmup pool⟩

/-- FreeMatch, free_match.py l.271-305. -/
def freeApply (T : Torch K) (m temp lambdaE : K) (quant clip hard : Bool) (a : Option (FreeState K)) (s : Seen K) :
    Option (FreeState K) × Except PyErr (Said K) :=
  let cfg : FreeCfg K := ⟨m, quant, clip, s.classes⟩
  let probs := s.weak.map T.softmax
  let r := freeStep T.quantile T.argmax cfg (a.getD (freeInit s.classes)) probs
  (some r.2, do
    let soft ← sharpen T.pow temp probs
    .ok ⟨evenly s.labels.length, targetsOf T hard soft, normed (ofMask r.1),
      if r.1.any id then some (lambdaE, r.1, r.2.hist, r.2.pModel) else none⟩)

/-- The rule of FreeMatch. -/
def freematch (T : Torch K) (m temp lambdaE : K) (quant clip hard : Bool) : Rule (Option (FreeState K)) K :=
  ⟨id, freeApply T m temp lambdaE quant clip hard⟩

/-- AdaMatch, adamatch.py l.271-293. -/
def adaApply (T : Torch K) (m cutoff temp : K) (hard : Bool) (a : Option (AlignState K)) (s : Seen K) :
    Option (AlignState K) × Except PyErr (Said K) :=
  let probsL := s.labeled.map T.softmax
  let r := alignStep false m s.classes (a.getD (alignInit s.classes)) (s.weak.map T.softmax) probsL
  (some r.2, do
    let soft ← sharpen T.pow temp r.1
    .ok ⟨evenly s.labels.length, targetsOf T hard soft, normed (ofMask (adaMask cutoff r.1 probsL)), none⟩)

/-- The rule of AdaMatch. -/
def adamatch (T : Torch K) (m cutoff temp : K) (hard : Bool) : Rule (Option (AlignState K)) K :=
  ⟨id, adaApply T m cutoff temp hard⟩

/-- Parameters of SoftMatch. -/
structure SoftCfg (K : Type) where
  /-- `ema_p` -/
  m : K
  /-- `n_sigma` -/
  nSigma : K
  /-- `per_class` -/
  perClass : Bool
  /-- `dist_align` -/
  align : Bool
  /-- `dist_uniform` -/
  uniform : Bool

/-- `_dist_align`, softmatch.py l.83-102. -/
def softAlign (c : SoftCfg K) (classes : Nat) (a : Option (AlignState K)) (probsU probsL : List (List K)) :
    List (List K) × Option (AlignState K) :=
  if c.align then
    let r := alignStep c.uniform c.m classes (a.getD (alignInit classes)) probsU probsL
    (r.1, some r.2)
  else (probsU, a)

/-- `_init_stats` and `_update_stats`, softmatch.py l.104-140, l.287-289: one pair of mean and variance, or one per
class. -/
def softStats (c : SoftCfg K) (T : Torch K) (classes : Nat) (a : Option (List (K × K))) (probs : List (List K)) :
    List (K × K) :=
  if c.perClass then
    let old := a.getD (List.replicate classes (softInit classes))
    softUpdateClass c.m old.length old (probs.map fun p => (rowMax p, T.argmax p))
  else [softUpdate c.m ((a.getD [softInit classes]).headD (softInit classes)) (probs.map rowMax)]

/-- The weights, softmatch.py l.292-301. -/
def softWeights (c : SoftCfg K) (T : Torch K) (st : List (K × K)) (probs : List (List K)) : List K :=
  probs.map fun p =>
    softWeight T.exp c.nSigma (if c.perClass then st.getD (T.argmax p) (0, 0) else st.headD (0, 0)) (rowMax p)

/-- SoftMatch, softmatch.py l.279-313: weights from the aligned predictions, targets from the raw ones. -/
def softApply (T : Torch K) (c : SoftCfg K) (temp : K) (hard : Bool)
    (a : Option (AlignState K) × Option (List (K × K))) (s : Seen K) :
    (Option (AlignState K) × Option (List (K × K))) × Except PyErr (Said K) :=
  let raw := s.weak.map T.softmax
  let r := softAlign c s.classes a.1 raw (s.labeled.map T.softmax)
  let st := softStats c T s.classes a.2 r.1
  ((r.2, some st), do
    let soft ← sharpen T.pow temp raw
    .ok ⟨evenly s.labels.length, targetsOf T hard soft, normed (softWeights c T st r.1), none⟩)

/-- The rule of SoftMatch. -/
def softmatch (T : Torch K) (c : SoftCfg K) (temp : K) (hard : Bool) :
    Rule (Option (AlignState K) × Option (List (K × K))) K :=
  ⟨id, softApply T c temp hard⟩

/-- Weights of the labeled rows under training signal annealing, uda.py l.220-233: the mean over the batch, counting only
rows whose true class is not predicted too well yet. -/
def tsaShare (T : Torch K) (schedule : String) (step total : Nat) (s : Seen K) : Except PyErr (List K) :=
  if schedule = "none" then .ok (evenly s.labels.length)
  else do
    let t ← tsaThreshold T.exp schedule step total s.classes
    .ok (List.zipWith (fun l (y : Int) =>
      if (T.softmax l).getD y.toNat 0 < t then 1 / (s.labels.length : K) else 0) s.labeled s.labels)

/-- `unsup_loss = (kl * mask).sum() / mask.sum()`, nothing if no row is confident, uda.py l.244-247. -/
def strictNormed (m : List K) : List K := if m.sum = 0 then m.map fun _ => 0 else m.map (· / m.sum)

/-- UDA, uda.py l.220-247: targets are the predictions at the temperature.  The divergence from a fixed target differs
from the cross entropy by a constant. -/
def udaApply (T : Torch K) (cutoff temp : K) (schedule : String) (total : Nat) (a : Nat) (s : Seen K) :
    Nat × Except PyErr (Said K) :=
  match tsaShare T schedule a total s with
  | .error e => (a, .error e)
  | .ok share =>
    let probs := s.weak.map fun l => T.softmax (l.map (· / temp))
    (a + 1, .ok ⟨share, probs.map .soft, strictNormed (maskOf cutoff probs), none⟩)

/-- The rule of UDA: the state is the step number, counted from 0 in each `fit`; `total` is the number of steps. -/
def uda (T : Torch K) (cutoff temp : K) (schedule : String) (total : Nat) : Rule Nat K :=
  ⟨fun _ => 0, udaApply T cutoff temp schedule total⟩

end ModSSC.Deep.Fit
