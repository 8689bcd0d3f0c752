import Verif.Deep.FitModel
import Verif.Deep.MplModel
import Verif.Deep.ConsModel
import Verif.Deep.AdvModel

/-!
# Deep Co-Training

Models the whole `fit` of `src/modssc/inductive/methods/deep_co_training.py`: the checks, the batches (each network has
labeled batches of its own, both see the same unlabeled ones), the adversarial rows, the forward passes, the loss and the
common step of both optimizers.  The losses as numbers and `predict_proba` are in `AdvModel`.

Both networks with their optimizers are parameters, states that are changed in place; the loss is handed to the optimizers
as a description.  Tensors are lists of rows of numbers; graph dictionaries are not modelled.
-/

namespace ModSSC.Deep.Dct
open ModSSC ModSSC.Deep
open ModSSC.Deep.Fit (Out Feats Bundle)

variable {W1 W2 K σ : Type}

/-- A dataset after `ensure_torch_data` (see `Verif.Inductive.AdaptModel`). -/
structure Input (K : Type) where
  /-- `X_l` -/
  xl : Feats (List K)
  /-- `y_l` -/
  yl : List Int
  /-- `y_l.ndim` -/
  yDims : Nat
  /-- `y_l.dtype == torch.int64` -/
  yInt64 : Bool
  /-- `X_u` -/
  xu : Option (Feats (List K))
  /-- `X_u_w` -/
  xuw : Option (Feats (List K))

/-- `DeepCoTrainingSpec`, deep_co_training.py l.157-171; `freeze_bn` is part of `Net.probe`. -/
structure Cfg (K : Type) where
  /-- `lambda_cot` -/
  lambdaCot : K
  /-- `lambda_dif` -/
  lambdaDif : K
  /-- `adv_eps` -/
  eps : K
  /-- `batch_size` -/
  batchSize : Int
  /-- `max_epochs` -/
  maxEpochs : Int
  /-- `detach_target` -/
  detach : Bool
  /-- `adv_clip_min` -/
  clipMin : Option K
  /-- `adv_clip_max` -/
  clipMax : Option K

/-- A network (external). -/
structure Net (W K : Type) where
  /-- `model.train()` -/
  train : W → W
  /-- `extract_logits(model(x))` -/
  forward : W → List (List K) → Out K × W
  /-- the same within `freeze_batchnorm(model, enabled=freeze_bn)`, deep_co_training.py l.101-102 -/
  probe : W → List (List K) → Out K × W
  /-- the gradient of `cross_entropy(logits, targets)` with respect to the rows, deep_co_training.py l.126-128 -/
  grad : W → List (List K) → List Nat → Option (List (List K))

/-- The loss of a step, deep_co_training.py l.427-472: the mean cross entropy of network 1 on `sup1`, of network 2 on `sup2`;
`cotScale` times the mean divergence of both networks on `cot`; `difScale` times the mean cross entropy of network 2 on the
rows of `dif2` with their targets and that of network 1 on `dif1`. -/
structure Goal (K : Type) where
  /-- labeled rows of network 1 -/
  sup1 : List (List K × Int)
  /-- labeled rows of network 2 -/
  sup2 : List (List K × Int)
  /-- rows both should agree on -/
  cot : List (List K)
  /-- weight of the agreement; nothing if it is not added -/
  cotScale : Option K
  /-- rows for network 2, targets by network 1 -/
  dif2 : List (List K × List K)
  /-- rows for network 1, targets by network 2 -/
  dif1 : List (List K × List K)
  /-- weight of these; nothing if they are not added -/
  difScale : Option K
  /-- gradients reach the targets (`detach_target=False`) -/
  attached : Bool
deriving DecidableEq, Repr

/-- The two networks with their optimizers; `step` is deep_co_training.py l.474-478: both gradients are set to zero, the loss
is differentiated, and both optimizers make a step. -/
structure Pair (W1 W2 K : Type) where
  /-- the first network -/
  one : Net W1 K
  /-- the second network -/
  two : Net W2 K
  /-- the step of both -/
  step : W1 × W2 → Goal K → W1 × W2

/-- One batch: labeled rows and labels of both networks, unlabeled rows. -/
structure Batch (K : Type) where
  /-- `x_lb1` -/
  x1 : List (List K)
  /-- `y_lb1` -/
  y1 : List Int
  /-- `x_lb2` -/
  x2 : List (List K)
  /-- `y_lb2` -/
  y2 : List Int
  /-- `x_u` -/
  xu : List (List K)
deriving DecidableEq, Repr

/-- `slice_data(X_u, idx_u)`, deep_co_training.py l.338. -/
def mkBatch (xu : List (List K)) (p : ((List (List K) × List Int) × (List (List K) × List Int)) × List Nat) :
    Except PyErr (Batch K) := do
  let u ← takeRows xu p.2
  pure ⟨p.1.1.1, p.1.1.2, p.1.2.1, p.1.2.2, u⟩

/-- The batches of one epoch, deep_co_training.py l.305-338.  The iterators are taken one after the other instead of in
turns; their generators are independent. -/
def epoch (G : TorchGen σ) (xl : List (List K)) (yl : List Int) (xu : List (List K)) (b steps : Nat) (g : σ × σ × σ) :
    Except PyErr (List (Batch K) × σ × σ × σ) := do
  let (b1, g1) ← cycleBatches G xl yl b steps g.1
  let (b2, g2) ← cycleBatches G xl yl b steps g.2.1
  let (bu, gu) ← cycleBatchIndices G xu.length b steps g.2.2
  let out ← ((b1.zip b2).zip bu).mapM (mkBatch xu)
  pure (out, g1, g2, gu)

/-- The epochs, deep_co_training.py l.304-340; the generators live across epochs. -/
def epochs (G : TorchGen σ) (xl : List (List K)) (yl : List Int) (xu : List (List K)) (b steps : Nat) :
    Nat → σ × σ × σ → Except PyErr (List (List (Batch K)))
  | 0, _ => .ok []
  | e + 1, g => do
    let (out, g') ← epoch G xl yl xu b steps g
    let rest ← epochs G xl yl xu b steps e g'
    pure (out :: rest)

/-- All batches of `fit`, deep_co_training.py l.294-340. -/
def batches (G : TorchGen σ) (xl : List (List K)) (yl : List Int) (xu : List (List K)) (b e : Int) (seed : Int) :
    Except PyErr (List (List (Batch K))) :=
  epochs G xl yl xu b.toNat (max (numBatches xl.length b.toNat) (numBatches xu.length b.toNat)) e.toNat
    (G.manualSeed seed, G.manualSeed (seed + 1), G.manualSeed (seed + 2))

variable [Field K] [LinearOrder K]

/-- The unlabeled rows, deep_co_training.py l.232. -/
def unlabeledOf (d : Input K) : Option (Feats (List K)) :=
  match d.xu with
  | some u => some u
  | none => d.xuw

/-- The checks of data and bundles, deep_co_training.py l.222-277.  `shared`: the two models are the same or share
parameters.  All failures are `InductiveValidationError`. -/
def check (torch : Bool) (one two : Option Bundle) (shared : Bool) (data : Option (Input K)) :
    Except PyErr (Input K × List (List K)) :=
  match data with
  | none => .error .validation
  | some d =>
    if torch = false then .error .validation
    else if d.xl.rows.length ≠ d.yl.length then .error .validation
    else
      match unlabeledOf d with
      | none => .error .validation
      | some u =>
        if d.xl.rows.length = 0 then .error .validation
        else if u.rows.length = 0 then .error .validation
        else if d.yInt64 = false then .error .validation
        else if d.yDims ≠ 1 then .error .validation
        else if d.xl.float = false then .error .validation
        else if u.float = false then .error .validation
        else
          match Mpl.both one two with
          | none => .error .validation
          | some b =>
            if b.valid = false then .error .validation
            else if b.placed = false then .error .validation
            else if shared = true then .error .validation
            else .ok (d, u.rows)

/-- The bounds of the clipping are in order, deep_co_training.py l.287-292. -/
def clipOk (lo hi : Option K) : Bool :=
  match lo, hi with
  | some l, some h => decide (l ≤ h)
  | _, _ => true

/-- The checks of the parameters, deep_co_training.py l.277-292. -/
def params (cfg : Cfg K) : Bool :=
  decide (0 < cfg.batchSize ∧ 0 < cfg.maxEpochs ∧ 0 ≤ cfg.lambdaCot ∧ 0 ≤ cfg.lambdaDif ∧ 0 ≤ cfg.eps) &&
    clipOk cfg.clipMin cfg.clipMax

/-- The rows after the move against the gradient, deep_co_training.py l.129-154. -/
def moved (cfg : Cfg K) (rows : List (List K)) (grad : Option (List (List K))) : List (List K) :=
  match grad with
  | none => rows.map fun r => r.map fun x => Adv.fgsm false cfg.eps cfg.clipMin cfg.clipMax x none
  | some gs => List.zipWith (fun r g => List.zipWith (fun x d => Adv.fgsm false cfg.eps cfg.clipMin cfg.clipMax x (some d)) r g)
      rows gs

/-- Labels the cross entropy refuses (torch raises an `IndexError`).  The label `-100`, which torch ignores, is refused here
too. -/
def outside (y : List Int) (classes : Nat) : Bool := y.any fun c => decide (c < 0 ∨ (classes : Int) ≤ c)

/-- `_fgsm_adversarial`, deep_co_training.py l.53-154, for tensors with at least one unlabeled row (`fit` has no others). -/
def attack {W : Type} (N : Net W K) (argmax : List K → Nat) (cfg : Cfg K) (w : W) (x : List (List K)) (y : List Int)
    (xu : List (List K)) : Except PyErr (List (List K)) × W :=
  let o := N.probe w (x ++ xu)
  if o.1.ndim ≠ 2 then (.error .validation, o.2)
  else if o.1.rows.length ≠ (x ++ xu).length then (.error .validation, o.2)
  else if outside y o.1.classes then (.error .indexError, o.2)
  else
    match Adv.fgsmTargets x.length (y.map Int.toNat) (o.1.rows.map argmax) with
    | .error e => (.error e, o.2)
    | .ok t => (.ok (moved cfg (x ++ xu) (N.grad o.2 (x ++ xu) t)), o.2)

/-- The checks of the logits of the clean rows, deep_co_training.py l.402-409, and the labels of the cross entropy. -/
def clean (s : Batch K) (a b : Out K) : Except PyErr Unit :=
  if a.ndim ≠ 2 ∨ b.ndim ≠ 2 then .error .validation
  else if a.rows.length ≠ (s.x1 ++ s.xu).length then .error .validation
  else if b.rows.length ≠ (s.x2 ++ s.xu).length then .error .validation
  else if a.classes ≠ b.classes then .error .validation
  else if outside s.y1 a.classes then .error .indexError
  else if outside s.y2 b.classes then .error .indexError
  else .ok ()

/-- The checks of the logits of the adversarial rows, deep_co_training.py l.454-463: `a1`, `a2` are the logits of the clean
rows, `o2` those of network 2 for the `n1` rows made with network 1, `o1` vice versa. -/
def crossed (a1 a2 o1 o2 : Out K) (n1 n2 : Nat) : Except PyErr Unit :=
  if o2.ndim ≠ 2 ∨ o1.ndim ≠ 2 then .error .validation
  else if o2.rows.length ≠ n1 then .error .validation
  else if o1.rows.length ≠ n2 then .error .validation
  else if o2.classes ≠ a1.classes then .error .validation
  else if o1.classes ≠ a2.classes then .error .validation
  else .ok ()

/-- The loss, deep_co_training.py l.422-472; `p1`, `p2` are the logits of the clean rows, `adv1`, `adv2` the adversarial
rows. -/
def goal (softmax : List K → List K) (cfg : Cfg K) (s : Batch K) (p1 p2 adv1 adv2 : List (List K)) : Goal K :=
  ⟨s.x1.zip s.y1, s.x2.zip s.y2, s.xu, if cfg.lambdaCot ≠ 0 then some cfg.lambdaCot else none,
    adv1.zip (p1.map softmax), adv2.zip (p2.map softmax), if cfg.lambdaDif ≠ 0 then some cfg.lambdaDif else none, !cfg.detach⟩

/-- One step, deep_co_training.py l.337-478. -/
def dctStep (P : Pair W1 W2 K) (softmax : List K → List K) (argmax : List K → Nat) (cfg : Cfg K) (w : W1 × W2) (s : Batch K) :
    (W1 × W2) × Except PyErr Unit :=
  if s.x1.length ≠ s.x2.length then (w, .error .validation)
  else
    match attack P.one argmax cfg w.1 s.x1 s.y1 s.xu with
    | (.error e, w1) => ((w1, w.2), .error e)
    | (.ok adv1, w1) =>
      match attack P.two argmax cfg w.2 s.x2 s.y2 s.xu with
      | (.error e, w2) => ((w1, w2), .error e)
      | (.ok adv2, w2) =>
        let a1 := P.one.forward w1 (s.x1 ++ s.xu)
        let a2 := P.two.forward w2 (s.x2 ++ s.xu)
        match clean s a1.1 a2.1 with
        | .error e => ((a1.2, a2.2), .error e)
        | .ok _ =>
          let o2 := P.two.forward a2.2 adv1
          let o1 := P.one.forward a1.2 adv2
          match crossed a1.1 a2.1 o1.1 o2.1 adv1.length adv2.length with
          | .error e => ((o1.2, o2.2), .error e)
          | .ok _ => (P.step (o1.2, o2.2) (goal softmax cfg s a1.1.rows a2.1.rows adv1 adv2), .ok ())

/-- `fit`, deep_co_training.py l.202-494.  Returns whether the bundles are set and both networks, with or without an
error. -/
def fit (G : TorchGen σ) (P : Pair W1 W2 K) (softmax : List K → List K) (argmax : List K → Nat) (torch : Bool) (cfg : Cfg K)
    (one two : Option Bundle) (shared : Bool) (data : Option (Input K)) (seed : Int) (fitted : Bool) (w : W1 × W2) :
    (Bool × W1 × W2) × Except PyErr Unit :=
  match check torch one two shared data with
  | .error e => ((fitted, w), .error e)
  | .ok r =>
    if params cfg = false then ((fitted, w), .error .validation)
    else
      match batches G r.1.xl.rows r.1.yl r.2 cfg.batchSize cfg.maxEpochs seed with
      | .error e => ((fitted, P.one.train w.1, P.two.train w.2), .error e)
      | .ok eps =>
        match Cons.runSteps (dctStep P softmax argmax cfg) (P.one.train w.1, P.two.train w.2) eps.flatten with
        | (w', .error e) => ((fitted, w'), .error e)
        | (w', .ok _) => ((true, w'), .ok ())

end ModSSC.Deep.Dct
