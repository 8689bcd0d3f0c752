import Verif.Deep.FitModel
import Verif.Deep.LossModel
import Verif.Deep.ConsModel

/-!
# Meta Pseudo Labels

Models the whole `fit` of `src/modssc/inductive/methods/meta_pseudo_labels.py`: the choice of views, the checks, the
initialisation of the teacher, the batches (`BatchModel`), the forward passes of both networks, the update of the
student, the feedback and the update of the teacher.

Both networks with their optimizers are parameters, states that are changed in place; the losses are handed to the
optimizers as descriptions.  Tensors are lists of rows; graph dictionaries are not modelled.  Networks are taken to give
one row of logits per row (the losses of torch raise otherwise).
-/

namespace ModSSC.Deep.Mpl
open ModSSC ModSSC.Deep
open ModSSC.Deep.Fit (Out Feats Input Bundle Ready)

variable {X WT WS K σ : Type}

/-- The loss of the student, meta_pseudo_labels.py l.332-341: strong views, targets, weights. -/
abbrev SGoal (X K : Type) := List (X × List K × K)

/-- An unlabeled row of the loss of the teacher: weak view, strong view, target, weight. -/
structure Pull (X K : Type) where
  /-- weak view -/
  weak : X
  /-- strong view -/
  strong : X
  /-- target of the strong view -/
  target : List K
  /-- weight -/
  weight : K
deriving DecidableEq, Repr

/-- The loss of the teacher, meta_pseudo_labels.py l.315-319 and l.366-372:
`Σ share * CE(x, distribution) + udaScale * Σ weight * CE(strong, target) + entropyScale * mean entropy(rows)`. -/
structure TGoal (X K : Type) where
  /-- labeled rows (strong versions), smoothed labels, weights -/
  labeled : List (X × List K × K)
  /-- unlabeled rows -/
  uda : List (Pull X K)
  /-- gradients reach the targets (`detach_target=False`) -/
  attached : Bool
  /-- `uda_weight` -/
  udaScale : K
  /-- rows of the entropy -/
  entropy : List X
  /-- `mpl_weight * dot_product_adj` -/
  entropyScale : K
deriving DecidableEq, Repr

/-- A network with its optimizer (external); `O` describes losses. -/
structure Net (X W K O : Type) where
  /-- `model.train()` -/
  train : W → W
  /-- `extract_logits(model(x))` -/
  forward : W → List X → Out K × W
  /-- `optimizer.zero_grad(); loss.backward(); optimizer.step()` -/
  step : W → O → W

/-- `MetaPseudoLabelsSpec`, meta_pseudo_labels.py l.76-91. -/
structure Cfg (K : Type) where
  /-- `uda_weight` -/
  udaWeight : K
  /-- `uda_threshold` -/
  threshold : K
  /-- `uda_temperature` -/
  temperature : K
  /-- `label_smoothing` -/
  smoothing : K
  /-- `mpl_ema` -/
  ema : K
  /-- `mpl_weight` -/
  mplWeight : K
  /-- `batch_size` -/
  batchSize : Int
  /-- `max_epochs` -/
  maxEpochs : Int
  /-- `detach_target` -/
  detach : Bool
  /-- `init_teacher_from_student` -/
  init : Bool

/-- `X_l_s`, meta_pseudo_labels.py l.196-202.  `views` is the dictionary `ds.views`, without entries that are `None`. -/
def strongLabeled (views : List (String × Feats X)) (xl : Feats X) : Feats X :=
  (["X_l_s", "X_l_strong", "labeled_strong"].findSome? fun k => views.lookup k).getD xl

/-- The two bundles of the spec; both are needed, and both are checked, meta_pseudo_labels.py l.236-248. -/
def both (t s : Option Bundle) : Option Bundle :=
  match t, s with
  | some t, some s => some ⟨t.valid && s.valid, t.placed && s.placed⟩
  | _, _ => none

variable [Field K] [LinearOrder K]

/-- The checks before the teacher is initialised, meta_pseudo_labels.py l.178-249.  `shapes`: `X_l_s` has the rank and the
non-batch shape of `X_l`; `shared`: the two models are the same or share parameters.  All failures are
`InductiveValidationError`. -/
def check (torch : Bool) (teacher student : Option Bundle) (shapes shared : Bool) (views : List (String × Feats X))
    (data : Option (Input X)) : Except PyErr (Ready X × List X) :=
  match Fit.check (fun n => .ok ((List.range n).map Int.ofNat)) torch (⟨1, 1, (0 : K), 1, false, true⟩ : Fit.Cfg K)
      (both teacher student) data with
  | .error e => .error e
  | .ok r =>
    match data with
    | none => .error .validation
    | some d =>
      let s := strongLabeled views d.xl
      if s.float = false then .error .validation
      else if s.rows.length ≠ d.xl.rows.length then .error .validation
      else if shapes = false then .error .validation
      else if shared = true then .error .validation
      else .ok (r, s.rows)

/-- The checks of the parameters, meta_pseudo_labels.py l.254-267; `uda_temperature` is not among them. -/
def params (cfg : Cfg K) : Bool :=
  decide (0 < cfg.batchSize ∧ 0 < cfg.maxEpochs ∧ 0 ≤ cfg.udaWeight ∧ (0 ≤ cfg.threshold ∧ cfg.threshold ≤ 1) ∧
    (0 ≤ cfg.smoothing ∧ cfg.smoothing < 1) ∧ (0 ≤ cfg.ema ∧ cfg.ema < 1) ∧ 0 ≤ cfg.mplWeight)

/-- One batch: labeled rows with their strong versions, labels, weak views with positions, strong views. -/
abbrev Batch (X : Type) := Step (X × X) Int (X × Int) X

/-- The weights of `_uda_loss`, meta_pseudo_labels.py l.144-153. -/
def udaWeights (threshold : K) (probs : List (List K)) : List K :=
  Fit.strictNormed (if threshold ≤ 0 then probs.map fun _ => 1 else maskOf threshold probs)

/-- The loss of the teacher, meta_pseudo_labels.py l.315-319 and l.366-372; `sup` are the smoothed labels, `weak` the
logits of the weak views. -/
def teacherGoal (softmax : List K → List K) (cfg : Cfg K) (s : Batch X) (sup : List (List K)) (weak : List (List K))
    (adj : K) : TGoal X K :=
  let probs := weak.map fun r => softmax (r.map (· / cfg.temperature))
  ⟨((s.xl.map (·.2)).zip sup).map fun p => (p.1, p.2, 1 / (s.yl.length : K)),
    List.zipWith (fun p q => ⟨p.1, p.2, q.1, q.2⟩) ((s.xw.map (·.1)).zip s.xs)
      (probs.zip (udaWeights cfg.threshold probs)), !cfg.detach, cfg.udaWeight, s.xs, cfg.mplWeight * adj⟩

/-- The loss of the student, meta_pseudo_labels.py l.332-341; `strong` are the logits of the teacher. -/
def studentGoal (softmax : List K → List K) (s : Batch X) (strong : List (List K)) : SGoal X K :=
  (s.xs.zip (strong.map softmax)).map fun p => (p.1, p.2, 1 / (s.xs.length : K))

/-- A check of logits of the student, meta_pseudo_labels.py l.323-330, l.334-339, l.349-356; `n` rows are wanted only for
the strong views (`_soft_cross_entropy`, l.47-48). -/
def studentLogits (o : Out K) (classes : Nat) (n : Option Nat) : Except PyErr Unit :=
  if o.ndim ≠ 2 then .error .validation
  else if o.classes ≠ classes then .error .validation
  else
    match n with
    | none => .ok ()
    | some n => if o.rows.length ≠ n then .error .validation else .ok ()

/-- The state within `fit`: teacher, student, `dot_product_ma`. -/
structure State (WT WS K : Type) where
  /-- the teacher -/
  t : WT
  /-- the student -/
  s : WS
  /-- `dot_product_ma` -/
  ma : K
deriving DecidableEq, Repr

/-- What the teacher makes of a batch, meta_pseudo_labels.py l.302-319: the smoothed labels, the logits of weak and strong
views. -/
def teach (NT : Net X WT K (TGoal X K)) (cfg : Cfg K) (t : WT) (s : Batch X) :
    Except PyErr (Nat × List (List K) × List (List K) × List (List K)) × WT :=
  let l := NT.forward t (s.xl.map (·.2))
  let v := NT.forward l.2 (s.xw.map (·.1))
  let u := NT.forward v.2 s.xs
  match Fit.agree s.yl l.1 v.1 u.1 with
  | .error e => (.error e, u.2)
  | .ok _ =>
    match s.yl.mapM fun y => smoothLabel cfg.smoothing l.1.classes y.toNat with
    | .error e => (.error e, u.2)
    | .ok sup =>
      if cfg.temperature ≤ 0 then (.error .validation, u.2)
      else (.ok (l.1.classes, sup, v.1.rows, u.1.rows), u.2)

/-- What happens to the student, meta_pseudo_labels.py l.321-358: its labeled loss, the step, and its labeled loss again;
returns the difference.  `ce` is the mean cross entropy of logits and labels. -/
def study (NS : Net X WS K (SGoal X K)) (softmax : List K → List K) (ce : List (List K) → List Int → K) (s : Batch X)
    (classes : Nat) (strong : List (List K)) (w : WS) : Except PyErr K × WS :=
  let a := NS.forward w (s.xl.map (·.1))
  match studentLogits a.1 classes none with
  | .error e => (.error e, a.2)
  | .ok _ =>
    let u := NS.forward a.2 s.xs
    match studentLogits u.1 classes (some strong.length) with
    | .error e => (.error e, u.2)
    | .ok _ =>
      let b := NS.forward (NS.step u.2 (studentGoal softmax s strong)) (s.xl.map (·.1))
      match studentLogits b.1 classes none with
      | .error e => (.error e, b.2)
      | .ok _ => (.ok (ce b.1.rows s.yl - ce a.1.rows s.yl), b.2)

/-- One step, meta_pseudo_labels.py l.296-376. -/
def mplStep (NT : Net X WT K (TGoal X K)) (NS : Net X WS K (SGoal X K)) (softmax : List K → List K)
    (ce : List (List K) → List Int → K) (cfg : Cfg K) (st : State WT WS K) (s : Batch X) :
    State WT WS K × Except PyErr Unit :=
  match teach NT cfg st.t s with
  | (.error e, t) => ({ st with t := t }, .error e)
  | (.ok k, t) =>
    match study NS softmax ce s k.1 k.2.2.2 st.s with
    | (.error e, w) => ({ st with t := t, s := w }, .error e)
    | (.ok dot, w) =>
      let ma := cfg.ema * st.ma + (1 - cfg.ema) * dot
      (⟨NT.step t (teacherGoal softmax cfg s k.2.1 k.2.2.1 (dot - ma)), w, ma⟩, .ok ())

/-- `fit`, meta_pseudo_labels.py l.155-398.  `load s t` is the teacher after `t.load_state_dict(s.state_dict())` (l.129-135),
or nothing if it raises; this is done before the parameters are checked.  Returns whether the bundles are set, teacher and
student, with or without an error. -/
def fit (G : TorchGen σ) (NT : Net X WT K (TGoal X K)) (NS : Net X WS K (SGoal X K)) (load : WS → WT → Option WT)
    (softmax : List K → List K) (ce : List (List K) → List Int → K) (torch : Bool) (cfg : Cfg K)
    (teacher student : Option Bundle) (shapes shared : Bool) (views : List (String × Feats X)) (data : Option (Input X))
    (seed : Int) (fitted : Bool) (t : WT) (s : WS) : (Bool × WT × WS) × Except PyErr Unit :=
  match check (K := K) torch teacher student shapes shared views data with
  | .error e => ((fitted, t, s), .error e)
  | .ok r =>
    match if cfg.init then load s t else some t with
    | none => ((fitted, t, s), .error .validation)
    | some t1 =>
      if params cfg = false then ((fitted, t1, s), .error .validation)
      else
        match fitBatches G (r.1.xl.zip r.2) r.1.yl r.1.xw r.1.xs cfg.batchSize cfg.maxEpochs seed with
        | .error e => ((fitted, t1, s), .error e)
        | .ok eps =>
          match Cons.runSteps (mplStep NT NS softmax ce cfg) ⟨NT.train t1, NS.train s, 0⟩ eps.flatten with
          | (st, .error e) => ((fitted, st.t, st.s), .error e)
          | (st, .ok _) => ((true, st.t, st.s), .ok ())

end ModSSC.Deep.Mpl
