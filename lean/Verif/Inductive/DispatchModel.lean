import Verif.Inductive.PredictModel

/-!
# Model of the numpy / torch dispatch of the classifier-based methods

`src/modssc/inductive/methods/helpers/classifier_bridge.py` and `predict` / `predict_proba` of `supervised.py`,
`self_training.py`, `pseudo_label.py`, `setred.py` and `s4vm.py`.

Arrays and tensors are given by their shape and their numbers in row order; dtypes are not modelled.  The classifier is
external: any object, of which each method may be missing.
-/

namespace ModSSC.Inductive
open ModSSC

/-- A value that is not a dictionary. -/
inductive Leaf where
  /-- `numpy.ndarray` -/
  | array (shape : List Nat) (vals : List Rat)
  /-- `torch.Tensor` -/
  | tensor (device : String) (shape : List Nat) (vals : List Rat)
  /-- anything else -/
  | other
deriving DecidableEq, Repr

/-- What a user may hand over as features. -/
inductive Inp where
  | leaf (v : Leaf)
  | dict (entries : List (String × Leaf))
deriving DecidableEq, Repr

/-- `isinstance(v, torch.Tensor)`. -/
def Leaf.isTensor : Leaf → Bool
  | .tensor _ _ _ => true
  | _ => false

/-- `is_torch_tensor`, classifier_bridge.py:53-63 (`installed`: torch can be imported). -/
def isTorchTensor (installed : Bool) : Inp → Bool
  | .leaf v => installed && v.isTensor
  | .dict l => installed && l.any fun p => p.2.isTensor

/-- The two backends. -/
inductive Backend where
  | numpy
  | torch
deriving DecidableEq, Repr

/-- `detect_backend`, classifier_bridge.py:70-77. -/
def detectBackend (installed : Bool) (x : Inp) : Except PyErr Backend :=
  match x with
  | .leaf (.array _ _) => .ok .numpy
  | x => if isTorchTensor installed x then .ok .torch else .error .validation

/-- `ensure_classifier_backend`, classifier_bridge.py:120-130 (`spec`: `classifier_backend`). -/
def ensureClassifierBackend (spec : String) : Backend → Except PyErr Unit
  | .torch => if spec ≠ "torch" then .error .validation else .ok ()
  | .numpy => if spec = "torch" then .error .validation else .ok ()

/-- The first two checks of every `fit`, e.g. supervised.py:55-56, s4vm.py:62-63. -/
def trainBackend (installed : Bool) (spec : String) (xl : Inp) : Except PyErr Backend :=
  detectBackend installed xl >>= fun b => ensureClassifierBackend spec b >>= fun _ => .ok b

/-- `flatten_if_numpy`, classifier_bridge.py:35-41; numpy cannot infer the columns of an array without rows. -/
def flattenIfNumpy : Inp → Except PyErr Inp
  | .leaf (.array (n :: s) vals) =>
    if s.length ≤ 1 then .ok (.leaf (.array (n :: s) vals))
    else if n = 0 then .error .valueError
    else .ok (.leaf (.array [n, s.prod] vals))
  | x => .ok x

/-- What a classifier returns as scores: where it is (`none`: a numpy array or a list), the number of axes, the
matrix. -/
structure RawScores where
  device : Option String
  ndim : Nat
  scores : Scores

/-- A fitted classifier; methods and attributes it does not have are `none`. -/
structure FittedClf where
  predictScores : Option (Inp → Except PyErr RawScores)
  predictProba : Option (Inp → Except PyErr RawScores)
  predict : Option (Inp → Except PyErr (List Int))
  classes : Option (List Int)

/-- `{c: i for i, c in enumerate(classes)}.get`, classifier_bridge.py:149: of equal labels the last one counts. -/
def classToIdx (classes : List Int) (c : Int) : Option Nat :=
  ((List.range classes.length).filter fun i => classes[i]? = some c).getLast?

/-- `np.eye(len(classes))[idx]`, one row. -/
def eyeRow (n i : Nat) : List Rat := (List.range n).map fun j => if j = i then 1 else 0

/-- The scores of one label, classifier_bridge.py:149-151; a label without an index is `None`, which is no integer. -/
def labelRow (cs : List Int) (c : Int) : Except PyErr (List Rat) :=
  match classToIdx cs c with
  | none => .error .typeError
  | some i => .ok (eyeRow cs.length i)

/-- Scores from labels, classifier_bridge.py:145-151. -/
def labelScores (classes : Option (List Int)) (pred : List Int) : Except PyErr Scores :=
  let cs := classes.getD (npUnique pred)
  pred.mapM (labelRow cs) >>= fun rows => .ok ⟨cs.length, rows⟩

/-- `_predict_scores_numpy`, classifier_bridge.py:133-156 (`np.asarray` of a result leaves its numbers). -/
def predictScoresNumpy (m : FittedClf) (x : Inp) : Except PyErr Scores :=
  match x with
  | .leaf (.array _ _) =>
    match m.predictScores.or m.predictProba with
    | some f => f x >>= fun r => if r.ndim ≠ 2 then .error .validation else .ok r.scores
    | none =>
      match m.predict with
      | none => .error .validation
      | some f => f x >>= labelScores m.classes
  | _ => .error .validation

/-- The tensor whose device counts in `_predict_scores_torch`, classifier_bridge.py:161, 178: the input or its entry `x`. -/
def torchSource : Inp → Option Leaf
  | .leaf (.tensor d s v) => some (.tensor d s v)
  | .leaf _ => none
  | .dict l => l.lookup "x"

/-- `_predict_scores_torch`, classifier_bridge.py:159-181; an entry `x` without device is an `AttributeError`, modelled as
`typeError`. -/
def predictScoresTorch (m : FittedClf) (x : Inp) : Except PyErr Scores :=
  match torchSource x with
  | none => .error .validation
  | some src =>
    match m.predictScores.or m.predictProba with
    | none => .error .validation
    | some f => f x >>= fun r =>
      match r.device with
      | none => .error .validation
      | some d =>
        if r.ndim ≠ 2 then .error .validation
        else match src with
          | .tensor d' _ _ => if d ≠ d' then .error .validation else .ok r.scores
          | _ => .error .typeError

/-- `predict_scores`, classifier_bridge.py:184-189. -/
def predictScores (m : FittedClf) (x : Inp) : Backend → Except PyErr Scores
  | .numpy => predictScoresNumpy m x
  | .torch => predictScoresTorch m x

/-- What a fitted method keeps: `_clf` and `_backend`. -/
structure Fitted where
  clf : FittedClf
  backend : Backend

/-- The backend of a prediction.  `looks`: the method looks at the input, `detect_backend(X)` (supervised.py:99, 115,
s4vm.py:188); otherwise it is `self._backend or detect_backend(X)`, which is always the stored one
(self_training.py:472, 488, pseudo_label.py:209, 225, setred.py:504, 520, s4vm.py:209). -/
def predictionBackend (installed looks : Bool) (o : Fitted) (x : Inp) : Except PyErr Backend :=
  if looks then
    detectBackend installed x >>= fun b => if b ≠ o.backend then .error .validation else .ok b
  else .ok o.backend

/-- `X` as the classifier gets it (`flat`: S4VM, s4vm.py:192-193, 212-213). -/
def prepare (flat : Bool) (b : Backend) (x : Inp) : Except PyErr Inp :=
  if flat = true ∧ b = .numpy then flattenIfNumpy x else .ok x

/-- `predict_proba`, supervised.py:96-110, self_training.py:469-483, pseudo_label.py:206-220, setred.py:501-515,
s4vm.py:185-204.  `none`: not fitted. -/
def proba (installed looks flat : Bool) (o : Option Fitted) (x : Inp) : Except PyErr Scores :=
  match o with
  | none => .error .runtimeError
  | some o =>
    predictionBackend installed looks o x >>= fun b =>
      prepare flat b x >>= fun x' =>
        predictScores o.clf x' b >>= fun s => .ok ⟨s.cols, s.rows.map normRow⟩

/-- `predict`, supervised.py:112-118, self_training.py:485-491, pseudo_label.py:222-228, setred.py:517-523,
s4vm.py:206-214; a classifier without `predict` is an `AttributeError`, modelled as `typeError`. -/
def labels (installed looks flat : Bool) (o : Option Fitted) (x : Inp) : Except PyErr (List Int) :=
  match o with
  | none => .error .runtimeError
  | some o =>
    predictionBackend installed looks o x >>= fun b =>
      prepare flat b x >>= fun x' =>
        match o.clf.predict with
        | none => .error .typeError
        | some f => f x'

/-- How the five methods call the two: `(looks in predict_proba, looks in predict, flat)`. -/
def supervised : Bool × Bool × Bool := (true, true, false)

/-- `SelfTrainingMethod`, `PseudoLabelMethod`, `SetredMethod`. -/
def selfLabelling : Bool × Bool × Bool := (false, false, false)

/-- `S4VMMethod`. -/
def s4vm : Bool × Bool × Bool := (true, false, true)

end ModSSC.Inductive
