import Verif.Base
import Verif.Assoc

/-!
# Model of `src/modssc/evaluation/metrics.py`

Labels are integers (the `isnan` filter of `balanced_accuracy` keeps every integer label; float
labels with NaN and string labels are not modelled).  `none` is NaN.  Floats are exact rationals.
-/

namespace ModSSC.Evaluation
open ModSSC

/-- `np.searchsorted(classes, x)` (side left) on a sorted array. -/
def searchsorted (classes : List Int) (x : Int) : Nat := classes.countP (fun c => decide (c < x))

/-- `src/modssc/evaluation/metrics.py:25-40` `_pred_indices_for_classes`, one prediction: its
position among the classes, or -1. -/
def predIndex (classes : List Int) (x : Int) : Int :=
  if classes = [] then -1
  else
    let idx := searchsorted classes x
    let clip := min idx (classes.length - 1)
    if idx < classes.length ∧ classes.getD clip 0 = x then (clip : Int) else -1

/-- `np.bincount(idx, minlength=n)` for indices below `n`. -/
def bincount (n : Nat) (idx : List Int) : List Nat := (List.range n).map (fun (j : Nat) => idx.count (j : Int))

/-- `np.divide(a, b, out=0, where=b > 0)`, one entry. -/
def safeDiv (a b : Rat) : Rat := if 0 < b then a / b else 0

/-- `np.mean`. -/
def mean (l : List Rat) : Rat := l.sum / (l.length : Rat)

/-- `src/modssc/evaluation/metrics.py:43-46` `accuracy`. -/
def accuracy (t p : List Int) : Option Rat :=
  if t = [] then none
  else some (mean ((t.zip p).map (fun x => if x.1 = x.2 then 1 else 0)))

/-- `np.unique(y_true, return_inverse=True)[1]`. -/
def trueIndex (classes : List Int) (t : List Int) : List Int :=
  t.map (fun x => ((classes.idxOf x : Nat) : Int))

/-- `true_idx[correct]` with `correct = pred_idx == true_idx`. -/
def correctIndex (ti pi : List Int) : List Int :=
  ((ti.zip pi).filter (fun x => decide (x.2 = x.1))).map (·.1)

/-- `src/modssc/evaluation/metrics.py:49-73` `balanced_accuracy`. -/
def balancedAccuracy (t p : List Int) : Option Rat :=
  if t = [] then none
  else
    let classes := npUnique t
    let ti := trueIndex classes t
    let pi := p.map (predIndex classes)
    let n := classes.length
    let counts := bincount n ti
    let tp := bincount n (correctIndex ti pi)
    some (mean (List.zipWith (fun (a b : Nat) => safeDiv a b) tp counts))

/-- `src/modssc/evaluation/metrics.py:76-94` `macro_f1`. -/
def macroF1 (t p : List Int) : Option Rat :=
  if t = [] then none
  else
    let classes := npUnique t
    let ti := trueIndex classes t
    let pi := p.map (predIndex classes)
    let n := classes.length
    let counts := bincount n ti
    let pcounts := bincount n (pi.filter (fun i => decide (0 ≤ i)))
    let tp := bincount n (correctIndex ti pi)
    let prec := List.zipWith (fun (a b : Nat) => safeDiv a b) tp pcounts
    let rec' := List.zipWith (fun (a b : Nat) => safeDiv a b) tp counts
    some (mean (List.zipWith (fun a b => safeDiv (2 * a * b) (a + b)) prec rec'))

/-- `src/modssc/evaluation/metrics.py:97-101` `METRICS`. -/
def metricFn (name : String) : Option (List Int → List Int → Option Rat) :=
  if name = "accuracy" then some accuracy
  else if name = "balanced_accuracy" then some balancedAccuracy
  else if name = "macro_f1" then some macroF1
  else none

/-- `src/modssc/evaluation/metrics.py:108-118` `compute_metrics`. -/
def computeMetrics (t p : List Int) : List String → List (String × Option Rat) →
    Except PyErr (List (String × Option Rat))
  | [], out => .ok out
  | name :: rest, out => match metricFn name with
    | none => .error .valueError
    | some f => computeMetrics t p rest (Assoc.set out name (f t p))

/-- Labels given either as a vector or as a matrix of scores / one-hot rows. -/
inductive Labels where
  | vec (y : List Int)
  | rows (m : List (List Rat))

/-- `argmax` of one non-empty row: the first position of the maximum. -/
def argmax : List Rat → Nat
  | [] => 0
  | [_] => 0
  | a :: b :: rest =>
    let j := argmax (b :: rest)
    if (b :: rest).getD j 0 ≤ a then 0 else j + 1

/-- `src/modssc/evaluation/metrics.py:11-15` `labels_1d` and `:18-22` `predict_labels` (the same on
integer vectors): a matrix is reduced by `argmax(axis=1)`. -/
def labels1d : Labels → List Int
  | .vec y => y
  | .rows m => m.map (fun r => ((argmax r : Nat) : Int))

/-- `src/modssc/evaluation/metrics.py:121-129` `evaluate`. -/
def evaluate (t p : Labels) (metrics : List String) : Except PyErr (List (String × Option Rat)) :=
  computeMetrics (labels1d t) (labels1d p) metrics []

end ModSSC.Evaluation
