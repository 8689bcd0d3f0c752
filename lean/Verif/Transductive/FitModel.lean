import Verif.Transductive.PropModel
import Verif.Transductive.FitTypes
import Verif.Assoc

/-!
# Model of dataset validation and of fitting the propagation methods

`transductive/validation.py`, `LabelPropagationMethod` and `LabelSpreadingMethod`.
-/

namespace ModSSC.Transductive
open ModSSC

/-- The mask names looked at (validation.py:73). -/
def maskKeys : List String := ["train_mask", "val_mask", "test_mask", "unlabeled_mask"]

/-- validation.py:29-45: the integer labels, or the error. -/
def validLabels : YArr → Except PyErr (List Int)
  | .other _ => .error .validation
  | .labels a => match Labels.classIds a with
    | .ok ids => .ok ids
    | .error _ => .error .validation

/-- validation.py:47-53: non-negative labels are contiguous from 0. -/
def contiguous (ids : List Int) : Bool :=
  let classes := npUnique (ids.filter fun c => decide (0 ≤ c))
  decide (classes = (List.range classes.length).map fun (c : Nat) => (c : Int))

/-- validation.py:55-70: the edges are there and in range. -/
def validEdges (n : Nat) : Option (List (Int × Int)) → Except PyErr Unit
  | none => .error .validation
  | some ei => if ei.any (fun e => decide (e.1 < 0 ∨ e.2 < 0 ∨ (n : Int) ≤ e.1 ∨ (n : Int) ≤ e.2)) then
      .error .validation else .ok ()

/-- validation.py:72-78: known masks have one entry per node. -/
def validMasks (n : Nat) (masks : List (String × List Bool)) : Except PyErr Unit :=
  if maskKeys.any (fun k => (Assoc.get masks k).any fun m => decide (m.length ≠ n)) then .error .validation
  else .ok ()

/-- `validate_node_dataset` (validation.py:14-78). -/
def validateNodeDataset {K : Type} (d : NodeData K) : Except PyErr Unit :=
  if d.xShape.length ≠ 2 then .error .validation
  else if d.xShape.headD 0 ≠ d.y.length then .error .validation
  else do
    let ids ← validLabels d.y
    if contiguous ids = false then .error .validation
    else do
      validEdges d.y.length d.edgeIndex
      validMasks d.y.length d.masks

/-- `np.asarray(data.y).astype(np.int64)` (label_propagation.py:86). -/
def castLabels : YArr → List Int
  | .other _ => []
  | .labels (.ints l) => l
  | .labels (.floats l) => l.map fun q => pyInt (q.getD 0)

/-- The `fit` methods (label_propagation.py:285-318, label_spreading.py:261-294) with the numpy computation `run`
applied to node count, edges, weights, labels and mask. -/
def fitWith {K R : Type}
    (run : Int → List (Int × Int) → Option (List K) → List Int → List Bool → Except PyErr R)
    (d : NodeData K) : Except PyErr R := do
  validateNodeDataset d
  match Assoc.get d.masks "train_mask" with
  | none => .error .valueError
  | some mask => run d.y.length (d.edgeIndex.getD []) d.edgeWeight (castLabels d.y) mask

variable {K : Type} [Field K] [LinearOrder K]

/-- `LabelPropagationMethod.fit` (label_propagation.py:285-318), numpy computation. -/
def fitPropagation (sqrt : K → K) (eps : K) (spec : PropSpec K) (d : NodeData K) : Except PyErr (Diffusion K) :=
  fitWith (fun n ei ew y mask => labelPropagation sqrt eps n ei ew y mask spec) d

/-- `LabelSpreadingMethod.fit` (label_spreading.py:261-294), numpy computation. -/
def fitSpreading (sqrt : K → K) (eps alpha : K) (spec : PropSpec K) (d : NodeData K) : Except PyErr (Diffusion K) :=
  fitWith (fun n ei ew y mask => labelSpreading sqrt eps n ei ew y mask alpha spec) d

end ModSSC.Transductive
