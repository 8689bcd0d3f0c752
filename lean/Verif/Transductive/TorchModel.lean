import Verif.Transductive.FitModel

/-!
# Model of the torch computation of label propagation and label spreading

`methods/utils.py` (torch functions), `methods/classic/label_propagation.py`, `methods/classic/label_spreading.py`.  Floats are exact.  Edges
keep their integer node numbers, since torch indexing accepts negative ones while `index_add_` does not.
-/

namespace ModSSC.Transductive.Torch
open ModSSC ModSSC.Transductive

variable {K : Type} [Field K] [LinearOrder K]

/-- `x[i]` with a tensor of positions: negative positions count from the end (methods/utils.py:151, 183-186). -/
def pos (n : Nat) (i : Int) : Except PyErr Nat :=
  if 0 ≤ i ∧ i < n then .ok i.toNat
  else if i < 0 ∧ -(n : Int) ≤ i then .ok (i + n).toNat
  else .error .indexError

/-- A position of `index_add_`, which has to be in range (methods/utils.py:151, 162). -/
def addPos (n : Nat) (i : Int) : Except PyErr Nat :=
  if 0 ≤ i ∧ i < n then .ok i.toNat else .error .indexError

/-- `degrees_torch` (methods/utils.py:155-163). -/
def degrees (n : Nat) (ei : List (Int × Int)) (w : List K) : Except PyErr (Nat → K) := do
  let ds ← ei.mapM fun e => addPos n e.2
  pure fun i => (((ds.zip w).filter fun t => t.1 = i).map (·.2)).sum

/-- `normalize_edge_weight_torch` (methods/utils.py:166-187). -/
def normalizeWeights (sqrt : K → K) (eps : K) (mode : String) (n : Nat) (ei : List (Int × Int)) (w : List K) : Except PyErr (List K) := do
  let deg ← degrees n ei w
  if mode = "rw" then do
    let ds ← ei.mapM fun e => pos n e.2
    pure (List.zipWith (fun d x => x / max (deg d) eps) ds w)
  else if mode = "sym" then do
    let ss ← ei.mapM fun e => pos n e.1
    let ds ← ei.mapM fun e => pos n e.2
    pure (List.zipWith (fun t x => x / sqrt (max (deg t.1) eps * max (deg t.2) eps)) (ss.zip ds) w)
  else .error .valueError

/-- `spmm_torch` (methods/utils.py:135-152) for an array with `n` rows. -/
def spmm (n d : Nat) (ei : List (Int × Int)) (w : List K) (X : Mat K) : Except PyErr (Mat K) := do
  let ss ← ei.mapM fun e => pos n e.1
  let ds ← ei.mapM fun e => addPos n e.2
  pure (tab n d fun i c => (((ds.zip (w.zip ss)).filter fun t => t.1 = i).map fun t => t.2.1 * X.get t.2.2 c).sum)

/-- Number of classes (label_propagation.py:162-170, label_spreading.py:144-152). -/
def numClasses (y : List Int) (mask : List Bool) : Nat :=
  max 1 (if mask.any id then (npUnique (labeledClasses y mask)).length
    else (npUnique (y.filter fun c => decide (0 ≤ c))).length)

/-- `torch.max(torch.abs(A - B))`, which raises for an empty array (label_propagation.py:194, label_spreading.py:175). -/
def residual (n d : Nat) (A B : Mat K) : Except PyErr K :=
  if n = 0 ∨ d = 0 then .error .runtimeError else .ok (maxDiff n d A B)

/-- The iteration (label_propagation.py:182-199, label_spreading.py:163-180). -/
def diffuse (step : Mat K → Except PyErr (Mat K)) (dist : Mat K → Mat K → Except PyErr K) (tol : K) (maxIter : Int) :
    Nat → Nat → Mat K → Option K → Except PyErr (Diffusion K)
  | 0, _, F, res => .ok ⟨F, maxIter, res⟩
  | fuel + 1, it, F, _ => do
    let F' ← step F
    let r ← dist F' F
    if r ≤ tol then .ok ⟨F', (it : Int) + 1, some r⟩
    else diffuse step dist tol maxIter fuel (it + 1) F' (some r)

/-- One update of label propagation (label_propagation.py:185-192); an assignment under an empty mask changes nothing. -/
def lpStep (n d : Nat) (ei : List (Int × Int)) (w : List K) (mask : List Bool) (Y : Mat K) (rows : Bool) (F : Mat K) :
    Except PyErr (Mat K) := do
  let S ← spmm n d ei w F
  let F1 := clampRows n d mask S Y
  pure (if rows then normalizeRows n d F1 else F1)

/-- One update of label spreading (label_spreading.py:167-173). -/
def lsStep (n d : Nat) (ei : List (Int × Int)) (w : List K) (alpha : K) (Y : Mat K) (rows : Bool) (F : Mat K) : Except PyErr (Mat K) := do
  let S ← spmm n d ei w F
  let F1 := tab n d fun i c => alpha * S.get i c + (1 - alpha) * Y.get i c
  pure (if rows then normalizeRows n d F1 else F1)

/-- The part common to both torch functions (label_propagation.py:147-183, label_spreading.py:129-165): checks of shapes, classes, labels and
normalised weights, then the iteration. -/
def run (sqrt : K → K) (eps : K) (n : Int) (ei : List (Int × Int)) (ew : Option (List K)) (y : List Int) (mask : List Bool) (spec : PropSpec K)
    (step : Nat → Nat → List K → Mat K → Mat K → Except PyErr (Mat K)) : Except PyErr (Diffusion K) :=
  let w := ew.getD (List.replicate ei.length 1)
  if w.length ≠ ei.length then .error .valueError
  else if (y.length : Int) ≠ n ∨ (mask.length : Int) ≠ n then .error .valueError
  else do
    let k := numClasses y mask
    let Y ← seedMatrix y mask k
    let wn ← normalizeWeights sqrt eps spec.norm y.length ei w
    diffuse (step y.length k wn Y) (residual y.length k) spec.tol spec.maxIter spec.maxIter.toNat 0 Y none

/-- `label_propagation_torch` (label_propagation.py:130-199). -/
def labelPropagation (sqrt : K → K) (eps : K) (n : Int) (ei : List (Int × Int)) (ew : Option (List K)) (y : List Int) (mask : List Bool)
    (spec : PropSpec K) : Except PyErr (Diffusion K) :=
  run sqrt eps n ei ew y mask spec fun n k wn Y => lpStep n k ei wn mask Y spec.normalizeRows

/-- `label_spreading_torch` (label_spreading.py:113-180). -/
def labelSpreading (sqrt : K → K) (eps : K) (n : Int) (ei : List (Int × Int)) (ew : Option (List K)) (y : List Int) (mask : List Bool)
    (alpha : K) (spec : PropSpec K) : Except PyErr (Diffusion K) :=
  if ¬ (0 ≤ alpha ∧ alpha < 1) then .error .valueError
  else run sqrt eps n ei ew y mask spec fun n k wn Y => lsStep n k ei wn alpha Y spec.normalizeRows

/-- The choice of the computation (label_propagation.py:221-247, label_spreading.py:197-223); a missing torch raises `ImportError`, here
`runtimeError`.  Not modelled: an unknown device. -/
def dispatch {R : Type} (torch : Bool) (backend : String) (numpyRun torchRun : Except PyErr R) : Except PyErr R :=
  if backend ≠ "numpy" ∧ backend ≠ "torch" ∧ backend ≠ "auto" then .error .valueError
  else if backend = "numpy" then numpyRun
  else if backend = "torch" ∨ torch then (if torch then torchRun else .error .runtimeError)
  else numpyRun

/-- `LabelPropagationMethod.fit` (label_propagation.py:285-318): the backend is torch if a device is given, else automatic. -/
def fitPropagation (torch : Bool) (device : Option String) (sqrt : K → K) (eps : K) (spec : PropSpec K) (d : NodeData K) :
    Except PyErr (Diffusion K) :=
  fitWith (fun n ei ew y mask => dispatch torch (if device.isSome then "torch" else "auto")
    (Transductive.labelPropagation sqrt eps n ei ew y mask spec) (labelPropagation sqrt eps n ei ew y mask spec)) d

/-- `LabelSpreadingMethod.fit` (label_spreading.py:261-294). -/
def fitSpreading (torch : Bool) (device : Option String) (sqrt : K → K) (eps alpha : K) (spec : PropSpec K) (d : NodeData K) :
    Except PyErr (Diffusion K) :=
  fitWith (fun n ei ew y mask => dispatch torch (if device.isSome then "torch" else "auto")
    (Transductive.labelSpreading sqrt eps n ei ew y mask alpha spec) (labelSpreading sqrt eps n ei ew y mask alpha spec)) d

end ModSSC.Transductive.Torch
