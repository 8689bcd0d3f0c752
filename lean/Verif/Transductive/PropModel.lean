import Verif.Transductive.Types

/-!
# Model of label propagation and label spreading

`methods/utils.py`, `operators/clamp.py`, `methods/classic/label_propagation.py`,
`methods/classic/label_spreading.py` and `solvers/fixed_point.py`, numpy paths.
-/

namespace ModSSC.Transductive
open ModSSC

variable {K : Type} [Field K] [LinearOrder K]

/-- The `n` by `d` array with the given entries. -/
def tab (n d : Nat) (f : Nat → Nat → K) : Mat K := (List.range n).map fun i => (List.range d).map (f i)

/-- `_validate_graph_inputs` (methods/utils.py:38-64).  `edge_index` is a list of columns, so its shape is
right by construction. -/
def validateGraph (n : Int) (ei : List (Int × Int)) (ew : Option (List K)) : Except PyErr (List (WEdge K)) :=
  let w := ew.getD (List.replicate ei.length 1)
  if w.length ≠ ei.length then .error .valueError
  else if n ≤ 0 then .error .valueError
  else if ei.any (fun e => decide (e.1 < 0 ∨ e.2 < 0)) then .error .valueError
  else if ei.any (fun e => decide (n ≤ e.1 ∨ n ≤ e.2)) then .error .valueError
  else .ok ((ei.zip w).map fun p => ⟨p.1.1.toNat, p.1.2.toNat, p.2⟩)

/-- `spmm_numpy` (methods/utils.py:67-98): `np.add.at(out, dst, w * X[src])`, and `spmm` of
`backends/numpy_backend.py:18-43`. -/
def spmm (n d : Nat) (es : List (WEdge K)) (X : Mat K) : Mat K :=
  tab n d fun i c => ((es.filter fun e => e.dst = i).map fun e => e.w * X.get e.src c).sum

/-- `degrees_numpy` (methods/utils.py:101-106). -/
def degree (es : List (WEdge K)) (i : Nat) : K := ((es.filter fun e => e.dst = i).map (·.w)).sum

/-- `normalize_edge_weight_numpy` (methods/utils.py:109-128), and `normalize_edges` of
`backends/numpy_backend.py:46-82`; `sqrt` is the float square root. -/
def normalizeEdges (sqrt : K → K) (eps : K) (mode : String) (es : List (WEdge K)) :
    Except PyErr (List (WEdge K)) :=
  let deg := fun i => max (degree es i) eps
  if mode = "rw" then .ok (es.map fun e => ⟨e.src, e.dst, e.w / deg e.dst⟩)
  else if mode = "sym" then .ok (es.map fun e => ⟨e.src, e.dst, e.w / sqrt (deg e.src * deg e.dst)⟩)
  else .error .valueError

/-- The labels at the labeled nodes, `y[labeled_mask]`, without negative ones. -/
def labeledClasses (y : List Int) (mask : List Bool) : List Int :=
  ((y.zip mask).filter fun p => p.2 && decide (0 ≤ p.1)).map (·.1)

/-- Number of classes (label_propagation.py:93-102, label_spreading.py:75-84). -/
def numClasses (y : List Int) (mask : List Bool) : Nat :=
  let yValid := y.filter fun c => decide (0 ≤ c)
  let yl := labeledClasses y mask
  max 1 (if mask.any id then
      if yl ≠ [] then (npUnique yl).length else (npUnique yValid).length
    else (npUnique yValid).length)

/-- `labels_to_onehot(y, n_classes)` (clamp.py:6-23) followed by
`Y[~labeled_mask] = 0` (label_propagation.py:104-105, label_spreading.py:86-87). -/
def seedMatrix (y : List Int) (mask : List Bool) (k : Nat) : Except PyErr (Mat K) :=
  if k = 0 then .error .valueError
  else if y.any (fun c => decide (0 ≤ c ∧ (k : Int) ≤ c)) then .error .valueError
  else .ok (tab y.length k fun i c => if mask.getD i false = true ∧ y.getD i (-1) = (c : Int) then 1 else 0)

/-- `F_new[labeled_mask] = Y[labeled_mask]` (label_propagation.py:116-117; clamp.py:26-31). -/
def clampRows (n d : Nat) (mask : List Bool) (F Y : Mat K) : Mat K :=
  tab n d fun i c => if mask.getD i false then Y.get i c else F.get i c

/-- Row normalisation with `np.where(row_sum > 0, row_sum, 1.0)` (label_propagation.py:119-122,
label_spreading.py:100-103). -/
def normalizeRows (n d : Nat) (F : Mat K) : Mat K :=
  tab n d fun i c =>
    let s := ((List.range d).map (F.get i)).sum
    F.get i c / (if 0 < s then s else 1)

/-- `np.max(np.abs(A - B))` of two `n` by `d` arrays (label_propagation.py:124). -/
def maxDiff (n d : Nat) (A B : Mat K) : K :=
  ((List.range n).flatMap fun i => (List.range d).map fun c => |A.get i c - B.get i c|).foldl max 0

/-- The iteration shared by the methods (label_propagation.py:111-129, label_spreading.py:93-110): one step, its residual, stop when
the residual is at most `tol`. -/
def diffuse (step : Mat K → Mat K) (dist : Mat K → Mat K → K) (tol : K) (maxIter : Int) :
    Nat → Nat → Mat K → Option K → Diffusion K
  | 0, _, F, res => ⟨F, maxIter, res⟩
  | fuel + 1, it, F, _ =>
    let F' := step F
    let r := dist F' F
    if r ≤ tol then ⟨F', (it : Int) + 1, some r⟩
    else diffuse step dist tol maxIter fuel (it + 1) F' (some r)

/-- `LabelPropagationSpec` (label_propagation.py:33-50) and `LabelSpreadingSpec` (label_spreading.py:33-48)
without `alpha`. -/
structure PropSpec (K : Type) where
  norm : String
  maxIter : Int
  tol : K
  normalizeRows : Bool

/-- One update of label propagation (label_propagation.py:114-122). -/
def lpStep (n d : Nat) (es : List (WEdge K)) (mask : List Bool) (Y : Mat K) (rows : Bool) (F : Mat K) : Mat K :=
  let F1 := clampRows n d mask (spmm n d es F) Y
  if rows then normalizeRows n d F1 else F1

/-- `label_propagation_numpy` (label_propagation.py:53-129). -/
def labelPropagation (sqrt : K → K) (eps : K) (n : Int) (ei : List (Int × Int)) (ew : Option (List K))
    (y : List Int) (mask : List Bool) (spec : PropSpec K) : Except PyErr (Diffusion K) := do
  let es ← validateGraph n ei ew
  if (y.length : Int) ≠ n then .error .valueError
  else if (mask.length : Int) ≠ n then .error .valueError
  else do
    let k := numClasses y mask
    let Y ← seedMatrix y mask k
    let es' ← normalizeEdges sqrt eps spec.norm es
    .ok (diffuse (lpStep y.length k es' mask Y spec.normalizeRows) (maxDiff y.length k) spec.tol spec.maxIter
      spec.maxIter.toNat 0 Y none)

/-- One update of label spreading (label_spreading.py:97-103). -/
def lsStep (n d : Nat) (es : List (WEdge K)) (alpha : K) (Y : Mat K) (rows : Bool) (F : Mat K) : Mat K :=
  let S := spmm n d es F
  let F1 := tab n d fun i c => alpha * S.get i c + (1 - alpha) * Y.get i c
  if rows then normalizeRows n d F1 else F1

/-- `label_spreading_numpy` (label_spreading.py:51-110). -/
def labelSpreading (sqrt : K → K) (eps : K) (n : Int) (ei : List (Int × Int)) (ew : Option (List K))
    (y : List Int) (mask : List Bool) (alpha : K) (spec : PropSpec K) : Except PyErr (Diffusion K) := do
  let es ← validateGraph n ei ew
  if (y.length : Int) ≠ n then .error .valueError
  else if (mask.length : Int) ≠ n then .error .valueError
  else if ¬ (0 ≤ alpha ∧ alpha < 1) then .error .valueError
  else do
    let k := numClasses y mask
    let Y ← seedMatrix y mask k
    let es' ← normalizeEdges sqrt eps spec.norm es
    .ok (diffuse (lsStep y.length k es' alpha Y spec.normalizeRows) (maxDiff y.length k) spec.tol spec.maxIter
      spec.maxIter.toNat 0 Y none)

end ModSSC.Transductive
