import Verif.Transductive.FitModel

/-!
# Model of Laplace learning

`methods/classic/laplace_learning.py`, numpy and torch computations, and `infer_num_classes`
(`methods/classic/common.py:6-9`).
-/

namespace ModSSC.Transductive
open ModSSC

variable {K : Type} [Field K] [LinearOrder K]

/-- `np.linalg.solve` / `torch.linalg.solve`: matrix and right-hand side; `none` is the error raised for a singular
matrix. -/
abbrev LinSolve (K : Type) := Mat K → Mat K → Option (Mat K)

/-- `infer_num_classes` (common.py:6-9). -/
def inferNumClasses (y : List Int) : Nat :=
  let yValid := y.filter fun c => decide (0 ≤ c)
  max 1 (if yValid ≠ [] then (yValid.foldl max 0).toNat + 1 else 1)

/-- `W[dst, src] += w` (laplace_learning.py:59-62, 123-126; common.py:15-18). -/
def affinity (es : List (WEdge K)) (i j : Nat) : K :=
  ((es.filter fun e => e.dst = i ∧ e.src = j).map (·.w)).sum

/-- `W.sum(axis=1)` (laplace_learning.py:64, 128). -/
def rowDegree (n : Nat) (es : List (WEdge K)) (i : Nat) : K := ((List.range n).map (affinity es i)).sum

/-- `L = -W; np.fill_diagonal(L, deg)` (laplace_learning.py:65-66). -/
def lapNumpy (n : Nat) (es : List (WEdge K)) (i j : Nat) : K :=
  if i = j then rowDegree n es i else - affinity es i j

/-- `L = torch.diag(deg) - W` (laplace_learning.py:129). -/
def lapTorch (n : Nat) (es : List (WEdge K)) (i j : Nat) : K :=
  (if i = j then rowDegree n es i else 0) - affinity es i j

/-- `np.flatnonzero(labeled_mask)` (laplace_learning.py:68, 131). -/
def labeledIdx (n : Nat) (mask : List Bool) : List Nat := (List.range n).filter fun i => mask.getD i false

/-- `np.flatnonzero(~labeled_mask)` (laplace_learning.py:69, 132). -/
def unlabeledIdx (n : Nat) (mask : List Bool) : List Nat := (List.range n).filter fun i => !mask.getD i false

/-- `L[np.ix_(idx, idx)]` (laplace_learning.py:73, 136). -/
def subMat (u : List Nat) (L : Nat → Nat → K) : Mat K := u.map fun i => u.map (L i)

/-- laplace_learning.py:68-88 (numpy) and 131-151 (torch), given the Laplacian `L`. -/
def laplaceSolve (solve : LinSolve K) (n k : Nat) (es : List (WEdge K)) (L : Nat → Nat → K) (mask : List Bool)
    (Y : Mat K) : Except PyErr (Diffusion K) :=
  let u := unlabeledIdx n mask
  let l := labeledIdx n mask
  if u = [] then .ok ⟨Y, 1, some 0⟩
  else
    let B := u.map fun i => (List.range k).map fun c => (l.map fun j => affinity es i j * Y.get j c).sum
    match solve (subMat u L) B with
    | none => .error .valueError
    | some Fu => .ok ⟨tab n k fun i c => if mask.getD i false then Y.get i c else Fu.get (u.idxOf i) c, 1, some 0⟩

/-- `laplace_learning_numpy` (laplace_learning.py:34-88) with `lap = lapNumpy`, and `laplace_learning_torch`
(laplace_learning.py:91-151) with `lap = lapTorch`.  The torch version does not check that the edges are in range; the
fit method has done so before (validation.py:55-70), so the check is kept here for both. -/
def laplaceLearning (lap : Nat → List (WEdge K) → Nat → Nat → K) (solve : LinSolve K) (n : Int)
    (ei : List (Int × Int)) (ew : Option (List K)) (y : List Int) (mask : List Bool) :
    Except PyErr (Diffusion K) := do
  let es ← validateGraph n ei ew
  if (y.length : Int) ≠ n then .error .valueError
  else if (mask.length : Int) ≠ n then .error .valueError
  else if mask.any id = false then .error .valueError
  else do
    let k := inferNumClasses y
    let Y ← seedMatrix y mask k
    laplaceSolve solve y.length k es (lap y.length es) mask Y

/-- `LaplaceLearningMethod.fit` (laplace_learning.py:218-251): numpy without a device, torch with one
(`device` says which). -/
def fitLaplace (solve : LinSolve K) (device : Bool) (d : NodeData K) : Except PyErr (Diffusion K) :=
  fitWith (fun n ei ew y mask =>
    laplaceLearning (if device then lapTorch else lapNumpy) solve n ei ew y mask) d

end ModSSC.Transductive
