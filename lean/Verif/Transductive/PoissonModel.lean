import Verif.Transductive.CgModel
import Verif.Transductive.FitModel

/-!
# Model of Poisson learning

`methods/pde/poisson_learning.py`, `operators/laplacian.py`, `operators/normalize.py` and `normalize_edges` of
`backends/numpy_backend.py` and `backends/torch_backend.py`.
-/

namespace ModSSC.Transductive
open ModSSC

variable {K : Type} [Field K] [LinearOrder K]

/-- `normalize_edges` (backends/numpy_backend.py:46-82, backends/torch_backend.py:68-106): without edges the mode is not looked at. -/
def normalizeOp (sqrt : K → K) (eps : K) (mode : String) (es : List (WEdge K)) : Except PyErr (List (WEdge K)) :=
  let deg := fun i => max (degree es i) eps
  if es.length = 0 then .ok es
  else if mode = "none" then .ok es
  else if mode = "rw" then .ok (es.map fun e => ⟨e.src, e.dst, e.w / deg e.dst⟩)
  else if mode = "sym" then .ok (es.map fun e => ⟨e.src, e.dst, e.w / sqrt (deg e.dst * deg e.src)⟩)
  else .error .valueError

/-- `x[j]`; zero outside the array. -/
def look {n : Nat} (x : Fin n → K) (j : Nat) : K := if h : j < n then x ⟨j, h⟩ else 0

/-- `spmm` on a vector (backends/numpy_backend.py:18-43). -/
def spmv {n : Nat} (es : List (WEdge K)) (x : Fin n → K) : Fin n → K :=
  fun i => ((es.filter fun e => e.dst = i.val).map fun e => e.w * look x e.src).sum

/-- The matvec of `laplacian_matvec_numpy` (laplacian.py:15-33) and `laplacian_matvec_torch` (laplacian.py:36-62),
given the normalised edges. -/
def lapOp {n : Nat} (es : List (WEdge K)) (x : Fin n → K) : Fin n → K := fun i => x i - spmv es x i

/-- `matvec_A` (poisson_learning.py:135-142, 213-219): `out + mean(x)`, after `eps * x` unless `eps` is zero. -/
def poissonOp {n : Nat} (es : List (WEdge K)) (eps : K) (x : Fin n → K) : Fin n → K := fun i =>
  (if eps ≠ 0 then lapOp es x i + eps * x i else lapOp es x i) + (∑ j, x j) / (n : K)

/-- `_build_sources` (poisson_learning.py:58-84). -/
def buildSources (n : Nat) (Y : Mat K) (mask : List Bool) (center : Bool) : Except PyErr (Nat → Nat → K) :=
  let labeled := (List.range n).filter fun i => mask.getD i false
  let m := labeled.length
  if m = 0 then .error .valueError
  else .ok fun i c =>
    let maskf : Nat → K := fun i => if mask.getD i false then 1 else 0
    if center then
      let pi := (labeled.map fun j => Y.get j c).sum / (m : K)
      maskf i * (Y.get i c - pi)
    else
      maskf i * Y.get i c - ((List.range n).map fun j => maskf j * Y.get j c).sum / (n : K)

/-- `PoissonLearningSpec` (poisson_learning.py:22-55). -/
structure PoissonSpec (K : Type) where
  backend : String
  kind : String
  eps : K
  center : Bool
  tol : K
  maxIter : Int

/-- Number of classes: `np.unique(y[labeled_idx]).size` (poisson_learning.py:115-116, 188-189). -/
def poissonClasses (y : List Int) (mask : List Bool) : Nat :=
  (npUnique (((y.zip mask).filter fun p => p.2).map (·.1))).length

/-- `poisson_learning_numpy` (poisson_learning.py:87-155) and, when the edges are in range (which the fit method has
checked, validation.py:55-70), `poisson_learning_torch` (poisson_learning.py:158-238).  `floor` is the `1e-12` of
`normalize_edges`. -/
def poissonRun (sqrt : K → K) (floor : K) (n : Int) (ei : List (Int × Int)) (ew : Option (List K)) (y : List Int)
    (mask : List Bool) (spec : PoissonSpec K) : Except PyErr (Diffusion K) := do
  let es ← validateGraph n ei ew
  if (y.length : Int) ≠ n then .error .valueError
  else if (mask.length : Int) ≠ n then .error .valueError
  else if mask.any id = false then .error .valueError
  else do
    let k := poissonClasses y mask
    let Y ← seedMatrix y mask k
    let B ← buildSources y.length Y mask spec.center
    let es' ← normalizeOp sqrt floor spec.kind es
    let cg := fun c => cgSolve sqrt (poissonOp (n := y.length) es' spec.eps) (fun i => B i.val c) none spec.tol
      spec.maxIter
    .ok ⟨tab y.length k fun i c => look (cg c).x i,
      (((List.range k).map fun c => (cg c).nIter).foldl max 0 : Nat),
      some (((List.range k).map fun c => (cg c).residualNorm).foldl max 0)⟩

/-- `poisson_learning` (poisson_learning.py:241-282).  `torchHere` says whether torch can be imported.  The torch
version converts the weights with `torch.as_tensor(edge_weight, dtype=torch.float32)` (line 177), which raises for
`None`. -/
def poissonLearning (torchHere : Bool) (sqrt : K → K) (floor : K) (n : Int) (ei : List (Int × Int))
    (ew : Option (List K)) (y : List Int) (mask : List Bool) (spec : PoissonSpec K) : Except PyErr (Diffusion K) :=
  let backend := if spec.backend = "auto" then (if torchHere then "torch" else "numpy") else spec.backend
  if backend = "numpy" then poissonRun sqrt floor n ei ew y mask spec
  else if backend = "torch" then
    if torchHere = false then .error .runtimeError
    else if ew.isNone then .error .typeError
    else poissonRun sqrt floor n ei ew y mask spec
  else .error .valueError

/-- `PoissonLearningMethod.fit` (poisson_learning.py:300-335). -/
def fitPoisson (torchHere : Bool) (sqrt : K → K) (floor : K) (spec : PoissonSpec K) (d : NodeData K) :
    Except PyErr (Diffusion K) :=
  fitWith (fun n ei ew y mask => poissonLearning torchHere sqrt floor n ei ew y mask spec) d

end ModSSC.Transductive
