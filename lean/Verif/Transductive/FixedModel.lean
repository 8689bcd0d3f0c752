import Verif.Transductive.PropModel
import Verif.Transductive.PoissonModel

/-!
# Model of the fixed-point diffusion solver

`solvers/fixed_point.py` with `operators/clamp.py`, `operators/normalize.py`, `operators/spmm.py` and the two backends.
-/

namespace ModSSC.Transductive
open ModSSC

variable {K : Type} [Field K] [LinearOrder K]

/-- `_ensure_edge_weight` (backends/numpy_backend.py:9-15; backends/torch_backend.py:44-49, 80-85): all ones without weights,
otherwise one weight for each edge.  `edge_index` is a list of columns with non-negative entries (numpy would count negative
ones from the end). -/
def pairWeights (ei : List (Nat × Nat)) (ew : Option (List K)) : Except PyErr (List (WEdge K)) :=
  match ew with
  | none => .ok (ei.map fun e => ⟨e.1, e.2, 1⟩)
  | some w =>
    if w.length ≠ ei.length then .error .valueError
    else .ok ((ei.zip w).map fun p => ⟨p.1.1, p.1.2, p.2⟩)

/-- `row_normalize` (operators/clamp.py:34-36), and `F_new / torch.clamp(sums, min=1e-12)` (fixed_point.py:96-98). -/
def rowNormalizeEps (n d : Nat) (eps : K) (F : Mat K) : Mat K :=
  tab n d fun i c => F.get i c / max ((List.range d).map (F.get i)).sum eps

/-- `np.linalg.norm(A - B)` of two `n` by `d` arrays (fixed_point.py:46, 99). -/
def frobDiff (sqrt : K → K) (n d : Nat) (A B : Mat K) : K :=
  sqrt (((List.range n).map fun i => ((List.range d).map fun c => (A.get i c - B.get i c) * (A.get i c - B.get i c)).sum).sum)

/-- One round of the solver with the given sparse product (fixed_point.py:41-45, 86-98). -/
def fpStep (mm : Mat K → Mat K) (n d : Nat) (eps alpha : K) (Y : Mat K) (mask : List Bool) (rows : Bool) (F : Mat K) : Mat K :=
  let PF := mm F
  let F1 := clampRows n d mask (tab n d fun i c => alpha * PF.get i c + (1 - alpha) * Y.get i c) Y
  if rows then rowNormalizeEps n d eps F1 else F1

/-- Parameters of the solver (fixed_point.py:20-32). -/
structure FixedSpec (K : Type) where
  alpha : K
  maxIter : Int
  tol : K
  rows : Bool
  mode : String

/-- `fixed_point_diffusion_numpy` (fixed_point.py:20-51), for a `Y` of `n` rows.  Both thresholds of `1e-12` are `eps`.  Indexing
with a number or a mask that does not fit raises `IndexError`, the mask and the sources only when something reads them. -/
def fixedPoint (sqrt : K → K) (eps : K) (n d : Nat) (ei : List (Nat × Nat)) (ew : Option (List K)) (Y : Mat K)
    (mask : List Bool) (s : FixedSpec K) : Except PyErr (Diffusion K) := do
  let es ← pairWeights ei ew
  if es.any (fun e => decide (n ≤ e.dst)) then .error .indexError
  else do
    if s.mode = "sym" ∧ es.any (fun e => decide (n ≤ e.src)) = true then .error .indexError
    else do
      let es' ← normalizeOp sqrt eps s.mode es
      if 0 < s.maxIter ∧ (es.any (fun e => decide (n ≤ e.src)) = true ∨ mask.length ≠ n) then .error .indexError
      else .ok (diffuse (fpStep (spmm n d es') n d eps s.alpha Y mask s.rows) (frobDiff sqrt n d) s.tol s.maxIter
        s.maxIter.toNat 0 Y none)

/-- `spmm` of the torch backend (backends/torch_backend.py:27-65): a coalesced matrix `A[dst, src]` times `X`. -/
def spmmTorch (n d : Nat) (es : List (WEdge K)) (X : Mat K) : Mat K :=
  tab n d fun i c => ((List.range n).map fun j =>
    ((es.filter fun e => decide (e.dst = i) && decide (e.src = j)).map (·.w)).sum * X.get j c).sum

/-- `fixed_point_diffusion_torch` (fixed_point.py:54-104).  An edge that does not fit raises `RuntimeError`. -/
def fixedPointTorch (sqrt : K → K) (eps : K) (n d : Nat) (ei : List (Nat × Nat)) (ew : Option (List K)) (Y : Mat K)
    (mask : List Bool) (s : FixedSpec K) : Except PyErr (Diffusion K) := do
  let es ← pairWeights ei ew
  if es.any (fun e => decide (n ≤ e.dst)) then .error .runtimeError
  else do
    if s.mode = "sym" ∧ es.any (fun e => decide (n ≤ e.src)) = true then .error .indexError
    else do
      let es' ← normalizeOp sqrt eps s.mode es
      if 0 < s.maxIter ∧ es.any (fun e => decide (n ≤ e.src)) = true then .error .runtimeError
      else if 0 < s.maxIter ∧ mask.length ≠ n then .error .indexError
      else .ok (diffuse (fpStep (spmmTorch n d es') n d eps s.alpha Y mask s.rows) (frobDiff sqrt n d) s.tol s.maxIter
        s.maxIter.toNat 0 Y none)

end ModSSC.Transductive
