import Verif.Transductive.PoissonModel
import Verif.Transductive.LaplaceModel

/-!
# Model of p-Laplace learning

`methods/pde/p_laplace_learning.py`.  Vectors over the unlabeled nodes have one entry per element of
`np.flatnonzero(~labeled_mask)`; edges keep the node numbers of the graph and `map_u`, `map_l`
(p_laplace_learning.py:120-123) are applied when a vector is read.
-/

namespace ModSSC.Transductive
open ModSSC

variable {K : Type} [Field K] [LinearOrder K]

/-- `_coalesce_edges` (p_laplace_learning.py:19-33): edges sorted by `src * n + dst`, weights of equal edges added.  The
order in which they are added does not matter in exact arithmetic. -/
def coalesceEdges (n : Nat) (es : List (WEdge K)) : List (WEdge K) :=
  let keys := npUnique (es.map fun e => ((e.src * n + e.dst : Nat) : Int))
  keys.map fun k => ⟨k.toNat / n, k.toNat % n,
    ((es.filter fun e => ((e.src * n + e.dst : Nat) : Int) = k).map (·.w)).sum⟩

/-- `_symmetrize_edges` (p_laplace_learning.py:36-42). -/
def symmetrizeEdges (n : Nat) (es : List (WEdge K)) : List (WEdge K) :=
  coalesceEdges n (es ++ es.map fun e => ⟨e.dst, e.src, e.w⟩)

/-- `PLaplaceLearningSpec` (p_laplace_learning.py:55-66). -/
structure PLaplaceSpec (K : Type) where
  p : K
  maxIter : Int
  tol : K
  cgTol : K
  cgMaxIter : Int
  eps : K
  symmetrize : Bool
  zeroDiagonal : Bool

/-- The edges used (p_laplace_learning.py:89-94). -/
def plEdges (n : Nat) (spec : PLaplaceSpec K) (es : List (WEdge K)) : List (WEdge K) :=
  let es1 := if spec.symmetrize then symmetrizeEdges n es else es
  if spec.zeroDiagonal then es1.filter fun e => e.src ≠ e.dst else es1

/-- `x[map_u[i]]`: the entry of the unlabeled node `i`. -/
def atNode (u : List Nat) (x : Fin u.length → K) (i : Nat) : K := look x (u.idxOf i)

/-- `matvec` of `solve_linear` (p_laplace_learning.py:149-170): `D * x - A x`, where `D` is the weight into the node from
unlabeled (`uu`) and labeled (`ul`) nodes plus `eps`. -/
def plOp (u : List Nat) (uu ul : List (WEdge K)) (eps : K) (x : Fin u.length → K) : Fin u.length → K := fun i =>
  (degree uu u[i.val] + degree ul u[i.val] + eps) * x i
    - ((uu.filter fun e => e.dst = u[i.val]).map fun e => e.w * atNode u x e.src).sum

/-- The right-hand side of `solve_linear` (p_laplace_learning.py:172-175); `f` is zero (p_laplace_learning.py:142). -/
def plRhs (u : List Nat) (ul : List (WEdge K)) (g : Nat → K) : Fin u.length → K := fun i =>
  ((ul.filter fun e => e.dst = u[i.val]).map fun e => e.w * g e.src).sum - 0

/-- `solve_linear` (p_laplace_learning.py:149-180). -/
def plSolve (sqrt : K → K) (spec : PLaplaceSpec K) (u : List Nat) (uu ul : List (WEdge K)) (g : Nat → K) :
    CGResult u.length K :=
  cgSolve sqrt (plOp u uu ul spec.eps) (plRhs u ul g) none spec.cgTol spec.cgMaxIter

/-- The weights `w * |diff| ** (p - 2)` between unlabeled nodes (p_laplace_learning.py:191-192); `pow d` is
`|d| ** (p - 2)`. -/
def plWeightsU (pow : K → K) (u : List Nat) (uu : List (WEdge K)) (x : Fin u.length → K) : List (WEdge K) :=
  uu.map fun e => ⟨e.src, e.dst, e.w * pow (atNode u x e.src - atNode u x e.dst)⟩

/-- The weights from labeled nodes (p_laplace_learning.py:194-195). -/
def plWeightsL (pow : K → K) (u : List Nat) (ul : List (WEdge K)) (g : Nat → K) (x : Fin u.length → K) :
    List (WEdge K) :=
  ul.map fun e => ⟨e.src, e.dst, e.w * pow (atNode u x e.dst - g e.src)⟩

/-- The Newton loop (p_laplace_learning.py:189-209): `fuel` rounds are left, `it` are done. -/
def plNewton (sqrt pow : K → K) (spec : PLaplaceSpec K) (u : List Nat) (uu ul : List (WEdge K)) (g : Nat → K) :
    Nat → Nat → (Fin u.length → K) → Nat → K → (Fin u.length → K) × Nat × K
  | 0, _, x, nIter, res => (x, nIter, res)
  | fuel + 1, it, x, _, _ =>
    let v := (plSolve sqrt spec u (plWeightsU pow u uu x) (plWeightsL pow u ul g x) g).x
    let x' := fun i => (spec.p - 2) / (spec.p - 1) * x i + 1 / (spec.p - 1) * v i
    let res := ((List.finRange u.length).map fun i => |x' i - x i|).foldl max 0
    if res ≤ spec.tol then (x', it + 1, res)
    else plNewton sqrt pow spec u uu ul g fuel (it + 1) x' (it + 1) res

/-- One class (p_laplace_learning.py:182-212): vector, number of rounds, residual. -/
def plClass (sqrt pow : K → K) (spec : PLaplaceSpec K) (u : List Nat) (uu ul : List (WEdge K)) (g : Nat → K) :
    (Fin u.length → K) × Nat × K :=
  let s := plSolve sqrt spec u uu ul g
  if 2 < spec.p then plNewton sqrt pow spec u uu ul g spec.maxIter.toNat 0 s.x s.nIter s.residualNorm
  else (s.x, s.nIter, s.residualNorm)

/-- `F_u[i] - max`, `exp`, and division by the sum (p_laplace_learning.py:222-224); `tiny` is `1e-12`. -/
def softmaxRow (exp : K → K) (tiny : K) (row : List K) : List K :=
  let m := row.foldl max (row.headD 0)
  let ex := row.map fun x => exp (x - m)
  ex.map fun x => x / max ex.sum tiny

/-- p_laplace_learning.py:105-108: the number of classes. -/
def plClasses (y : List Int) : Except PyErr Nat :=
  let yValid := y.filter fun c => decide (0 ≤ c)
  if yValid = [] then .error .valueError else .ok ((yValid.foldl max 0).toNat + 1)

/-- `p_laplace_learning_numpy` (p_laplace_learning.py:69-228). -/
def pLaplace (sqrt exp pow : K → K) (tiny : K) (n : Int) (ei : List (Int × Int)) (ew : Option (List K)) (y : List Int)
    (mask : List Bool) (spec : PLaplaceSpec K) : Except PyErr (Diffusion K) :=
  if spec.p < 2 then .error .valueError
  else do
    let es0 ← validateGraph n ei ew
    let es := plEdges n.toNat spec es0
    if (y.length : Int) ≠ n then .error .valueError
    else if (mask.length : Int) ≠ n then .error .valueError
    else if mask.any id = false then .error .valueError
    else do
      let k ← plClasses y
      if (List.range k).any (fun (c : Nat) => decide ((c : Int) ∉ labeledClasses y mask)) then .error .valueError
      else do
        let Y ← seedMatrix y mask k
        let u := unlabeledIdx y.length mask
        if u = [] then .ok ⟨Y, 0, some 0⟩
        else
          let uu := es.filter fun e => decide (e.src ∈ u) && decide (e.dst ∈ u)
          let ul := es.filter fun e => !decide (e.src ∈ u) && decide (e.dst ∈ u)
          if ul = [] then .error .valueError
          else
            let cls := fun c => plClass sqrt pow spec u uu ul fun j => Y.get j c
            .ok ⟨(List.range y.length).map fun i =>
                if mask.getD i false then (List.range k).map (Y.get i)
                else softmaxRow exp tiny ((List.range k).map fun c => atNode u (cls c).1 i),
              (((List.range k).map fun c => (cls c).2.1).foldl max 0 : Nat),
              some (((List.range k).map fun c => (cls c).2.2).foldl max 0)⟩

/-- `PLaplaceLearningMethod.fit` (p_laplace_learning.py:264-293). -/
def fitPLaplace (sqrt exp pow : K → K) (tiny : K) (spec : PLaplaceSpec K) (d : NodeData K) :
    Except PyErr (Diffusion K) :=
  fitWith (fun n ei ew y mask => pLaplace sqrt exp pow tiny n ei ew y mask spec) d

end ModSSC.Transductive
