import Verif.Assoc
import Verif.Base
import Mathlib.Order.WithBot
import Mathlib.Algebra.Order.Field.Basic

/-!
# Exact neighbour graphs, numpy backend

`src/modssc/graph/construction/backends/numpy_backend.py`.

Floats are elements of an ordered field `K`; `np.inf` is `⊤`.  Simplification: the distance between
two rows does not depend on the chunk they are computed in (in floating point the last bits may).
-/

namespace ModSSC.Graph
open ModSSC

/-- Distance metrics. -/
inductive Metric where
  | cosine
  | euclidean
deriving DecidableEq

/-- numpy functions used by the backend. -/
structure NumpyExt (K : Type) where
  sqrt : K → K
  argpartition : List (WithTop K) → Nat → List Nat
  argsort : List (WithTop K) → List Nat

section
variable {K : Type} [Field K] [LinearOrder K]

/-- Scalar product of two rows. -/
def dotp (x y : List K) : K := (List.zipWith (· * ·) x y).sum

/-- `numpy_backend.py:13-16` `_safe_l2_normalize` on one row (`eps = 1e-12`). -/
def l2Normalize (ext : NumpyExt K) (eps : K) (x : List K) : List K :=
  x.map (fun a => a / max (ext.sqrt (dotp x x)) eps)

/-- `numpy_backend.py:82-87, 112-120`: the entry of the (squared) distance matrix. -/
def rankDist (ext : NumpyExt K) (eps : K) (m : Metric) (x y : List K) : K :=
  match m with
  | .cosine => 1 - dotp (l2Normalize ext eps x) (l2Normalize ext eps y)
  | .euclidean => max (dotp x x + dotp y y - 2 * dotp x y) 0

/-- The distance that is reported: the square root is taken for the Euclidean metric only
(`numpy_backend.py:137, 250-251`). -/
def reported (ext : NumpyExt K) (m : Metric) (d : WithTop K) : WithTop K :=
  match m with
  | .cosine => d
  | .euclidean => d.map ext.sqrt

/-- One row of the distance matrix with the own entry set to infinity
(`numpy_backend.py:112-128, 221-237`). -/
def distRow (ext : NumpyExt K) (eps : K) (m : Metric) (includeSelf : Bool) (X : List (List K))
    (i : Nat) : List (WithTop K) :=
  (List.range X.length).map (fun j =>
    if !includeSelf && decide (j = i) then ⊤
    else ((rankDist ext eps m (X.getD i []) (X.getD j []) : K) : WithTop K))

/-- `np.isfinite` together with the value. -/
def finite? (x : WithTop K) : Option K := WithTop.recTopCoe none some x

/-- A directed edge with its distance. -/
abbrev DEdge (K : Type) := Nat × Nat × K

/-- `numpy_backend.py:130-158` for one row. -/
def knnRow (ext : NumpyExt K) (eps : K) (m : Metric) (includeSelf : Bool) (X : List (List K))
    (kEff i : Nat) : List (DEdge K) :=
  let row := distRow ext eps m includeSelf X i
  let idx := (ext.argpartition row (kEff - 1)).take kEff
  let dsel := idx.map (fun j => reported ext m (row.getD j ⊤))
  let order := ext.argsort dsel
  let sel := order.filterMap (fun o => (idx[o]?).bind (fun j => (dsel[o]?).bind (fun d =>
    (finite? d).map (fun x => (j, x)))))
  (sel.filter (fun p => includeSelf || decide (i ≠ p.1))).map (fun p => (i, p.1, p.2))

/-- The bound the (squared) distance is compared with (`numpy_backend.py:242-246`). -/
def radiusBound (m : Metric) (r : K) : K :=
  match m with
  | .cosine => r
  | .euclidean => r * r

/-- `numpy_backend.py:239-255` for one row. -/
def epsRow (ext : NumpyExt K) (eps : K) (m : Metric) (includeSelf : Bool) (X : List (List K))
    (r : K) (i : Nat) : List (DEdge K) :=
  let row := distRow ext eps m includeSelf X i
  (List.range X.length).filterMap (fun j =>
    if row.getD j ⊤ ≤ ((radiusBound m r : K) : WithTop K) then
      (finite? (reported ext m (row.getD j ⊤))).map (fun x => (i, j, x))
    else none)

end

/-- The chunks of `range(0, n, chunk_size)` for a positive chunk size. -/
def chunks (n c : Nat) : List (Nat × Nat) :=
  (List.range ((n + c - 1) / c)).map (fun t => (t * c, min n (t * c + c)))

/-- The rows of a chunk. -/
def chunkRows {ε : Type} (row : Nat → List ε) (c : Nat × Nat) : List ε :=
  ((List.range (c.2 - c.1)).map (fun t => c.1 + t)).flatMap row

/-- The work directory: chunk files by `(start, end)`. -/
abbrev WorkDir (ε : Type) := List ((Nat × Nat) × List ε)

/-- Effect of saving chunk files, each an atomic replacement (`numpy_backend.py:19-32`). -/
def applySaves {ε : Type} (wd : WorkDir ε) (saves : WorkDir ε) : WorkDir ε :=
  saves.foldl (fun d s => Assoc.set d s.1 s.2) wd

/-- The file that is reused for a chunk (`numpy_backend.py:106`, `215`). -/
def reusable {ε : Type} (wd : Option (WorkDir ε)) (resume : Bool) (c : Nat × Nat) :
    Option (List ε) :=
  match wd with
  | some d => if resume then Assoc.get d c else none
  | none => none

/-- The chunk loop (`numpy_backend.py:102-166`, `211-263`): files written, edges. -/
def runChunks {ε : Type} (row : Nat → List ε) (resume : Bool) :
    Option (WorkDir ε) → List (Nat × Nat) → WorkDir ε × List ε
  | _, [] => ([], [])
  | wd, c :: cs =>
    let part := (reusable wd resume c).getD (chunkRows row c)
    let saves := if wd.isSome && (reusable wd resume c).isNone then [(c, part)] else []
    let rest := runChunks row resume (wd.map (fun d => applySaves d saves)) cs
    (saves ++ rest.1, part ++ rest.2)

/-- `range(0, n, chunk_size)`: a zero step is refused, a negative one gives an empty range. -/
def allChunks (n : Nat) (chunkSize : Int) : Except PyErr (List (Nat × Nat)) :=
  if chunkSize = 0 then .error .valueError
  else if chunkSize < 0 then .ok []
  else .ok (chunks n chunkSize.toNat)

section
variable {K : Type} [Field K] [LinearOrder K]

/-- `numpy_backend.py:89`. -/
def kEff (n : Nat) (k : Int) (includeSelf : Bool) : Nat :=
  if includeSelf then (min k n).toNat else (min k (n - 1 : Nat)).toNat

/-- `numpy_backend.py:40-173` `knn_edges_numpy`: files written and edges. -/
def knnEdges (ext : NumpyExt K) (eps : K) (X : List (List K)) (k : Int) (m : Metric)
    (includeSelf : Bool) (chunkSize : Int) (wd : Option (WorkDir (DEdge K))) (resume : Bool) :
    Except PyErr (WorkDir (DEdge K) × List (DEdge K)) :=
  if X.length = 0 then .ok ([], [])
  else if kEff X.length k includeSelf = 0 then .ok ([], [])
  else (allChunks X.length chunkSize).map
    (runChunks (knnRow ext eps m includeSelf X (kEff X.length k includeSelf)) resume wd)

/-- `numpy_backend.py:176-270` `epsilon_edges_numpy`. -/
def epsEdges (ext : NumpyExt K) (eps : K) (X : List (List K)) (radius : K) (m : Metric)
    (includeSelf : Bool) (chunkSize : Int) (wd : Option (WorkDir (DEdge K))) (resume : Bool) :
    Except PyErr (WorkDir (DEdge K) × List (DEdge K)) :=
  if X.length = 0 then .ok ([], [])
  else if radius ≤ 0 then .error .valueError
  else (allChunks X.length chunkSize).map
    (runChunks (epsRow ext eps m includeSelf X radius) resume wd)

end
end ModSSC.Graph
