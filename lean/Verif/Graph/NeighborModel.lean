import Verif.Graph.KnnModel

/-!
# The optional neighbour backends

Model of `src/modssc/graph/construction/backends/sklearn_backend.py` and `faiss_backend.py`.  The searches of the libraries
(`kneighbors`, `radius_neighbors`, `index.search`) are parameters; distances are exact.
-/

namespace ModSSC.Graph.Neighbor
open ModSSC ModSSC.Graph

variable {K : Type}

/-- `src[mask]`, `dst[mask]` for the edges of node `i`: edges to itself are dropped unless asked for (sklearn_backend.py:40-44, 79-83). -/
def dropSelf (includeSelf : Bool) (i : Nat) (row : List (Nat × K)) : List (Nat × K) :=
  if includeSelf then row else row.filter fun p => decide (p.1 ≠ i)

/-- `knn_edges_sklearn` (sklearn_backend.py:12-48) for `n` nodes; `kneighbors m i` is the row of node `i` when `m` neighbours are
asked for (a number that is not positive is refused by the library). -/
def sklearnKnn (kneighbors : Nat → Nat → List (Nat × K)) (n : Nat) (k : Int) (includeSelf : Bool) : Except PyErr (List (DEdge K)) :=
  if n = 0 then .ok []
  else
    let m := min (n : Int) (k + (if includeSelf then 0 else 1))
    if m ≤ 0 then .error .valueError
    else .ok ((List.range n).flatMap fun i => (dropSelf includeSelf i (kneighbors m.toNat i)).map fun p => (i, p.1, p.2))

/-- `epsilon_edges_sklearn` (sklearn_backend.py:51-87); `radiusNeighbors i` is the row of node `i`. -/
def sklearnRadius (radiusNeighbors : Nat → List (Nat × K)) (n : Nat) (includeSelf : Bool) : List (DEdge K) :=
  if n = 0 then []
  else if ((List.range n).map fun i => (radiusNeighbors i).length).sum = 0 then []
  else (List.range n).flatMap fun i => (dropSelf includeSelf i (radiusNeighbors i)).map fun p => (i, p.1, p.2)

/-- `k_eff` (faiss_backend.py:78-80), query and reference being the same array. -/
def faissK (n k : Nat) (includeSelf : Bool) : Nat := if includeSelf then k else min (k + 1) n

/-- The removal of the node itself (faiss_backend.py:92-106): entries of the found row other than the node (`none` is the index -1),
at most `k`, filled up with -1. -/
def faissRow (k : Nat) (includeSelf : Bool) (i : Nat) (row : List (Option (Nat × K))) : List (Option (Nat × K)) :=
  if includeSelf then row
  else
    let sel := (row.filter fun o => decide (o.map (·.1) ≠ some i)).take k
    sel ++ List.replicate (k - sel.length) none

/-- `knn_edges_faiss` (faiss_backend.py:111-140, over `knn_search_faiss`, faiss_backend.py:34-108): `search m i` is the row of node `i` when `m` neighbours are asked for. -/
def faissKnn (search : Nat → Nat → List (Option (Nat × K))) (n k : Nat) (includeSelf : Bool) : List (DEdge K) :=
  (List.range n).flatMap fun i =>
    ((faissRow k includeSelf i (search (faissK n k includeSelf) i)).filterMap id).map fun p => (i, p.1, p.2)

end ModSSC.Graph.Neighbor
