import Verif.Gnn.PrepModel

/-!
# Model of the neighbourhoods of GraphHop (`transductive/methods/gnn/graphhop.py`)

The order of the edges inside one hop is the iteration order of a Python set; here the sources are in increasing order.
-/

namespace ModSSC.Gnn
open ModSSC ModSSC.Transductive

variable {K : Type} [Field K]

/-- `_build_adj_list` (graphhop.py:27-38): the sorted neighbours of node `i`; self-loops and pairs with a number outside the
graph are skipped. -/
def hopAdj (n : Nat) (symmetrize : Bool) (es : List (Int × Int)) (i : Nat) : List Nat :=
  (List.range n).filter fun j => decide (i < n) && decide (i ≠ j) &&
    es.any fun e => (decide (e.1 = i ∧ e.2 = j)) || (symmetrize && decide (e.1 = j ∧ e.2 = i))

/-- The inner loop of `_build_hop_edges` (graphhop.py:44-54) for one node: the sets `next_set`, hop by hop. -/
def hopSets (n : Nat) (adj : Nat → List Nat) : Nat → List Nat → List Nat → List (List Nat)
  | 0, _, _ => []
  | k + 1, visited, frontier =>
    let next := (List.range n).filter fun u => frontier.any (fun v => decide (u ∈ adj v)) && !decide (u ∈ visited)
    next :: hopSets n adj k (visited ++ next) next

/-- `_build_hop_edges` (graphhop.py:41-61): the edges `(u, i)` of hop number `h`, counted from 0. -/
def hopEdges (n : Nat) (adj : Nat → List Nat) (maxHops h : Nat) : List (Nat × Nat) :=
  (List.range n).flatMap fun i => ((hopSets n adj maxHops [i] [i])[h]?.getD []).map fun u => (u, i)

/-- `_row_normalize_weights` (graphhop.py:64-73): one over the number of edges with the same target. -/
def rowWeights (es : List (Nat × Nat)) : List (WEdge K) :=
  es.map fun e =>
    let d := (es.filter fun e' => e'.2 = e.2).length
    ⟨e.1, e.2, if 0 < d then 1 / (d : K) else 0⟩

/-- The features of hop `h` (graphhop.py:278-283, 327-332): zeros if the hop has no edge. -/
def hopFeatures (n : Nat) (adj : Nat → List Nat) (maxHops h : Nat) (X : Feat K) : Feat K :=
  if (hopEdges n adj maxHops h).isEmpty then fun _ _ => 0 else spmm (rowWeights (hopEdges n adj maxHops h)) X

end ModSSC.Gnn
