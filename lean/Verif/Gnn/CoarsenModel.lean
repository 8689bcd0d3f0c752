import Verif.Base

/-!
# Model of the graph coarsening of H-GCN (`transductive/methods/gnn/h_gcn.py`)
-/

namespace ModSSC.Gnn
open ModSSC

variable {K : Type} [Field K] [LinearOrder K]

/-- `neighbors` (h_gcn.py:65-68): the nodes with a nonzero entry, without the node itself. -/
def nbrs (n : Nat) (adj : Nat → Nat → K) (i : Nat) : List Nat := (List.range n).filter fun j => adj i j ≠ 0 ∧ j ≠ i

/-- The marked nodes and the groups so far. -/
structure Co where
  marked : List Nat
  groups : List (List Nat)

/-- `by_neigh` (h_gcn.py:73-75): the neighbourhoods in the order in which they first appear. -/
def neighKeys (n : Nat) (adj : Nat → Nat → K) : List (List Nat) :=
  (List.range n).foldl (fun (ks : List (List Nat)) i => if nbrs n adj i ∈ ks then ks else ks ++ [nbrs n adj i]) []

/-- The inner loop of the first grouping (h_gcn.py:80-87): consecutive pairs. -/
def segPairs : List Nat → Co → Co
  | a :: b :: rest, c =>
    segPairs rest (if a ∈ c.marked ∨ b ∈ c.marked then c else ⟨b :: a :: c.marked, c.groups ++ [[a, b]]⟩)
  | _, c => c

/-- Structural equivalence grouping (h_gcn.py:72-87): nodes with equal neighbourhoods, two by two. -/
def seg (n : Nat) (adj : Nat → Nat → K) (c : Co) : Co :=
  (neighKeys n adj).foldl (fun c k => segPairs ((List.range n).filter fun i => nbrs n adj i = k) c) c

/-- One turn of the search for a partner of `v` (h_gcn.py:97-103); `score` is `adj[v, u] / sqrt(w[v] * w[u])`. -/
def bestStep (score : Nat → Nat → K) (marked : List Nat) (v : Nat) (best : Option (Nat × K)) (u : Nat) : Option (Nat × K) :=
  if u ∈ marked then best
  else match best with
    | none => some (u, score v u)
    | some (b, s) => if s < score v u ∨ (score v u = s ∧ u < b) then some (u, score v u) else some (b, s)

/-- The best unmarked neighbour of `v` (h_gcn.py:95-103). -/
def bestNeighbour (score : Nat → Nat → K) (marked : List Nat) (v : Nat) (us : List Nat) : Option (Nat × K) :=
  us.foldl (bestStep score marked v) none

/-- One turn of structural similarity grouping (h_gcn.py:92-110). -/
def ssgStep (n : Nat) (adj score : Nat → Nat → K) (c : Co) (v : Nat) : Co :=
  if v ∈ c.marked then c
  else match bestNeighbour score c.marked v (nbrs n adj v) with
    | none => ⟨v :: c.marked, c.groups ++ [[v]]⟩
    | some (u, _) => ⟨u :: v :: c.marked, c.groups ++ [[v, u]]⟩

/-- One turn of the last loop (h_gcn.py:112-116). -/
def restStep (c : Co) (v : Nat) : Co := if v ∈ c.marked then c else ⟨v :: c.marked, c.groups ++ [[v]]⟩

/-- The groups of `_coarsen_graph` (h_gcn.py:57-116); `order` is the stable argsort of the degrees. -/
def coarsen (n : Nat) (adj score : Nat → Nat → K) (order : List Nat) : List (List Nat) :=
  ((List.range n).foldl restStep (order.foldl (ssgStep n adj score) (seg n adj ⟨[], []⟩))).groups

/-- `M` (h_gcn.py:119-121). -/
def groupMat (groups : List (List Nat)) (i g : Nat) : K := if i ∈ groups[g]?.getD [] then 1 else 0

/-- `weights_next` (h_gcn.py:123). -/
def weightsNext (groups : List (List Nat)) (w : Nat → Nat) : List Nat := groups.map fun g => (g.map w).sum

/-- `adj_next = M.T @ adj @ M` (h_gcn.py:124). -/
def adjNext (n : Nat) (groups : List (List Nat)) (adj : Nat → Nat → K) (g h : Nat) : K :=
  ((List.range n).map fun j => ((List.range n).map fun i => groupMat groups i g * adj i j).sum * groupMat groups j h).sum

end ModSSC.Gnn
