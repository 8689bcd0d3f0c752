import Verif.Transductive.Types

/-!
# Model of graph propagation in the GNN methods

`transductive/methods/gnn/common.py`: coalescing, self-loops, weight normalization, sparse multiplication.
`gnn/sgc.py`, `gnn/grand.py`, `gnn/appnp.py`, `gnn/chebnet.py`, `gnn/n_gcn.py`, `gnn/h_gcn.py`: how features are propagated.

Floats are exact numbers of an ordered field.  A feature array is a function of node and column.
-/

namespace ModSSC.Gnn
open ModSSC ModSSC.Transductive

variable {K : Type} [Field K] [LinearOrder K]

/-- A feature array: node, column. -/
abbrev Feat (K : Type) := Nat → Nat → K

/-- The sum of the weights of all edges from `s` to `d`: one entry of `torch.sparse_coo_tensor(...).coalesce()`. -/
def cell (es : List (WEdge K)) (d s : Nat) : K := ((es.filter fun e => e.dst = d ∧ e.src = s).map (·.w)).sum

/-- `coalesce_edges` (common.py:83-98): one edge per pair that has edges, ordered by target and then source; torch's
`coalesce` keeps entries that sum to zero. -/
def coalesce (n : Nat) (es : List (WEdge K)) : List (WEdge K) :=
  (List.range n).flatMap fun d => (List.range n).filterMap fun s =>
    if es.any fun e => decide (e.dst = d ∧ e.src = s) then some ⟨s, d, cell es d s⟩ else none

/-- `add_self_loops_coalesce` (common.py:101-120). -/
def addSelfLoops (n : Nat) (fill : K) (es : List (WEdge K)) : List (WEdge K) :=
  coalesce n (es ++ (List.range n).map fun i => ⟨i, i, fill⟩)

/-- `deg.scatter_add_(0, dst, edge_weight)` (common.py:137-138). -/
def degree (es : List (WEdge K)) (i : Nat) : K := ((es.filter fun e => e.dst = i).map (·.w)).sum

/-- `NormMode`. -/
inductive NormMode where
  | rw
  | sym
deriving DecidableEq

/-- `normalize_edge_weight` (common.py:123-148); `sqrt` is the square root, `x.rsqrt()` is `1 / sqrt x`. -/
def normalize (sqrt : K → K) (eps : K) (mode : NormMode) (es : List (WEdge K)) : List (WEdge K) :=
  es.map fun e =>
    match mode with
    | .rw => { e with w := e.w / max eps (degree es e.dst) }
    | .sym => { e with w := e.w * (1 / sqrt (max eps (degree es e.src)) * (1 / sqrt (max eps (degree es e.dst)))) }

/-- `spmm` (common.py:151-156): `out.index_add_(0, dst, X[src] * edge_weight.unsqueeze(1))`. -/
def spmm (es : List (WEdge K)) (X : Feat K) : Feat K :=
  fun i c => ((es.filter fun e => e.dst = i).map fun e => X e.src c * e.w).sum

/-- The edges of `prepare_data` (common.py:233-247): self-loops if asked for, then normalization. -/
def prepEdges (sqrt : K → K) (eps : K) (n : Nat) (loops : Bool) (mode : NormMode) (es : List (WEdge K)) : List (WEdge K) :=
  normalize sqrt eps mode (if loops then addSelfLoops n 1 es else es)

/-- `_propagate_features` (sgc.py:18-22) and `_propagate` (grand.py:17-23). -/
def propagate (es : List (WEdge K)) : Nat → Feat K → Feat K
  | 0, X => X
  | k + 1, X => propagate es k (spmm es X)

/-- The loop of `_APPNPNet.forward` (appnp.py:43-49), from `h`, with `h0` the output of the network. -/
def appnpLoop (es : List (WEdge K)) (alpha : K) (h0 : Feat K) : Nat → Feat K → Feat K
  | 0, h => h
  | k + 1, h => appnpLoop es alpha h0 k (fun i c => (1 - alpha) * spmm es h i c + alpha * h0 i c)

/-- `_APPNPNet.forward` after the network (appnp.py:41-49). -/
def appnp (es : List (WEdge K)) (alpha : K) (k : Nat) (h0 : Feat K) : Feat K := appnpLoop es alpha h0 k h0

/-- `lap_op` of `_ChebConv.forward` (chebnet.py:39-40). -/
def lapOp (es : List (WEdge K)) (X : Feat K) : Feat K := fun i c => - spmm es X i c

/-- The loop of `_ChebConv.forward` (chebnet.py:51-55): the inputs of the linear layers `lins[2]`, `lins[3]`, .... -/
def chebLoop (es : List (WEdge K)) : Nat → Feat K → Feat K → List (Feat K)
  | 0, _, _ => []
  | k + 1, t0, t1 =>
    let t2 : Feat K := fun i c => 2 * lapOp es t1 i c - t0 i c
    t2 :: chebLoop es k t1 t2

/-- The inputs of the linear layers `lins[0]`, …, `lins[k]` of `_ChebConv` (chebnet.py:42-55). -/
def chebTerms (es : List (WEdge K)) (k : Nat) (X : Feat K) : List (Feat K) :=
  match k with
  | 0 => [X]
  | k + 1 => X :: lapOp es X :: chebLoop es k X (lapOp es X)

/-- The propagation inside one layer of GCNII (gcnii.py:51-53). -/
def gcniiMix (es : List (WEdge K)) (alpha : K) (x0 X : Feat K) : Feat K :=
  fun i c => (1 - alpha) * spmm es X i c + alpha * x0 i c

/-! ### Dense adjacencies -/

/-- The loop of `_build_dense_adjacency` (n_gcn.py:33-43, h_gcn.py:32-40): `adj[s, d] += weight`, without self-loops. -/
def denseSum (es : List (WEdge K)) (i j : Nat) : K :=
  ((es.filter fun e => e.src = i ∧ e.dst = j ∧ e.src ≠ e.dst).map (·.w)).sum

/-- `_build_dense_adjacency` of N-GCN (n_gcn.py:25-51). -/
def denseAdj (symmetrize loops : Bool) (es : List (WEdge K)) (i j : Nat) : K :=
  (if symmetrize then max (denseSum es i j) (denseSum es j i) else denseSum es i j) + (if loops && i == j then 1 else 0)

/-- `_normalize_adjacency` of N-GCN (n_gcn.py:54-58). -/
def denseNorm (sqrt : K → K) (eps : K) (n : Nat) (adj : Nat → Nat → K) (i j : Nat) : K :=
  1 / sqrt (max eps ((List.range n).map (adj i)).sum) * adj i j * (1 / sqrt (max eps ((List.range n).map (adj j)).sum))

/-- A dense matrix product `adj @ X`. -/
def denseMul (n : Nat) (A : Nat → Nat → K) (X : Feat K) : Feat K :=
  fun i c => ((List.range n).map fun j => A i j * X j c).sum

/-- The powers kept by N-GCN (n_gcn.py:253-258): from `P`, `K` of them. -/
def ngcnPowers (n : Nat) (A : Nat → Nat → K) : Nat → Feat K → List (Feat K)
  | 0, _ => []
  | k + 1, P => P :: ngcnPowers n A k (denseMul n A P)

/-- `torch.eye`. -/
def eye : Feat K := fun i j => if i = j then 1 else 0

end ModSSC.Gnn
