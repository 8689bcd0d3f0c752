import Verif.Gnn.CoarsenModel
import Verif.Gnn.NetModel
import Mathlib.Data.List.Sort

/-!
# Model of H-GCN in evaluation mode (`transductive/methods/gnn/h_gcn.py`)

One coarsening step is `Gnn/CoarsenModel`.  Floats are exact numbers of an ordered field; dropout is the identity in evaluation mode and is
left out.  The data given is what `prepare_data` accepts: all edges between nodes, as many weights as edges.
-/

namespace ModSSC.Gnn.Hgcn
open ModSSC ModSSC.Transductive ModSSC.Gnn ModSSC.Gnn.Nets

variable {K : Type} [Field K] [LinearOrder K]

/-- The sum of the weights of the edges from `i` to `j` (h_gcn.py:37-40). -/
def entry (es : List (WEdge K)) (i j : Nat) : K :=
  if i = j then 0 else ((es.filter fun e => e.src = i ∧ e.dst = j).map (·.w)).sum

/-- `_build_dense_adjacency` (h_gcn.py:25-46). -/
def dense (symmetrize : Bool) (es : List (WEdge K)) (i j : Nat) : K :=
  if i = j then 0 else if symmetrize then max (entry es i j) (entry es j i) else entry es i j

/-- The matrix with self-loops (h_gcn.py:50-52). -/
def looped (loops : Bool) (adj : Nat → Nat → K) (i j : Nat) : K := if loops ∧ i = j then adj i j + 1 else adj i j

/-- `deg.pow(-0.5)` (h_gcn.py:53-54). -/
def dinv (sqrt : K → K) (eps : K) (loops : Bool) (n : Nat) (adj : Nat → Nat → K) (i : Nat) : K :=
  1 / sqrt (max eps ((List.range n).map (looped loops adj i)).sum)

/-- `_normalize_adjacency` (h_gcn.py:49-55). -/
def normAdj (sqrt : K → K) (eps : K) (loops : Bool) (n : Nat) (adj : Nat → Nat → K) (i j : Nat) : K :=
  dinv sqrt eps loops n adj i * looped loops adj i j * dinv sqrt eps loops n adj j

/-- A graph of the hierarchy: number of nodes, adjacency, node weights. -/
structure Level (K : Type) where
  n : Nat
  adj : Nat → Nat → K
  w : Nat → Nat

/-- `np.argsort(degrees, kind="stable")` (h_gcn.py:90-91). -/
def degreeOrder (L : Level K) : List Nat :=
  (List.range L.n).insertionSort fun a b => (nbrs L.n L.adj a).length ≤ (nbrs L.n L.adj b).length

/-- The groups of a graph of the hierarchy (h_gcn.py:58-116), the scores as in line 100. -/
def Level.groups (sqrt : K → K) (L : Level K) : List (List Nat) :=
  coarsen L.n L.adj (fun v u => L.adj v u / sqrt ((L.w v : K) * (L.w u : K))) (degreeOrder L)

/-- The next graph of the hierarchy (h_gcn.py:118-126, 340-343). -/
def Level.next (sqrt : K → K) (L : Level K) : Level K :=
  ⟨(L.groups sqrt).length, adjNext L.n (L.groups sqrt) L.adj, fun g => (weightsNext (L.groups sqrt) L.w).getD g 0⟩

/-- `adj_levels`, `weight_levels` (h_gcn.py:335-343). -/
def level (sqrt : K → K) (L : Level K) : Nat → Level K
  | 0 => L
  | i + 1 => (level sqrt L i).next sqrt

/-- `max(int(w.max()) for w in weight_levels)`, at least one (h_gcn.py:345-347). -/
def maxWeight (sqrt : K → K) (L : Level K) (c : Nat) : Nat :=
  max 1 (((List.range (c + 1)).flatMap fun i => (List.range (level sqrt L i).n).map (level sqrt L i).w).foldl max 0)

/-- The settings that decide about the hierarchy (h_gcn.py:245-255). -/
structure Settings where
  numLayers : Int
  channels : Int
  embedDim : Int
  loops : Bool
  symmetrize : Bool

/-- What `fit` stores about the graph (h_gcn.py:303, 345-362): the number of nodes, coarsening steps, the hierarchy, the size of the
embedding. -/
structure Fitted (K : Type) where
  n : Nat
  c : Nat
  base : Level K
  loops : Bool
  maxW : Nat

/-- `fit` up to the creation of the network (h_gcn.py:282-373); `w.max()` of a graph without nodes raises `ValueError`. -/
def fit (sqrt : K → K) (s : Settings) (d : Data K) : Except PyErr (Fitted K) :=
  if s.numLayers < 3 ∨ s.numLayers % 2 = 0 then .error .valueError
  else if s.channels < 1 then .error .valueError
  else if s.embedDim < 1 then .error .valueError
  else if d.n = 0 then .error .valueError
  else
    let base : Level K := ⟨d.n, dense s.symmetrize d.edges, fun _ => 1⟩
    let c := ((s.numLayers - 1) / 2).toNat
    .ok ⟨d.n, c, base, s.loops, maxWeight sqrt base c⟩

/-- A `_MultiChannelGCN` (h_gcn.py:129-144): the number of features before the embedding, and per channel a logit and a linear layer. -/
structure Layer (K : Type) where
  baseIn : Nat
  channels : List (K × Linear K)

/-- The parameters of `_HGCNNet` (h_gcn.py:184-202). -/
structure Params (K : Type) where
  embed : Nat → Nat → K
  layers : Nat → Layer K
  out : Linear K

/-- `A @ x` with `n` columns. -/
def mul (n : Nat) (A : Nat → Nat → K) (X : Feat K) : Feat K := fun i c => ((List.range n).map fun j => A i j * X j c).sum

/-- `torch.cat([x, weight_embed(node_weights)], dim=1)` (h_gcn.py:155-156). -/
def withWeight (embed : Nat → Nat → K) (d : Nat) (w : Nat → Nat) (X : Feat K) : Feat K :=
  fun i c => if c < d then X i c else embed (w i) (c - d)

/-- `torch.softmax(channel_logits)` applied to the outputs (h_gcn.py:159-161). -/
def mixChannels (exp : K → K) (chs : List (K × Linear K)) (X : Feat K) : Feat K :=
  fun i o => (chs.map fun ch => exp ch.1 / (chs.map fun c => exp c.1).sum * relu (ch.2.app X) i o).sum

/-- `_MultiChannelGCN.forward` (h_gcn.py:146-161) in a graph of the hierarchy. -/
def Layer.forward (exp sqrt : K → K) (eps : K) (embed : Nat → Nat → K) (loops : Bool) (ly : Layer K) (L : Level K) (X : Feat K) : Feat K :=
  mixChannels exp ly.channels (mul L.n (normAdj sqrt eps loops L.n L.adj) (withWeight embed ly.baseIn L.w X))

/-- The first loop of `_HGCNNet.forward` (h_gcn.py:215-223): `r` steps from level `i`; the outputs are kept, the last one first. -/
def down (exp sqrt : K → K) (eps : K) (p : Params K) (loops : Bool) (L : Level K) :
    Nat → Nat → Feat K → List (Nat × Feat K) → Feat K × List (Nat × Feat K)
  | 0, _, H, skips => (H, skips)
  | r + 1, i, H, skips =>
    let lv := level sqrt L i
    let G := (p.layers i).forward exp sqrt eps p.embed loops lv H
    down exp sqrt eps p loops L r (i + 1) (mul lv.n (fun g j => groupMat (lv.groups sqrt) j g) G) ((i, G) :: skips)

/-- The second loop of `_HGCNNet.forward` (h_gcn.py:225-233); `k` is `num_coarsen + offset`. -/
def up (exp sqrt : K → K) (eps : K) (p : Params K) (loops : Bool) (L : Level K) : List (Nat × Feat K) → Nat → Feat K → Feat K
  | [], _, H => H
  | (i, skip) :: rest, k, H =>
    let G := (p.layers k).forward exp sqrt eps p.embed loops (level sqrt L (i + 1)) H
    up exp sqrt eps p loops L rest (k + 1)
      (fun v o => mul (level sqrt L (i + 1)).n (groupMat ((level sqrt L i).groups sqrt)) G v o + skip v o)

/-- `_HGCNNet.forward` (h_gcn.py:204-238). -/
def forward (exp sqrt : K → K) (eps : K) (p : Params K) (f : Fitted K) (X : Feat K) : Feat K :=
  let r := down exp sqrt eps p f.loops f.base f.c 0 X []
  let H := up exp sqrt eps p f.loops f.base r.2 f.c r.1
  relu (p.out.app (mul f.n (normAdj sqrt eps f.loops f.n f.base.adj) H))

/-- `predict_proba` (h_gcn.py:396-419): the graph is the one of `fit`; an embedding index beyond the table raises `IndexError`. -/
def predict (exp sqrt : K → K) (eps : K) (classes : Nat) (p : Params K) (f : Fitted K) (d : Data K) : Except PyErr (Nat → Nat → K) :=
  if d.n ≠ f.n then .error .valueError
  else if (List.range (f.c + 1)).any fun i => (List.range (level sqrt f.base i).n).any fun g => f.maxW < (level sqrt f.base i).w g then
    .error .indexError
  else .ok fun v => Grafn.probOf exp classes (forward exp sqrt eps p f d.X v)

end ModSSC.Gnn.Hgcn
