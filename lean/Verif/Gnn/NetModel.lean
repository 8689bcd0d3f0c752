import Verif.Gnn.PrepModel
import Verif.Gnn.GrafnFitModel

/-!
# Model of the propagation networks in evaluation mode

`transductive/methods/gnn/`: `gcn.py`, `sgc.py`, `appnp.py`, `chebnet.py`, `gcnii.py`, `graphsage.py`.  Floats are exact numbers of an
ordered field.  Dropout is the identity in evaluation mode and is left out.
-/

namespace ModSSC.Gnn.Nets
open ModSSC ModSSC.Transductive ModSSC.Gnn

variable {K : Type} [Field K] [LinearOrder K]

/-- A `torch.nn.Linear`; without bias it is zero. -/
structure Linear (K : Type) where
  inputs : Nat
  weight : Nat → Nat → K
  bias : Nat → K

/-- `lin(x)`. -/
def Linear.app (L : Linear K) (X : Feat K) : Feat K :=
  fun i o => ((List.range L.inputs).map fun j => X i j * L.weight o j).sum + L.bias o

/-- `torch.relu`. -/
def relu (X : Feat K) : Feat K := fun i c => max (X i c) 0

/-- `_GCNConv.forward` (gcn.py:36-38). -/
def gcnConv (L : Linear K) (es : List (WEdge K)) (X : Feat K) : Feat K := spmm es (L.app X)

/-- `_ChebConv.forward` (chebnet.py:37-59): the linear layers applied to the terms, added up, plus the bias. -/
def chebConv (k : Nat) (lins : Nat → Linear K) (bias : Nat → K) (es : List (WEdge K)) (X : Feat K) : Feat K :=
  fun i o => (((chebTerms es k X).zipIdx).map fun t => (lins t.2).app t.1 i o).sum + bias o

/-- `_SAGEConv.forward` (graphsage.py:30-33): the features and the mean of the neighbours side by side. -/
def sageConv (d : Nat) (L : Linear K) (es : List (WEdge K)) (X : Feat K) : Feat K :=
  L.app fun i j => if j < d then X i j else spmm es X i (j - d)

/-- The layers of `_GCNIINet.forward` (gcnii.py:50-59), from layer `i`; `beta i` is `log(lam / i + 1)`. -/
def gcniiLoop (es : List (WEdge K)) (alpha : K) (beta : Nat → K) (x0 : Feat K) : Nat → List (Linear K) → Feat K → Feat K
  | _, [], X => X
  | i, L :: rest, X =>
    let Z := gcniiMix es alpha x0 X
    gcniiLoop es alpha beta x0 (i + 1) rest (relu fun v c => (1 - beta i) * Z v c + beta i * L.app Z v c)

/-- A fitted network with its parameters. -/
inductive Net (K : Type) where
  | gcn (a b : Linear K)
  | sgc (k : Nat) (a : Linear K)
  | appnp (k : Nat) (alpha : K) (a b : Linear K)
  | cheb (k : Nat) (lins1 : Nat → Linear K) (bias1 : Nat → K) (lins2 : Nat → Linear K) (bias2 : Nat → K)
  | gcnii (alpha : K) (beta : Nat → K) (first : Linear K) (layers : List (Linear K)) (last : Linear K)
  | sage (d1 : Nat) (a : Linear K) (d2 : Nat) (b : Linear K)

/-- The `forward` functions: gcn.py:50-56, sgc.py:17-22 with 83-91, appnp.py:43-50 with common.py:158-172, chebnet.py:71 with
common.py:175-180, gcnii.py:45-62, graphsage.py:45 with common.py:175-180. -/
def Net.forward : Net K → List (WEdge K) → Feat K → Feat K
  | .gcn a b, es, X => gcnConv b es (relu (gcnConv a es X))
  | .sgc k a, es, X => a.app (propagate es k X)
  | .appnp k alpha a b, es, X => ModSSC.Gnn.appnp es alpha k (b.app (relu (a.app X)))
  | .cheb k l1 b1 l2 b2, es, X => chebConv k l2 b2 es (relu (chebConv k l1 b1 es X))
  | .gcnii alpha beta first layers last, es, X =>
    last.app (gcniiLoop es alpha beta (relu (first.app X)) 1 layers (relu (first.app X)))
  | .sage d1 a d2 b, es, X => sageConv d2 b es (relu (sageConv d1 a es X))

/-- The `norm_mode` of each method (gcn.py:89, sgc.py:69, appnp.py:98, chebnet.py:118, gcnii.py:111, graphsage.py:91). -/
def Net.mode : Net K → NormMode
  | .appnp .. => .rw
  | .sage .. => .rw
  | _ => .sym

/-- What the networks see of a dataset: number of nodes, edges, features. -/
structure Data (K : Type) where
  n : Nat
  edges : List (WEdge K)
  X : Feat K

/-- The scores of the network on a dataset (`prepare_data`, then `forward`). -/
def Net.scores (N : Net K) (sqrt : K → K) (eps : K) (loops : Bool) (d : Data K) : Feat K :=
  N.forward (prepEdges sqrt eps d.n loops N.mode d.edges) d.X

/-- `predict_proba` of a method fitted on `fit` (gcn.py:126-142, appnp.py:136-152, chebnet.py:155-171, gcnii.py:150-165,
graphsage.py:127-143): the network on the data that is given.  SGC (sgc.py:108-126) uses the features propagated in `fit`, after a look at
the number of nodes. -/
def Net.predict (N : Net K) (exp sqrt : K → K) (eps : K) (classes : Nat) (loops : Bool) (fit d : Data K) :
    Except PyErr (Nat → Nat → K) :=
  match N with
  | .sgc _ _ =>
    if d.n ≠ fit.n then .error .valueError
    else .ok fun v => Grafn.probOf exp classes (N.scores sqrt eps loops fit v)
  | _ => .ok fun v => Grafn.probOf exp classes (N.scores sqrt eps loops d v)

end ModSSC.Gnn.Nets
