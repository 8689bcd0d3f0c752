import Verif.Gnn.PrepModel
import Verif.Gnn.GrafnFitModel

/-!
# Model of the graph attention network (`src/modssc/transductive/methods/gnn/gat.py`) in evaluation mode

Floats are exact numbers of an ordered field; `exp` is a parameter.  Dropout is the identity in evaluation mode and is left out; the
training loop is `train_fullbatch` of `TrainModel`.
-/

namespace ModSSC.Gnn.Gat
open ModSSC ModSSC.Transductive ModSSC.Gnn

variable {K : Type} [Field K] [LinearOrder K]

/-- An edge: source, target. -/
abbrev Edge := Nat × Nat

/-- The edges into a node. -/
def into (es : List Edge) (v : Nat) : List Edge := es.filter fun e => e.2 = v

/-- `max_per_dst` (gat.py:36-40); `-inf` of a node without edges is never read. -/
def maxInto (l : Edge → K) (es : List Edge) (v : Nat) : K :=
  match (into es v).map l with
  | [] => 0
  | a :: as => as.foldl max a

/-- `_edge_softmax` (gat.py:18-45), one edge, one head: `exp` of the logit minus the largest of the target, over the sum for the target
plus `eps`. -/
def attention (exp : K → K) (eps : K) (l : Edge → K) (es : List Edge) (e : Edge) : K :=
  exp (l e - maxInto l es e.2) / (((into es e.2).map fun e' => exp (l e' - maxInto l es e.2)).sum + eps)

/-- The parameters of a `_GATConv` (gat.py:48-87): the weight of head, channel and input; attention vectors; bias. -/
structure Conv (K : Type) where
  inputs : Nat
  heads : Nat
  channels : Nat
  concat : Bool
  slope : K
  weight : Nat → Nat → Nat → K
  attSrc : Nat → Nat → K
  attDst : Nat → Nat → K
  bias : Nat → K

/-- `self.lin(x).view(n_nodes, heads, out_channels)` (gat.py:92). -/
def Conv.proj (P : Conv K) (X : Feat K) (i k c : Nat) : K := ((List.range P.inputs).map fun j => X i j * P.weight k c j).sum

/-- `leaky_relu`. -/
def leaky (slope x : K) : K := if 0 < x then x else slope * x

/-- The logits of the edges (gat.py:95-99). -/
def Conv.logit (P : Conv K) (X : Feat K) (k : Nat) (e : Edge) : K :=
  leaky P.slope (((List.range P.channels).map fun c => P.proj X e.1 k c * P.attSrc k c).sum +
    ((List.range P.channels).map fun c => P.proj X e.2 k c * P.attDst k c).sum)

/-- The messages added up at a node (gat.py:101-111). -/
def Conv.message (P : Conv K) (exp : K → K) (eps : K) (es : List Edge) (X : Feat K) (v k c : Nat) : K :=
  ((into es v).map fun e => P.proj X e.1 k c * attention exp eps (P.logit X k) es e).sum

/-- `_GATConv.forward` (gat.py:89-121): heads side by side, or their mean. -/
def Conv.forward (P : Conv K) (exp : K → K) (eps : K) (es : List Edge) (X : Feat K) : Feat K := fun v j =>
  (if P.concat then P.message exp eps es X v (j / P.channels) (j % P.channels)
    else ((List.range P.heads).map fun k => P.message exp eps es X v k j).sum / (P.heads : K)) + P.bias j

/-- `elu`. -/
def elu (exp : K → K) (x : K) : K := if 0 < x then x else exp x - 1

/-- A `_GATNet` (gat.py:124-152): the two layers. -/
structure Net (K : Type) where
  first : Conv K
  second : Conv K

/-- `_GATNet.forward` (gat.py:154-160) in evaluation mode. -/
def Net.forward (N : Net K) (exp : K → K) (eps : K) (es : List Edge) (X : Feat K) : Feat K :=
  N.second.forward exp eps es fun i j => elu exp (N.first.forward exp eps es X i j)

/-- The edges the network sees: those of `prepare_data` without their weights (gat.py:252-258,262). -/
def seen (sqrt : K → K) (floor : K) (n : Nat) (loops : Bool) (es : List (WEdge K)) : List Edge :=
  (prepEdges sqrt floor n loops .rw es).map fun e => (e.src, e.dst)

/-- `predict_proba` (gat.py:248-264) of a network for data with `n` nodes and these edges; class `c` of `classes`.  `floor` is the
`1e-12` of `normalize_edge_weight`, `eps` the `1e-16` of `_edge_softmax`. -/
def Net.predict (N : Net K) (exp sqrt : K → K) (eps floor : K) (classes n : Nat) (loops : Bool) (es : List (WEdge K)) (X : Feat K)
    (v c : Nat) : K :=
  Grafn.probOf exp classes (N.forward exp eps (seen sqrt floor n loops es) X v) c

end ModSSC.Gnn.Gat
