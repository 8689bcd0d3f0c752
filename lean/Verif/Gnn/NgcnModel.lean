import Verif.Gnn.HgcnModel

/-!
# Model of N-GCN in evaluation mode (`transductive/methods/gnn/n_gcn.py`)

Floats are exact numbers of an ordered field; dropout is the identity in evaluation mode and is left out.  The data given is what
`prepare_data` accepts: all edges between nodes, as many weights as edges.
-/

namespace ModSSC.Gnn.Ngcn
open ModSSC ModSSC.Transductive ModSSC.Gnn ModSSC.Gnn.Nets

variable {K : Type} [Field K] [LinearOrder K]

/-- The sum of the weights of the edges from `i` to `j`, without self-loops (n_gcn.py:38-41). -/
def entry (es : List (WEdge K)) (i j : Nat) : K :=
  ((es.filter fun e => e.src ≠ e.dst ∧ e.src = i ∧ e.dst = j).map (·.w)).sum

/-- `_build_dense_adjacency` (n_gcn.py:25-49). -/
def dense (symmetrize loops : Bool) (es : List (WEdge K)) (i j : Nat) : K :=
  (if symmetrize then max (entry es i j) (entry es j i) else entry es i j) + if loops ∧ i = j then 1 else 0

/-- `_normalize_adjacency` (n_gcn.py:52-56). -/
def normAdj (sqrt : K → K) (eps : K) (n : Nat) (adj : Nat → Nat → K) (i j : Nat) : K :=
  1 / sqrt (max eps ((List.range n).map (adj i)).sum) * adj i j * (1 / sqrt (max eps ((List.range n).map (adj j)).sum))

/-- `_adj_powers[k]` (n_gcn.py:257-261). -/
def power (n : Nat) (A : Nat → Nat → K) : Nat → Nat → Nat → K
  | 0, i, j => if i = j then 1 else 0
  | k + 1, i, j => ((List.range n).map fun m => A i m * power n A k m j).sum

/-- `_DenseGCN.forward` (n_gcn.py:82-90). -/
def gcn (n : Nat) (A : Nat → Nat → K) : List (Linear K) → Feat K → Feat K
  | [], X => X
  | [L], X => L.app (Hgcn.mul n A X)
  | L :: rest, X => gcn n A rest (relu (L.app (Hgcn.mul n A X)))

/-- The last part of `_NGCNNet` (n_gcn.py:127-138): a linear layer on all outputs, each with `width` numbers, or attention logits and
possibly a linear layer. -/
inductive Head (K : Type) where
  | fc (width : Nat) (L : Linear K)
  | attention (logits : List K) (L : Option (Linear K))

/-- The parameters of a network (n_gcn.py:108-138). -/
structure Net (K : Type) where
  gcns : Nat → List (Linear K)
  head : Head K

/-- `outputs` (n_gcn.py:141-147). -/
def outputs (n powers r : Nat) (N : Net K) (A : Nat → Nat → K) (X : Feat K) : List (Feat K) :=
  (List.range powers).flatMap fun k => (List.range r).map fun s => gcn n (power n A k) (N.gcns (k * r + s)) X

/-- The head applied to the outputs (n_gcn.py:149-157): side by side, or their weighted sum. -/
def Head.app (exp : K → K) (h : Head K) (outs : List (Feat K)) : Feat K :=
  match h with
  | .fc width L => L.app fun i c => ((outs.map fun o => o i).getD (c / width) fun _ => 0) (c % width)
  | .attention logits L =>
    let mixed : Feat K := fun i c =>
      ((logits.zip (outs.map fun o => o i)).map fun p => exp p.1 / (logits.map exp).sum * p.2 c).sum
    match L with
    | none => mixed
    | some L => L.app mixed

/-- The settings (n_gcn.py:164-175). -/
structure Settings where
  powers : Int
  r : Int
  layers : Int
  classifier : String
  loops : Bool
  symmetrize : Bool

/-- What `fit` stores about the graph (n_gcn.py:223, 253-261). -/
structure Fitted (K : Type) where
  n : Nat
  powers : Nat
  r : Nat
  adj : Nat → Nat → K

/-- `fit` up to the creation of the network (n_gcn.py:200-274). -/
def fit (sqrt : K → K) (eps : K) (s : Settings) (d : Data K) : Except PyErr (Fitted K) :=
  if s.powers < 1 then .error .valueError
  else if s.r < 1 then .error .valueError
  else if s.layers < 1 then .error .valueError
  else if s.classifier ≠ "fc" ∧ s.classifier ≠ "attention" then .error .valueError
  else .ok ⟨d.n, s.powers.toNat, s.r.toNat, normAdj sqrt eps d.n (dense s.symmetrize s.loops d.edges)⟩

/-- `predict_proba` (n_gcn.py:292-310): the graph is the one of `fit`. -/
def predict (exp : K → K) (classes : Nat) (N : Net K) (f : Fitted K) (d : Data K) : Except PyErr (Nat → Nat → K) :=
  if d.n ≠ f.n then .error .valueError
  else .ok fun v => Grafn.probOf exp classes (N.head.app exp (outputs f.n f.powers f.r N f.adj d.X) v)

end ModSSC.Gnn.Ngcn
