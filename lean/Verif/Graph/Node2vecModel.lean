import Verif.Base

/-!
# Model of the node2vec walks (`graph/featurization/node2vec.py`) and of the training around them

Used by `transductive/methods/gnn/planetoid.py` and `preprocess/steps/graph/node2vec.py`.  The gradient step on a batch is a
parameter.
-/

namespace ModSSC.Node2vec
open ModSSC

/-- `_build_adjacency` (graph/featurization/node2vec.py:6-19): sorted neighbours without repetition; self-loops and pairs with a
number outside the graph are skipped. -/
def adjacency (n : Nat) (undirected : Bool) (es : List (Int × Int)) (i : Nat) : List Nat :=
  (List.range n).filter fun j => decide (i < n) && decide (i ≠ j) &&
    es.any fun e => decide (e.1 = i ∧ e.2 = j) || (undirected && decide (e.1 = j ∧ e.2 = i))

/-- The generator: `rng.integers(0, n)` and `rng.choice(neigh, p=probs)` (numpy, external). -/
structure Draw (σ : Type) where
  integers : σ → Nat → Nat × σ
  choice : σ → List Nat → List Rat → Nat × σ

/-- The contract: a number below `n`; an item with positive probability. -/
structure Draw.Lawful {σ : Type} (D : Draw σ) : Prop where
  integers_lt : ∀ s n, 0 < n → (D.integers s n).1 < n
  choice_mem : ∀ s l ps, l ≠ [] → (D.choice s l ps).1 ∈ l

/-- The unnormalized transition weights (featurization/node2vec.py:50-57). -/
def weights (p q : Rat) (prevNbrs nbrs : List Nat) (prev : Nat) : List Rat :=
  nbrs.map fun x =>
    if x = prev then 1 / max p (1 / 1000000000000)
    else if x ∈ prevNbrs then 1
    else 1 / max q (1 / 1000000000000)

/-- `probs / probs.sum()` (featurization/node2vec.py:59). -/
def probs (p q : Rat) (prevNbrs nbrs : List Nat) (prev : Nat) : List Rat :=
  (weights p q prevNbrs nbrs prev).map (· / (weights p q prevNbrs nbrs prev).sum)

/-- The next node (featurization/node2vec.py:46-60), from a node that has neighbours. -/
def next {σ : Type} (D : Draw σ) (p q : Rat) (adj : Nat → List Nat) (prev : Option Nat) (cur : Nat) (s : σ) : Nat × σ :=
  let uniform := let r := D.integers s (adj cur).length; ((adj cur).getD r.1 0, r.2)
  match prev with
  | none => uniform
  | some u => if p = 1 ∧ q = 1 then uniform else D.choice s (adj cur) (probs p q (adj u) (adj cur) u)

/-- The loop over the steps (featurization/node2vec.py:42-62): the nodes after the first; it breaks at a node without neighbours. -/
def steps {σ : Type} (D : Draw σ) (p q : Rat) (adj : Nat → List Nat) : Nat → Option Nat → Nat → σ → List Nat × σ
  | 0, _, _, s => ([], s)
  | k + 1, prev, cur, s =>
    if (adj cur).isEmpty then ([], s)
    else
      let r := next D p q adj prev cur s
      let t := steps D p q adj k (some cur) r.1 r.2
      (r.1 :: t.1, t.2)

/-- The walks from one node (featurization/node2vec.py:38-63). -/
def walksFrom {σ : Type} (D : Draw σ) (p q : Rat) (adj : Nat → List Nat) (len : Int) (start : Nat) : Nat → σ → List (List Nat) × σ
  | 0, s => ([], s)
  | w + 1, s =>
    let r := steps D p q adj (len - 1).toNat none start s
    let t := walksFrom D p q adj len start w r.2
    ((start :: r.1) :: t.1, t.2)

/-- The loop over the start nodes (featurization/node2vec.py:35-63). -/
def walksLoop {σ : Type} (D : Draw σ) (p q : Rat) (adj : Nat → List Nat) (num len : Int) : List Nat → σ → List (List Nat)
  | [], _ => []
  | start :: rest, s =>
    if (adj start).isEmpty then walksLoop D p q adj num len rest s
    else
      let r := walksFrom D p q adj len start num.toNat s
      r.1 ++ walksLoop D p q adj num len rest r.2

/-- `_random_walks_node2vec` (featurization/node2vec.py:22-67); `s` is the generator of the seed. -/
def walks {σ : Type} (D : Draw σ) (p q : Rat) (n : Nat) (adj : Nat → List Nat) (num len : Int) (s : σ) : List (List Nat) :=
  walksLoop D p q adj num len (List.range n) s

/-- The pairs of one walk (featurization/node2vec.py:74-84): `j` from `max(0, i - window)` to `min(L, i + window + 1) - 1`, without `i`. -/
def pairsOf (window : Int) (w : List Nat) : List (Nat × Nat) :=
  (List.range w.length).flatMap fun (i : Nat) =>
    ((List.range w.length).filter fun (j : Nat) => decide (max 0 ((i : Int) - window) ≤ j) && decide ((j : Int) < min (w.length : Int) (i + window + 1)) && decide (j ≠ i)).map
      fun (j : Nat) => (w.getD i 0, w.getD j 0)

/-- `_walk_pairs` (featurization/node2vec.py:70-86). -/
def pairs (window : Int) (ws : List (List Nat)) : List (Nat × Nat) := ws.flatMap (pairsOf window)

/-- Training: `torch.nn.Embedding` draws the weights from the global generator of torch, which neither
planetoid.py:78-194 nor preprocess/steps/graph/node2vec.py:97-151 seeds; a batch step may draw from it too (`torch.randperm`,
planetoid.py:176-180).  `batches` are the batches with their negatives, given by the seed alone. -/
def train {B S G : Type} (init : G → S × G) (step : B → S × G → S × G) (batches : Int → List B) (seed : Int) (g : G) : S :=
  ((batches seed).foldl (fun (t : S × G) (b : B) => step b t) (init g)).1

/-- The supervised batch (planetoid.py:175-180): all labeled nodes, or a random part of them. -/
def supSel {G : Type} (randperm : G → Nat → List Nat × G) (train : List Nat) (size : Nat) (g : G) : List Nat × G :=
  if size < train.length then
    let r := randperm g train.length
    ((r.1.take size).filterMap (train[·]?), r.2)
  else (train, g)

end ModSSC.Node2vec
