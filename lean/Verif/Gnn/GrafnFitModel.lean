import Verif.Gnn.GrafnModel
import Verif.Gnn.TrainModel

/-!
# Model of the training of GraFN (`transductive/methods/gnn/grafn.py`)

`GraFNMethod.fit` and `predict_proba`, for a dataset that `prepare_data` accepts.  The encoder, the linear classifier, the
optimizer and the random generators are parameters.  A gradient step is a function of the loss as a function of the parameters, of
the parameters and of the optimizer's state.  Floats are exact numbers.
-/

namespace ModSSC.Gnn.Grafn
open ModSSC ModSSC.Transductive ModSSC.Gnn

variable {K : Type} [Field K] [LinearOrder K]

/-- `GraFNSpec` (grafn.py:142-158). -/
structure Config (K : Type) where
  hiddenDims : List Int
  lr : K
  weightDecay : K
  maxEpochs : Int
  patience : Int
  tau : K
  thres : K
  lamConsistency : K
  lamNodewise : K
  dropFeatStrong : K
  dropEdgeStrong : K
  dropFeatWeak : K
  dropEdgeWeak : K

/-- The dataset as `prepare_data` reads it (common.py:179-260), with the edges before self-loops and normalization
(grafn.py:216-227): `n` nodes with `d` features, labels, masks. -/
structure Input (K : Type) where
  n : Nat
  d : Nat
  X : Feat K
  edges : List (WEdge K)
  y : List Int
  train : List Bool
  val : Option (List Bool)

/-- Features and normalized edges: what the network is given. -/
structure View (K : Type) where
  X : Feat K
  edges : List (WEdge K)

/-- `np.random.Generator`: `default_rng(seed)`, `integers(0, 2**32 - 1)`, `random((k,))`, `choice`. -/
structure Gen (K σ : Type) extends Rng σ where
  seed : Int → σ
  integers : σ → Int × σ
  random : σ → Nat → List K × σ

/-- What torch does.  `net sizes classes seed`: a fresh `_GraFNNet` after `manual_seed`.  `encode`, `head`: encoder and linear
classifier in training mode, by node; `stats`: what a pass in training mode does to the running statistics of the batch
normalization; `evalLogits`: `classify` in evaluation mode; `learn`: `zero_grad`, `backward`, `step`. -/
structure Torch (K S O : Type) where
  net : List Nat → Nat → Int → S
  opt : S → K → K → O
  encode : S → View K → Nat → List K
  stats : S → View K → S
  head : S → List K → Nat → K
  evalLogits : S → View K → Nat → Nat → K
  learn : (S → K) → S → O → S × O
  exp : K → K
  log : K → K
  sqrt : K → K
  /-- `1e-12`: the floor of degrees and of norms in `normalize`. -/
  eps : K
  /-- `1e-8`: the floor of norms in `cosine_similarity`. -/
  epsCos : K
  /-- `1e-4` (grafn.py:298). -/
  floor : K

/-- The inner product of two rows. -/
def dot (u v : List K) : K := (List.zipWith (· * ·) u v).sum

/-- `torch.nn.functional.normalize(x, dim=1)`, one row. -/
def unit (sqrt : K → K) (eps : K) (v : List K) : List K := v.map (· / max (sqrt (dot v v)) eps)

/-- `torch.nn.functional.cosine_similarity`, one row. -/
def cosine (sqrt : K → K) (eps : K) (u v : List K) : K := dot u v / (max (sqrt (dot u u)) eps * max (sqrt (dot v v)) eps)

/-- `torch.softmax` of the logits of one node, class `c`. -/
def probOf (exp : K → K) (classes : Nat) (logits : Nat → K) (c : Nat) : K :=
  exp (logits c) / ((List.range classes).map fun c => exp (logits c)).sum

/-- The mean of a value over some nodes. -/
def meanOver (l : List Nat) (f : Nat → K) : K := (l.map f).sum / (l.length : K)

section
variable {S O σ : Type}

/-- The draws of one of `_drop_features`, `_drop_edges`: none if the probability is not positive (grafn.py:31-33,42-45). -/
def drawn (R : Gen K σ) (p : K) (k : Nat) (s : σ) : List K × σ := if p ≤ 0 then ([], s) else R.random s k

/-- `_build_augmented_view` (grafn.py:52-66). -/
def makeView (T : Torch K S O) (R : Gen K σ) (inp : Input K) (pEdge pFeat : K) (s : σ) : View K :=
  let f := drawn R pFeat inp.d s
  let e := drawn R pEdge inp.edges.length f.2
  ⟨dropFeatures pFeat f.1 inp.X, prepEdges T.sqrt T.eps inp.n true .sym (dropEdges pEdge e.1 inp.edges)⟩

/-- `_snn` (grafn.py:383-388): the row of node `i`, class `c`. -/
def snn (T : Torch K S O) (tau : K) (rep : Nat → List K) (support classes : List Nat) (i c : Nat) : K :=
  snnRow T.exp (support.map fun j => dot (unit T.sqrt T.eps (rep i)) (unit T.sqrt T.eps (rep j)) / tau) classes c

/-- The nodes of the training mask. -/
def trainNodes (inp : Input K) : List Nat := (List.range inp.n).filter fun i => inp.train[i]? == some true

/-- The label of a training node (grafn.py:299). -/
def labelOf (inp : Input K) (i : Nat) : Option Nat :=
  if inp.train[i]? = some true then some (inp.y.getD i 0).toNat else none

/-- `targets.max(dim=1).values` (grafn.py:295). -/
def topOf (row : Nat → K) (classes : Nat) : K := ((List.range classes).map row).foldl max (row 0)

/-- What an epoch decides without gradient (grafn.py:259-305): support nodes with their classes, the two views, the nodes of the
consistency loss and their targets. -/
structure Plan (K : Type) where
  support : List Nat
  classes : List Nat
  anchor : View K
  pos : View K
  indices : List Nat
  target : Nat → Nat → K

/-- The consistency loss (grafn.py:307-308); `log(p ** (-t))` is written `-(t * log p)`. -/
def consistency (T : Torch K S O) (cfg : Config K) (k : Nat) (p : Plan K) (anchorRep : Nat → List K) : K :=
  meanOver p.indices fun i => ((List.range k).map fun c =>
    -(p.target i c * T.log (snn T cfg.tau anchorRep p.support p.classes i c))).sum

/-- `cross_entropy` on the training nodes (grafn.py:314-317). -/
def crossEntropy (T : Torch K S O) (inp : Input K) (k : Nat) (logits : Nat → Nat → K) : K :=
  meanOver (trainNodes inp) fun i => -T.log (probOf T.exp k (logits i) (inp.y.getD i 0).toNat)

/-- The loss from what the four passes gave (grafn.py:307-329). -/
def total (T : Torch K S O) (cfg : Config K) (inp : Input K) (k : Nat) (p : Plan K) (anchorRep posRep : Nat → List K)
    (logitsAnchor logitsPos : Nat → Nat → K) : K :=
  (crossEntropy T inp k logitsAnchor + crossEntropy T inp k logitsPos) * (1 / 2) +
    cfg.lamConsistency * consistency T cfg k p anchorRep +
    cfg.lamNodewise * (2 - 2 * meanOver (List.range inp.n) fun i => cosine T.sqrt T.epsCos (anchorRep i) (posRep i))

/-- The state of the training loop, with a log of the plans and losses. -/
structure State (K S O σ : Type) where
  net : S
  opt : O
  rng : σ
  log : List (Plan K × K)

/-- The plan of an epoch (grafn.py:259-305), from the support set and the generator after drawing it; `posRep` are the
representations of the weak view. -/
def planOf (T : Torch K S O) (cfg : Config K) (inp : Input K) (k : Nat) (support classes : List Nat) (anchor pos : View K)
    (posRep : Nat → List K) : Plan K :=
  let soft := snn T cfg.tau posRep support classes
  ⟨support, classes, anchor, pos,
    (List.range inp.n).filter (fun i => included cfg.thres (topOf (soft i) k) (labelOf inp i)),
    fun i => targetRow T.floor (labelOf inp i) (soft i)⟩

/-- One epoch (grafn.py:256-333).  Batch normalization refuses a single node in training mode (`ValueError`); the one-hot matrix
of the training nodes refuses a negative label (`RuntimeError`).  A failure comes with the network it leaves. -/
def epoch (T : Torch K S O) (R : Gen K σ) (cfg : Config K) (inp : Input K) (st : State K S O σ) :
    Except (PyErr × S) (State K S O σ) :=
  let k := nClasses inp.y
  match sampleSupport R.toRng inp.y inp.train k st.rng with
  | .error e => .error (e, st.net)
  | .ok sup =>
    let i1 := R.integers sup.2.2
    let anchor := makeView T R inp cfg.dropEdgeStrong cfg.dropFeatStrong (R.seed i1.1)
    let i2 := R.integers i1.2
    let pos := makeView T R inp cfg.dropEdgeWeak cfg.dropFeatWeak (R.seed i2.1)
    if inp.n = 1 then .error (.valueError, st.net)
    else
      let anchorRep := T.encode st.net anchor
      let n1 := T.stats st.net anchor
      let posRep := T.encode n1 pos
      let n2 := T.stats n1 pos
      if (trainNodes inp).any (fun i => decide (inp.y.getD i 0 < 0)) then .error (.runtimeError, n2)
      else
        let plan := planOf T cfg inp k sup.1 sup.2.1 anchor pos posRep
        let logitsAnchor := fun i => T.head n2 (T.encode n2 anchor i)
        let n3 := T.stats n2 anchor
        let logitsPos := fun i => T.head n3 (T.encode n3 pos i)
        let n4 := T.stats n3 pos
        let loss := total T cfg inp k plan anchorRep posRep logitsAnchor logitsPos
        let objective := fun s => total T cfg inp k plan (T.encode s anchor) (T.encode s pos)
          (fun i => T.head s (T.encode s anchor i)) (fun i => T.head s (T.encode s pos i))
        let r := T.learn objective n4 st.opt
        .ok ⟨r.1, r.2, i2.2, st.log ++ [(plan, loss)]⟩

/-- The graph the fitted network is evaluated on (grafn.py:201-207,237-238). -/
def baseEdges (T : Torch K S O) (inp : Input K) : List (WEdge K) := prepEdges T.sqrt T.eps inp.n true .sym inp.edges

/-- `logits.argmax(dim=1)`: the first largest. -/
def argmaxRow (k : Nat) (row : Nat → K) : Nat :=
  (List.range k).foldl (fun b c => if row b < row c then c else b) 0

/-- `val_acc` (grafn.py:336-342). -/
def accuracy (T : Torch K S O) (inp : Input K) (mask : List Bool) (s : S) : K :=
  let nodes := (List.range inp.n).filter fun i => mask[i]? == some true
  meanOver nodes fun i =>
    if ((argmaxRow (nClasses inp.y) (T.evalLogits s ⟨inp.X, baseEdges T inp⟩ i) : Nat) : Int) = inp.y.getD i 0 then 1 else 0

/-- The validation measure, if there are validation nodes (grafn.py:335). -/
def validation (T : Torch K S O) (inp : Input K) : Option (S → Loss K) :=
  match inp.val with
  | some m => if m.any id then some fun s => some (accuracy T inp m s) else none
  | none => none

/-- The loop over the epochs (grafn.py:256-352). -/
def loop (T : Torch K S O) (R : Gen K σ) (cfg : Config K) (inp : Input K) :
    Nat → Nat → State K S O σ → Es K S → Except (PyErr × S) (State K S O σ × Es K S × Nat)
  | 0, e, st, es => .ok (st, es, e)
  | j + 1, e, st, es =>
    match epoch T R cfg inp st with
    | .error q => .error q
    | .ok st' =>
      match validation T inp with
      | none => loop T R cfg inp j (e + 1) st' es
      | some f =>
        let r := es.see grafnMeasure cfg.patience e (f st'.net) st'.net
        if r.2 then .ok (st', r.1, e + 1) else loop T R cfg inp j (e + 1) st' r.1

/-- What the method object keeps (grafn.py:177-185): the network with its number of classes, the graph, the number of nodes. -/
structure Method (K S : Type) where
  net : Option (S × Nat)
  edges : Option (List (WEdge K))
  n : Option Nat

/-- A new method object. -/
def Method.new : Method K S := ⟨none, none, none⟩

/-- A training that was completed: the epochs run and their log. -/
structure Done (K : Type) where
  epochs : Nat
  log : List (Plan K × K)

/-- The sizes of the layers (grafn.py:116-117,240-242): an encoder needs two, and torch refuses a negative one. -/
def sizes (l : List Int) : Except PyErr (List Nat) :=
  if l = [] then .error .valueError
  else if l.any (fun z => decide (z < 0)) then .error .runtimeError
  else .ok (l.map Int.toNat)

/-- `fit` (grafn.py:187-358): the method object afterwards, and what the call gives. -/
def fit (T : Torch K S O) (R : Gen K σ) (cfg : Config K) (m : Method K S) (inp : Input K) (seed : Int) :
    Method K S × Except PyErr (Done K) :=
  if cfg.tau ≤ 0 then (m, .error .valueError)
  else if ¬ (0 ≤ cfg.thres ∧ cfg.thres ≤ 1) then (m, .error .valueError)
  else if ¬ inp.train.any id then (m, .error .valueError)
  else
    let m1 : Method K S := ⟨m.net, some (baseEdges T inp), some inp.n⟩
    match sizes cfg.hiddenDims with
    | .error e => (m1, .error e)
    | .ok l =>
      let k := nClasses inp.y
      let s0 := T.net (inp.d :: l) k seed
      if cfg.lr < 0 ∨ cfg.weightDecay < 0 then (⟨some (s0, k), m1.edges, m1.n⟩, .error .valueError)
      else
        match loop T R cfg inp cfg.maxEpochs.toNat 0 ⟨s0, T.opt s0 cfg.lr cfg.weightDecay, R.seed seed, []⟩ ⟨none, 0⟩ with
        | .error (e, s) => (⟨some (s, k), m1.edges, m1.n⟩, .error e)
        | .ok r =>
          let net := match r.2.1.best with
            | none => r.1.net
            | some b => b.2.2
          (⟨some (net, k), m1.edges, m1.n⟩, .ok ⟨r.2.2, r.1.log⟩)

/-- `predict_proba` (grafn.py:360-380): features of the data, graph of the fit. -/
def predictProba (T : Torch K S O) (m : Method K S) (inp : Input K) : Except PyErr (List (List K)) :=
  match m.net, m.edges with
  | some (s, k), some es =>
    if m.n.any (fun n => decide (inp.n ≠ n)) then .error .valueError
    else .ok ((List.range inp.n).map fun i => (List.range k).map fun c => probOf T.exp k (T.evalLogits s ⟨inp.X, es⟩ i) c)
  | _, _ => .error .runtimeError

end

end ModSSC.Gnn.Grafn
