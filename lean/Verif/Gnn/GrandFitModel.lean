import Verif.Gnn.GrafnFitModel

/-!
# Model of the training of GRAND (`transductive/methods/gnn/grand.py`)

`GRANDMethod.fit` and `predict_proba`, for a dataset that `prepare_data` accepts, with the multilayer perceptron written out.  The
optimizer, the initial weights and torch's random generator are parameters.  Floats are exact numbers; a loss that is NaN because it
is a mean over nothing is `none`.
-/

namespace ModSSC.Gnn.Grand
open ModSSC ModSSC.Transductive ModSSC.Gnn
open ModSSC.Gnn.Grafn (Input probOf meanOver)

variable {K : Type} [Field K] [LinearOrder K]

/-- `GRANDSpec` (grand.py:26-40). -/
structure Config (K : Type) where
  hiddenDim : Int
  mlpDropout : K
  propSteps : Int
  dropnode : K
  numSamples : Int
  lamConsistency : K
  lr : K
  weightDecay : K
  maxEpochs : Int
  patience : Int
  addSelfLoops : Bool

/-- The parameters of `TwoLayerMLP` (common.py:158-165): weights and offsets of the two layers. -/
structure Weights (K : Type) where
  w1 : Nat → Nat → K
  b1 : Nat → K
  w2 : Nat → Nat → K
  b2 : Nat → K

/-- What torch does.  `init inputs hidden classes`: a fresh network from the global generator; `bern g q n d`: for every entry of
an `n × d` matrix whether it is kept, with probability `q`; `learn`: `zero_grad`, `backward`, `step`. -/
structure Torch (K O G : Type) where
  init : Nat → Nat → Nat → G → Weights K × G
  seed : Int → G
  bern : G → K → Nat → Nat → (Nat → Nat → Bool) × G
  opt : Weights K → K → K → O
  learn : (Weights K → Loss K) → Weights K → O → Weights K × O
  exp : K → K
  log : K → K
  sqrt : K → K
  /-- The floor of degrees (common.py:140). -/
  eps : K
  /-- `1e-12` (grand.py:130-136). -/
  floor : K
  /-- `1e-9` (grand.py:164). -/
  tol : K

section
variable {O G : Type}

/-- `torch.nn.functional.dropout(x, p, training=True)` of an `n × d` matrix: what every entry is multiplied with. -/
def dropout (T : Torch K O G) (p : K) (n d : Nat) (g : G) : (Nat → Nat → K) × G :=
  if p = 0 then (fun _ _ => 1, g)
  else if p = 1 then (fun _ _ => 0, g)
  else
    let r := T.bern g (1 - p) n d
    (fun i c => if r.1 i c then 1 / (1 - p) else 0, r.2)

/-- The noise of one augmentation: of the features (grand.py:112), and in front of the two layers (common.py:168-170). -/
structure Noise (K : Type) where
  feat : Nat → Nat → K
  inner : Nat → Nat → K
  hidden : Nat → Nat → K

/-- The draws of one augmentation (grand.py:112-120). -/
def drawNoise (T : Torch K O G) (cfg : Config K) (n d h : Nat) (g : G) : Noise K × G :=
  let a := dropout T cfg.dropnode n d g
  let b := dropout T cfg.mlpDropout n d a.2
  let c := dropout T cfg.mlpDropout n h b.2
  (⟨a.1, b.1, c.1⟩, c.2)

/-- The draws of all augmentations of an epoch (grand.py:111-125). -/
def drawAll (T : Torch K O G) (cfg : Config K) (n d h : Nat) : Nat → G → List (Noise K) × G
  | 0, g => ([], g)
  | s + 1, g =>
    let a := drawNoise T cfg n d h g
    let r := drawAll T cfg n d h s a.2
    (a.1 :: r.1, r.2)

/-- `TwoLayerMLP.forward` (common.py:167-172) of node `i`, class `c`; `inner`, `hidden` are the two dropouts. -/
def forward (d h : Nat) (inner hidden : Nat → Nat → K) (w : Weights K) (X : Feat K) (i c : Nat) : K :=
  ((List.range h).map fun j =>
    max 0 (((List.range d).map fun a => X i a * inner i a * w.w1 j a).sum + w.b1 j) * hidden i j * w.w2 c j).sum + w.b2 c

/-- The graph (grand.py:72-78). -/
def edges (T : Torch K O G) (cfg : Config K) (inp : Input K) : List (WEdge K) :=
  prepEdges T.sqrt T.eps inp.n cfg.addSelfLoops .rw inp.edges

/-- The logits of one augmentation (grand.py:112-120). -/
def trainLogits (T : Torch K O G) (cfg : Config K) (inp : Input K) (h : Nat) (z : Noise K) (w : Weights K) : Nat → Nat → K :=
  forward inp.d h z.inner z.hidden w (propagate (edges T cfg inp) cfg.propSteps.toNat fun i c => inp.X i c * z.feat i c)

/-- The logits in evaluation mode (grand.py:152-159,213-220). -/
def evalLogits (T : Torch K O G) (cfg : Config K) (inp : Input K) (h : Nat) (w : Weights K) : Nat → Nat → K :=
  forward inp.d h (fun _ _ => 1) (fun _ _ => 1) w (propagate (edges T cfg inp) cfg.propSteps.toNat inp.X)

/-- The nodes of a mask. -/
def maskNodes (n : Nat) (m : List Bool) : List Nat := (List.range n).filter fun i => m[i]? == some true

/-- The nodes `cross_entropy` counts: those without `ignore_index`, -100. -/
def counted (y : List Int) (nodes : List Nat) : List Nat := nodes.filter fun i => decide (y.getD i 0 ≠ -100)

/-- Whether `cross_entropy` refuses a label: a negative one that is not `ignore_index`. -/
def badLabel (y : List Int) (nodes : List Nat) : Bool := (counted y nodes).any fun i => decide (y.getD i 0 < 0)

/-- `cross_entropy(logits[mask], y[mask])`: NaN if it counts no node. -/
def crossEntropy (T : Torch K O G) (k : Nat) (y : List Int) (nodes : List Nat) (logits : Nat → Nat → K) : Loss K :=
  let l := counted y nodes
  if l = [] then none
  else some (meanOver l fun i => -T.log (probOf T.exp k (logits i) (y.getD i 0).toNat))

/-- The mean of `softmax` over the augmentations, at least `1e-12` (grand.py:129-130). -/
def pBar (T : Torch K O G) (k : Nat) (logits : List (Nat → Nat → K)) (i c : Nat) : K :=
  max ((logits.map fun l => probOf T.exp k (l i) c).sum / (logits.length : K)) T.floor

/-- The consistency loss (grand.py:133-140). -/
def consistency (T : Torch K O G) (n k : Nat) (logits : List (Nat → Nat → K)) : K :=
  (logits.map fun l => ((List.range n).map fun i => ((List.range k).map fun c =>
      max (probOf T.exp k (l i) c) T.floor *
        (T.log (max (probOf T.exp k (l i) c) T.floor) - T.log (pBar T k logits i c))).sum).sum).sum /
    ((logits.length * n : Nat) : K)

/-- `a + b` where NaN wins. -/
def addLoss (a b : Loss K) : Loss K :=
  match a, b with
  | some x, some y => some (x + y)
  | _, _ => none

/-- The loss of an epoch (grand.py:109-142) for parameters `w`. -/
def total (T : Torch K O G) (cfg : Config K) (inp : Input K) (h k : Nat) (zs : List (Noise K)) (w : Weights K) : Loss K :=
  let logits := zs.map fun z => trainLogits T cfg inp h z w
  let sup := logits.foldl (fun a l => addLoss a (crossEntropy T k inp.y (maskNodes inp.n inp.train) l)) (some 0)
  (sup.map (· / (zs.length : K))).map fun x => x + cfg.lamConsistency * consistency T inp.n k logits

/-- The state of the training loop, with a log of the noise and the losses. -/
structure State (K O G : Type) where
  net : Weights K
  opt : O
  gen : G
  log : List (List (Noise K) × Loss K)

/-- One epoch up to the step of the optimizer (grand.py:107-146).  Without augmentations there is a division by zero or nothing to
stack (`ZeroDivisionError`, `RuntimeError`: here `runtimeError`); `dropout` refuses what is not a probability (`ValueError`);
`cross_entropy` refuses a negative label (`IndexError`). -/
def epoch (T : Torch K O G) (cfg : Config K) (inp : Input K) (h : Nat) (st : State K O G) : Except PyErr (State K O G) :=
  if cfg.numSamples ≤ 0 then .error .runtimeError
  else if ¬ (0 ≤ cfg.dropnode ∧ cfg.dropnode ≤ 1) then .error .valueError
  else if ¬ (0 ≤ cfg.mlpDropout ∧ cfg.mlpDropout ≤ 1) then .error .valueError
  else if badLabel inp.y (maskNodes inp.n inp.train) then .error .indexError
  else
    let z := drawAll T cfg inp.n inp.d h cfg.numSamples.toNat st.gen
    let objective := total T cfg inp h (nClasses inp.y) z.1
    let r := T.learn objective st.net st.opt
    .ok ⟨r.1, r.2, z.2, st.log ++ [(z.1, objective st.net)]⟩

/-- The validation nodes, if there are any (grand.py:149). -/
def valNodes (inp : Input K) : Option (List Nat) :=
  match inp.val with
  | some m => if m.any id then some (maskNodes inp.n m) else none
  | none => none

/-- `val_loss` (grand.py:150-162). -/
def valLoss (T : Torch K O G) (cfg : Config K) (inp : Input K) (h : Nat) (nodes : List Nat) (w : Weights K) : Loss K :=
  crossEntropy T (nClasses inp.y) inp.y nodes (evalLogits T cfg inp h w)

/-- The loop over the epochs (grand.py:106-184).  A failure comes with the network it leaves. -/
def loop (T : Torch K O G) (cfg : Config K) (inp : Input K) (h : Nat) :
    Nat → Nat → State K O G → Es K (Weights K) → Except (PyErr × Weights K) (State K O G × Es K (Weights K) × Nat)
  | 0, e, st, es => .ok (st, es, e)
  | j + 1, e, st, es =>
    match epoch T cfg inp h st with
    | .error q => .error (q, st.net)
    | .ok st' =>
      match valNodes inp with
      | none => loop T cfg inp h j (e + 1) st' es
      | some nodes =>
        if badLabel inp.y nodes then .error (.indexError, st'.net)
        else
          let r := es.see (grandMeasure T.tol) cfg.patience e (valLoss T cfg inp h nodes st'.net) st'.net
          if r.2 then .ok (st', r.1, e + 1) else loop T cfg inp h j (e + 1) st' r.1

/-- A network with its numbers of inputs, hidden units and classes. -/
structure Net (K : Type) where
  d : Nat
  h : Nat
  k : Nat
  w : Weights K

/-- What the method object keeps (grand.py:56-63): the network, whether there is a graph, the number of nodes. -/
structure Method (K : Type) where
  net : Option (Net K)
  graph : Bool
  n : Option Nat

/-- A new method object. -/
def Method.new : Method K := ⟨none, false, none⟩

/-- A training that was completed: the epochs run and their log. -/
structure Done (K : Type) where
  epochs : Nat
  log : List (List (Noise K) × Loss K)

/-- `fit` (grand.py:65-190); `g` is the state of torch's global generator.  The network is created before seeding. -/
def fit (T : Torch K O G) (cfg : Config K) (m : Method K) (inp : Input K) (seed : Int) (g : G) : Method K × Except PyErr (Done K) :=
  if cfg.hiddenDim < 0 then (⟨m.net, true, some inp.n⟩, .error .runtimeError)
  else
    let h := cfg.hiddenDim.toNat
    let k := nClasses inp.y
    let w0 := (T.init inp.d h k g).1
    if cfg.lr < 0 ∨ cfg.weightDecay < 0 then (⟨some ⟨inp.d, h, k, w0⟩, true, some inp.n⟩, .error .valueError)
    else
      match loop T cfg inp h cfg.maxEpochs.toNat 0 ⟨w0, T.opt w0 cfg.lr cfg.weightDecay, T.seed seed, []⟩ ⟨none, 0⟩ with
      | .error (e, w) => (⟨some ⟨inp.d, h, k, w⟩, true, some inp.n⟩, .error e)
      | .ok r =>
        let w := match r.2.1.best with
          | none => r.1.net
          | some b => b.2.2
        (⟨some ⟨inp.d, h, k, w⟩, true, some inp.n⟩, .ok ⟨r.2.2, r.1.log⟩)

/-- `predict_proba` (grand.py:192-222).  The first layer refuses another number of features (`RuntimeError`), `dropout` what is not
a probability, also in evaluation mode. -/
def predictProba (T : Torch K O G) (cfg : Config K) (m : Method K) (inp : Input K) : Except PyErr (List (List K)) :=
  match m.net, m.graph, m.n with
  | some s, true, some n =>
    if inp.n ≠ n then .error .valueError
    else if ¬ (0 ≤ cfg.mlpDropout ∧ cfg.mlpDropout ≤ 1) then .error .valueError
    else if inp.d ≠ s.d then .error .runtimeError
    else .ok ((List.range inp.n).map fun i => (List.range s.k).map fun c =>
      probOf T.exp s.k (evalLogits T cfg inp s.h s.w i) c)
  | _, _, _ => .error .runtimeError

end

end ModSSC.Gnn.Grand
