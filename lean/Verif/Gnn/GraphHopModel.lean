import Verif.Gnn.HopModel
import Verif.Gnn.NetModel

/-!
# Model of `fit` and `predict_proba` of GraphHop (`transductive/methods/gnn/graphhop.py`)

Floats are exact numbers of an ordered field.  The data is what `prepare_data` accepts; its cache is modelled in `TrainModel`.  The
optimization of one logistic regression (its loop is modelled in `TrainModel`) is a parameter: it is handed the loss as a function of the
weights, the validation loss, the model to start from and the state of the random generator.
-/

namespace ModSSC.Gnn.GraphHop
open ModSSC ModSSC.Transductive ModSSC.Gnn ModSSC.Gnn.Nets

variable {K : Type} [Field K] [LinearOrder K]

/-- The data: edges, features with their width, labels, masks. -/
structure Input (K : Type) where
  n : Nat
  edges : List (Int × Int)
  X : Feat K
  width : Nat
  y : Nat → Int
  train : Nat → Bool
  val : Option (Nat → Bool)

/-- `GraphHopSpec` (graphhop.py:171-185) without the settings of the optimization. -/
structure Settings (K : Type) where
  hops : Int
  maxIter : Int
  temperature : K
  alpha : K
  beta : K
  weightTemp : Option (List K)
  weightPred : Option (List K)
  symmetrize : Bool

/-- What one call of `_train_lr` works on (graphhop.py:94-150): numbers of features and classes, the loss and validation loss of
weights, the model to start from. -/
structure Call (K : Type) where
  width : Nat
  classes : Nat
  loss : Linear K → K
  valLoss : Option (Linear K → K)
  prev : Option (Linear K)

/-- The optimization in `_train_lr` (graphhop.py:110-166). -/
abbrev Trainer (K G : Type) := Call K → G → Linear K × G

/-- `np.flatnonzero(mask)`. -/
def nodesOf (n : Nat) (m : Nat → Bool) : List Nat := (List.range n).filter m

/-- `predict_soft_labels` (graphhop.py:88-89). -/
def soft (exp : K → K) (classes : Nat) (L : Linear K) (Z : Feat K) : Feat K := fun i => Grafn.probOf exp classes (L.app Z i)

/-- `predict_temp_soft_labels` (graphhop.py:91-92). -/
def softTemp (exp : K → K) (classes : Nat) (t : K) (L : Linear K) (Z : Feat K) : Feat K :=
  fun i => Grafn.probOf exp classes fun c => L.app Z i c / t

/-- `(labels[mask] * log_prob[mask]).sum()` (graphhop.py:134-138). -/
def cross (exp log : K → K) (classes : Nat) (nodes : List Nat) (labels Z : Feat K) (L : Linear K) : K :=
  (nodes.map fun i => ((List.range classes).map fun c => labels i c * log (soft exp classes L Z i c)).sum).sum

/-- `loss` (graphhop.py:133-144). -/
def loss (exp log : K → K) (alpha beta : K) (classes n : Nat) (step : Nat) (train : Nat → Bool) (labels Z : Feat K) (L : Linear K) : K :=
  let tr := nodesOf n train
  let ps := nodesOf n fun i => !train i
  if step = 0 then -(cross exp log classes tr labels Z L) / (max tr.length 1 : Nat)
  else
    let termTrain := cross exp log classes tr labels Z L / (max tr.length 1 : Nat)
    let termPseudo := cross exp log classes ps labels Z L / (max (ps.length * classes) 1 : Nat)
    let termEntropy := cross exp log classes ps (soft exp classes L Z) Z L / (max (ps.length * classes) 1 : Nat)
    Neg.neg (termTrain + alpha * termPseudo + beta * termEntropy)

/-- `_concat_features` (graphhop.py:76-77) of arrays with `w` columns each. -/
def concat (w : Nat) (parts : List (Feat K)) : Feat K := fun i c => (parts.getD (c / w) fun _ _ => 0) i (c % w)

/-- `X_concat[m]` and `H_concat[m]` (graphhop.py:277-285, 326-333). -/
def stacked (n : Nat) (adj : Nat → List Nat) (hops m w : Nat) (X : Feat K) : Feat K :=
  concat w (X :: (List.range (m + 1)).map fun h => hopFeatures n adj hops h X)

/-- The column set by `one_hot[arange(n), y] = 1.0` (graphhop.py:289): negative numbers count from the end. -/
def column (classes : Nat) (y : Int) : Int := if y < 0 then y + classes else y

/-- `one_hot` (graphhop.py:288-289). -/
def oneHot (classes : Nat) (y : Nat → Int) : Feat K := fun i c => if column classes (y i) = c then 1 else 0

/-- `pseudo_labels[train_mask] = one_hot[train_mask]` (graphhop.py:310, 361). -/
def pin (train : Nat → Bool) (truth labels : Feat K) : Feat K := fun i => if train i then truth i else labels i

/-- `sum(float(weight[m]) * preds[m] for m in range(hops))` (graphhop.py:358-362). -/
def mix (w : List K) (preds : List (Feat K)) : Feat K := fun i c => ((w.zip preds).map fun p => p.1 * p.2 i c).sum

/-- What `fit` works with after its checks. -/
structure Env (K : Type) where
  d : Input K
  s : Settings K
  classes : Nat
  hops : Nat
  adj : Nat → List Nat
  valNodes : Option (List Nat)
  wTemp : List K
  wPred : List K

/-- What changes in the loop of `fit`; `calls` records the calls of `_train_lr`, for the theorems only. -/
structure State (K G : Type) where
  H : Feat K
  pseudo : Feat K
  prev : Nat → Option (Linear K)
  rng : G
  calls : List (Call K)

/-- The arguments of `_train_lr` (graphhop.py:106-116, 133-150). -/
def mkCall (exp log : K → K) (e : Env K) (step m w : Nat) (Z labels : Feat K) (prev : Option (Linear K)) : Call K :=
  { width := (m + 2) * w
    classes := e.classes
    loss := loss exp log e.s.alpha e.s.beta e.classes e.d.n step e.d.train labels Z
    valLoss := e.valNodes.map fun nodes => fun L => -(cross exp log e.classes nodes (oneHot e.classes e.d.y) Z L)
    prev := if step ≤ 1 then none else prev }

/-- The initialization (graphhop.py:288-310). -/
def start {G : Type} (exp log : K → K) (train : Trainer K G) (e : Env K) (g : G) : State K G :=
  let Z := stacked e.d.n e.adj e.hops (e.hops - 1) e.d.width e.d.X
  let call := mkCall exp log e 0 (e.hops - 1) e.d.width Z (oneHot e.classes e.d.y) none
  let r := train call g
  { H := soft exp e.classes r.1 Z
    pseudo := pin e.d.train (oneHot e.classes e.d.y) (softTemp exp e.classes e.s.temperature r.1 Z)
    prev := fun _ => none
    rng := r.2
    calls := [call] }

/-- The loop over the hops (graphhop.py:337-356): the models with what they are applied to. -/
def trainHops {G : Type} (exp log : K → K) (train : Trainer K G) (e : Env K) (step : Nat) (H pseudo : Feat K)
    (prev : Nat → Option (Linear K)) : List Nat → G → List (Call K) → List (Nat × Linear K × Feat K) × G × List (Call K)
  | [], g, calls => ([], g, calls)
  | m :: ms, g, calls =>
    let Z := stacked e.d.n e.adj e.hops m e.classes H
    let call := mkCall exp log e step m e.classes Z pseudo (prev m)
    let r := train call g
    let rest := trainHops exp log train e step H pseudo prev ms r.2 (calls ++ [call])
    ((m, r.1, Z) :: rest.1, rest.2)

/-- One iteration (graphhop.py:325-362). -/
def round {G : Type} (exp log : K → K) (train : Trainer K G) (e : Env K) (step : Nat) (st : State K G) : State K G :=
  let r := trainHops exp log train e step st.H st.pseudo st.prev (List.range e.hops) st.rng st.calls
  { H := mix e.wPred (r.1.map fun p => soft exp e.classes p.2.1 p.2.2)
    pseudo := pin e.d.train (oneHot e.classes e.d.y) (mix e.wTemp (r.1.map fun p => softTemp exp e.classes e.s.temperature p.2.1 p.2.2))
    prev := fun m => (r.1[m]?).map fun p => p.2.1
    rng := r.2.1
    calls := r.2.2 }

/-- `for step in range(1, max_iter + 1)` (graphhop.py:325). -/
def rounds {G : Type} (exp log : K → K) (train : Trainer K G) (e : Env K) : Nat → State K G → State K G
  | 0, st => st
  | k + 1, st => round exp log train e (k + 1) (rounds exp log train e k st)

/-- `int(y_np.max()) + 1` (graphhop.py:246). -/
def classesOf (n : Nat) (y : Nat → Int) : Int := ((List.range n).map y).foldl max (y 0) + 1

/-- `weight_temp`, `weight_pred` (graphhop.py:313-322). -/
def weights (hops : Nat) : Option (List K) → List K
  | none => List.replicate hops (1 / (hops : K))
  | some w => w

/-- What `fit` stores (graphhop.py:364-365), and the recorded calls. -/
structure Fitted (K : Type) where
  proba : Feat K
  n : Nat
  classes : Nat
  calls : List (Call K)

/-- `fit` (graphhop.py:208-367).  `np.bincount` refuses negative labels of training nodes; the labels of the validation nodes and then of
all nodes are used as column numbers. -/
def fit {G : Type} (exp log : K → K) (train : Trainer K G) (s : Settings K) (d : Input K) (g : G) : Except PyErr (Fitted K) :=
  if s.hops < 1 then .error .valueError
  else if s.temperature ≤ 0 then .error .valueError
  else if (nodesOf d.n d.train).isEmpty then .error .valueError
  else if (nodesOf d.n d.train).any fun i => decide (d.y i < 0) then .error .valueError
  else
    let classes := (classesOf d.n d.y).toNat
    if (List.range classes).any fun c => !(nodesOf d.n d.train).any fun i => decide (d.y i = c) then .error .valueError
    else if (List.range d.n).any fun i => decide (d.y i < -classes) then .error .indexError
    else
      let hops := s.hops.toNat
      let e : Env K :=
        { d := d, s := s, classes := classes, hops := hops
          adj := hopAdj d.n s.symmetrize d.edges
          valNodes := d.val.bind fun m => if (nodesOf d.n m).isEmpty then none else some (nodesOf d.n m)
          wTemp := weights hops s.weightTemp, wPred := weights hops s.weightPred }
      let st := start exp log train e g
      if e.wTemp.length ≠ hops then .error .valueError
      else if e.wPred.length ≠ hops then .error .valueError
      else
        let r := rounds exp log train e s.maxIter.toNat st
        .ok ⟨r.H, d.n, classes, r.calls⟩

/-- `fit` on an object (graphhop.py:364-365): what was stored stays when it raises. -/
def fitOn {G : Type} (exp log : K → K) (train : Trainer K G) (s : Settings K) (old : Option (Fitted K)) (d : Input K) (g : G) :
    Option (Fitted K) :=
  match fit exp log train s d g with
  | .ok f => some f
  | .error _ => old

/-- `predict_proba` (graphhop.py:369-375). -/
def predict (f : Option (Fitted K)) (d : Input K) : Except PyErr (Feat K) :=
  match f with
  | none => .error .runtimeError
  | some f => if d.n ≠ f.n then .error .valueError else .ok f.proba

end ModSSC.Gnn.GraphHop
