import Verif.Base
import Verif.Inductive.SelectModel

/-!
# Model of the transductive SVM (`transductive/methods/classic/tsvm.py`)

Features are opaque; the gradient step on one batch and the decision function are parameters.  Scores are exact rationals.
-/

namespace ModSSC.Tsvm
open ModSSC

/-- The classes of `_encode_binary` (tsvm.py:23-32): those of the labeled nodes, if these are not two those of `full_y`. -/
def binaryClasses (y : List Int) (train : List Bool) (fullY : List Int) : Except PyErr (Int × Int) :=
  let labeled := ((y.zip train).filter (·.2)).map (·.1)
  match npUnique (labeled.filter (0 ≤ ·)) with
  | [a, b] => .ok (a, b)
  | _ =>
    match npUnique (fullY.filter (0 ≤ ·)) with
    | [a, b] => .ok (a, b)
    | _ => .error .valueError

/-- The code of one label (tsvm.py:33-35): later assignments win. -/
def encode (cls : Int × Int) (v : Int) : Int := if v = cls.2 then 1 else if v = cls.1 then -1 else 0

/-- The slices `perm[i : i + bs]` for `i` in `range(0, n, bs)` (tsvm.py:45-46), for `bs > 0`. -/
def slices {α : Type} (bs : Nat) (l : List α) : List (List α) :=
  (List.range ((l.length + bs - 1) / bs)).map fun j => (l.drop (j * bs)).take bs

/-- `_batch_indices` (tsvm.py:39-46): nothing for no rows (no draw); `range` refuses a step of zero and is empty for a negative
one. -/
def batchIndices {σ : Type} (R : Rng σ) (idx : List Nat) (bs : Int) (s : σ) : Except PyErr (List (List Nat) × σ) :=
  if idx.isEmpty then .ok ([], s)
  else
    let r := R.permutation s idx
    if bs = 0 then .error .valueError
    else if bs < 0 then .ok ([], r.2)
    else .ok (slices bs.toNat r.1, r.2)

/-- One epoch of `fit_sgd` (tsvm.py:79-93): a gradient step for every batch. -/
def epoch {σ W D : Type} (R : Rng σ) (step : W → List D → W) (data : List D) (bs : Int) (ws : W × σ) :
    Except PyErr (W × σ) := do
  let b ← batchIndices R (List.range data.length) bs ws.2
  .ok (b.1.foldl (fun (w : W) (idx : List Nat) => step w (idx.filterMap (data[·]?))) ws.1, b.2)

/-- `fit_sgd` (tsvm.py:61-93). -/
def fitSgd {σ W D : Type} (R : Rng σ) (step : W → List D → W) (data : List D) (bs : Int) : Nat → W × σ → Except PyErr (W × σ)
  | 0, ws => .ok ws
  | e + 1, ws => do
    let ws' ← epoch R step data bs ws
    fitSgd R step data bs e ws'

/-- `np.where(scores_u >= 0, 1.0, -1.0)` (tsvm.py:188). -/
def signs (scores : List Rat) : List Int := scores.map fun x => if 0 ≤ x then 1 else -1

/-- `y_u[order[:half]] = -1`, `y_u[order[half:]] = 1` (tsvm.py:194-197). -/
def balanced (order : List Nat) (n : Nat) : List Int :=
  (List.range n).map fun i => if i ∈ order.take (order.length / 2) then -1 else 1

/-- The pseudo-labels of one iteration (tsvm.py:187-197). -/
def pseudo (argsort : List Rat → List Nat) (balance : Bool) (scores : List Rat) : List Int :=
  let y := signs scores
  if balance && (!(y.contains 1) || !(y.contains (-1))) then balanced (argsort (scores.map fun x => |x|)) scores.length
  else y

/-- `C_u` in the iterations (tsvm.py:182,220). -/
def weightU (cMax : Rat) : Nat → Rat
  | 0 => 1 / 1000
  | k + 1 => min cMax (weightU cMax k * 10)

/-- `rep` (tsvm.py:202). -/
def repeats (cL cU : Rat) : Nat := (max 1 (pyRound (cL / max cU (1 / 1000000)))).toNat

/-- `np.repeat(.., rep)` (tsvm.py:204-205). -/
def repeatEach {D : Type} (rep : Nat) (l : List D) : List D := l.flatMap fun d => List.replicate rep d

/-- The settings and the parts of the method. -/
structure Cfg (σ W V : Type) where
  R : Rng σ
  argsort : List Rat → List Nat
  score : W → V → Rat
  /-- gradient step with weight `C` on a batch of rows and codes -/
  step : Rat → W → List (V × Int) → W
  maxIter : Nat
  epochs : Nat
  batchSize : Int
  cL : Rat
  cUMax : Rat
  balance : Bool

/-- The loop of `fit` (tsvm.py:183-220): `k` iterations are done, `n` are left. -/
def loop {σ W V : Type} (c : Cfg σ W V) (lab : List (V × Int)) (unl : List V) : Nat → Nat → W × σ → Except PyErr (W × σ)
  | _, 0, ws => .ok ws
  | k, n + 1, ws =>
    if unl.isEmpty then .ok ws
    else do
      let yU := pseudo c.argsort c.balance (unl.map (c.score ws.1))
      let cU := weightU c.cUMax k
      let data := repeatEach (repeats c.cL cU) lab ++ unl.zip yU
      let ws' ← fitSgd c.R (c.step (max cU (1 / 1000000))) data c.batchSize c.epochs ws
      loop c lab unl (k + 1) n ws'

/-- `fit` (tsvm.py:129-225) for masks of the right length: `unlabeled` defaults to the complement of `train`, `yTrue` is
`meta["y_true"]`.  Result: the trained state, the classes. -/
def fit {σ W V : Type} (c : Cfg σ W V) (X : List V) (y : List Int) (train : List Bool) (unlabeled : Option (List Bool))
    (yTrue : Option (List Int)) (w0 : W) (s0 : σ) : Except PyErr (W × (Int × Int)) := do
  if !train.contains true then .error .valueError
  let cls ← binaryClasses y train (yTrue.getD y)
  let lab := (((X.zip y).zip train).filter (·.2)).map fun q => (q.1.1, encode cls q.1.2)
  let unl := ((X.zip (unlabeled.getD (train.map (!·)))).filter (·.2)).map (·.1)
  let ws ← fitSgd c.R (c.step c.cL) lab c.batchSize c.epochs (w0, s0)
  let ws' ← loop c lab unl 0 c.maxIter ws
  .ok (ws'.1, cls)

/-- One row of `predict_proba` (tsvm.py:232-234). -/
def probaRow (exp : Rat → Rat) (score : Rat) : List Rat := [1 - 1 / (1 + exp (-score)), 1 / (1 + exp (-score))]

end ModSSC.Tsvm
