import Verif.Gnn.PrepModel

/-!
# Model of the sampling, the views and the targets of GraFN (`transductive/methods/gnn/grafn.py`)
-/

namespace ModSSC.Gnn
open ModSSC ModSSC.Transductive

variable {K : Type} [Field K] [LinearOrder K]

/-- `_drop_features` (grafn.py:30-38): `draws` are the numbers of `rng.random((d,))`; a column with a draw below `p` becomes
zero. -/
def dropFeatures (p : K) (draws : List K) (X : Feat K) : Feat K :=
  if p ≤ 0 then X
  else fun i c => if draws[c]?.any (fun r => decide (r < p)) then 0 else X i c

/-- `_drop_edges` (grafn.py:41-49): an edge stays when its draw is at least `p`; if none would stay, all do. -/
def dropEdges (p : K) (draws : List K) (es : List (WEdge K)) : List (WEdge K) :=
  if p ≤ 0 then es
  else
    let kept := (es.zip draws).filterMap fun q => if p ≤ q.2 then some q.1 else none
    if kept.isEmpty then es else kept

/-- `np.flatnonzero(train_mask & (y == c))` (grafn.py:78). -/
def classNodes (y : List Int) (train : List Bool) (c : Nat) : List Nat :=
  (List.range y.length).filter fun i => train[i]? == some true && y[i]? == some (c : Int)

/-- The loop over the classes of `_sample_support` (grafn.py:83-87): `choice` is without replacement, as every class has at
least `batch` nodes. -/
def sampleClasses {σ : Type} (R : Rng σ) (batch : Nat) : List (List Nat) → σ → List (List Nat) × σ
  | [], s => ([], s)
  | idx :: rest, s =>
    let r := R.choice s idx batch
    let q := sampleClasses R batch rest r.2
    (r.1 :: q.1, q.2)

/-- `_sample_support` (grafn.py:69-95): support nodes, class of every row of the label matrix, generator.  No class at all
makes `min` raise `ValueError` too. -/
def sampleSupport {σ : Type} (R : Rng σ) (y : List Int) (train : List Bool) (nClasses : Nat) (s : σ) :
    Except PyErr (List Nat × List Nat × σ) :=
  let dict := (List.range nClasses).map (classNodes y train)
  if dict.any (·.isEmpty) then .error .valueError
  else match (dict.map List.length).min? with
    | none => .error .valueError
    | some batch =>
      let r := sampleClasses R batch dict s
      .ok (r.1.flatten, (List.range nClasses).flatMap (fun c => List.replicate batch c), r.2)

/-- One row of `torch.softmax` (grafn.py:387): `exp` of the scores over their sum. -/
def softmaxRow (exp : K → K) (row : List K) : List K := row.map fun x => exp x / (row.map exp).sum

/-- One row of `weights @ labels` (grafn.py:388), column `c`; `classes` are the classes of the support rows. -/
def snnRow (exp : K → K) (scores : List K) (classes : List Nat) (c : Nat) : K :=
  (((softmaxRow exp scores).zip classes).map fun q => if q.2 = c then q.1 else 0).sum

/-- The target row of one node (grafn.py:298-304): small values are set to zero, labeled nodes get their label. -/
def targetRow (floor : K) (label : Option Nat) (row : Nat → K) (c : Nat) : K :=
  match label with
  | some y => if c = y then 1 else 0
  | none => if row c < floor then 0 else row c

/-- `include` (grafn.py:296): confident or labeled; `top` is the largest value of the row. -/
def included (thres top : K) (label : Option Nat) : Bool := decide (thres < top) || label.isSome

end ModSSC.Gnn
