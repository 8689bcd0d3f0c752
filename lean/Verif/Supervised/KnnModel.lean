import Verif.Labels.Model
import Verif.Graph.KnnModel

/-!
# Model of the numpy k-nearest-neighbour classifier

`src/modssc/supervised/backends/numpy/knn.py`.  Floats are elements of an ordered field `K`.  Simplification: the
score of a query against a training row does not depend on the batch it is computed in (in floating point the last
bits may).
-/

namespace ModSSC.Supervised
open ModSSC

/-- What the classifier calls in numpy. -/
structure KnnExt (K : Type) where
  sqrt : K → K
  argpartition : List K → Nat → List Nat

/-- Constructor arguments (knn.py:35-52). -/
structure KnnParams (K : Type) where
  k : Int
  metric : String
  weights : String
  batchSize : Int
  eps : K

/-- A two-dimensional array. -/
structure Arr2 (K : Type) where
  width : Nat
  rows : List (List K)
deriving DecidableEq

/-- An input array: no axis, one axis, or more (then the trailing axes are already flattened: numpy's `reshape`
keeps the order of the entries of each row). -/
inductive ArrIn (K : Type) where
  | scalar
  | vec (l : List K)
  | mat (a : Arr2 K)

/-- `ensure_2d` (supervised/utils.py:41-51). -/
def ensure2d {K : Type} : ArrIn K → Except PyErr (Arr2 K)
  | .scalar => .error .validation
  | .vec l => .ok ⟨1, l.map fun a => [a]⟩
  | .mat a => .ok a

/-- The attributes that `fit` sets (knn.py:54-55, base.py:44-48). -/
structure KnnState (K α : Type) where
  classes : Option (List α)
  train : Option (Arr2 K × List Nat)
deriving DecidableEq

/-- A new classifier. -/
def KnnState.fresh {K α : Type} : KnnState K α := ⟨none, none⟩

section
variable {K : Type} [Field K] [LinearOrder K] {α : Type} [LinearOrder α]

/-- `fit` (knn.py:57-95): the attributes afterwards, and the sizes it returns or the exception it raises. -/
def fit (p : KnnParams K) (st : KnnState K α) (X : ArrIn K) (y : List α) :
    KnnState K α × Except PyErr (Nat × Nat × Nat) :=
  match ensure2d X with
  | .error e => (st, .error e)
  | .ok X2 =>
    if X2.rows.length * X2.width = 0 then (st, .error .validation)
    else
      let yEnc := (Labels.encodeLabels y).1
      let classes := (Labels.encodeLabels y).2
      let st1 : KnnState K α := { st with classes := some classes }
      if X2.rows.length ≠ yEnc.length then (st1, .error .validation)
      else if p.k ≤ 0 then (st1, .error .validation)
      else if p.metric ≠ "euclidean" ∧ p.metric ≠ "cosine" then (st1, .error .validation)
      else if p.weights ≠ "uniform" ∧ p.weights ≠ "distance" then (st1, .error .validation)
      else ({ st1 with train := some (X2, yEnc) }, .ok (X2.rows.length, X2.width, classes.length))

/-- `_pairwise_scores` (knn.py:97-111) for one query and one training row. -/
def pairScore (ext : KnnExt K) (p : KnnParams K) (q x : List K) : K :=
  if p.metric = "euclidean" then -(Graph.dotp q q + Graph.dotp x x - 2 * Graph.dotp q x)
  else Graph.dotp (q.map (· / (ext.sqrt (Graph.dotp q q) + p.eps))) (x.map (· / (ext.sqrt (Graph.dotp x x) + p.eps)))

/-- The vote of a neighbour with this score (knn.py:137-145). -/
def voteWeight (p : KnnParams K) (score : K) : K :=
  if p.weights = "uniform" then 1
  else if p.metric = "euclidean" then 1 / (max (-score) 0 + p.eps)
  else 1 / (max (1 - score) 0 + p.eps)

/-- One row of knn.py:130-149: the votes per class; `np.add.at` refuses a class index outside the array. -/
def rowVotes (ext : KnnExt K) (p : KnnParams K) (X : Arr2 K) (yEnc : List Nat) (nClasses : Nat) (q : List K) :
    Except PyErr (List K) :=
  let scores := X.rows.map (pairScore ext p q)
  let k := (min p.k X.rows.length).toNat
  let idx := (ext.argpartition (scores.map fun s => -s) (k - 1)).take k
  let neigh := idx.map fun i => yEnc.getD i 0
  if neigh.any (fun c => decide (nClasses ≤ c)) then .error .indexError
  else .ok ((List.range nClasses).map fun c =>
    ((idx.filter fun i => decide (yEnc.getD i 0 = c)).map fun i => voteWeight p (scores.getD i 0)).sum)

/-- One batch: the scores (`Q @ X.T` needs equal widths), then the votes of each row. -/
def batchVotes (ext : KnnExt K) (p : KnnParams K) (X : Arr2 K) (yEnc : List Nat) (nClasses : Nat) (Q : Arr2 K)
    (b : Nat × Nat) : Except PyErr (List (List K)) :=
  if Q.width ≠ X.width then .error .valueError
  else ((Q.rows.drop b.1).take (b.2 - b.1)).mapM (rowVotes ext p X yEnc nClasses)

/-- `np.add.at(out[start:stop], ...)` (knn.py:147-149). -/
def addAt (out : List (List K)) (start : Nat) (V : List (List K)) : List (List K) :=
  out.mapIdx fun r row =>
    if start ≤ r ∧ r < start + V.length then List.zipWith (· + ·) row (V.getD (r - start) []) else row

/-- The loop over the batches (knn.py:126-149). -/
def batchLoop (votes : Nat × Nat → Except PyErr (List (List K))) :
    List (Nat × Nat) → List (List K) → Except PyErr (List (List K))
  | [], out => .ok out
  | b :: bs, out => do
    let V ← votes b
    batchLoop votes bs (addAt out b.1 V)

/-- Normalisation of one row (knn.py:151-153). -/
def normRow (row : List K) : List K := row.map fun a => a / (if row.sum = 0 then 1 else row.sum)

/-- `predict_proba` (knn.py:113-154). -/
def predictProba (ext : KnnExt K) (p : KnnParams K) (st : KnnState K α) (X : ArrIn K) : Except PyErr (List (List K)) :=
  do
    let Q ← ensure2d X
    match st.train, st.classes with
    | some (Xt, yEnc), some classes => do
      let batches ← Graph.allChunks Q.rows.length p.batchSize
      let out ← batchLoop (batchVotes ext p Xt yEnc classes.length Q) batches
        (List.replicate Q.rows.length (List.replicate classes.length 0))
      .ok (out.map normRow)
    | _, _ => .error .runtimeError

/-- `argmax` of one row: the first position of the maximum. -/
def argmax : List K → Nat
  | [] => 0
  | [_] => 0
  | a :: b :: rest =>
    let j := argmax (b :: rest)
    if (b :: rest).getD j 0 ≤ a then 0 else j + 1

/-- `predict` and `_decode` (knn.py:159-162, base.py:90-93). -/
def predict (ext : KnnExt K) (p : KnnParams K) (st : KnnState K α) (X : ArrIn K) : Except PyErr (List α) := do
  let proba ← predictProba ext p st X
  match st.classes with
  | none => .error .runtimeError
  | some classes => proba.mapM fun row =>
      match classes[argmax row]? with
      | some c => .ok c
      | none => .error .indexError

end

end ModSSC.Supervised
