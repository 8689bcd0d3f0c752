import Verif.Supervised.KnnModel

/-!
# Model of the torch k-nearest-neighbour classifier

`src/modssc/supervised/backends/torch/knn.py`.  Floats are elements of an ordered field `K`.  Simplifications, as in
the model of the numpy classifier: the score of a query against a training row does not depend on the batch it is
computed in, and the number types of the tensors (other than "integer labels") are not represented.  A `view` of a
tensor that is not contiguous is assumed to succeed.
-/

namespace ModSSC.Supervised.Torch
open ModSSC Supervised

/-- What the classifier calls in torch. -/
structure TorchExt (K : Type) where
  sqrt : K → K
  topk : List K → Nat → List Nat

/-- The axes of a tensor: one, two, or another number. -/
inductive Shape (K : Type) where
  | vec (l : List K)
  | mat (a : Arr2 K)
  | other

/-- A tensor on a device. -/
structure Tensor (K : Type) where
  device : Nat
  shape : Shape K

/-- The labels: a tensor on a device, of an integer type or not, read in order as `view(-1)` does (torch/knn.py:73-74). -/
structure LabelTensor (α : Type) where
  device : Nat
  isInt : Bool
  flat : List α

/-- `X.view(-1, 1)` for one axis, refusal of anything else but two (torch/knn.py:69-72, 130-133). -/
def as2d {K : Type} : Shape K → Except PyErr (Arr2 K)
  | .vec l => .ok ⟨1, l.map fun a => [a]⟩
  | .mat a => .ok a
  | .other => .error .validation

/-- The attributes that `fit` sets (torch/knn.py:43-45, 97-101). -/
structure State (K α : Type) where
  classes : Option (List α)
  train : Option (Arr2 K × Nat × List Nat)
deriving DecidableEq

/-- A new classifier. -/
def State.fresh {K α : Type} : State K α := ⟨none, none⟩

section
variable {K : Type} [Field K] [LinearOrder K] {α : Type} [LinearOrder α]

/-- `fit` (torch/knn.py:51-109): the attributes afterwards, and the sizes it returns or the exception it raises.
`torch.unique(sorted=True, return_inverse=True)` gives the labels that occur in increasing order, and the position of
each label among them, as `np.unique` does. `none` is an argument that is not a tensor. -/
def fit (p : KnnParams K) (st : State K α) (X : Option (Tensor K)) (y : Option (LabelTensor α)) :
    State K α × Except PyErr (Nat × Nat × Nat) :=
  match X, y with
  | none, _ => (st, .error .validation)
  | some _, none => (st, .error .validation)
  | some X, some y =>
    match as2d X.shape with
    | .error e => (st, .error e)
    | .ok X2 =>
      if X2.rows.length ≠ y.flat.length then (st, .error .validation)
      else if X2.rows.length * X2.width = 0 then (st, .error .validation)
      else if y.device ≠ X.device then (st, .error .validation)
      else if y.isInt = false then (st, .error .validation)
      else if p.k ≤ 0 then (st, .error .validation)
      else if p.metric ≠ "euclidean" ∧ p.metric ≠ "cosine" then (st, .error .validation)
      else if p.weights ≠ "uniform" ∧ p.weights ≠ "distance" then (st, .error .validation)
      else
        let yEnc := (Labels.encodeLabels y.flat).1
        let classes := (Labels.encodeLabels y.flat).2
        (⟨some classes, some (X2, X.device, yEnc)⟩, .ok (X2.rows.length, X2.width, classes.length))

/-- `_pairwise_scores` (torch/knn.py:111-122) for one query and one training row. -/
def pairScore (ext : TorchExt K) (p : KnnParams K) (q x : List K) : K :=
  if p.metric = "euclidean" then -(Graph.dotp q q + Graph.dotp x x - 2 * Graph.dotp q x)
  else Graph.dotp (q.map (· / (ext.sqrt (Graph.dotp q q) + p.eps))) (x.map (· / (ext.sqrt (Graph.dotp x x) + p.eps)))

/-- The vote of a neighbour with this score (torch/knn.py:152-159). -/
def voteWeight (p : KnnParams K) (score : K) : K :=
  if p.weights = "uniform" then 1
  else if p.metric = "euclidean" then 1 / (max (-score) 0 + p.eps)
  else 1 / (max (1 - score) 0 + p.eps)

/-- One row of torch/knn.py:148-164: `topk`, the classes of the neighbours, and `scatter_add_` into a row of zeros,
which refuses a class index outside the row. -/
def rowVotes (ext : TorchExt K) (p : KnnParams K) (X : Arr2 K) (yEnc : List Nat) (nClasses : Nat) (q : List K) :
    Except PyErr (List K) :=
  let scores := X.rows.map (pairScore ext p q)
  let k := (min p.k X.rows.length).toNat
  let idx := ext.topk scores k
  let neigh := idx.map fun i => yEnc.getD i 0
  if neigh.any (fun c => decide (nClasses ≤ c)) then .error .indexError
  else .ok ((List.range nClasses).map fun c =>
    ((idx.filter fun i => decide (yEnc.getD i 0 = c)).map fun i => voteWeight p (scores.getD i 0)).sum)

/-- One batch: the scores (`Q @ X.T` needs equal widths, torch raises `RuntimeError`), then the votes of each row. -/
def batchVotes (ext : TorchExt K) (p : KnnParams K) (X : Arr2 K) (yEnc : List Nat) (nClasses : Nat) (Q : Arr2 K)
    (b : Nat × Nat) : Except PyErr (List (List K)) :=
  if Q.width ≠ X.width then .error .runtimeError
  else ((Q.rows.drop b.1).take (b.2 - b.1)).mapM (rowVotes ext p X yEnc nClasses)

/-- `out[start:stop] = out_batch` (torch/knn.py:165). -/
def setAt (out : List (List K)) (start : Nat) (V : List (List K)) : List (List K) :=
  out.mapIdx fun r row => if start ≤ r ∧ r < start + V.length then V.getD (r - start) [] else row

/-- The loop over the batches (torch/knn.py:144-165). -/
def batchLoop (votes : Nat × Nat → Except PyErr (List (List K))) :
    List (Nat × Nat) → List (List K) → Except PyErr (List (List K))
  | [], out => .ok out
  | b :: bs, out => do
    let V ← votes b
    batchLoop votes bs (setAt out b.1 V)

/-- Normalisation of one row (torch/knn.py:167-169). -/
def normRow (row : List K) : List K := row.map fun a => a / (if row.sum = 0 then 1 else row.sum)

/-- `predict_scores`, which is also `predict_proba` (torch/knn.py:124-172). -/
def predictProba (ext : TorchExt K) (p : KnnParams K) (st : State K α) (X : Option (Tensor K)) :
    Except PyErr (List (List K)) :=
  match st.train, st.classes with
  | some (Xt, dev, yEnc), some classes =>
    match X with
    | none => .error .validation
    | some X => do
      let Q ← as2d X.shape
      if X.device ≠ dev then .error .validation
      else do
        let batches ← Graph.allChunks Q.rows.length p.batchSize
        let out ← batchLoop (batchVotes ext p Xt yEnc classes.length Q) batches
          (List.replicate Q.rows.length (List.replicate classes.length 0))
        .ok (out.map normRow)
  | _, _ => .error .runtimeError

/-- `predict` (torch/knn.py:174-177): `argmax` returns the first position of the maximum. -/
def predict (ext : TorchExt K) (p : KnnParams K) (st : State K α) (X : Option (Tensor K)) : Except PyErr (List α) := do
  let proba ← predictProba ext p st X
  match st.classes with
  | none => .error .typeError
  | some classes => proba.mapM fun row =>
      match classes[argmax row]? with
      | some c => .ok c
      | none => .error .indexError

end

end ModSSC.Supervised.Torch
