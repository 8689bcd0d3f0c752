import Verif.Base

/-!
# Label encoding and one-hot matrices

`src/modssc/supervised/utils.py`, `src/modssc/preprocess/steps/labels/*.py`,
`src/modssc/transductive/operators/clamp.py`, `src/modssc/transductive/methods/utils.py`.

Labels are elements of any linearly ordered type (numpy integers, floats without NaN, strings).
Matrices are lists of rows with exact entries.
-/

namespace ModSSC.Labels
open ModSSC

/-- `np.unique` for any ordered element type: sorted, without repetitions.  Models external code. -/
def unique {α : Type} [LinearOrder α] (l : List α) : List α := (l.insertionSort (· ≤ ·)).dedup

/-- `np.searchsorted(a, v)` (side `left`) on a sorted array: the number of entries below `v`.
Models external code; numpy finds the same position by bisection. -/
def searchsorted {α : Type} [LinearOrder α] (a : List α) (v : α) : Nat :=
  a.countP (fun c => decide (c < v))

/-- `supervised/utils.py:54-68` `encode_labels` (after flattening). -/
def encodeLabels {α : Type} [LinearOrder α] (y : List α) : List Nat × List α :=
  let classes := unique y
  (y.map (searchsorted classes), classes)

/-- `preprocess/steps/labels/encode.py:15-18` `EncodeLabelsStep.transform`, as the pipeline runs it
on a training and a test split (`services/pipeline.py`): the step is called once per split and keeps
nothing in between. -/
def encodeStep {α : Type} [LinearOrder α] (train test : List α) :
    (List Nat × List α) × (List Nat × List α) :=
  (encodeLabels train, encodeLabels test)

/-- A row of zeros. -/
def zeroRow (n : Nat) : List Rat := List.replicate n 0

/-- numpy normalises a negative index of an axis of length `n`; `IndexError` out of bounds. -/
def npIndex (n : Nat) (i : Int) : Except PyErr Nat :=
  if 0 ≤ i ∧ i < n then .ok i.toNat
  else if i < 0 ∧ -(n : Int) ≤ i then .ok (i + n).toNat
  else .error .indexError

/-- `out[np.arange(k), y] = 1.0` on a zero matrix with `n` columns, row by row. -/
def fancyOnehot (y : List Int) (n : Nat) : Except PyErr (List (List Rat)) :=
  y.mapM (fun c => (npIndex n c).map (fun j => (zeroRow n).set j 1))

/-- `supervised/utils.py:71-76` `onehot`; a negative `n_classes` is refused by `np.zeros`. -/
def onehot (y : List Int) (nClasses : Int) : Except PyErr (List (List Rat)) :=
  if nClasses < 0 then .error .valueError
  else fancyOnehot y nClasses.toNat

/-- `transductive/methods/utils.py:190-221` `labels_to_onehot`, numpy branch. -/
def labelsToOnehotUtils (y : List Int) (nClasses : Int) : Except PyErr (List (List Rat)) :=
  if nClasses ≤ 0 then .error .valueError
  else fancyOnehot y nClasses.toNat

/-- A label array: integers, or floats where `none` is NaN or infinite. -/
inductive LabelArr where
  | ints (l : List Int)
  | floats (l : List (Option Rat))

/-- `clamp.py:10-17`: the integer class ids of a label array.  Simplification: floats beyond the
range of `int64` are truncated exactly, numpy would give an unspecified integer. -/
def classIds : LabelArr → Except PyErr (List Int)
  | .ints l => .ok l
  | .floats l =>
    if l.all Option.isSome then
      if l.all (fun q => decide (q = some (pyInt (q.getD 0) : Rat))) then
        .ok (l.map (fun q => pyInt (q.getD 0)))
      else .error .valueError
    else .error .valueError

/-- `clamp.py:6-23` `labels_to_onehot`. -/
def labelsToOnehot (y : LabelArr) (nClasses : Int) : Except PyErr (List (List Rat)) :=
  if nClasses ≤ 0 then .error .valueError
  else
    match classIds y with
    | .error e => .error e
    | .ok ids =>
      if ids.any (fun c => decide (0 ≤ c ∧ nClasses ≤ c)) then .error .valueError
      else .ok (ids.map (fun c =>
        if 0 ≤ c then (zeroRow nClasses.toNat).set c.toNat 1 else zeroRow nClasses.toNat))

/-- `clamp.py:26-31` `hard_clamp`: rows of the mask are taken from `Y`.  `IndexError` when the mask
does not have one entry per row; the rows of `F` and `Y` correspond. -/
def hardClamp (F Y : List (List Rat)) (mask : List Bool) : Except PyErr (List (List Rat)) :=
  if mask.length = F.length ∧ mask.length = Y.length then
    .ok ((F.zip (Y.zip mask)).map (fun p => if p.2.2 then p.2.1 else p.1))
  else .error .indexError

/-- `preprocess/steps/labels/ensure_onehot.py:16-33` `EnsureOneHotLabelsStep.transform`: one-hot
matrix, labeled mask.  The class list is local to the call. -/
def ensureOnehot (y : List Int) (unlabeled : Int) : List (List Rat) × List Bool :=
  let labeled := y.map (fun c => decide (c ≠ unlabeled))
  let classes := unique (y.filter (fun c => decide (c ≠ unlabeled)))
  (y.map (fun c =>
    if c ≠ unlabeled then (zeroRow classes.length).set (searchsorted classes c) 1
    else zeroRow classes.length), labeled)

end ModSSC.Labels
