import Verif.Preprocess.PcaModel
import Mathlib.Data.List.Sort

/-!
# Steps fitted on a table

`src/modssc/preprocess/steps/tabular/standard_scaler.py`, `steps/tabular/impute.py`, `steps/core/random_projection.py`.

The estimators of scikit-learn they call (`StandardScaler`, `SimpleImputer`) are written out for tables of numbers in exact
arithmetic: the threshold under which a variance counts as zero is not modelled, nor are the casts to float32.  A missing value
is `none`; the scaler is modelled for tables without missing values.  Every table given to one fitted step has the same number
of columns (another number is an error of scikit-learn and numpy).
-/

namespace ModSSC.Preprocess.Scale
open ModSSC ModSSC.Preprocess.Pca

variable {K : Type} [Field K] [LinearOrder K] {d : Nat}

/-- What `StandardScaler.fit` remembers. -/
structure Scaler (K : Type) (d : Nat) where
  mean : Vec K d
  scale : Vec K d

/-- The mean of the squared distances to the column mean. -/
def colVar (X : List (Vec K d)) : Vec K d :=
  fun j => (X.map fun r => (r j - colMean X j) * (r j - colMean X j)).sum / (X.length : K)

/-- `TabularStandardScalerStep.fit`, standard_scaler.py:23-42; `check_array` of scikit-learn refuses a table without rows, a
column without spread gets the scale 1. -/
def scalerFit (sqrt : K → K) (X : List (Vec K d)) (idx : List Nat) : Except PyErr (Scaler K d) := do
  let Xf ← takeRows X idx
  if Xf.length = 0 then throw .valueError
  return ⟨colMean Xf, fun j => if colVar Xf j = 0 then 1 else sqrt (colVar Xf j)⟩

/-- One row of `StandardScaler.transform`. -/
def scaleRow (withMean withStd : Bool) (T : Scaler K d) (r : Vec K d) : Vec K d :=
  fun j =>
    let c := if withMean then r j - T.mean j else r j
    if withStd then c / T.scale j else c

/-- `TabularStandardScalerStep.transform`, standard_scaler.py:44-57; before `fit` it is an error. -/
def scalerTransform (withMean withStd : Bool) (T : Option (Scaler K d)) (X : List (Vec K d)) : Except PyErr (List (Vec K d)) :=
  match T with
  | none => .error .validation
  | some T => .ok (X.map (scaleRow withMean withStd T))

/-- `strategy` of `SimpleImputer`. -/
inductive Strategy (K : Type)
  | mean
  | median
  | mostFrequent
  /-- `fill_value`; for numbers `None` means 0. -/
  | constant (c : Option K)

/-- The middle value, the mean of the two middle values if there are two. -/
def median (xs : List K) : K :=
  let s := xs.insertionSort (· ≤ ·)
  if xs.length % 2 = 1 then s.getD (xs.length / 2) 0 else (s.getD (xs.length / 2 - 1) 0 + s.getD (xs.length / 2) 0) / 2

/-- The smallest of the values met most often. -/
def mostFrequent (xs : List K) : K :=
  let s := xs.insertionSort (· ≤ ·)
  ((s.find? fun x => decide (∀ y ∈ xs, xs.count y ≤ xs.count x)).getD 0)

/-- The value put in place of missing ones; `none` (a NaN) if there is nothing to compute it from. -/
def statOf (st : Strategy K) (obs : List K) : Option K :=
  match st with
  | .constant c => some (c.getD 0)
  | .mean => if obs = [] then none else some (obs.sum / (obs.length : K))
  | .median => if obs = [] then none else some (median obs)
  | .mostFrequent => if obs = [] then none else some (mostFrequent obs)

/-- What `SimpleImputer.fit` remembers: a value for every column, and the columns with missing values. -/
structure Imputer (K : Type) (d : Nat) where
  stat : Fin d → Option K
  gaps : Fin d → Bool

/-- `TabularImputeStep.fit`, impute.py:24-44. -/
def imputeFit (st : Strategy K) (X : List (Fin d → Option K)) (idx : List Nat) : Except PyErr (Imputer K d) := do
  let Xf ← takeRows X idx
  if Xf.length = 0 then throw .valueError
  return ⟨fun j => statOf st (finiteCol Xf j), fun j => Xf.any fun r => (r j).isNone⟩

/-- One row of `SimpleImputer.transform`: columns without a value to put in are left out; with `add_indicator` a 0/1 column for
every column that had gaps is added at the end. -/
def imputeRow (indicator : Bool) (T : Imputer K d) (r : Fin d → Option K) : List K :=
  (List.finRange d).filterMap (fun j => (T.stat j).map fun s => (r j).getD s) ++
    (if indicator then ((List.finRange d).filter fun j => T.gaps j).map fun j => if (r j).isNone then 1 else 0 else [])

/-- `TabularImputeStep.transform`, impute.py:46-52. -/
def imputeTransform (indicator : Bool) (T : Option (Imputer K d)) (X : List (Fin d → Option K)) : Except PyErr (List (List K)) :=
  match T with
  | none => .error .validation
  | some T => .ok (X.map (imputeRow indicator T))

/-- `RandomProjectionStep.fit`, random_projection.py:19-33: a `d × k` table of normal draws, divided by `√k`.  The draws are a
parameter of the generator state and the two sizes. -/
def projFit {σ : Type} (normal : σ → (d k : Nat) → (Fin d → Fin k → K) × σ) (sqrt : K → K) (normalize : Bool) (k : Int) (_X : List (Vec K d))
    (_idx : List Nat) (g : σ) : Except PyErr ((Fin d → Fin k.toNat → K) × σ) :=
  if k ≤ 0 then .error .validation
  else
    let (W, g') := normal g d k.toNat
    .ok (if normalize then fun a b => W a b / sqrt (k.toNat : K) else W, g')

/-- `RandomProjectionStep.transform`, random_projection.py:35-39. -/
def projTransform {k : Nat} (W : Option (Fin d → Fin k → K)) (X : List (Vec K d)) : Except PyErr (List (Vec K k)) :=
  match W with
  | none => .error .validation
  | some W => .ok (X.map fun r b => ∑ a, r a * W a b)

end ModSSC.Preprocess.Scale
