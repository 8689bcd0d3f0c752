import Verif.Base
import Verif.Graph.KnnModel
import Mathlib.Algebra.BigOperators.Fin
import Mathlib.Algebra.Order.Field.Basic

/-!
# PCA and ZCA whitening

`src/modssc/preprocess/steps/core/pca.py`, `src/modssc/preprocess/steps/vision/zca_whitening.py`.

Numbers are elements of an ordered field `K`, a value that is not finite is `none`.  A matrix with `d` columns is the list of
its rows.  `np.linalg.svd` and `np.linalg.eigh` are parameters.  Casts to float32 are not modelled.  Positions are taken as
natural numbers; a position outside the table is an error as in numpy.
-/

namespace ModSSC.Preprocess.Pca
open ModSSC

variable {K : Type} [Field K] [LinearOrder K] {d : Nat}

/-- A row of numbers. -/
abbrev Vec (K : Type) (d : Nat) := Fin d → K

/-- `arr[idx]` (`steps/base.py:26-33`). -/
def takeRows {α : Type} (X : List α) (idx : List Nat) : Except PyErr (List α) :=
  idx.mapM fun i => match X[i]? with | some r => .ok r | none => .error .indexError

/-- `X.mean(axis=0)` of a table without missing values. -/
def colMean (X : List (Vec K d)) : Vec K d := fun j => (X.map fun r => r j).sum / (X.length : K)

/-- `np.copyto(X, impute, where=~finite)` on one row. -/
def fill (impute : Vec K d) (r : Fin d → Option K) : Vec K d := fun j => (r j).getD (impute j)

/-- The finite values of column `j`. -/
def finiteCol (X : List (Fin d → Option K)) (j : Fin d) : List K := X.filterMap fun r => r j

/-- pca.py l.36-42: the mean of the finite values of every column; the mean of nothing (NaN) becomes 0. -/
def imputeOf (X : List (Fin d → Option K)) : Vec K d :=
  if X.all (fun r => decide (∀ j, (r j).isSome)) then colMean (X.map (fill fun _ => 0))
  else fun j => if finiteCol X j = [] then 0 else (finiteCol X j).sum / ((finiteCol X j).length : K)

/-- The fitted step, pca.py l.50-52. -/
structure Fitted (K : Type) (d : Nat) where
  mean : Vec K d
  comps : List (Vec K d)
  impute : Vec K d

/-- `PcaStep.fit`, pca.py l.22-52; `svd` gives the rows of `vt`. -/
def fit (svd : List (Vec K d) → List (Vec K d)) (nComponents : Int) (center : Bool) (X : List (Fin d → Option K))
    (idx : List Nat) : Except PyErr (Fitted K d) := do
  let Xf ← takeRows X idx
  if Xf.length = 0 then throw .validation
  let impute := imputeOf Xf
  let F := Xf.map (fill impute)
  let mean : Vec K d := if center then colMean F else fun _ => 0
  let F := if center then F.map (fun r j => r j - mean j) else F
  let vt := svd F
  let k := max 1 (min nComponents (min (vt.length : Int) d))
  return ⟨mean, vt.take k.toNat, impute⟩

/-- One row of `PcaStep.transform`, pca.py l.71-81. -/
def project (center : Bool) (T : Fitted K d) (r : Fin d → Option K) : List K :=
  let x := fill T.impute r
  let x : Vec K d := if center then fun j => x j - T.mean j else x
  T.comps.map fun v => ∑ j, x j * v j

/-- `PcaStep.transform`, pca.py l.56-83, in chunks of 8192 rows. -/
def transform (center : Bool) (T : Fitted K d) (X : List (Fin d → Option K)) : List (List K) :=
  (Graph.chunks X.length 8192).flatMap fun c => ((X.drop c.1).take (c.2 - c.1)).map (project center T)

/-- The fitted whitening, zca_whitening.py l.49-50. -/
structure Zca (K : Type) (d : Nat) where
  mean : Vec K d
  W : Fin d → Fin d → K

/-- The covariance, zca_whitening.py l.43. -/
def cov (Xc : List (Vec K d)) : Fin d → Fin d → K :=
  fun a b => (Xc.map fun r => r a * r b).sum / ((max 1 Xc.length : Nat) : K)

/-- `W = (u * inv) @ u.T`, zca_whitening.py l.45-47. -/
def whitener (sqrt : K → K) (eps : K) (s : Vec K d) (u : Fin d → Fin d → K) : Fin d → Fin d → K :=
  fun a b => ∑ j, u a j * (1 / sqrt (max (s j) 0 + eps)) * u b j

/-- `ZcaWhiteningStep.fit`, zca_whitening.py l.22-51, on flattened samples. -/
def zcaFit (sqrt : K → K) (eigh : (Fin d → Fin d → K) → Vec K d × (Fin d → Fin d → K)) (eps : K) (maxFeatures : Int)
    (X : List (Vec K d)) (idx : List Nat) : Except PyErr (Zca K d) := do
  let Xf ← takeRows X idx
  if Xf.length = 0 then throw .validation
  if (d : Int) > maxFeatures then throw .validation
  let mu := colMean Xf
  let C := cov (Xf.map fun r j => r j - mu j)
  let (s, u) := eigh C
  return ⟨mu, whitener sqrt eps s u⟩

/-- `ZcaWhiteningStep.transform`, zca_whitening.py l.53-66, on flattened samples of the fitted size. -/
def zcaTransform (T : Zca K d) (X : List (Vec K d)) : List (Vec K d) :=
  X.map fun r b => ∑ a, (r a - T.mean a) * T.W a b

end ModSSC.Preprocess.Pca
