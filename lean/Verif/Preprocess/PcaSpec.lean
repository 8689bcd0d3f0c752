import Mathlib.Algebra.BigOperators.Fin
import Mathlib.Algebra.Order.Field.Basic

/-!
# Specification of PCA and whitening
-/

namespace ModSSC.Preprocess.Pca.Spec

variable {K : Type} [Field K] [LinearOrder K] {d : Nat}

/-- Scalar product. -/
def ip (x y : Fin d → K) : K := ∑ j, x j * y j

/-- Distinct directions of length one, each at a right angle to the others. -/
def Orthonormal (vs : List (Fin d → K)) : Prop :=
  vs.Pairwise (fun v w => ip v w = 0) ∧ ∀ v ∈ vs, ip v v = 1

/-- How much of the rows the directions capture: the sum of the squared lengths of the projections. -/
def captured (rows ws : List (Fin d → K)) : K := (ws.map fun w => (rows.map fun x => ip x w * ip x w).sum).sum

/-- Contract of `np.linalg.svd`: as many right singular vectors as the smaller side of the matrix; they are orthonormal, and
with the squared singular values `s` (not negative, largest first) they give the matrix of the scalar products. -/
structure IsRightSvd (rows vt : List (Fin d → K)) : Prop where
  length : vt.length = min rows.length d
  orthonormal : Orthonormal vt
  values : ∃ s : List K, s.length = vt.length ∧ s.Pairwise (· ≥ ·) ∧ (∀ x ∈ s, 0 ≤ x) ∧
    ∀ w, (rows.map fun x => ip x w * ip x w).sum = ((s.zip vt).map fun p => p.1 * (ip p.2 w * ip p.2 w)).sum

/-- Average of the present values. -/
def IsAverage (l : List K) (m : K) : Prop := if l = [] then m = 0 else m * (l.length : K) = l.sum

/-- Contract of `np.linalg.eigh` for a symmetric matrix: orthonormal columns `u` and values `s` with `C = u diag(s) uᵀ`. -/
structure IsEigen (C : Fin d → Fin d → K) (s : Fin d → K) (u : Fin d → Fin d → K) : Prop where
  orth : ∀ i j, (∑ a, u a i * u a j) = if i = j then 1 else 0
  decomp : ∀ a b, C a b = ∑ j, s j * (u a j * u b j)

/-- Mean of the rows. -/
def IsMean (rows : List (Fin d → K)) (m : Fin d → K) : Prop := ∀ j, m j * (rows.length : K) = (rows.map fun r => r j).sum

/-- `C` is the covariance matrix of rows with mean `m`. -/
def IsCov (rows : List (Fin d → K)) (m : Fin d → K) (C : Fin d → Fin d → K) : Prop :=
  ∀ a b, C a b * (rows.length : K) = (rows.map fun r => (r a - m a) * (r b - m b)).sum

end ModSSC.Preprocess.Pca.Spec
