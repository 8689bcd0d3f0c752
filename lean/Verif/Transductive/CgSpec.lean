import Verif.Transductive.CgModel

/-!
# Specification of the linear solver
-/

namespace ModSSC.Transductive.Spec
open ModSSC ModSSC.Transductive

variable {K : Type} [Field K] [LinearOrder K]

/-- What is assumed of the square root: exact on numbers that are not negative. -/
def RootLaw (sqrt : K → K) : Prop := ∀ x, 0 ≤ x → 0 ≤ sqrt x ∧ sqrt x * sqrt x = x

/-- The operator is linear. -/
def LinOp {n : Nat} (A : (Fin n → K) → (Fin n → K)) : Prop :=
  ∀ (u v : Fin n → K) (a : K) (i : Fin n), A (fun j => u j + a * v j) i = A u i + a * A v i

/-- The operator is symmetric. -/
def SymOp {n : Nat} (A : (Fin n → K) → (Fin n → K)) : Prop :=
  ∀ u v : Fin n → K, ∑ i, A u i * v i = ∑ i, u i * A v i

/-- The operator is positive definite. -/
def PosOp {n : Nat} (A : (Fin n → K) → (Fin n → K)) : Prop :=
  ∀ u : Fin n → K, (∃ i, u i ≠ 0) → 0 < ∑ i, u i * A u i

/-- Square of the length of the residual `b - A x`. -/
def residualSq {n : Nat} (A : (Fin n → K) → (Fin n → K)) (b x : Fin n → K) : K :=
  ∑ i, (b i - A x i) * (b i - A x i)

end ModSSC.Transductive.Spec
