import Verif.Deep.SharpModel

/-!
# Specification of sharpening
-/

namespace ModSSC.Deep.Spec
open ModSSC

variable {K : Type} [Field K] [LinearOrder K]

/-- What is assumed of `x ** q` for `x ≥ 0` and `q > 0`: increasing, zero at zero, and steeper (flatter)
than the identity for exponents above (below) one. -/
structure PowerLaw (pow : K → K → K) : Prop where
  zero : ∀ q, 0 < q → pow 0 q = 0
  mono : ∀ q x y, 0 < q → 0 ≤ x → x < y → pow x q < pow y q
  steep : ∀ q x y, 1 ≤ q → 0 ≤ x → x ≤ y → pow x q * y ≤ pow y q * x
  flat : ∀ q x y, 0 < q → q ≤ 1 → 0 ≤ x → x ≤ y → pow y q * x ≤ pow x q * y

/-- `row` is a probability distribution over its classes. -/
def IsDist (row : List K) : Prop := (∀ p ∈ row, 0 ≤ p) ∧ row.sum = 1

/-- `c` is one of the most probable classes of `row`. -/
def MostProbable (row : List K) (c : Nat) : Prop :=
  c < row.length ∧ ∀ c' < row.length, row.getD c' 0 ≤ row.getD c 0

/-- `argmax(dim=1)`: some position of the largest entry (torch leaves open which). -/
def ArgmaxLaw (argmax : List K → Nat) : Prop := ∀ row : List K, row ≠ [] → MostProbable row (argmax row)

/-- Some class of `row` has at least probability `cutoff`. -/
def Confident (cutoff : K) (row : List K) : Prop := ∃ p ∈ row, cutoff ≤ p

instance (cutoff : K) (row : List K) : Decidable (Confident cutoff row) := by
  unfold Confident; infer_instance

end ModSSC.Deep.Spec
