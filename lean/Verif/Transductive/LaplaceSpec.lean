import Verif.Transductive.PropSpec
import Verif.Transductive.LaplaceModel

/-!
# Specification of Laplace learning
-/

namespace ModSSC.Transductive.Spec
open ModSSC ModSSC.Transductive

variable {K : Type} [Field K] [LinearOrder K]

/-- Only the zero vector is mapped to zero by the `m` by `m` array `A`. -/
def Nonsingular (m : Nat) (A : Mat K) : Prop :=
  ∀ v : Nat → K, (∀ i < m, ((List.range m).map fun j => A.get i j * v j).sum = 0) → ∀ i < m, v i = 0

/-- What is assumed of `np.linalg.solve` and `torch.linalg.solve`, in exact arithmetic: an answer solves the system
and is given exactly for nonsingular matrices. -/
structure Solver (solve : LinSolve K) : Prop where
  sound : ∀ m d A B X, HasShape A m m → HasShape B m d → solve A B = some X →
    ∀ i < m, ∀ c < d, ((List.range m).map fun j => A.get i j * X.get j c).sum = B.get i c
  answers : ∀ m d A B, HasShape A m m → HasShape B m d → ((∃ X, solve A B = some X) ↔ Nonsingular m A)

/-- The scores are harmonic: the score of an unlabeled node is the average of the scores of the nodes with an edge to
it, weighted by those edges. -/
def Harmonic (es : List (Int × Int × K)) (mask : List Bool) (F : Mat K) : Prop :=
  ∀ i : Nat, mask[i]? = some false → ∀ c : Nat,
    inWeight es (i : Int) * F.get i c = ((es.filter fun e => e.2.1 = (i : Int)).map fun e => e.2.2 * F.get e.1.toNat c).sum

/-- A labeled node, or a node that can be reached from one along edges of positive weight. -/
inductive Grounded (es : List (Int × Int × K)) (mask : List Bool) : Nat → Prop
  | label {i : Nat} : mask[i]? = some true → Grounded es mask i
  | step {i j : Nat} {w : K} : ((j : Int), (i : Int), w) ∈ es → 0 < w → Grounded es mask j → Grounded es mask i

/-- No edge joins an unlabeled node to itself. -/
def NoLoops (es : List (Int × Int × K)) (mask : List Bool) : Prop :=
  ∀ i : Nat, mask[i]? = some false → ∀ w, ((i : Int), (i : Int), w) ∉ es

end ModSSC.Transductive.Spec
