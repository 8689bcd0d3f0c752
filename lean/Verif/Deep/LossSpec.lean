import Verif.Deep.LossModel
import Verif.Deep.EmaSpec

/-!
# Specification of the losses
-/

namespace ModSSC.Deep.Spec
open ModSSC ModSSC.Deep

variable {K : Type} [Field K] [LinearOrder K]

/-- `v` is the average of `f` over exactly the positions below `n` with property `P` (0 if there are none). -/
def AverageOver (n : Nat) (P : Nat → Prop) (f : Nat → K) (v : K) : Prop :=
  ∃ idx : List Nat, idx.Nodup ∧ (∀ i, i ∈ idx ↔ i < n ∧ P i) ∧ v = (idx.map f).sum / (idx.length : K)

/-- Names of the schedules that anneal. -/
def IsSchedule (s : String) : Prop := s = "linear" ∨ s = "exp" ∨ s = "log"

end ModSSC.Deep.Spec
