import Verif.Deep.AdshModel
import Verif.Deep.EmaSpec

/-!
# Specification of ADSH thresholds
-/

namespace ModSSC.Deep.Spec
open ModSSC ModSSC.Deep

/-- Number of samples predicted as class `c`. -/
def predicted (preds : List (Rat × Nat)) (c : Nat) : Nat := (preds.filter fun p => p.2 = c).length

/-- Number of samples predicted as class `c` with confidence at least `x`. -/
def atLeast (preds : List (Rat × Nat)) (c : Nat) (x : Rat) : Nat := (preds.filter fun p => p.2 = c ∧ x ≤ p.1).length

/-- Number of samples predicted as class `c` with confidence above `x`. -/
def above (preds : List (Rat × Nat)) (c : Nat) (x : Rat) : Nat := (preds.filter fun p => p.2 = c ∧ x < p.1).length

/-- Share of the samples predicted as the majority class that pass the cutoff; one if none does. -/
def majorityShare (cutoff : Rat) (majority : Nat) (preds : List (Rat × Nat)) : Rat :=
  if atLeast preds majority cutoff = 0 then 1
  else (atLeast preds majority cutoff : Rat) / (predicted preds majority : Rat)

end ModSSC.Deep.Spec
