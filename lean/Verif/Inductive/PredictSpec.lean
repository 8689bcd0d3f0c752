import Mathlib.Data.Rat.Defs
import Mathlib.Algebra.Order.Ring.Rat

/-!
# Specification of predicting with several classifiers
-/

namespace ModSSC.Inductive.Spec

/-- What one classifier says about one sample: the score of each class label it knows. -/
abbrev Opinion := List (Int × Rat)

/-- The score a classifier gives a label; a label it does not know counts 0. -/
def scoreFor (o : Opinion) (c : Int) : Rat := ((o.filter fun p => p.1 = c).map (·.2)).sum

/-- The mean score of a label over the classifiers. -/
def meanScore (os : List Opinion) (c : Int) : Rat := (os.map fun o => scoreFor o c).sum / (os.length : Rat)

/-- Some classifier knows the label. -/
def Known (os : List Opinion) (c : Int) : Prop := ∃ o ∈ os, ∃ v, (c, v) ∈ o

/-- `c` is a label with the best mean score. -/
def IsBest (os : List Opinion) (c : Int) : Prop := Known os c ∧ ∀ d, Known os d → meanScore os d ≤ meanScore os c

/-- `row` lists the scores divided by their sum (by 1 when they sum to 0). -/
def IsNormalized (scores row : List Rat) : Prop :=
  row.length = scores.length ∧
  ∀ (i : Nat) (v w : Rat), scores[i]? = some v → row[i]? = some w →
    w = if scores.sum = 0 then v else v / scores.sum

/-- A probability distribution. -/
def IsDistribution (row : List Rat) : Prop := (∀ v ∈ row, 0 ≤ v) ∧ row.sum = 1

end ModSSC.Inductive.Spec
