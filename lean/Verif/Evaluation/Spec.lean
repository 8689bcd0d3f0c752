import Mathlib.Data.Rat.Defs
import Mathlib.Data.List.Dedup
import Mathlib.Algebra.BigOperators.Group.List.Basic

/-!
# Textbook definitions of the metrics
-/

namespace ModSSC.Evaluation.Spec

/-- Samples of class `c` that are predicted as `c`. -/
def hits (t p : List Int) (c : Int) : Nat := (t.zip p).countP (fun x => decide (x.1 = c ∧ x.2 = c))

/-- Share of correct predictions. -/
def accuracy (t p : List Int) : Rat :=
  ((t.zip p).countP (fun x => decide (x.1 = x.2)) : Rat) / (t.length : Rat)

/-- Share of the samples of class `c` predicted as `c`. -/
def recall (t p : List Int) (c : Int) : Rat := (hits t p c : Rat) / (t.count c : Rat)

/-- F1 of class `c`: `2 TP / (2 TP + FP + FN)`, with `TP + FN` the samples of the class and
`TP + FP` the predictions of the class. -/
def f1 (t p : List Int) (c : Int) : Rat := 2 * (hits t p c : Rat) / ((t.count c : Rat) + (p.count c : Rat))

/-- Unweighted mean over the classes that occur in the labels. -/
def classMean (t : List Int) (f : Int → Rat) : Rat := (t.dedup.map f).sum / (t.dedup.length : Rat)

end ModSSC.Evaluation.Spec
