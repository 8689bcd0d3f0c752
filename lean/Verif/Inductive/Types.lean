import Verif.Base

/-!
# Shared vocabulary of the inductive area
-/

namespace ModSSC.Inductive
open ModSSC

/-- A score matrix with its number of columns (needed when there are no rows). -/
structure Scores where
  cols : Nat
  rows : List (List Rat)

/-- A two-dimensional array: every row has `cols` entries. -/
def Scores.Rect (s : Scores) : Prop := ∀ r ∈ s.rows, r.length = s.cols

/-- A classifier object as the methods use it: any state, any behaviour (external code, created by
`build_classifier`, classifier_bridge.py:108-115).  `scores` is `predict_scores`
(classifier_bridge.py:132-189) after its shape check.  Simplification: predicting does not change the
object. -/
structure Clf (M α : Type) where
  fit : M → List α → List Int → Except PyErr M
  scores : M → List α → Except PyErr Scores
  predict : M → List α → Except PyErr (List Int)

/-- What every classifier guarantees about shapes: one score row of equal width and one label per
sample, and at least one class. -/
structure Clf.Shapes {M α : Type} (C : Clf M α) : Prop where
  rows : ∀ m X s, C.scores m X = .ok s → s.rows.length = X.length
  rect : ∀ m X s, C.scores m X = .ok s → s.Rect
  cols : ∀ m X s, C.scores m X = .ok s → 0 < s.cols
  labels : ∀ m X y, C.predict m X = .ok y → y.length = X.length

/-- The training set and the pool of unlabeled samples at one point of a self-labelling method. -/
structure Round (α : Type) where
  X : List α
  y : List Int
  pool : List α

/-- `SelfTrainingSpec` (self_training.py:62-72) after the group ids were resolved
(self_training.py:273-299). -/
structure STSpec where
  maxIter : Int
  threshold : Option Rat
  maxNew : Option Int
  minNew : Int
  useGroup : Bool
  minCount : Int
  minFraction : Rat
  groupThreshold : Option Rat

/-- The numbers of setred's local cut edge test (external: `statistics.NormalDist().inv_cdf`, `np.sqrt`; the
weights are setred.py:91-104). -/
structure EditTest where
  /-- quantile of the normal distribution at `theta` -/
  z : Rat
  /-- square root -/
  sqrt : Rat → Rat
  /-- weight of an edge of the given length -/
  weight : Rat → Rat

end ModSSC.Inductive
