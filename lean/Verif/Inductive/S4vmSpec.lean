import Verif.Inductive.SelectSpec
import Verif.Sampling.Spec
import Verif.Evaluation.Spec

/-!
# Specification of S4VM
-/

namespace ModSSC.Inductive.Spec
open ModSSC

/-- `labels` are the labels `pred` with exactly the `n` least confident samples moved to the other one of the two
classes `a` and `b`. -/
def FlipsLeast (conf : List Rat) (a b : Int) (n : Nat) (pred labels : List Int) : Prop :=
  labels.length = pred.length ∧
  ∃ S : List Nat, S.Nodup ∧ S.length = n ∧ (∀ i ∈ S, i < pred.length) ∧
    (∀ i ∈ S, ∀ j < pred.length, j ∉ S → conf.getD i 0 ≤ conf.getD j 0) ∧
    (∀ i < pred.length, i ∉ S → labels.getD i 0 = pred.getD i 0) ∧
    ∀ i ∈ S, labels.getD i 0 = if pred.getD i 0 = a then b else a

/-- Number of labels the `i`-th candidate changes: the share `min(rate * (i + 1), 1/2)` of the pool, rounded to the
nearest integer, none for a rate that is not positive. -/
def FlipNumber (rate : Rat) (i size n : Nat) : Prop :=
  ∃ k : Int, Sampling.Spec.IsNearestEven (min (rate * ((i : Rat) + 1)) (1 / 2) * (size : Rat)) k ∧ (n : Int) = max 0 k

end ModSSC.Inductive.Spec
