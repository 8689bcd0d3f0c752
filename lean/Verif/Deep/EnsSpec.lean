import Verif.Deep.EnsModel
import Verif.Deep.EmaSpec

/-!
# Specification of temporal ensembling and MixUp
-/

namespace ModSSC.Deep.Spec
open ModSSC ModSSC.Deep

variable {K : Type} [Field K] [LinearOrder K]

/-- Probability of class `c` in the last prediction made for sample `s` in an epoch: the mean of the two views. -/
def lastProb (preds : List (TePred K)) (s c : Nat) : K :=
  match (preds.filter fun p => p.idx = s).getLast? with
  | none => 0
  | some p => (p.weak.getD c 0 + p.strong.getD c 0) / 2

/-- An epoch in which each of the `n` samples is predicted at least once, with distributions over `C` classes. -/
def FullEpoch (n C : Nat) (preds : List (TePred K)) : Prop :=
  (∀ p ∈ preds, p.idx < n ∧ IsDistN C p.weak ∧ IsDistN C p.strong) ∧ ∀ s < n, ∃ p ∈ preds, p.idx = s

/-- Row `r` lies on the segment from `a` (weight `lam`) to `b`. -/
def IsMix (lam : K) (a b r : List K) : Prop :=
  r.length = a.length ∧ ∀ c < a.length, r.getD c 0 = lam * a.getD c 0 + (1 - lam) * b.getD c 0

/-- Samples of the Beta distribution lie in `[0, 1]`. -/
def BetaLaw {τ : Type} (beta : K → τ → Nat → List K × τ) : Prop :=
  ∀ a g n, 0 < a → (beta a g n).1.length = n ∧ ∀ x ∈ (beta a g n).1, 0 ≤ x ∧ x ≤ 1

/-- Parameter `i` of tensor `p`. -/
def param (m : List (List K)) (p i : Nat) : K := (m.getD p []).getD i 0

end ModSSC.Deep.Spec
