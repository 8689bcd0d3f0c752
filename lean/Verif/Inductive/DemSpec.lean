import Verif.Inductive.DemModel
import Verif.Inductive.SelectSpec
import Verif.Evaluation.Spec

/-!
# Specification of democratic co-learning
-/

namespace ModSSC.Inductive.Spec
open ModSSC ModSSC.Inductive

/-- What the external numbers guarantee: quantiles above one half are positive, square roots of non-negative numbers are
non-negative, and the root of zero is zero. -/
structure NormalLaw (N : Normal) : Prop where
  inv : ∀ c : Rat, 1 / 2 < c → c < 1 → 0 < N.inv c
  sqrt : ∀ x : Rat, 0 ≤ x → 0 ≤ N.sqrt x
  zero : N.sqrt 0 = 0

/-- `(lo, hi)` is the interval `a ± z · sqrt (a (1 - a) / n)` cut to `[0, 1]`, for the accuracy `a` of the predictions `p`. -/
def IsAccInterval (N : Normal) (level : Rat) (y p : List Int) (lo hi : Rat) : Prop :=
  let a := Evaluation.Spec.accuracy y p
  let d := N.inv (1 / 2 + level / 2) * N.sqrt (a * (1 - a) / (y.length : Rat))
  lo = max 0 (a - d) ∧ hi = min 1 (a + d)

/-- Total weight of the learners `0, …, n-1` that vote for label `v`. -/
def weightFor (n : Nat) (w : Nat → Rat) (vote : Nat → Int) (v : Int) : Rat :=
  (((List.range n).filter fun i => vote i = v).map w).sum

/-- `v` is the label with strictly more weight than any other. -/
def Winner (classes : List Int) (n : Nat) (w : Nat → Rat) (vote : Nat → Int) (v : Int) : Prop :=
  v ∈ classes ∧ ∀ v' ∈ classes, v' ≠ v → weightFor n w vote v' < weightFor n w vote v

/-- `(n - 2 e)² / n`. -/
def worth (n : Nat) (e : Rat) : Rat := ((n : Rat) - 2 * e) ^ 2 / (n : Rat)

/-- What one learner gets in a round: `new` are the unlabeled samples it has not got yet whose winner it does not predict;
all of them are added, with the winners as labels, if this makes the training set worth more, else none. -/
def TakesDisagreements {M α : Type} (pool : List α) (winner : Nat → Int → Prop) (vote : Nat → Int) (avg : Rat)
    (L L' : Learner M α) : Prop :=
  ∃ (new : List Nat) (labels : List Int), new.Pairwise (· < ·) ∧
    (∀ j, j ∈ new ↔ j < pool.length ∧ j ∉ L.added ∧ ∃ v, winner j v ∧ vote j ≠ v) ∧
    List.Forall₂ winner new labels ∧
    ((worth L.y.length L.err < worth (L.y.length + new.length) (L.err + (1 - avg) * new.length) ∧ new ≠ [] ∧
        L'.X = L.X ++ new.filterMap (fun j => pool[j]?) ∧ L'.y = L.y ++ labels ∧ L'.added = L.added ++ new ∧
        L'.err = L.err + (1 - avg) * new.length) ∨
      (¬ (worth L.y.length L.err < worth (L.y.length + new.length) (L.err + (1 - avg) * new.length) ∧ new ≠ []) ∧
        L'.X = L.X ∧ L'.y = L.y ∧ L'.added = L.added ∧ L'.err = L.err))

/-- `classes` are the classes of every classifier that tells its classes; the labels of the labeled samples if none does. -/
def AgreedClasses {M : Type} (classesOf : M → Option (List Int)) (y : List Int) (ms : List M) (classes : List Int) : Prop :=
  classes.Nodup ∧ (∀ m ∈ ms, ∀ c, classesOf m = some c → c = classes) ∧
    ((∀ m ∈ ms, classesOf m = none) → ∀ v, v ∈ classes ↔ v ∈ y)

/-- One round: every classifier is trained on the training set of its learner; its weight is the middle of the confidence
interval of its accuracy on the labeled samples; `avg` is the mean of the lower ends for the own training sets; then every
learner takes the samples on which it disagrees with the weighted majority. -/
def IsRound {M α : Type} (C : Clf M α) (classesOf : M → Option (List Int)) (N : Normal) (level : Rat) (X : List α)
    (y : List Int) (pool : List α) (Ls Ls' : List (Learner M α)) : Prop :=
  Ls'.length = Ls.length ∧
  ∃ (classes : List Int) (w low : Nat → Rat) (vote : Nat → Nat → Int) (avg : Rat),
    AgreedClasses classesOf y (Ls'.map (·.m)) classes ∧
    avg = ((List.range Ls.length).map low).sum / (Ls.length : Rat) ∧
    ∀ (i : Nat) (L : Learner M α), Ls[i]? = some L → ∃ L', Ls'[i]? = some L' ∧
      C.fit L.m L.X L.y = .ok L'.m ∧
      (∃ p lo hi, C.predict L'.m X = .ok p ∧ IsAccInterval N level y p lo hi ∧ w i = (lo + hi) / 2) ∧
      (∃ p hi, C.predict L'.m L.X = .ok p ∧ IsAccInterval N level L.y p (low i) hi) ∧
      (∃ p, C.predict L'.m pool = .ok p ∧ ∀ j < pool.length, p[j]? = some (vote i j)) ∧
      TakesDisagreements pool (fun j => Winner classes Ls.length w (fun i => vote i j)) (vote i) avg L L'

/-- At most `k` rounds lead from one state to another: they stop after the first round that changes nothing, else after
`k` rounds. -/
inductive Rounds {S : Type} (round : S → S → Prop) (changed : S → S → Prop) : Nat → S → S → Prop
  | limit (s : S) : Rounds round changed 0 s s
  | more {k : Nat} {s t u : S} : round s t → changed s t → Rounds round changed k t u → Rounds round changed (k + 1) s u
  | stop {k : Nat} {s t : S} : round s t → ¬ changed s t → Rounds round changed (k + 1) s t

/-- Some training set has grown. -/
def Grown {M α : Type} (Ls Ls' : List (Learner M α)) : Prop :=
  ∃ (i : Nat) (L L' : Learner M α), Ls[i]? = some L ∧ Ls'[i]? = some L' ∧ L'.added ≠ L.added

/-- The vote share of a class in a prediction: the mean weight of the learners that chose it, among those with a weight above
`minConf` (all if there is none), times `(k + 1/2) / (k + 1)` for `k` such learners; zero without any. -/
def voteShare (minConf : Rat) (n : Nat) (w : Nat → Rat) (vote : Nat → Int) (v : Int) : Rat :=
  let chosen := (List.range n).filter fun i => vote i = v ∧ (minConf < w i ∨ ∀ i' < n, ¬ minConf < w i')
  if chosen = [] then 0
  else (chosen.map w).sum / (chosen.length : Rat) * (((chosen.length : Rat) + 1 / 2) / ((chosen.length : Rat) + 1))

end ModSSC.Inductive.Spec
