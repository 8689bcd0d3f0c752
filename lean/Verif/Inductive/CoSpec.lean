import Verif.Inductive.LoopSpec
import Mathlib.Data.List.Perm.Subperm

/-!
# Specification of co-training runs
-/

namespace ModSSC.Inductive.Spec
open scoped List

/-- The picks of `select_top_per_class`: increasing positions; for every class, the picked samples whose
first best column is that class are its `k` best ones among those reaching the threshold. -/
def IsTopPerClass (s : Scores) (k : Nat) (threshold : Option Rat) (idx : List Nat) : Prop :=
  idx.Pairwise (· < ·) ∧ (∀ i ∈ idx, i < s.rows.length) ∧
  ∀ c, c < s.cols → ∃ sel : List Nat,
    (∀ i, i ∈ sel ↔ i ∈ idx ∧ ∃ row, s.rows[i]? = some row ∧ IsFirstMax row c) ∧
    IsTopSelection
      (fun i => ∃ row v, s.rows[i]? = some row ∧ IsFirstMax row c ∧ row[c]? = some v ∧
        ∀ t, threshold = some t → t ≤ v)
      (fun i => (s.rows.getD i []).getD c 0) (some k) sel

/-- Two training sets, one per view, and a pool of samples seen in both views. -/
structure Pair (α : Type) where
  X1 : List α
  y1 : List Int
  X2 : List α
  y2 : List Int
  pool : List (α × α)

/-- The labels a model gives to the samples at some positions (it is not asked about no samples). -/
def LabelsAt {M α : Type} (C : Clf M α) (m : M) (X : List α) (idx : List Nat) (labels : List Int) : Prop :=
  if idx = [] then labels = [] else C.predict m (entriesAt X idx) = .ok labels

/-- One round of co-training: a model per view fitted on its training set; each picks its best samples
per class and hands them, in the other view and with the labels it predicts, to the other; all picked
samples leave the pool. -/
def CoStep {M α : Type} (C : Clf M α) (k : Nat) (threshold : Option Rat) (s s' : Pair α) : Prop :=
  ∃ m1 m2 sc1 sc2 idx1 idx2 labels1 labels2,
    (∃ m0, C.fit m0 s.X1 s.y1 = .ok m1) ∧ (∃ m0, C.fit m0 s.X2 s.y2 = .ok m2) ∧
    C.scores m1 (s.pool.map (·.1)) = .ok sc1 ∧ C.scores m2 (s.pool.map (·.2)) = .ok sc2 ∧
    IsTopPerClass sc1 k threshold idx1 ∧ IsTopPerClass sc2 k threshold idx2 ∧ ¬ (idx1 = [] ∧ idx2 = []) ∧
    LabelsAt C m1 (s.pool.map (·.1)) idx1 labels1 ∧ LabelsAt C m2 (s.pool.map (·.2)) idx2 labels2 ∧
    s'.X1 = s.X1 ++ (entriesAt s.pool idx2).map (·.1) ∧ s'.y1 = s.y1 ++ labels2 ∧
    s'.X2 = s.X2 ++ (entriesAt s.pool idx1).map (·.2) ∧ s'.y2 = s.y2 ++ labels1 ∧
    s'.pool = without s.pool (idx1 ++ idx2)

/-- From `s` to `s'`: the pool only shrinks, keeping its order; every training set grows at its end by
samples that left the pool, each at most once; every sample that left the pool was handed to at least one
of the two; labels stay aligned. -/
def CoConserves {α : Type} (s s' : Pair α) : Prop :=
  s'.pool <+ s.pool ∧ s.y1 <+: s'.y1 ∧ s.y2 <+: s'.y2 ∧
  s'.X1.length = s'.y1.length ∧ s'.X2.length = s'.y2.length ∧
  ∃ new1 new2 : List (α × α), s'.X1 = s.X1 ++ new1.map (·.1) ∧ s'.X2 = s.X2 ++ new2.map (·.2) ∧
    (new1 ++ s'.pool) <+~ s.pool ∧ (new2 ++ s'.pool) <+~ s.pool ∧
    s.pool <+~ (new1 ++ new2 ++ s'.pool)

end ModSSC.Inductive.Spec
