import Mathlib.Data.List.Nodup
import Mathlib.Data.List.Dedup
import Mathlib.Data.List.Count
import Mathlib.Data.Rat.Floor
import Mathlib.Algebra.Group.Int.Even

/-!
# Specification vocabulary for sampling

This file does not import the model.
-/

namespace ModSSC.Sampling.Spec

/-- Sorted and without duplicates. -/
def StrictlyIncreasing (l : List Nat) : Prop := l.Pairwise (· < ·)

/-- No common element. -/
def NoOverlap (a b : List Nat) : Prop := ∀ x, x ∈ a → x ∉ b

/-- `train`, `val`, `test` are sorted duplicate-free, pairwise disjoint, and together are exactly
`{0, ..., n-1}`. -/
structure IsPartition (n : Nat) (train val test : List Nat) : Prop where
  train_sorted : StrictlyIncreasing train
  val_sorted : StrictlyIncreasing val
  test_sorted : StrictlyIncreasing test
  train_val : NoOverlap train val
  train_test : NoOverlap train test
  val_test : NoOverlap val test
  cover : ∀ i, i < n ↔ i ∈ train ∨ i ∈ val ∨ i ∈ test

/-- Number of samples of class `c` in an index list, for a labelling `y`. -/
def classSize (y : List Int) (idx : List Nat) (c : Int) : Nat :=
  idx.countP (fun i => decide (y[i]? = some c))

/-- `k` is an integer nearest to `q`, the even one when `q` lies halfway between two integers. -/
def IsNearestEven (q : Rat) (k : Int) : Prop :=
  (k : Rat) - 1 / 2 ≤ q ∧ q ≤ (k : Rat) + 1 / 2 ∧
    (q = (k : Rat) - 1 / 2 ∨ q = (k : Rat) + 1 / 2 → Even k)

/-- `size` is `q` rounded to the nearest integer and clamped to `[0, n]`. -/
def IsRoundedSize (q : Rat) (n size : Nat) : Prop :=
  ∃ k : Int, IsNearestEven q k ∧ (size : Int) = max 0 (min (n : Int) k)

/-- `k` is `q` truncated towards zero. -/
def IsTruncated (q : Rat) (k : Int) : Prop :=
  (0 ≤ q → (k : Rat) ≤ q ∧ q < (k : Rat) + 1) ∧ (q < 0 → q ≤ (k : Rat) ∧ (k : Rat) - 1 < q)

/-- The labels that occur among the samples `idx`, without repetition. -/
def classesOf (y : List Int) (idx : List Nat) : List Int := (idx.filterMap (fun i => y[i]?)).dedup

/-- How many classes have at least `m` members among the samples `idx`. -/
def numClassesWithAtLeast (y : List Int) (idx : List Nat) (m : Int) : Nat :=
  (classesOf y idx).countP (fun c => decide (m ≤ (classSize y idx c : Int)))

/-- `rank` orders the classes of `idx` by decreasing size (ties in any order), using each of
`0, 1, 2, ...` once. -/
structure IsFrequencyRank (y : List Int) (idx : List Nat) (rank : Int → Nat) : Prop where
  injective : ∀ c ∈ classesOf y idx, ∀ d ∈ classesOf y idx, rank c = rank d → c = d
  bounded : ∀ c ∈ classesOf y idx, rank c < (classesOf y idx).length
  decreasing : ∀ c ∈ classesOf y idx, ∀ d ∈ classesOf y idx, rank c < rank d →
    classSize y idx d ≤ classSize y idx c

/-- `labeled` and `unlabeled` are disjoint and together are exactly `train`. -/
def Splits (train labeled unlabeled : List Nat) : Prop :=
  NoOverlap labeled unlabeled ∧ ∀ x, x ∈ train ↔ x ∈ labeled ∨ x ∈ unlabeled

/-- All elements are sample numbers of a set of `n` samples, listed once, in increasing order. -/
def IndexSet (n : Nat) (l : List Nat) : Prop := StrictlyIncreasing l ∧ ∀ x ∈ l, x < n

/-- Node `i` is selected by the mask. -/
def On (m : List Bool) (i : Nat) : Prop := m[i]? = some true

/-- Two masks select no common node. -/
def MasksDisjoint (a b : List Bool) : Prop := ∀ i, ¬ (On a i ∧ On b i)

end ModSSC.Sampling.Spec
