import Mathlib.Data.List.Perm.Subperm
import Mathlib.Data.List.Dedup
import Mathlib.Data.List.Nodup
import Mathlib.Data.List.Count
import Mathlib.Algebra.BigOperators.Group.List.Basic
import Mathlib.Tactic.Linarith
import Mathlib.Data.Rat.Floor
import Mathlib.Data.List.Sort

/-!
# Common conventions of the model

Python exceptions are values of `PyErr`; numpy generators, sorts and rounding are modelled here
once and used by every area.
-/

namespace ModSSC

/-- Python exception classes raised by the modelled code.  The message is not modelled. -/
inductive PyErr where
  /-- `ValueError` -/
  | valueError
  /-- `KeyError` -/
  | keyError
  /-- `IndexError` -/
  | indexError
  /-- `TypeError` -/
  | typeError
  /-- `FileExistsError` -/
  | fileExists
  /-- `FileNotFoundError` / `OSError` -/
  | fileNotFound
  /-- a project specific validation error (`SamplingValidationError`, `GraphValidationError`, ...) -/
  | validation
  /-- a cache error (`PreprocessCacheError`, `GraphCacheError`, `DatasetNotCachedError`, ...) -/
  | cacheError
  /-- `RuntimeError` and everything else -/
  | runtimeError
deriving DecidableEq, Repr

/-- `numpy.random.Generator` as seen by the code: an arbitrary state with the operations the
modelled functions call.  Models external code (numpy); the contract assumed of it is
`Rng.Lawful`. -/
structure Rng (σ : Type) where
  /-- `rng.permutation(a)` -/
  permutation : σ → List Nat → List Nat × σ
  /-- `rng.choice(a, size=k, replace=False)` for `k ≤ a.size` (numpy raises otherwise) -/
  choice : σ → List Nat → Nat → List Nat × σ

/-- numpy's documented contract for the two operations. -/
structure Rng.Lawful {σ : Type} (R : Rng σ) : Prop where
  perm : ∀ s l, (R.permutation s l).1.Perm l
  choice_subperm : ∀ s l k, k ≤ l.length → (R.choice s l k).1.Subperm l
  choice_length : ∀ s l k, k ≤ l.length → (R.choice s l k).1.length = k

/-- A generator that satisfies the contract (used in the non-vacuity examples): reverses on
`permutation`, takes a prefix on `choice`. -/
def Rng.demo : Rng Nat where
  permutation s l := (l.reverse, s + 1)
  choice s l k := (l.take k, s + 1)

theorem Rng.demo_lawful : Rng.demo.Lawful where
  perm _ l := List.reverse_perm l
  choice_subperm _ l k _ := (List.take_sublist k l).subperm
  choice_length _ l k h := by simp [Rng.demo]; omega

/-- Contract of `np.argsort` on integer keys.  numpy's default sort is not stable, so *any*
permutation of the positions that is sorted by key is allowed. -/
def IsArgsort (f : List Int → List Nat) : Prop :=
  ∀ ks : List Int, (f ks).Perm (List.range ks.length) ∧
    (f ks).Pairwise (fun i j => ks.getD i 0 ≤ ks.getD j 0)

/-- Positions compared by key, as a total preorder. -/
def keyLe (ks : List Int) (i j : Nat) : Prop := ks.getD i 0 ≤ ks.getD j 0

instance (ks : List Int) : DecidableRel (keyLe ks) := fun i j =>
  inferInstanceAs (Decidable (ks.getD i 0 ≤ ks.getD j 0))

instance (ks : List Int) : Std.Total (keyLe ks) := ⟨fun i j => by unfold keyLe; omega⟩
instance (ks : List Int) : IsTrans Nat (keyLe ks) := ⟨fun i j k => by unfold keyLe; omega⟩

/-- A concrete argsort (stable insertion sort of positions), used in examples. -/
def stableArgsort (ks : List Int) : List Nat :=
  (List.range ks.length).insertionSort (keyLe ks)

theorem stableArgsort_isArgsort : IsArgsort stableArgsort := by
  intro ks
  exact ⟨List.perm_insertionSort _ _, List.pairwise_insertionSort (keyLe ks) _⟩

/-- `np.sort` on an integer index array. -/
def npSort (l : List Nat) : List Nat := l.insertionSort (· ≤ ·)

theorem npSort_perm (l : List Nat) : (npSort l).Perm l := List.perm_insertionSort _ _

theorem npSort_sorted (l : List Nat) : (npSort l).Pairwise (· ≤ ·) :=
  List.pairwise_insertionSort _ l

/-- `np.sort` on an integer label array. -/
def npSortInt (l : List Int) : List Int := l.insertionSort (· ≤ ·)

theorem npSortInt_perm (l : List Int) : (npSortInt l).Perm l := List.perm_insertionSort _ _

theorem npSortInt_sorted (l : List Int) : (npSortInt l).Pairwise (· ≤ ·) :=
  List.pairwise_insertionSort _ l

/-- `np.unique` on integer labels: sorted distinct values. -/
def npUnique (l : List Int) : List Int := (npSortInt l).dedup

theorem mem_npUnique {l : List Int} {a : Int} : a ∈ npUnique l ↔ a ∈ l := by
  simp [npUnique, (npSortInt_perm l).mem_iff]

theorem nodup_npUnique (l : List Int) : (npUnique l).Nodup := List.nodup_dedup _

theorem npUnique_sorted (l : List Int) : (npUnique l).Pairwise (· ≤ ·) :=
  (npSortInt_sorted l).sublist (List.dedup_sublist _)

/-- Python's `int(round(x))` for a float `x`: round half to even.  Floats are modelled by exact
rationals. -/
def pyRound (q : Rat) : Int :=
  let f := q.floor
  let r := q - (f : Rat)
  if r < 1 / 2 then f
  else if 1 / 2 < r then f + 1
  else if f % 2 = 0 then f else f + 1

/-- Python's `int(x)` for a float `x`: truncation towards zero. -/
def pyInt (q : Rat) : Int := if 0 ≤ q then q.floor else -((-q).floor)

/-- Fancy indexing `y[idx]`: raises `IndexError` if an index is out of range. -/
def gather (y : List Int) (idx : List Nat) : Except PyErr (List Int) :=
  if idx.all (fun i => decide (i < y.length)) then .ok (idx.map (fun i => y.getD i 0))
  else .error .indexError

end ModSSC
