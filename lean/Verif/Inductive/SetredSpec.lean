import Verif.Inductive.LoopSpec
import Mathlib.Data.Rat.Cast.Defs

/-!
# Specification of setred: self-training with editing
-/

namespace ModSSC.Inductive.Spec

/-- The exact share of class `i` when `total` places are distributed in proportion to `counts`. -/
def share (total : Nat) (counts : List Nat) (i : Nat) : Rat :=
  ((counts.getD i 0 : Nat) : Rat) * (total : Rat) / ((counts.sum : Nat) : Rat)

/-- A distribution of `total` places by largest remainder: all places are given, every class gets its
exact share rounded down or up, and no class is rounded up while one with a larger remainder is rounded
down. -/
structure IsApportionment (total : Nat) (counts alloc : List Nat) : Prop where
  len : alloc.length = counts.length
  sum : alloc.sum = total
  upper : ∀ i, i < counts.length → ((alloc.getD i 0 : Nat) : Rat) < share total counts i + 1
  lower : ∀ i, i < counts.length → share total counts i < ((alloc.getD i 0 : Nat) : Rat) + 1
  fair : ∀ i j, i < counts.length → j < counts.length →
    share total counts j - ((alloc.getD j 0 : Nat) : Rat) ≤ share total counts i - ((alloc.getD i 0 : Nat) : Rat) + 1

/-- Relative neighbourhood graph over `n` points: `i` and `j` are neighbours when no point is closer to both
than they are to each other. -/
def IsRelativeNeighbor (d : Nat → Nat → Rat) (n i j : Nat) : Prop :=
  i < n ∧ j < n ∧ i ≠ j ∧ ∀ k, k < n → ¬ (d i k < d i j ∧ d j k < d i j)

/-- `near i` are `k` nearest other points of `i` (all of them when there are fewer). -/
def IsNearest (d : Nat → Nat → Rat) (n k : Nat) (near : Nat → List Nat) : Prop :=
  ∀ i, i < n → IsTopSelection (fun j => j < n ∧ j ≠ i) (fun j => - d i j) (some k) (near i)

/-- The test accepts point `i` with label `y i`, class frequency `p` and the given neighbours: the weight
of the edges to points with another label is at most its expectation under random labels plus `z`
standard deviations. -/
def Accepts (T : EditTest) (d : Nat → Nat → Rat) (y : Nat → Int) (nbrs : List Nat) (p : Rat) (i : Nat) : Prop :=
  ((nbrs.filter fun j => y j ≠ y i).map fun j => T.weight (d i j)).sum ≤
    (1 - p) * (nbrs.map fun j => T.weight (d i j)).sum +
      (let v := p * (1 - p) * (nbrs.map fun j => T.weight (d i j) * T.weight (d i j)).sum
       if v ≤ 0 then 0 else T.z * T.sqrt v)

/-- The share of label `l` among the labels. -/
def frequency (y : List Int) (l : Int) : Rat := ((y.count l : Nat) : Rat) / ((y.length : Nat) : Rat)

/-- What setred proposes from the pool part `X` with predicted labels `pred`: for every class of the
training labels `y`, as many samples predicted in it as the proportional distribution gives, the most
confident first. -/
def Proposes {M α : Type} (C : Clf M α) (threshold : Option Rat) (total : Nat) (y : List Int) (m : M) (X : List α)
    (pred : List Int) (sel : List Nat) : Prop :=
  ∃ (s : Scores) (conf : Nat → Rat) (classes : List Int) (alloc : List Nat),
    C.scores m X = .ok s ∧ C.predict m X = .ok pred ∧
    (∀ (i : Nat) (row : List Rat), s.rows[i]? = some row → IsLargest row (conf i)) ∧
    classes.Pairwise (· < ·) ∧ (∀ c, c ∈ classes ↔ c ∈ y) ∧
    IsApportionment total (classes.map fun c => y.count c) alloc ∧
    sel.Pairwise (· < ·) ∧ (∀ i ∈ sel, ∃ c ∈ classes, pred[i]? = some c) ∧
    ∀ (j : Nat) (c : Int) (k : Nat), classes[j]? = some c → alloc[j]? = some k →
      ∃ idx : List Nat, (∀ i, i ∈ idx ↔ i ∈ sel ∧ pred[i]? = some c) ∧
        IsTopSelection (fun i => i < X.length ∧ pred[i]? = some c ∧ reaches threshold (conf i)) conf (some k) idx

/-- The samples `Xu` are accepted by the test when joined to the training set: `keep` are the positions of
`sel` that are. -/
def Edited {α : Type} (T : EditTest) (dist : List α → Nat → Nat → Rat)
    (Nbr : (Nat → Nat → Rat) → Nat → Nat → Nat → Prop) (X : List α) (y : List Int) (X0 : List α)
    (y0 : List Int) (keep : List Nat) : Prop :=
  keep.Pairwise (· < ·) ∧
  ∀ q, q ∈ keep ↔ q < X0.length ∧ ∃ nbrs : List Nat, nbrs.Nodup ∧
    (∀ j, j ∈ nbrs ↔ Nbr (dist (X ++ X0)) (X.length + X0.length) (X.length + q) j) ∧
    Accepts T (dist (X ++ X0)) (fun j => (y ++ y0).getD j 0) nbrs (frequency y (y0.getD q 0)) (X.length + q)

/-- The smaller of `n` and an optional limit. -/
def upTo (n : Nat) (limit : Option Nat) : Nat :=
  match limit with
  | none => n
  | some k => min n k

/-- What happens to the state in one round of setred before samples are moved: a model `m` fitted on the
training set proposes the positions `sel` of the part `poolIdx` of the pool, with its predicted labels,
and the test accepts the positions `keep` of `sel`. -/
structure SetredLook {M α : Type} (C : Clf M α) (T : EditTest) (dist : List α → Nat → Nat → Rat)
    (Nbr : (Nat → Nat → Rat) → Nat → Nat → Nat → Prop) (poolSize maxNew : Option Nat) (threshold : Option Rat)
    (s : Round α) (poolIdx : List Nat) (pred : List Int) (sel keep : List Nat) : Prop where
  nodup : poolIdx.Nodup
  range : ∀ i ∈ poolIdx, i < s.pool.length
  size : poolIdx.length = upTo s.pool.length poolSize
  propose : ∃ m, FittedOn C s m ∧ Proposes C threshold (upTo poolIdx.length maxNew) s.y m (entriesAt s.pool poolIdx) pred sel
  edit : Edited T dist Nbr s.X s.y (entriesAt (entriesAt s.pool poolIdx) sel) (entriesAt pred sel) keep

/-- One round of setred: the accepted samples, at least `minNew`, move with their predicted labels. -/
def SetredStep {M α : Type} (C : Clf M α) (T : EditTest) (dist : List α → Nat → Nat → Rat)
    (Nbr : (Nat → Nat → Rat) → Nat → Nat → Nat → Prop) (poolSize maxNew : Option Nat) (threshold : Option Rat)
    (minNew : Nat) (s s' : Round α) : Prop :=
  ∃ poolIdx pred sel keep, SetredLook C T dist Nbr poolSize maxNew threshold s poolIdx pred sel keep ∧
    sel ≠ [] ∧ minNew ≤ keep.length ∧
    Moves s s' (entriesAt poolIdx (entriesAt sel keep)) (entriesAt (entriesAt pred sel) keep)

end ModSSC.Inductive.Spec
