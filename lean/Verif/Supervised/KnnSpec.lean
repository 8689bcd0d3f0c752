import Verif.Graph.KnnSpec

/-!
# Specification of nearest-neighbour classification


-/

namespace ModSSC.Supervised.Spec
open ModSSC Graph.Spec

variable {K : Type} [Field K] [LinearOrder K]

/-- Contract of `np.argpartition(a, kth)`: a permutation of the positions, the first `kth + 1` of which hold the
smallest entries. -/
def IsArgpartition (part : List K → Nat → List Nat) : Prop :=
  ∀ a kth, kth < a.length → (part a kth).Perm (List.range a.length) ∧
    ∀ i ∈ (part a kth).take (kth + 1), ∀ j ∈ (part a kth).drop (kth + 1), a.getD i 0 ≤ a.getD j 0

/-- The distance: squared Euclidean distance, or one minus the cosine of the angle (lengths enlarged by `eps`). -/
def distance (sqrt : K → K) (eps : K) (metric : String) (q x : List K) : K :=
  if metric = "euclidean" then sqDist q x
  else 1 - inner q x / ((sqrt (inner q q) + eps) * (sqrt (inner x x) + eps))

/-- `S` lists `k` of the `n` training rows, none of them farther away than a row left out. -/
structure Nearest (D : Nat → K) (n k : Nat) (S : List Nat) : Prop where
  nodup : S.Nodup
  length : S.length = k
  range : ∀ i ∈ S, i < n
  closest : ∀ i ∈ S, ∀ j, j < n → j ∉ S → D i ≤ D j

/-- The vote of a neighbour at distance `d`. -/
def weight (weights : String) (eps d : K) : K := if weights = "uniform" then 1 else 1 / (max d 0 + eps)

/-- Share of the votes of the neighbours `S` that go to the label `c`. -/
def share {α : Type} [DecidableEq α] (w : Nat → K) (y : List α) (S : List Nat) (c : α) : K :=
  ((S.filter fun i => decide (y[i]? = some c)).map w).sum / (S.map w).sum

/-- The classes: the labels that occur, in increasing order. -/
def IsClasses {α : Type} [LinearOrder α] (y classes : List α) : Prop :=
  classes.Pairwise (· < ·) ∧ ∀ c, c ∈ classes ↔ c ∈ y

/-- `c` is the first position of the largest entry. -/
def FirstMax (row : List K) (c : Nat) : Prop :=
  ∃ m, row[c]? = some m ∧ (∀ (j : Nat) x, row[j]? = some x → x ≤ m) ∧ ∀ (j : Nat) x, row[j]? = some x → j < c → x < m

end ModSSC.Supervised.Spec
