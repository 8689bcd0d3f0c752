import Mathlib.Algebra.BigOperators.Group.Finset.Basic

/-!
# Specification of random walks and co-occurrence counts
-/

namespace ModSSC.Graph.Spec
open Finset

/-- A walk of `len` nodes from `start`: each step follows an edge, except that the walk stays where it
is at a node without outgoing edges. -/
def IsWalk (edges : List (Int × Int)) (start : Int) (len : Nat) (walk : List Int) : Prop :=
  walk.length = len ∧ walk[0]? = some start ∧
  ∀ (t : Nat) (a b : Int), walk[t]? = some a → walk[t + 1]? = some b →
    (a, b) ∈ edges ∨ (a = b ∧ ∀ c, (a, c) ∉ edges)

/-- The number of ordered pairs of different positions at distance at most `w` in a walk that hold
the nodes `u` and `v`. -/
def visits (w : Nat) (walk : List Int) (u v : Int) : Nat :=
  ∑ i ∈ range walk.length, ∑ j ∈ range walk.length,
    if i ≠ j ∧ i ≤ j + w ∧ j ≤ i + w ∧ walk[i]? = some u ∧ walk[j]? = some v then 1 else 0

end ModSSC.Graph.Spec
