import Mathlib.Algebra.BigOperators.Group.Finset.Basic
import Mathlib.Algebra.Field.Basic

/-!
# Specification for C143: distances in a graph
-/

namespace ModSSC.Gnn.Spec

/-- There is a walk of `k` steps from `i` to `u` along the relation `adj`. -/
inductive Walk (adj : Nat → Nat → Prop) (i : Nat) : Nat → Nat → Prop where
  | here : Walk adj i 0 i
  | step {k u v : Nat} : Walk adj i k u → adj u v → Walk adj i (k + 1) v

/-- `u` is at distance exactly `k` from `i`. -/
def AtDist (adj : Nat → Nat → Prop) (i k u : Nat) : Prop := Walk adj i k u ∧ ∀ j < k, ¬ Walk adj i j u

/-- Two nodes are joined by an edge of the list (in either direction when `symmetrize`), no self-loop. -/
def Joined (n : Nat) (symmetrize : Bool) (es : List (Int × Int)) (i j : Nat) : Prop :=
  i < n ∧ j < n ∧ i ≠ j ∧ (((i : Int), (j : Int)) ∈ es ∨ (symmetrize = true ∧ ((j : Int), (i : Int)) ∈ es))

end ModSSC.Gnn.Spec
