import Verif.Graph.KnnSpec

/-!
# Specification of anchor graphs
-/

namespace ModSSC.Graph.Spec

/-- `near i` are `r` nearest anchors of node `i`, where `D i a d` says that node `i` and anchor `a` have distance `d`. -/
def AreNearestAnchors {K : Type} [Field K] [LinearOrder K] (D : Nat → Nat → K → Prop) (n m r : Nat)
    (near : Nat → List Nat) : Prop :=
  ∀ i, i < n → ∃ ds, (near i).length = ds.length ∧ IsNearest (D i) (· < m) r ((near i).zip ds)

/-- Node `j` is reachable from node `i`: it is one of the `n` nodes, both share one of their anchors, and it is another node
unless a node may be its own neighbour. -/
def Shares (near : Nat → List Nat) (n : Nat) (self : Bool) (i j : Nat) : Prop :=
  j < n ∧ (self = true ∨ j ≠ i) ∧ ∃ a, a ∈ near i ∧ a ∈ near j

/-- `pool` is what is left of the candidates `C` when at most `limit` are looked at: all of them if they are not too many,
else exactly `limit` of them. -/
structure IsPool (C : Nat → Prop) (limit : Nat) (pool : List Nat) : Prop where
  distinct : pool.Nodup
  sound : ∀ j ∈ pool, C j
  size : pool.length ≤ limit
  full : pool.length < limit → ∀ j, C j → j ∈ pool

end ModSSC.Graph.Spec
