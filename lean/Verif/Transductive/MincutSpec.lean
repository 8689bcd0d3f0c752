import Verif.Transductive.MincutTypes
import Verif.Transductive.PropSpec
import Mathlib.Logic.Relation

/-!
# Specification of graph mincuts
-/

namespace ModSSC.Transductive.Spec
open ModSSC ModSSC.Transductive

/-- There is an arc with positive capacity in the row of `u`. -/
def Arc (rows : Nat → List (Nat × Int)) (u v : Nat) : Prop := ∃ c, (v, c) ∈ rows u ∧ 0 < c

/-- A flow in a network with `N` nodes: antisymmetric, within the capacities, conserved at the inner nodes
(contract of `scipy.sparse.csgraph.maximum_flow`). -/
structure Feasible (N : Nat) (net : Net) (s t : Nat) (f : Flow) : Prop where
  anti : ∀ u v, f u v = - f v u
  cap : ∀ u v, u < N → v < N → f u v ≤ netCap net u v
  conserve : ∀ u, u < N → u ≠ s → u ≠ t → ∑ v ∈ Finset.range N, f u v = 0

/-- The flow value is maximal. -/
def Maximum (N : Nat) (net : Net) (s t : Nat) (f : Flow) : Prop :=
  Feasible N net s t f ∧ ∀ g, Feasible N net s t g → ∑ v ∈ Finset.range N, g s v ≤ ∑ v ∈ Finset.range N, f s v

/-- The integer capacity of an edge: scaled weight rounded half to even, at least `minCap`. -/
def capacity (scale : Rat) (minCap : Int) (w : Rat) : Int := max (pyRound (w * scale)) minCap

/-- Total capacity of the edges that leave `T`. -/
def cutWeight (scale : Rat) (minCap : Int) (es : List (Int × Int × Rat)) (T : Nat → Bool) : Int :=
  ((es.filter fun e => T e.1.toNat && !T e.2.1.toNat).map fun e => capacity scale minCap e.2.2).sum

/-- Node `i` carries label `c` (which may be negative). -/
def Has (y : List Int) (mask : List Bool) (i : Nat) (c : Int) : Prop := mask[i]? = some true ∧ y[i]? = some c

end ModSSC.Transductive.Spec
