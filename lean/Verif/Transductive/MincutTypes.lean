import Verif.Base
import Mathlib.Algebra.BigOperators.Group.Finset.Basic

/-!
# Flow networks
-/

namespace ModSSC.Transductive

/-- Entries `(row, column, capacity)` of a sparse capacity matrix; entries at the same place add up. -/
abbrev Net := List (Nat × Nat × Int)

/-- Capacity from `u` to `v`. -/
def netCap (net : Net) (u v : Nat) : Int :=
  ((net.filter fun e => decide (e.1 = u ∧ e.2.1 = v)).map (·.2.2)).sum

/-- A signed flow: `f u v` units go from `u` to `v`. -/
abbrev Flow := Nat → Nat → Int

/-- The external solver: node count, capacities, source and sink to a flow, or nothing if it raises. -/
abbrev Solver := Nat → Net → Nat → Nat → Option Flow

end ModSSC.Transductive
