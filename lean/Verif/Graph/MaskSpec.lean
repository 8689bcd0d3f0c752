/-!
# Specification of node masks
-/

namespace ModSSC.Graph.Spec

/-- A boolean array over the `n` nodes that is true exactly at the nodes satisfying `P`. -/
def IsMask (n : Int) (m : List Bool) (P : Int → Prop) : Prop :=
  (m.length : Int) = n ∧ ∀ i : Nat, (i : Int) < n → (m[i]? = some true ↔ P i)

end ModSSC.Graph.Spec
