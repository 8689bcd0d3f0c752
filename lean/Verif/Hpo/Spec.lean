import Verif.PyVal
import Verif.Assoc

/-!
# Specification vocabulary for search spaces, patches and merged configurations
-/

namespace ModSSC.Hpo.Spec
open ModSSC

/-- The value found by following a path of keys. -/
def getPath : PyVal → List String → Option PyVal
  | v, [] => some v
  | .dict d, k :: ks => match Assoc.get d k with
    | some v => getPath v ks
    | none => none
  | _, _ :: _ => none

/-- A mapping. -/
def IsDict (v : PyVal) : Prop := ∃ d, v = .dict d

mutual
/-- A genuine Python value: no dictionary has a repeated key. -/
def Valid : PyVal → Prop
  | .list l => ValidList l
  | .dict d => (Assoc.keys d).Nodup ∧ ValidDict d
  | _ => True
/-- All items valid. -/
def ValidList : List PyVal → Prop
  | [] => True
  | v :: l => Valid v ∧ ValidList l
/-- All entries valid. -/
def ValidDict : List (String × PyVal) → Prop
  | [] => True
  | (_, v) :: d => Valid v ∧ ValidDict d
end

/-- `LeafAt space p node`: following `p` through mappings that are not distributions one reaches
`node`, which is a list of values or a distribution. -/
inductive LeafAt : PyVal → List String → PyVal → Prop
  | list (vs : List PyVal) : LeafAt (.list vs) [] (.list vs)
  | dist (d : List (String × PyVal)) : "dist" ∈ Assoc.keys d → LeafAt (.dict d) [] (.dict d)
  | child (d : List (String × PyVal)) (k : String) (v : PyVal) (p : List String) (node : PyVal) :
      "dist" ∉ Assoc.keys d → Assoc.get d k = some v → LeafAt v p node →
      LeafAt (.dict d) (k :: p) node

/-- `Options node vs`: the node has the finite list of values `vs` (a list, or a `choice`). -/
inductive Options : PyVal → List PyVal → Prop
  | list (vs : List PyVal) : Options (.list vs) vs
  | choice (d : List (String × PyVal)) (vs : List PyVal) :
      Assoc.get d "dist" = some (.str "choice") → Assoc.get d "values" = some (.list vs) →
      Options (.dict d) vs

/-- The number a value stands for. -/
def num : PyVal → Option Rat
  | .int i => some (i : Rat)
  | .flt q => some q
  | _ => none

/-- `Allowed node v`: `v` may be drawn for `node`. -/
inductive Allowed : PyVal → PyVal → Prop
  | option (node : PyVal) (vs : List PyVal) (v : PyVal) : Options node vs → v ∈ vs → Allowed node v
  | interval (d : List (String × PyVal)) (lo hi : PyVal) (a b q : Rat) :
      (Assoc.get d "dist" = some (.str "uniform") ∨ Assoc.get d "dist" = some (.str "loguniform")) →
      Assoc.get d "low" = some lo → Assoc.get d "high" = some hi → num lo = some a → num hi = some b →
      a ≤ q → q ≤ b → Allowed (.dict d) (.flt q)
  | integer (d : List (String × PyVal)) (lo hi i : Int) :
      Assoc.get d "dist" = some (.str "randint") →
      Assoc.get d "low" = some (.int lo) → Assoc.get d "high" = some (.int hi) →
      lo ≤ i → i < hi → Allowed (.dict d) (.int i)

/-- Neither path continues the other. -/
def Apart (p q : List String) : Prop := ¬ p <+: q ∧ ¬ q <+: p

end ModSSC.Hpo.Spec
