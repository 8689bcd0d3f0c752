import Verif.Transductive.Types
import Verif.Labels.Model

/-!
# Node datasets
-/

namespace ModSSC.Transductive
open ModSSC

/-- A one-dimensional label array: integers or floats, or (only its length matters) another dtype. -/
inductive YArr where
  | labels (a : Labels.LabelArr)
  | other (len : Nat)

/-- Number of entries. -/
def YArr.length : YArr → Nat
  | .labels (.ints l) => l.length
  | .labels (.floats l) => l.length
  | .other n => n

/-- What a node dataset provides (`base.py:20-28` `NodeDatasetLike`).  `y` is one-dimensional and
`edge_index` is a list of columns by construction; `edgeIndex = none` stands for a missing graph or a missing
`edge_index`. -/
structure NodeData (K : Type) where
  xShape : List Nat
  y : YArr
  edgeIndex : Option (List (Int × Int))
  edgeWeight : Option (List K)
  masks : List (String × List Bool)

end ModSSC.Transductive
