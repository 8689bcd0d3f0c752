import Verif.Base

/-!
# Edge steps of the preprocessing pipeline

`src/modssc/preprocess/steps/graph/edge_sparsify.py`, `attach_edge_weight.py`.  A two-dimensional array is the list of its
rows (with at least one row; all rows have the same length).  The generator is used twice: `rng.random(E)` and, if nothing
was kept, `rng.integers(0, E)`.
-/

namespace ModSSC.Preprocess.Edges
open ModSSC

/-- The two uses of the generator: `rng.random(E)` and `rng.integers(0, E)` after it. -/
structure Draws where
  uniform : Nat → List Rat
  pick : Nat → Nat

/-- `a[:, take]` for one row and `w[take]`: the entries where the mask is set. -/
def pickMask {α : Type} (take : List Bool) (l : List α) : List α :=
  (take.zip l).filterMap fun r => if r.1 then some r.2 else none

/-- Number of edges `E`, edge_sparsify.py l.29 and l.35, attach_edge_weight.py l.23. -/
def numEdges (ei : List (List Int)) : Nat := if ei.length = 2 then (ei.headD []).length else ei.length

/-- The mask `take`, edge_sparsify.py l.30-32 and l.36-38. -/
def takeMask (D : Draws) (frac : Rat) (E : Nat) : List Bool :=
  let take := (D.uniform E).map fun u => decide (u < frac)
  if take.all (fun b => !b) ∧ 0 < E then take.set (D.pick E) true else take

/-- `EdgeSparsifyStep.transform`, edge_sparsify.py l.17-45.  A mask of the wrong length cannot index the weights. -/
def edgeSparsify (D : Draws) (frac : Rat) (ei : List (List Int)) (weight : Option (List Rat)) :
    Except PyErr (List (List Int) × Option (List Rat)) :=
  if ¬ (0 < frac ∧ frac ≤ 1) then .error .validation
  else
    let take := takeMask D frac (numEdges ei)
    let out := if ei.length = 2 then ei.map (pickMask take) else pickMask take ei
    match weight with
    | none => .ok (out, none)
    | some w => if w.length = take.length then .ok (out, some (pickMask take w)) else .error .indexError

/-- `AttachEdgeWeightStep.transform`, attach_edge_weight.py l.16-25. -/
def attachEdgeWeight (weight : Rat) (ei : List (List Int)) (existing : Option (List Rat)) : List Rat :=
  match existing with
  | some w => w
  | none => List.replicate (numEdges ei) weight

end ModSSC.Preprocess.Edges
