import Verif.Deep.GraphModel
import Verif.Deep.BatchSpec

/-!
# Specification of slicing, concatenation and prediction
-/

namespace ModSSC.Deep.Spec
open ModSSC ModSSC.Deep

/-- `es'` is the subgraph induced by the nodes `idx`: translated back it is exactly the list of the edges with both
ends among them. -/
structure InducedEdges (idx : List Nat) (es es' : List (Nat × Nat)) : Prop where
  range : ∀ e ∈ es', e.1 < idx.length ∧ e.2 < idx.length
  back : es'.map (fun e => (idx.getD e.1 0, idx.getD e.2 0)) = es.filter fun e => e.1 ∈ idx ∧ e.2 ∈ idx

/-- A graph dict whose weights, if any, are one per edge. -/
def Aligned {α β : Type} (g : GDict α β) : Prop :=
  ∀ es w, g.edges = some es → g.weight = some w → w.length = es.length

/-- Edges with their weights. -/
def weightedEdges {α β : Type} (g : GDict α β) : List ((Nat × Nat) × β) := (g.edges.getD []).zip (g.weight.getD [])

/-- Number of nodes in the blocks before block `k`. -/
def offset {α β : Type} (gs : List (GDict α β)) (k : Nat) : Nat := ((gs.take k).map fun g => g.x.length).sum

end ModSSC.Deep.Spec
