import Verif.Transductive.PropSpec
import Verif.Transductive.FitTypes
import Verif.Assoc

/-!
# Specification of what the propagation methods accept
-/

namespace ModSSC.Transductive.Spec
open ModSSC

/-- The non-negative labels are exactly `0, …, m-1`. -/
def ClassesUpTo (ids : List Int) (m : Nat) : Prop := ∀ c : Int, 0 ≤ c → (c ∈ ids ↔ c < (m : Int))

/-- Every edge joins two of the `n` nodes. -/
def InRange (n : Nat) (ei : List (Int × Int)) : Prop :=
  ∀ e ∈ ei, 0 ≤ e.1 ∧ e.1 < (n : Int) ∧ 0 ≤ e.2 ∧ e.2 < (n : Int)

/-- Class `c` occurs at a labeled node. -/
def ClassLabeled (ids : List Int) (mask : List Bool) (c : Nat) : Prop := ∃ i, Labeled ids mask i c

/-- The integers a label array stands for, if it stands for any. -/
def StandsFor : YArr → List Int → Prop
  | .labels (.ints l), ids => l = ids
  | .labels (.floats l), ids => l = ids.map fun (c : Int) => some (c : Rat)
  | .other _, _ => False

/-- A dataset that meets the documented requirements: a two-dimensional `X` with one row per label, integer
labels contiguous from 0 (negative ones mean "no label"), a graph on the nodes, one mask entry per node. -/
structure Valid {K : Type} (d : NodeData K) (ids : List Int) (ei : List (Int × Int)) : Prop where
  x : ∃ w, d.xShape = [ids.length, w]
  y : StandsFor d.y ids
  classes : ∃ m, ClassesUpTo ids m
  graph : d.edgeIndex = some ei
  edges : InRange ids.length ei
  masks : ∀ k ∈ ["train_mask", "val_mask", "test_mask", "unlabeled_mask"], ∀ m,
    Assoc.get d.masks k = some m → m.length = ids.length

end ModSSC.Transductive.Spec
