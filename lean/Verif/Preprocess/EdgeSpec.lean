import Verif.Preprocess.EdgeModel

/-!
# Specification of the edge steps
-/

namespace ModSSC.Preprocess.Edges.Spec
open ModSSC ModSSC.Preprocess.Edges

/-- What numpy promises: `E` numbers in `[0, 1)`, and a number below `E`. -/
structure Lawful (D : Draws) : Prop where
  length : ∀ E, (D.uniform E).length = E
  range : ∀ E, ∀ u ∈ D.uniform E, 0 ≤ u ∧ u < 1
  pick : ∀ E, 0 < E → D.pick E < E

/-- A list of edges as an edge index with two rows: sources and targets. -/
def rows (edges : List (Int × Int)) : List (List Int) := [edges.map (·.1), edges.map (·.2)]

/-- A list of edges as an array with one edge per row. -/
def pairs (edges : List (Int × Int)) : List (List Int) := edges.map fun e => [e.1, e.2]

/-- The elements at the given positions. -/
def atPos {α : Type} (l : List α) (idx : List Nat) : List α := idx.filterMap fun i => l[i]?

/-- The positions that are kept: those whose draw is below the fraction, in order; if there is none, the one picked. -/
def IsKept (D : Draws) (frac : Rat) (E : Nat) (idx : List Nat) : Prop :=
  idx.Pairwise (· < ·) ∧
    (((∃ i < E, (D.uniform E).getD i 1 < frac) ∧ ∀ i, i ∈ idx ↔ i < E ∧ (D.uniform E).getD i 1 < frac) ∨
      ((∀ i < E, ¬ (D.uniform E).getD i 1 < frac) ∧ ∀ i, i ∈ idx ↔ i < E ∧ i = D.pick E))

/-- With every edge the graph has the reverse one. -/
def Symmetric (edges : List (Int × Int)) : Prop := ∀ e ∈ edges, (e.2, e.1) ∈ edges

end ModSSC.Preprocess.Edges.Spec
