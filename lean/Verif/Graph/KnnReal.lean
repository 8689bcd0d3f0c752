import Verif.Graph.KnnProps
import Mathlib.Analysis.Real.Sqrt

/-!
# The neighbour theorems apply to real coordinates
-/

namespace ModSSC.Graph

/-- The contract of C42 is met by the real numbers with a stable sort. -/
theorem realExt_lawful : (stableExt Real.sqrt).Lawful :=
  stableExt_lawful (fun x h => ⟨Real.sqrt_nonneg x, Real.mul_self_sqrt h⟩)

/-- `C42_knn` on three points of the plane. -/
example : ∃ E, (knnEdges (stableExt Real.sqrt) (1/1000) [[0, 0], [1, 1], [2, 1]] 1 .euclidean false 2
      none false).map (·.2) = .ok E ∧
    (nbrs E 0).length = 1 := by
  obtain ⟨E, h, -, h3⟩ := C42_knn realExt_lawful (1/1000) (X := [[0, 0], [1, 1], [2, 1]]) (dim := 2)
    (by simp) 1 .euclidean false (c := 2) (by omega)
  exact ⟨E, h, (h3 0 (by simp)).length⟩

end ModSSC.Graph
