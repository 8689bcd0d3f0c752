import Verif.Graph.AnchorProps

/-!
# Anchors that an approximate search did not find (C79)

An approximate faiss index may return fewer anchors than asked for; the missing ones have the index -1.
-/

namespace ModSSC.Graph.Anchor
open ModSSC ModSSC.Graph ModSSC.Graph.Spec

/-- The indices faiss returns as list positions: in `anchor_to_nodes[int(a)]` (`anchor.py:188-192, 208`) the index -1, here `none`, is
the last of the `m` anchors. -/
def positions (m : Nat) (rows : List (List (Option Nat))) : List (List Nat) := rows.map fun r => r.map fun a => a.getD (m - 1)

theorem positions_getD (m : Nat) (rows : List (List (Option Nat))) (i : Nat) :
    (positions m rows).getD i [] = (rows.getD i []).map fun a => a.getD (m - 1) := by
  unfold positions
  simp only [List.getD_eq_getElem?_getD, List.getElem?_map]
  cases rows[i]? <;> rfl

theorem positions_lt (m : Nat) (hm : 0 < m) (rows : List (List (Option Nat))) (h : ∀ r ∈ rows, ∀ a, some a ∈ r → a < m) :
    ∀ i, ∀ a ∈ (positions m rows).getD i [], a < m := by
  intro i a ha
  rw [positions_getD, List.mem_map] at ha
  obtain ⟨o, ho, rfl⟩ := ha
  cases o with
  | none => simp only [Option.getD_none]; omega
  | some a =>
    simp only [Option.getD_some]
    by_cases hi : i < rows.length
    · rw [List.getD_eq_getElem _ _ hi] at ho
      exact h _ (List.getElem_mem hi) a ho
    · rw [List.getD_eq_default _ _ (not_lt.mp hi)] at ho
      cases ho

/-- **C79 (anchors found by faiss, partial).**  If the index finds all anchors asked for, the candidates of a node are the nodes with which
it shares a found anchor.  An approximate index need not (`C79_missing_violated`). -/
theorem C79_found_partial (m : Nat) (hm : 0 < m) (rows : List (List (Option Nat))) (h : ∀ r ∈ rows, ∀ a, some a ∈ r → a < m)
    (hall : ∀ r ∈ rows, none ∉ r) (self : Bool) (i j : Nat) (hij : self = true ∨ j ≠ i) :
    j ∈ candidates (positions m rows) (anchorToNodes m (positions m rows)) self i ↔
      j < rows.length ∧ ∃ a, some a ∈ rows.getD i [] ∧ some a ∈ rows.getD j [] := by
  rw [mem_candidates m _ (positions_lt m hm rows h)]
  have hlen : (positions m rows).length = rows.length := by simp [positions]
  have hmem : ∀ k a, a ∈ (positions m rows).getD k [] ↔ some a ∈ rows.getD k [] := by
    intro k a
    rw [positions_getD, List.mem_map]
    constructor
    · rintro ⟨o, ho, rfl⟩
      cases o with
      | some a => exact ho
      | none =>
        by_cases hk : k < rows.length
        · rw [List.getD_eq_getElem _ _ hk] at ho
          exact absurd ho (hall _ (List.getElem_mem hk))
        · rw [List.getD_eq_default _ _ (not_lt.mp hk)] at ho
          cases ho
    · intro ha
      exact ⟨some a, ha, rfl⟩
  unfold Shares
  simp only [hlen, hmem]
  tauto

/-- **C79 violated (missing anchors).**  A node for which an anchor was not found becomes a candidate of every other such node, and of
every node of the last anchor, although no search found them to share an anchor. -/
theorem C79_missing_violated (m : Nat) (hm : 0 < m) (rows : List (List (Option Nat))) (h : ∀ r ∈ rows, ∀ a, some a ∈ r → a < m)
    (self : Bool) (i j : Nat) (hj : j < rows.length) (hij : self = true ∨ j ≠ i) (hmi : none ∈ rows.getD i [])
    (hmj : none ∈ rows.getD j [] ∨ some (m - 1) ∈ rows.getD j []) :
    j ∈ candidates (positions m rows) (anchorToNodes m (positions m rows)) self i := by
  rw [mem_candidates m _ (positions_lt m hm rows h)]
  have hlen : (positions m rows).length = rows.length := by simp [positions]
  have h1 : m - 1 ∈ (positions m rows).getD i [] := by
    rw [positions_getD, List.mem_map]
    exact ⟨none, hmi, rfl⟩
  have h2 : m - 1 ∈ (positions m rows).getD j [] := by
    rw [positions_getD, List.mem_map]
    rcases hmj with h | h
    · exact ⟨none, h, rfl⟩
    · exact ⟨some (m - 1), h, rfl⟩
  unfold Shares
  rw [hlen]
  exact ⟨by tauto, by tauto, m - 1, h1, h2⟩

example : candidates (positions 3 [[some 0, none], [some 1, none], [some 2, some 1]])
    (anchorToNodes 3 (positions 3 [[some 0, none], [some 1, none], [some 2, some 1]])) false 0 = [1, 2] := by decide +kernel

end ModSSC.Graph.Anchor
