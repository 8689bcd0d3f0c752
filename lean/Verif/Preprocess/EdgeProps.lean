import Verif.Preprocess.EdgeSpec
import Mathlib.Data.List.Range
import Mathlib.Data.List.GetD

/-!
# Edge sparsification keeps edges and weights together (C71)
-/

namespace ModSSC.Preprocess.Edges
open ModSSC ModSSC.Preprocess.Edges.Spec

/-- The positions set in a mask. -/
def setPos (take : List Bool) : List Nat := (List.range take.length).filter fun i => take.getD i false

theorem pickMask_eq {α : Type} (take : List Bool) (l : List α) (h : take.length = l.length) :
    pickMask take l = atPos l (setPos take) := by
  induction take generalizing l with
  | nil => cases l <;> simp_all [pickMask, atPos, setPos]
  | cons b take ih =>
    cases l with
    | nil => simp at h
    | cons a l =>
      have h' : take.length = l.length := by simpa using h
      have ih := ih l h'
      unfold pickMask at ih ⊢
      unfold atPos setPos at ih ⊢
      rw [List.zip_cons_cons, List.filterMap_cons, List.length_cons, List.range_succ_eq_map, List.filter_cons, ih]
      have e : ((List.range take.length).map Nat.succ).filter (fun i => (b :: take).getD i false) =
          ((List.range take.length).filter fun i => take.getD i false).map Nat.succ := by
        rw [List.filter_map]; congr 1
      rw [e]
      cases b
      · simp [List.filterMap_map, Function.comp_def]
      · simp [List.filterMap_map, Function.comp_def]

theorem takeMask_length (D : Draws) (hD : Lawful D) (frac : Rat) (E : Nat) : (takeMask D frac E).length = E := by
  unfold takeMask
  simp only
  split_ifs <;> simp [hD.length]

theorem takeMask_kept (D : Draws) (hD : Lawful D) (frac : Rat) (E : Nat) : IsKept D frac E (setPos (takeMask D frac E)) := by
  have hl := takeMask_length D hD frac E
  have hu := hD.length E
  refine ⟨(List.pairwise_lt_range).filter _, ?_⟩
  have base : ∀ i < E, ((D.uniform E).map fun u => decide (u < frac)).getD i false =
      decide ((D.uniform E).getD i 1 < frac) := by
    intro i hi
    rw [List.getD_eq_getElem _ _ (by simpa [hu] using hi), List.getD_eq_getElem _ _ (by omega), List.getElem_map]
  by_cases hex : ∃ i < E, (D.uniform E).getD i 1 < frac
  · refine .inl ⟨hex, fun i => ?_⟩
    have hm : takeMask D frac E = (D.uniform E).map fun u => decide (u < frac) := by
      unfold takeMask
      simp only
      refine if_neg ?_
      rintro ⟨h, -⟩
      obtain ⟨i, hi, hlt⟩ := hex
      rw [List.all_eq_true] at h
      have hi2 : i < ((D.uniform E).map (fun u => decide (u < frac))).length := by simpa [hu] using hi
      have := h _ (List.getElem_mem hi2)
      rw [← List.getD_eq_getElem _ false, base i hi] at this
      rw [decide_eq_true hlt] at this
      simp at this
    rw [hm] at hl ⊢
    simp only [setPos, List.mem_filter, List.mem_range, hl]
    constructor
    · rintro ⟨hi, h⟩
      rw [base i hi] at h
      exact ⟨hi, by simpa using h⟩
    · rintro ⟨hi, h⟩
      refine ⟨hi, ?_⟩
      rw [base i hi]
      simpa using h
  · push Not at hex
    refine .inr ⟨fun i hi => not_lt.mpr (hex i hi), fun i => ?_⟩
    have hall : ((D.uniform E).map fun u => decide (u < frac)).all (fun b => !b) = true := by
      rw [List.all_eq_true]
      intro b hb
      obtain ⟨j, hj, rfl⟩ := List.getElem_of_mem hb
      have hj' : j < E := by simpa [hu] using hj
      rw [← List.getD_eq_getElem _ false, base j hj']
      simpa using hex j hj'
    by_cases hE : 0 < E
    · have hm : takeMask D frac E = ((D.uniform E).map fun u => decide (u < frac)).set (D.pick E) true := by
        unfold takeMask
        simp only
        rw [if_pos ⟨hall, hE⟩]
      rw [hm] at hl ⊢
      have hp := hD.pick E hE
      simp only [setPos, List.mem_filter, List.mem_range, hl]
      constructor
      · rintro ⟨hi, h⟩
        refine ⟨hi, ?_⟩
        by_contra hne
        rw [List.getD_eq_getElem _ _ (by omega), List.getElem_set_ne (fun h => hne h.symm), ← List.getD_eq_getElem _ false,
          base i hi] at h
        have := hex i hi
        simp only [decide_eq_true_eq] at h
        exact absurd h (not_lt.mpr this)
      · rintro ⟨hi, rfl⟩
        refine ⟨hi, ?_⟩
        rw [List.getD_eq_getElem _ _ (by omega), List.getElem_set_self]
    · have : E = 0 := by omega
      subst this
      simp [setPos, hl]

theorem atPos_map {α β : Type} (f : α → β) (l : List α) (idx : List Nat) : atPos (l.map f) idx = (atPos l idx).map f := by
  unfold atPos
  rw [List.map_filterMap]
  apply List.filterMap_congr
  intro i _
  simp

/-- **C71.**  For an edge index with two rows, sparsification keeps the edges at the positions whose draw is below the
fraction (one picked edge if there is none), in order, and the weights at the same positions. -/
theorem C71_sparsify (D : Draws) (hD : Lawful D) (frac : Rat) (h0 : 0 < frac) (h1 : frac ≤ 1) (edges : List (Int × Int))
    (weight : Option (List Rat)) (hw : ∀ w, weight = some w → w.length = edges.length) :
    ∃ idx, IsKept D frac edges.length idx ∧
      edgeSparsify D frac (rows edges) weight = .ok (rows (atPos edges idx), weight.map (atPos · idx)) := by
  refine ⟨_, takeMask_kept D hD frac edges.length, ?_⟩
  have hE : numEdges (rows edges) = edges.length := by simp [numEdges, rows]
  have hl := takeMask_length D hD frac edges.length
  unfold edgeSparsify
  rw [if_neg (not_not.mpr ⟨h0, h1⟩)]
  simp only [hE]
  have e : (rows edges).map (pickMask (takeMask D frac edges.length)) =
      rows (atPos edges (setPos (takeMask D frac edges.length))) := by
    simp only [rows, List.map_cons, List.map_nil]
    rw [pickMask_eq _ _ (by simp [hl]), pickMask_eq _ _ (by simp [hl]), atPos_map, atPos_map]
  rw [if_pos (show (rows edges).length = 2 from rfl), e]
  cases weight with
  | none => rfl
  | some w =>
    have := hw w rfl
    simp only
    rw [if_pos (by omega), pickMask_eq _ _ (by omega)]
    rfl

/-- **C71.**  The same for an array with one edge per row, unless it has exactly two rows. -/
theorem C71_sparsify_pairs_partial (D : Draws) (hD : Lawful D) (frac : Rat) (h0 : 0 < frac) (h1 : frac ≤ 1) (edges : List (Int × Int))
    (h2 : edges.length ≠ 2) (weight : Option (List Rat)) (hw : ∀ w, weight = some w → w.length = edges.length) :
    ∃ idx, IsKept D frac edges.length idx ∧
      edgeSparsify D frac (pairs edges) weight = .ok (pairs (atPos edges idx), weight.map (atPos · idx)) := by
  refine ⟨_, takeMask_kept D hD frac edges.length, ?_⟩
  have hlen : (pairs edges).length = edges.length := by simp [pairs]
  have hE : numEdges (pairs edges) = edges.length := by unfold numEdges; rw [if_neg (by omega), hlen]
  have hl := takeMask_length D hD frac edges.length
  unfold edgeSparsify
  rw [if_neg (not_not.mpr ⟨h0, h1⟩)]
  simp only [hE]
  have e : pickMask (takeMask D frac edges.length) (pairs edges) =
      pairs (atPos edges (setPos (takeMask D frac edges.length))) := by
    rw [pickMask_eq _ _ (by simp [hl, hlen])]
    exact atPos_map _ _ _
  rw [if_neg (by omega), e]
  cases weight with
  | none => rfl
  | some w =>
    have := hw w rfl
    simp only
    rw [if_pos (by omega), pickMask_eq _ _ (by omega)]
    rfl

/-- **C71.**  What is kept: only edges of the graph; all of them for fraction 1; at least one if there is one. -/
theorem C71_kept (D : Draws) (hD : Lawful D) (frac : Rat) (edges : List (Int × Int)) (idx : List Nat)
    (h : IsKept D frac edges.length idx) :
    (∀ e ∈ atPos edges idx, e ∈ edges) ∧ (atPos edges idx).length = idx.length ∧ (edges ≠ [] → atPos edges idx ≠ []) ∧
      (frac = 1 → atPos edges idx = edges) := by
  obtain ⟨hs, h⟩ := h
  have hlt : ∀ i ∈ idx, i < edges.length := by
    intro i hi
    rcases h with ⟨-, h⟩ | ⟨-, h⟩ <;> exact ((h i).mp hi).1
  have hlen : (atPos edges idx).length = idx.length := by
    have : ∀ l : List Nat, (∀ i ∈ l, i < edges.length) → (atPos edges l).length = l.length := by
      intro l
      induction l with
      | nil => intro _; rfl
      | cons a l ih =>
        intro hl
        have ha := hl a (by simp)
        unfold atPos at ih ⊢
        rw [List.filterMap_cons, List.getElem?_eq_getElem ha]
        simp only [List.length_cons]
        rw [ih fun i hi => hl i (by simp [hi])]
    exact this idx hlt
  refine ⟨?_, hlen, ?_, ?_⟩
  · intro e he
    simp only [atPos, List.mem_filterMap] at he
    obtain ⟨i, -, hi⟩ := he
    exact List.mem_of_getElem? hi
  · intro hne h0
    have hE : 0 < edges.length := List.length_pos_iff.mpr hne
    have hidx : idx = [] := by
      rw [h0] at hlen
      exact List.length_eq_zero_iff.mp hlen.symm
    subst hidx
    rcases h with ⟨⟨i, hi, hf⟩, h⟩ | ⟨-, h⟩
    · simpa using (h i).mpr ⟨hi, hf⟩
    · simpa using (h (D.pick edges.length)).mpr ⟨hD.pick _ hE, rfl⟩
  · rintro rfl
    have hall : ∀ i, i ∈ idx ↔ i < edges.length := by
      intro i
      refine ⟨hlt i, fun hi => ?_⟩
      have hu : (D.uniform edges.length).getD i 1 < 1 := by
        rw [List.getD_eq_getElem _ _ (by rw [hD.length]; exact hi)]
        exact (hD.range _ _ (List.getElem_mem _)).2
      rcases h with ⟨-, h⟩ | ⟨hn, -⟩
      · exact (h i).mpr ⟨hi, hu⟩
      · exact absurd hu (hn i hi)
    have : idx = List.range edges.length := by
      apply List.Perm.eq_of_pairwise (le := (· < ·)) _ hs List.pairwise_lt_range
      · rw [List.perm_ext_iff_of_nodup (hs.imp fun h => Nat.ne_of_lt h) List.nodup_range]
        intro i; rw [hall, List.mem_range]
      · intro a b _ _ h1 h2; omega
    rw [this]
    unfold atPos
    apply List.ext_getElem?
    intro i
    by_cases hi : i < edges.length
    · have : ∀ n ≤ edges.length, (List.range n).filterMap (fun i => edges[i]?) = edges.take n := by
        intro n
        induction n with
        | zero => intro _; rfl
        | succ n ih =>
          intro hn
          rw [List.range_succ, List.filterMap_append, ih (by omega), List.filterMap_cons, List.getElem?_eq_getElem (show n < edges.length by omega),
            List.filterMap_nil, List.take_succ_eq_append_getElem (by omega)]
      rw [this _ (Nat.le_refl _), List.take_length]
    · have h3 := List.length_filterMap_le (fun i => edges[i]?) (List.range edges.length)
      rw [List.length_range] at h3
      rw [List.getElem?_eq_none (l := edges) (by omega), List.getElem?_eq_none (by omega)]

/-- **C71.**  It succeeds exactly for fractions in `(0, 1]` and weights that fit the edges. -/
theorem C71_accepts (D : Draws) (hD : Lawful D) (frac : Rat) (edges : List (Int × Int)) (weight : Option (List Rat)) :
    (∃ r, edgeSparsify D frac (rows edges) weight = .ok r) ↔
      0 < frac ∧ frac ≤ 1 ∧ ∀ w, weight = some w → w.length = edges.length := by
  constructor
  · rintro ⟨r, h⟩
    unfold edgeSparsify at h
    by_cases hf : ¬ (0 < frac ∧ frac ≤ 1)
    · rw [if_pos hf] at h; simp at h
    rw [if_neg hf] at h
    refine ⟨(not_not.mp hf).1, (not_not.mp hf).2, ?_⟩
    rintro w rfl
    have hE : numEdges (rows edges) = edges.length := by simp [numEdges, rows]
    simp only [hE, takeMask_length D hD] at h
    by_contra hne
    rw [if_neg hne] at h
    simp at h
  · rintro ⟨h0, h1, hw⟩
    obtain ⟨idx, -, h⟩ := C71_sparsify D hD frac h0 h1 edges weight hw
    exact ⟨_, h⟩

/-- **C71.**  Attached weights are one per edge and equal; existing weights are kept. -/
theorem C71_attach (c : Rat) (edges : List (Int × Int)) (w : List Rat) :
    attachEdgeWeight c (rows edges) none = List.replicate edges.length c ∧ attachEdgeWeight c (rows edges) (some w) = w := by
  refine ⟨?_, rfl⟩
  simp [attachEdgeWeight, numEdges, rows]

/-- Draws for the witnesses: `0, 1/2, 0, 1/2, …`. -/
def demoDraws : Draws := ⟨fun E => (List.range E).map fun i => if i % 2 = 0 then 0 else 1 / 2, fun _ => 0⟩

theorem demoDraws_lawful : Lawful demoDraws where
  length := by intro E; simp [demoDraws]
  range := by
    intro E u hu
    simp only [demoDraws, List.mem_map] at hu
    obtain ⟨i, -, rfl⟩ := hu
    split_ifs <;> decide +kernel
  pick := fun E h => h

/-- **C71 (violated).**  "An undirected graph stays undirected": the two directions of an edge are kept independently. -/
theorem C71_symmetric_violated :
    ∃ (D : Draws) (edges kept : List (Int × Int)), Lawful D ∧ Symmetric edges ∧
      edgeSparsify D (1 / 4) (rows edges) none = .ok (rows kept, none) ∧ ¬ Symmetric kept := by
  refine ⟨demoDraws, [(0, 1), (1, 0)], [(0, 1)], demoDraws_lawful, ?_, by decide +kernel, ?_⟩
  · intro e he; simp at he; rcases he with rfl | rfl <;> decide
  · intro h; have := h (0, 1) (by simp); simp at this

/-- **C71 (violated).**  "Arrays with one edge per row are accepted": two edges `(0, 1)` and `(2, 3)` are read as the edges
`(0, 2)` and `(1, 3)`; keeping the first one gives `(0, 2)`, which is no edge. -/
theorem C71_pairs_violated :
    ∃ D : Draws, Lawful D ∧ edgeSparsify D (1 / 4) (pairs [(0, 1), (2, 3)]) none = .ok ([[0], [2]], none) :=
  ⟨demoDraws, demoDraws_lawful, by decide +kernel⟩

example : edgeSparsify demoDraws (1 / 4) (rows [(0, 1), (1, 2), (2, 0)]) (some [5, 6, 7]) = .ok ([[0, 2], [1, 0]], some [5, 7]) := by
  decide +kernel

end ModSSC.Preprocess.Edges
