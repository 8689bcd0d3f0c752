import Verif.Graph.MaskModel
import Verif.Graph.MaskSpec

/-!
# C46: node masks
-/

namespace ModSSC.Graph
open ModSSC Spec

theorem outside_iff (n : Int) (idx : List Int) : outside n idx = false ↔ ∀ i ∈ idx, 0 ≤ i ∧ i < n := by
  simp [outside]

theorem maskFold_length (idx : List Int) (m : List Bool) :
    (idx.foldl (fun m i => m.set i.toNat true) m).length = m.length := by
  induction idx generalizing m with
  | nil => rfl
  | cons a idx ih => rw [List.foldl_cons, ih, List.length_set]

theorem maskFold_get (idx : List Int) (h0 : ∀ i ∈ idx, 0 ≤ i) (m : List Bool) (j : Nat) (hj : j < m.length) :
    (idx.foldl (fun m i => m.set i.toNat true) m)[j]? = some true ↔ m[j]? = some true ∨ (j : Int) ∈ idx := by
  induction idx generalizing m with
  | nil => simp
  | cons a idx ih =>
    rw [List.foldl_cons, ih (fun i hi => h0 i (List.mem_cons_of_mem _ hi)) _ (by simpa using hj)]
    have ha := h0 a (List.mem_cons_self ..)
    by_cases haj : a.toNat = j
    · subst haj
      have : ((a.toNat : Nat) : Int) = a := Int.toNat_of_nonneg ha
      simp [List.getElem?_set, hj, this]
    · have : (j : Int) ≠ a := by omega
      simp [List.getElem?_set, haj, this]

theorem maskAt_isMask {n : Int} (hn : 0 ≤ n) {idx : List Int} (h : ∀ i ∈ idx, 0 ≤ i ∧ i < n) :
    IsMask n (maskAt n idx) (· ∈ idx) := by
  unfold maskAt
  refine ⟨?_, fun i hi => ?_⟩
  · rw [maskFold_length, List.length_replicate]; omega
  · rw [maskFold_get idx (fun i hi => (h i hi).1) _ i (by rw [List.length_replicate]; omega)]
    simp [List.getElem?_replicate]

theorem isMask_not {n : Int} {m : List Bool} {P : Int → Prop} (h : IsMask n m P) :
    IsMask n (m.map (!·)) (fun i => ¬ P i) := by
  refine ⟨by simpa using h.1, fun i hi => ?_⟩
  show _ ↔ ¬ P i
  rw [← h.2 i hi]
  have : i < m.length := by have := h.1; omega
  simp [List.getElem?_eq_getElem this]

theorem isMask_andNot {n : Int} {m l : List Bool} {P Q : Int → Prop} (h : IsMask n m P) (h' : IsMask n l Q) :
    IsMask n (List.zipWith (fun t b => t && !b) m l) (fun i => P i ∧ ¬ Q i) := by
  have e1 := h.1
  have e2 := h'.1
  refine ⟨by rw [List.length_zipWith]; omega, fun i hi => ?_⟩
  show _ ↔ P i ∧ ¬ Q i
  rw [← h.2 i hi, ← h'.2 i hi]
  have h1 : i < m.length := by omega
  have h2 : i < l.length := by omega
  simp [List.getElem?_zipWith, List.getElem?_eq_getElem h1, List.getElem?_eq_getElem h2]

/-- **C46.**  `masks_from_indices` succeeds exactly when `n` is positive and every index of the four
arrays lies in `[0, n)`, and raises the validation error otherwise.  On success the train, val and
test masks are true exactly at the given indices, and the unlabeled mask is true exactly at the train
nodes that are not labeled -- or, if no labeled indices are given, at the nodes outside train. -/
theorem C46_masks (n : Int) (train val test : List Int) (labeled : Option (List Int)) :
    (0 < n ∧ (∀ i ∈ train ++ val ++ test ++ labeled.getD [], 0 ≤ i ∧ i < n) ∧
      ∃ m, masksFromIndices n train val test labeled = .ok m ∧
        IsMask n m.train (· ∈ train) ∧ IsMask n m.val (· ∈ val) ∧ IsMask n m.test (· ∈ test) ∧
        (labeled = none → IsMask n m.unlabeled (· ∉ train)) ∧
        ∀ l, labeled = some l → IsMask n m.unlabeled (fun i => i ∈ train ∧ i ∉ l)) ∨
    (¬ (0 < n ∧ ∀ i ∈ train ++ val ++ test ++ labeled.getD [], 0 ≤ i ∧ i < n) ∧
      masksFromIndices n train val test labeled = .error .validation) := by
  simp only [List.mem_append]
  unfold masksFromIndices
  by_cases hn : n ≤ 0
  · exact .inr ⟨fun h => absurd h.1 (by omega), if_pos hn⟩
  rw [if_neg hn]
  have hn' : 0 ≤ n := by omega
  by_cases ht : outside n train
  · refine .inr ⟨fun h => ?_, if_pos ht⟩
    have := (outside_iff n train).mpr fun i hi => h.2 i (.inl (.inl (.inl hi)))
    simp [this] at ht
  by_cases hv : outside n val
  · refine .inr ⟨fun h => ?_, by rw [if_neg ht, if_pos hv]⟩
    have := (outside_iff n val).mpr fun i hi => h.2 i (.inl (.inl (.inr hi)))
    simp [this] at hv
  by_cases hs : outside n test
  · refine .inr ⟨fun h => ?_, by rw [if_neg ht, if_neg hv, if_pos hs]⟩
    have := (outside_iff n test).mpr fun i hi => h.2 i (.inl (.inr hi))
    simp [this] at hs
  rw [if_neg ht, if_neg hv, if_neg hs]
  have ht' := (outside_iff n train).mp (by simpa using ht)
  have hv' := (outside_iff n val).mp (by simpa using hv)
  have hs' := (outside_iff n test).mp (by simpa using hs)
  have mt := maskAt_isMask hn' ht'
  have mv := maskAt_isMask hn' hv'
  have ms := maskAt_isMask hn' hs'
  cases labeled with
  | none =>
    refine .inl ⟨by omega, ?_, _, rfl, mt, mv, ms, fun _ => isMask_not mt, fun l h => by simp at h⟩
    rintro i (((h | h) | h) | h)
    · exact ht' i h
    · exact hv' i h
    · exact hs' i h
    · simp at h
  | some l =>
    simp only [Option.getD_some]
    by_cases hl : outside n l
    · refine .inr ⟨fun h => ?_, if_pos hl⟩
      have := (outside_iff n l).mpr fun i hi => h.2 i (.inr hi)
      simp [this] at hl
    · have hl' := (outside_iff n l).mp (by simpa using hl)
      rw [if_neg hl]
      refine .inl ⟨by omega, ?_, _, rfl, mt, mv, ms, fun h => by simp at h, ?_⟩
      · rintro i (((h | h) | h) | h)
        · exact ht' i h
        · exact hv' i h
        · exact hs' i h
        · exact hl' i h
      · intro l' h
        cases h
        exact isMask_andNot mt (maskAt_isMask hn' hl')

example : masksFromIndices 5 [0, 1, 3] [2] [4] (some [1, 1]) =
    .ok ⟨[true, true, false, true, false], [false, false, true, false, false],
      [false, false, false, false, true], [true, false, false, true, false]⟩ := by decide

example : masksFromIndices 3 [0] [3] [] none = .error .validation := by decide

end ModSSC.Graph
