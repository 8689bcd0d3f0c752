import Mathlib.LinearAlgebra.Matrix.ToLinearEquiv
import Mathlib.Algebra.Order.BigOperators.Group.Finset
import Mathlib.Algebra.BigOperators.Ring.Finset
import Mathlib.Algebra.Order.Field.Basic
import Mathlib.Tactic.Linarith
import Mathlib.Tactic.Ring

/-!
# Weakly diagonally dominant systems

`D i * x i = sum of W i j * x j over the other nodes` on a set `U` of nodes, with `W` non-negative and `D i` at least
the sum of the weights of its row.
-/

set_option linter.unusedSectionVars false

namespace ModSSC.Transductive.MM
open Finset

variable {K : Type} [Field K] [LinearOrder K] [IsStrictOrderedRing K]

/-- The weighted sum over the other nodes. -/
def others (V : Finset Nat) (W : Nat → Nat → K) (x : Nat → K) (i : Nat) : K := ∑ j ∈ V.erase i, W i j * x j

/-- Only the zero vector solves the homogeneous system. -/
def Regular (V U : Finset Nat) (D : Nat → K) (W : Nat → Nat → K) : Prop :=
  ∀ v : Nat → K, (∀ i, i ∉ U → v i = 0) → (∀ i ∈ U, D i * v i = others V W v i) → ∀ i, v i = 0

/-- The matrix of the system. -/
def mat (D : Nat → K) (W : Nat → Nat → K) (U : Finset Nat) : Matrix U U K :=
  fun i j => if i = j then D i.val else - W i.val j.val

theorem mat_mulVec (D : Nat → K) (W : Nat → Nat → K) {V U : Finset Nat} (hU : U ⊆ V) (v : Nat → K)
    (hv : ∀ i, i ∉ U → v i = 0) (i : U) :
    (mat D W U).mulVec (fun j => v j.val) i = D i.val * v i.val - others V W v i.val := by
  unfold Matrix.mulVec dotProduct others
  have h1 : ∑ j ∈ V.erase i.val, W i.val j * v j = ∑ j ∈ U.erase i.val, W i.val j * v j := by
    symm
    apply Finset.sum_subset (Finset.erase_subset_erase _ hU)
    intro j hj hj'
    rw [hv j (fun hju => hj' (Finset.mem_erase.mpr ⟨(Finset.mem_erase.mp hj).1, hju⟩)), mul_zero]
  rw [h1]
  have h2 : ∑ j : U, mat D W U i j * v j.val
      = ∑ j ∈ U, (if i.val = j then D i.val else - W i.val j) * v j := by
    rw [← Finset.sum_coe_sort U]
    apply Finset.sum_congr rfl
    intro j _
    unfold mat
    by_cases hij : i = j
    · rw [if_pos hij, if_pos (congrArg Subtype.val hij)]
    · rw [if_neg hij, if_neg (fun h => hij (Subtype.ext h))]
  rw [h2, ← Finset.add_sum_erase U _ i.property, if_pos rfl, sub_eq_add_neg, ← Finset.sum_neg_distrib]
  congr 1
  apply Finset.sum_congr rfl
  intro j hj
  rw [if_neg (fun h => (Finset.mem_erase.mp hj).1 h.symm)]
  ring

theorem det_ne_zero {V U : Finset Nat} (hU : U ⊆ V) {D : Nat → K} {W : Nat → Nat → K} (h : Regular V U D W) :
    (mat D W U).det ≠ 0 := by
  intro h0
  obtain ⟨v, hv, hz⟩ := Matrix.exists_mulVec_eq_zero_iff.mpr h0
  apply hv
  let v' : Nat → K := fun i => if hi : i ∈ U then v ⟨i, hi⟩ else 0
  have hv' : ∀ j : U, v' j.val = v j := fun j => by simp [v']
  have hout : ∀ i, i ∉ U → v' i = 0 := fun i hi => by simp [v', hi]
  have := h v' hout ?_
  · funext j
    rw [← hv' j, this]
    rfl
  · intro i hi
    have h1 := mat_mulVec D W hU v' hout ⟨i, hi⟩
    have h2 : (fun j : U => v' j.val) = v := funext hv'
    rw [h2, hz] at h1
    simp only [Pi.zero_apply] at h1
    linarith

/-- A set closed under the system on which every row sums to zero makes the system singular. -/
theorem not_closed {V U S : Finset Nat} (hU : U ⊆ V) (hS : S ⊆ U) (hne : S.Nonempty) {D : Nat → K}
    {W : Nat → Nat → K} (h : Regular V U D W) (hc : ∀ i ∈ S, ∀ j ∈ U, j ∉ S → W i j = 0)
    (hz : ∀ i ∈ S, D i = ∑ j ∈ S.erase i, W i j) : False := by
  have hSV : S ⊆ V := hS.trans hU
  -- the restriction to `S` is singular
  have hdet : (mat D W S).det = 0 := by
    apply Matrix.exists_mulVec_eq_zero_iff.mp
    obtain ⟨s, hs⟩ := hne
    refine ⟨fun _ => 1, fun h1 => ?_, ?_⟩
    · have := congrFun h1 ⟨s, hs⟩
      simp at this
    · funext i
      have h1 := mat_mulVec D W hSV (fun j => if j ∈ S then 1 else 0) (fun j hj => by simp [hj]) i
      have h2 : (fun j : S => (fun j => if j ∈ S then (1 : K) else 0) j.val) = fun _ => 1 := by
        funext j; simp
      rw [h2] at h1
      rw [h1]
      simp only [i.property, if_true, mul_one, Pi.zero_apply]
      rw [hz i.val i.property, sub_eq_zero]
      unfold others
      have h3 : S.erase i.val ⊆ V.erase i.val := Finset.erase_subset_erase _ hSV
      rw [← Finset.sum_subset h3]
      · apply Finset.sum_congr rfl
        intro j hj
        simp only [(Finset.mem_erase.mp hj).2, if_true, mul_one]
      · intro j hj hj'
        have hjs : j ∉ S := fun hjs => hj' (Finset.mem_erase.mpr ⟨(Finset.mem_erase.mp hj).1, hjs⟩)
        simp only [hjs, if_false, mul_zero]
  obtain ⟨y, hy, hyz⟩ := Matrix.exists_vecMul_eq_zero_iff.mpr hdet
  apply det_ne_zero hU h
  apply Matrix.exists_vecMul_eq_zero_iff.mp
  let y' : U → K := fun i => if hi : i.val ∈ S then y ⟨i.val, hi⟩ else 0
  refine ⟨y', fun h0 => hy ?_, ?_⟩
  · funext i
    have := congrFun h0 ⟨i.val, hS i.property⟩
    simpa [y'] using this
  · funext j
    simp only [Matrix.vecMul, dotProduct, Pi.zero_apply]
    have h1 : ∑ i : U, y' i * mat D W U i j
        = ∑ i ∈ U, (if hi : i ∈ S then y ⟨i, hi⟩ else 0) * (if i = j.val then D i else - W i j.val) := by
      rw [← Finset.sum_coe_sort U]
      apply Finset.sum_congr rfl
      intro i _
      simp only [y', mat, Subtype.ext_iff]
    rw [h1, ← Finset.sum_subset hS]
    · by_cases hj : j.val ∈ S
      · have h2 := congrFun hyz ⟨j.val, hj⟩
        simp only [Matrix.vecMul, dotProduct, Pi.zero_apply] at h2
        rw [← h2, ← Finset.sum_coe_sort S]
        apply Finset.sum_congr rfl
        intro i _
        simp only [mat, Subtype.ext_iff, i.property, dif_pos]
      · apply Finset.sum_eq_zero
        intro i hi
        rw [if_neg (fun (e : i = j.val) => hj (e ▸ hi)), hc i hi j.val j.property hj]
        simp
    · intro i _ hi
      rw [dif_neg hi, zero_mul]

/-- **Minimum principle.** -/
theorem nonneg {V U : Finset Nat} (hU : U ⊆ V) {D : Nat → K} {W : Nat → Nat → K} (h : Regular V U D W)
    (hW : ∀ i j, 0 ≤ W i j) (hD : ∀ i ∈ U, ∑ j ∈ V.erase i, W i j ≤ D i) {x : Nat → K}
    (hout : ∀ i ∈ V, i ∉ U → 0 ≤ x i) (hx : ∀ i ∈ U, others V W x i ≤ D i * x i) : ∀ i ∈ U, 0 ≤ x i := by
  by_contra hcon
  push Not at hcon
  obtain ⟨i0, hi0, hneg⟩ := hcon
  obtain ⟨s, hs, hmin⟩ := Finset.exists_min_image U x ⟨i0, hi0⟩
  have hm : x s < 0 := lt_of_le_of_lt (hmin i0 hi0) hneg
  have hle : ∀ j ∈ V, x s ≤ x j := by
    intro j hj
    by_cases hju : j ∈ U
    · exact hmin j hju
    · exact hm.le.trans (hout j hj hju)
  -- at a node with the smallest value everything is tight
  have htight : ∀ i ∈ U, x i = x s → (∀ j ∈ V.erase i, W i j * (x j - x s) = 0) ∧ D i = ∑ j ∈ V.erase i, W i j := by
    intro i hi hxi
    have e1 := hx i hi
    rw [hxi] at e1
    have e2 : others V W x i = (∑ j ∈ V.erase i, W i j * (x j - x s)) + (∑ j ∈ V.erase i, W i j) * x s := by
      unfold others
      rw [Finset.sum_mul, ← Finset.sum_add_distrib]
      exact Finset.sum_congr rfl fun j _ => by ring
    have e3 : ∀ j ∈ V.erase i, 0 ≤ W i j * (x j - x s) := fun j hj =>
      mul_nonneg (hW i j) (sub_nonneg.mpr (hle j (Finset.mem_erase.mp hj).2))
    have e4 := Finset.sum_nonneg e3
    have e5 : D i * x s ≤ (∑ j ∈ V.erase i, W i j) * x s := mul_le_mul_of_nonpos_right (hD i hi) hm.le
    refine ⟨(Finset.sum_eq_zero_iff_of_nonneg e3).mp (by linarith), ?_⟩
    have e6 : D i * x s = (∑ j ∈ V.erase i, W i j) * x s := by linarith
    exact mul_right_cancel₀ hm.ne e6
  refine not_closed hU (S := U.filter fun i => x i = x s) (Finset.filter_subset _ _)
    ⟨s, Finset.mem_filter.mpr ⟨hs, rfl⟩⟩ h ?_ ?_
  · intro i hi j hj hjS
    obtain ⟨hiU, hxi⟩ := Finset.mem_filter.mp hi
    have hji : j ≠ i := fun e => hjS (e ▸ hi)
    have := (htight i hiU hxi).1 j (Finset.mem_erase.mpr ⟨hji, hU hj⟩)
    rcases mul_eq_zero.mp this with h1 | h1
    · exact h1
    · exact absurd (Finset.mem_filter.mpr ⟨hj, (sub_eq_zero.mp h1 : x j = x s)⟩) hjS
  · intro i hi
    obtain ⟨hiU, hxi⟩ := Finset.mem_filter.mp hi
    rw [(htight i hiU hxi).2]
    symm
    apply Finset.sum_subset (Finset.erase_subset_erase _ ((Finset.filter_subset _ _).trans hU))
    intro j hj hj'
    obtain ⟨hji, hjV⟩ := Finset.mem_erase.mp hj
    have := (htight i hiU hxi).1 j hj
    rcases mul_eq_zero.mp this with h1 | h1
    · exact h1
    · exfalso
      have hxj : x j = x s := sub_eq_zero.mp h1
      by_cases hjU : j ∈ U
      · exact hj' (Finset.mem_erase.mpr ⟨hji, Finset.mem_filter.mpr ⟨hjU, hxj⟩⟩)
      · have := hout j hjV hjU
        linarith

/-- A node from which a node with slack can be reached along positive weights: either its own row has slack, or
it has a positive weight to a node outside `U` or to such a node. -/
inductive Anchored (V U : Finset Nat) (D : Nat → K) (W : Nat → Nat → K) : Nat → Prop
  | slack {i : Nat} : i ∈ U → ∑ j ∈ V.erase i, W i j < D i → Anchored V U D W i
  | fixed {i j : Nat} : i ∈ U → j ∈ V → j ∉ U → 0 < W i j → Anchored V U D W i
  | step {i j : Nat} : i ∈ U → j ∈ U → j ≠ i → 0 < W i j → Anchored V U D W j → Anchored V U D W i

/-- The system is regular exactly when every node is anchored. -/
theorem regular_iff {V U : Finset Nat} (hU : U ⊆ V) {D : Nat → K} {W : Nat → Nat → K} 
    (hW : ∀ i j, 0 ≤ W i j) (hD : ∀ i ∈ U, ∑ j ∈ V.erase i, W i j ≤ D i) :
    Regular V U D W ↔ ∀ i ∈ U, Anchored V U D W i := by
  classical
  constructor
  · intro h
    by_contra hcon
    push Not at hcon
    obtain ⟨i0, hi0, hna⟩ := hcon
    refine not_closed hU (S := U.filter fun i => ¬ Anchored V U D W i) (Finset.filter_subset _ _)
      ⟨i0, Finset.mem_filter.mpr ⟨hi0, hna⟩⟩ h ?_ ?_
    · intro i hi j hj hjS
      obtain ⟨hiU, hni⟩ := Finset.mem_filter.mp hi
      have hja : Anchored V U D W j := by
        by_contra hn; exact hjS (Finset.mem_filter.mpr ⟨hj, hn⟩)
      by_contra hne
      have hji : j ≠ i := fun e => hjS (e ▸ hi)
      exact hni (.step hiU hj hji (lt_of_le_of_ne (hW i j) (Ne.symm hne)) hja)
    · intro i hi
      obtain ⟨hiU, hni⟩ := Finset.mem_filter.mp hi
      have e1 : D i = ∑ j ∈ V.erase i, W i j := by
        apply le_antisymm _ (hD i hiU)
        by_contra hn
        exact hni (.slack hiU (not_le.mp hn))
      rw [e1]
      symm
      apply Finset.sum_subset (Finset.erase_subset_erase _ ((Finset.filter_subset _ _).trans hU))
      intro j hj hj'
      obtain ⟨hji, hjV⟩ := Finset.mem_erase.mp hj
      by_contra hne
      have hpos := lt_of_le_of_ne (hW i j) (Ne.symm hne)
      by_cases hjU : j ∈ U
      · by_cases hja : Anchored V U D W j
        · exact hni (.step hiU hjU hji hpos hja)
        · exact hj' (Finset.mem_erase.mpr ⟨hji, Finset.mem_filter.mpr ⟨hjU, hja⟩⟩)
      · exact hni (.fixed hiU hjV hjU hpos)
  · intro ha v hv he
    -- a positive maximum is impossible
    have key : ∀ v : Nat → K, (∀ i, i ∉ U → v i = 0) → (∀ i ∈ U, D i * v i = others V W v i) → ∀ i ∈ U, v i ≤ 0 := by
      intro v hv he
      by_contra hcon
      push Not at hcon
      obtain ⟨i0, hi0, hpos⟩ := hcon
      obtain ⟨s, hs, hmax⟩ := Finset.exists_max_image U v ⟨i0, hi0⟩
      have hm : 0 < v s := lt_of_lt_of_le hpos (hmax i0 hi0)
      have hle : ∀ j, v j ≤ v s := by
        intro j
        by_cases hj : j ∈ U
        · exact hmax j hj
        · rw [hv j hj]; exact hm.le
      have htight : ∀ i ∈ U, v i = v s →
          (∀ j ∈ V.erase i, W i j * (v s - v j) = 0) ∧ D i = ∑ j ∈ V.erase i, W i j := by
        intro i hi hvi
        have e1 := he i hi
        rw [hvi] at e1
        have e2 : others V W v i = (∑ j ∈ V.erase i, W i j) * v s - (∑ j ∈ V.erase i, W i j * (v s - v j)) := by
          unfold others
          rw [Finset.sum_mul, ← Finset.sum_sub_distrib]
          exact Finset.sum_congr rfl fun j _ => by ring
        have e3 : ∀ j ∈ V.erase i, 0 ≤ W i j * (v s - v j) := fun j _ =>
          mul_nonneg (hW i j) (sub_nonneg.mpr (hle j))
        have e4 := Finset.sum_nonneg e3
        have e5 : (∑ j ∈ V.erase i, W i j) * v s ≤ D i * v s := mul_le_mul_of_nonneg_right (hD i hi) hm.le
        refine ⟨(Finset.sum_eq_zero_iff_of_nonneg e3).mp (by linarith), ?_⟩
        have e6 : D i * v s = (∑ j ∈ V.erase i, W i j) * v s := by linarith
        exact mul_right_cancel₀ hm.ne' e6
      have hno : ∀ i, Anchored V U D W i → v i ≠ v s := by
        intro i hi
        induction hi with
        | slack hiU hlt =>
          intro hvi
          exact absurd (htight _ hiU hvi).2 hlt.ne'
        | @fixed i j hiU hjV hjU hw =>
          intro hvi
          have hji : j ≠ i := fun e => hjU (e ▸ hiU)
          have := (htight _ hiU hvi).1 j (Finset.mem_erase.mpr ⟨hji, hjV⟩)
          rcases mul_eq_zero.mp this with h1 | h1
          · exact hw.ne' h1
          · rw [hv j hjU] at h1; linarith
        | @step i j hiU hjU hji hw _ ih =>
          intro hvi
          have := (htight _ hiU hvi).1 j (Finset.mem_erase.mpr ⟨hji, hU hjU⟩)
          rcases mul_eq_zero.mp this with h1 | h1
          · exact hw.ne' h1
          · exact ih (sub_eq_zero.mp h1).symm
      exact hno s (ha s hs) rfl
    intro i
    by_cases hi : i ∈ U
    · have h1 := key v hv he i hi
      have h2 := key (fun j => - v j) (fun j hj => by simp [hv j hj]) (fun j hj => by
        have := he j hj
        unfold others at this ⊢
        simp only [mul_neg, Finset.sum_neg_distrib]
        rw [this]) i hi
      linarith
    · exact hv i hi

end ModSSC.Transductive.MM
