import Verif.Transductive.CgSpec
import Mathlib.Data.Matrix.Mul
import Mathlib.LinearAlgebra.Dimension.Constructions
import Mathlib.LinearAlgebra.FiniteDimensional.Basic
import Mathlib.Tactic.FieldSimp
import Mathlib.Tactic.Ring
import Mathlib.Tactic.Linarith
import Mathlib.Algebra.Order.BigOperators.Group.Finset
import Mathlib.Algebra.Order.Field.Basic
import Mathlib.Tactic.FinCases
import Mathlib.Data.Real.Sqrt

/-!
# Proofs for the conjugate gradient solver (C101)
-/

namespace ModSSC.Transductive
open ModSSC Spec

set_option linter.unusedSectionVars false

section
variable {K : Type} [Field K] [LinearOrder K] [IsStrictOrderedRing K] {n : Nat}

/-! ## Algebra of the inner product -/

theorem dot_comm (u v : Fin n → K) : dot u v = dot v u := by
  unfold dot; exact Finset.sum_congr rfl fun i _ => mul_comm _ _

theorem dot_axpy (u v w : Fin n → K) (a : K) : dot (fun i => u i + a * v i) w = dot u w + a * dot v w := by
  unfold dot
  rw [Finset.mul_sum, ← Finset.sum_add_distrib]
  exact Finset.sum_congr rfl fun i _ => by ring

theorem dot_axmy (u v w : Fin n → K) (a : K) : dot (fun i => u i - a * v i) w = dot u w - a * dot v w := by
  unfold dot
  rw [Finset.mul_sum, ← Finset.sum_sub_distrib]
  exact Finset.sum_congr rfl fun i _ => by ring

theorem dot_axpy' (u v w : Fin n → K) (a : K) : dot w (fun i => u i + a * v i) = dot w u + a * dot w v := by
  rw [dot_comm, dot_axpy, dot_comm u, dot_comm v]

theorem dot_axmy' (u v w : Fin n → K) (a : K) : dot w (fun i => u i - a * v i) = dot w u - a * dot w v := by
  rw [dot_comm, dot_axmy, dot_comm u, dot_comm v]

theorem dot_self_nonneg (u : Fin n → K) : 0 ≤ dot u u := Finset.sum_nonneg fun i _ => mul_self_nonneg (u i)

theorem dot_self_zero {u : Fin n → K} (h : dot u u = 0) (i : Fin n) : u i = 0 := by
  have := (Finset.sum_eq_zero_iff_of_nonneg fun i _ => mul_self_nonneg (u i)).1 h i (Finset.mem_univ i)
  exact mul_self_eq_zero.1 this

/-! ## The residual -/

theorem residual_step {A : (Fin n → K) → (Fin n → K)} (hA : LinOp A) {b x r p : Fin n → K} {a : K}
    (h : ∀ i, r i = b i - A x i) (i : Fin n) :
    r i - a * A p i = b i - A (fun j => x j + a * p j) i := by
  rw [hA, h i]; ring

/-- What holds of a result of the loop. -/
def CgFacts (sqrt : K → K) (A : (Fin n → K) → (Fin n → K)) (b : Fin n → K) (tol : K) (cap : Nat)
    (res : CGResult n K) : Prop :=
  res.residualNorm = sqrt (residualSq A b res.x) ∧ res.nIter ≤ cap ∧
  (res.converged = true → res.residualNorm ≤ tol)

theorem residualSq_of {A : (Fin n → K) → (Fin n → K)} {b x r : Fin n → K}
    (h : ∀ i, r i = b i - A x i) : residualSq A b x = dot r r := by
  unfold residualSq dot
  exact Finset.sum_congr rfl fun i _ => by rw [h i]

theorem cgLoop_facts {sqrt : K → K} {A : (Fin n → K) → (Fin n → K)} (hA : LinOp A) {b : Fin n → K} {tol : K} :
    ∀ (fuel k : Nat) (x r p : Fin n → K) (rs : K), (∀ i, r i = b i - A x i) → rs = dot r r →
      CgFacts sqrt A b tol (k + fuel) (cgLoop sqrt A tol fuel k x r p rs) := by
  intro fuel
  induction fuel with
  | zero =>
    intro k x r p rs h1 h2
    refine ⟨?_, le_refl _, fun h => ?_⟩
    · simp only [cgLoop]; rw [h2, residualSq_of h1]
    · simp [cgLoop] at h
  | succ fuel ih =>
    intro k x r p rs h1 h2
    rw [cgLoop]
    simp only
    by_cases hd : dot p (A p) = 0
    · rw [if_pos hd]
      refine ⟨?_, by simp, fun h => by simp at h⟩
      simp only; rw [h2, residualSq_of h1]
    · rw [if_neg hd]
      have h1' := fun i => residual_step hA (a := rs / dot p (A p)) (p := p) h1 i
      by_cases ht : sqrt (dot (fun i => r i - rs / dot p (A p) * A p i)
          (fun i => r i - rs / dot p (A p) * A p i)) ≤ tol
      · rw [if_pos ht]
        refine ⟨?_, by simp only; omega, fun _ => ht⟩
        simp only
        rw [residualSq_of h1']
      · rw [if_neg ht]
        have := ih (k + 1) _ _ (fun i => r i - rs / dot p (A p) * A p i +
          dot (fun i => r i - rs / dot p (A p) * A p i) (fun i => r i - rs / dot p (A p) * A p i) / rs * p i)
          _ h1' rfl
        rw [show k + (fuel + 1) = k + 1 + fuel by omega]
        exact this

/-! ## The run without stopping -/

/-- Iterate, residual and direction. -/
structure CgSt (n : Nat) (K : Type) where
  x : Fin n → K
  r : Fin n → K
  p : Fin n → K

/-- One round of the loop. -/
def cgNext (A : (Fin n → K) → (Fin n → K)) (s : CgSt n K) : CgSt n K :=
  let al := dot s.r s.r / dot s.p (A s.p)
  let r' := fun i => s.r i - al * A s.p i
  ⟨fun i => s.x i + al * s.p i, r', fun i => r' i + dot r' r' / dot s.r s.r * s.p i⟩

/-- The states of the run. -/
def cgSeq (A : (Fin n → K) → (Fin n → K)) (s0 : CgSt n K) : Nat → CgSt n K
  | 0 => s0
  | k + 1 => cgNext A (cgSeq A s0 k)

/-- Orthogonality of residuals, conjugacy of directions, up to round `k`. -/
structure Conj (A : (Fin n → K) → (Fin n → K)) (S : Nat → CgSt n K) (k : Nat) : Prop where
  rp : ∀ j ≤ k, ∀ i < j, dot (S j).r (S i).p = 0
  rr : ∀ j ≤ k, ∀ i < j, dot (S j).r (S i).r = 0
  pp : ∀ j ≤ k, ∀ i < j, dot (S j).p (A (S i).p) = 0
  rs : ∀ j ≤ k, dot (S j).r (S j).p = dot (S j).r (S j).r

theorem den_pos {A : (Fin n → K) → (Fin n → K)} (hp : PosOp A) {r p : Fin n → K} (h : dot r p = dot r r)
    (h0 : dot r r ≠ 0) : 0 < dot p (A p) := by
  apply hp
  by_contra hc
  push Not at hc
  apply h0
  rw [← h]
  exact Finset.sum_eq_zero fun i _ => by rw [hc i, mul_zero]

theorem sym_dot {A : (Fin n → K) → (Fin n → K)} (hs : SymOp A) (u v : Fin n → K) : dot (A u) v = dot u (A v) := hs u v

theorem conj_run {A : (Fin n → K) → (Fin n → K)} (hs : SymOp A) (hp : PosOp A) (s0 : CgSt n K)
    (h0 : s0.p = s0.r) :
    ∀ k, (∀ i < k, dot (cgSeq A s0 i).r (cgSeq A s0 i).r ≠ 0) → Conj A (cgSeq A s0) k := by
  intro k
  induction k with
  | zero =>
    intro _
    refine ⟨fun j hj i hi => absurd hi (by omega), fun j hj i hi => absurd hi (by omega),
      fun j hj i hi => absurd hi (by omega), fun j hj => ?_⟩
    obtain rfl : j = 0 := by omega
    rw [cgSeq, h0]
  | succ k ih =>
    intro hne
    have C := ih fun i hi => hne i (by omega)
    generalize hS : cgSeq A s0 = S at *
    have hnext : ∀ i, S (i + 1) = cgNext A (S i) := fun i => by rw [← hS]; rfl
    have hr' : ∀ i, (S (i + 1)).r =
        fun t => (S i).r t - dot (S i).r (S i).r / dot (S i).p (A (S i).p) * A (S i).p t := fun i => by
      rw [hnext]; rfl
    have hp' : ∀ i, (S (i + 1)).p = fun t => (S (i + 1)).r t +
        dot (S (i + 1)).r (S (i + 1)).r / dot (S i).r (S i).r * (S i).p t := fun i => by
      rw [hnext]; rfl
    have hden : ∀ i ≤ k, 0 < dot (S i).p (A (S i).p) := fun i hi =>
      den_pos hp (C.rs i hi) (hne i (by omega))
    -- the new residual against the old directions
    have newrp : ∀ i ≤ k, dot (S (k + 1)).r (S i).p = 0 := by
      intro i hi
      rw [hr' k, dot_axmy]
      rcases Nat.lt_or_ge i k with h | h
      · rw [C.rp k (le_refl _) i h, sym_dot hs, C.pp k (le_refl _) i h]; ring
      · obtain rfl : i = k := by omega
        rw [C.rs i (le_refl _), dot_comm (A (S i).p)]
        have := (hden i (le_refl _)).ne'
        field_simp
        ring
    -- and against the old residuals
    have newrr : ∀ i ≤ k, dot (S (k + 1)).r (S i).r = 0 := by
      intro i hi
      rcases i with _ | i
      · have e : (S 0).r = (S 0).p := by rw [← hS]; exact h0.symm
        rw [e]; exact newrp 0 (by omega)
      · have e1 := newrp (i + 1) hi
        rw [hp' i, dot_axpy', newrp i (by omega)] at e1
        rw [mul_zero, add_zero] at e1
        exact e1
    have newrs : dot (S (k + 1)).r (S (k + 1)).p = dot (S (k + 1)).r (S (k + 1)).r := by
      rw [hp' k, dot_axpy', newrp k (le_refl _)]; ring
    -- the new direction against the old ones
    have newpp : ∀ i ≤ k, dot (S (k + 1)).p (A (S i).p) = 0 := by
      intro i hi
      have hd := (hden i hi).ne'
      have hrs := hne i (by omega)
      have key : dot (S i).r (S i).r / dot (S i).p (A (S i).p) * dot (S (k + 1)).r (A (S i).p) =
          dot (S (k + 1)).r (S i).r - dot (S (k + 1)).r (S (i + 1)).r := by
        rw [hr' i, dot_axmy']; ring
      rw [newrr i hi] at key
      rw [hp' k, dot_axpy]
      rcases Nat.lt_or_ge i k with h | h
      · rw [newrr (i + 1) (by omega), sub_zero] at key
        have : dot (S (k + 1)).r (A (S i).p) = 0 := by
          rcases mul_eq_zero.1 key with h' | h'
          · exact absurd h' (div_ne_zero hrs hd)
          · exact h'
        rw [this, C.pp k (le_refl _) i h]; ring
      · obtain rfl : i = k := by omega
        have e : dot (S (i + 1)).r (A (S i).p) =
            - (dot (S (i + 1)).r (S (i + 1)).r * dot (S i).p (A (S i).p) / dot (S i).r (S i).r) := by
          field_simp at key ⊢
          linarith
        rw [e]
        field_simp
        ring
    refine ⟨fun j hj i hi => ?_, fun j hj i hi => ?_, fun j hj i hi => ?_, fun j hj => ?_⟩
    · rcases Nat.lt_or_ge j (k + 1) with h | h
      · exact C.rp j (by omega) i hi
      · obtain rfl : j = k + 1 := by omega
        exact newrp i (by omega)
    · rcases Nat.lt_or_ge j (k + 1) with h | h
      · exact C.rr j (by omega) i hi
      · obtain rfl : j = k + 1 := by omega
        exact newrr i (by omega)
    · rcases Nat.lt_or_ge j (k + 1) with h | h
      · exact C.pp j (by omega) i hi
      · obtain rfl : j = k + 1 := by omega
        exact newpp i (by omega)
    · rcases Nat.lt_or_ge j (k + 1) with h | h
      · exact C.rs j (by omega)
      · obtain rfl : j = k + 1 := by omega
        exact newrs

/-- There are no more than `n` orthogonal nonzero vectors. -/
theorem no_more_orth (v : Nat → Fin n → K) (h0 : ∀ i ≤ n, dot (v i) (v i) ≠ 0)
    (ho : ∀ j ≤ n, ∀ i < j, dot (v j) (v i) = 0) : False := by
  have hli : LinearIndependent K fun i : Fin (n + 1) => v i.val := by
    rw [Fintype.linearIndependent_iff]
    intro g hg i
    have h1 : dot (∑ j, g j • v j.val) (v i.val) = 0 := by
      rw [hg]; unfold dot; exact Finset.sum_eq_zero fun i _ => by simp
    have h2 : dot (∑ j, g j • v j.val) (v i.val) = ∑ j, g j * dot (v j.val) (v i.val) := by
      unfold dot
      simp only [Finset.sum_apply, Pi.smul_apply, smul_eq_mul, Finset.sum_mul, Finset.mul_sum]
      rw [Finset.sum_comm]
      exact Finset.sum_congr rfl fun j _ => Finset.sum_congr rfl fun t _ => by ring
    rw [h2, Finset.sum_eq_single i] at h1
    · rcases mul_eq_zero.1 h1 with h | h
      · exact h
      · exact absurd h (h0 i.val (by omega))
    · intro j _ hji
      have hne : j.val ≠ i.val := fun e => hji (Fin.ext e)
      rcases Nat.lt_or_gt_of_ne hne with h | h
      · rw [dot_comm, ho i.val (by omega) j.val h, mul_zero]
      · rw [ho j.val (by omega) i.val h, mul_zero]
    · intro h; exact absurd (Finset.mem_univ i) h
  have := hli.fintype_card_le_finrank
  rw [Module.finrank_fintype_fun_eq_card, Fintype.card_fin, Fintype.card_fin] at this
  omega

theorem cgLoop_done {sqrt : K → K} (hq : RootLaw sqrt) {A : (Fin n → K) → (Fin n → K)} (hs : SymOp A) (hp : PosOp A)
    (s0 : CgSt n K) (h0 : s0.p = s0.r) {tol : K} (htol : 0 ≤ tol) :
    ∀ (fuel k : Nat), n ≤ k + fuel → (∀ i ≤ k, dot (cgSeq A s0 i).r (cgSeq A s0 i).r ≠ 0) →
      let res := cgLoop sqrt A tol fuel k (cgSeq A s0 k).x (cgSeq A s0 k).r (cgSeq A s0 k).p
        (dot (cgSeq A s0 k).r (cgSeq A s0 k).r)
      res.converged = true ∧ res.nIter ≤ n := by
  have hlt : ∀ k, (∀ i ≤ k, dot (cgSeq A s0 i).r (cgSeq A s0 i).r ≠ 0) → k < n := by
    intro k hk
    by_contra hc
    have C := conj_run hs hp s0 h0 n fun i hi => hk i (by omega)
    exact no_more_orth (fun i => (cgSeq A s0 i).r) (fun i hi => hk i (by omega)) C.rr
  intro fuel
  induction fuel with
  | zero =>
    intro k hk hne
    exact absurd (hlt k hne) (by omega)
  | succ fuel ih =>
    intro k hk hne
    have C := conj_run hs hp s0 h0 k fun i hi => hne i (by omega)
    have hd := (den_pos hp (C.rs k (le_refl _)) (hne k (le_refl _))).ne'
    have hkn := hlt k hne
    simp only
    rw [cgLoop]
    simp only
    rw [if_neg hd]
    by_cases ht : sqrt (dot (cgSeq A s0 (k + 1)).r (cgSeq A s0 (k + 1)).r) ≤ tol
    · have ht' := ht
      simp only [cgSeq, cgNext] at ht'
      rw [if_pos ht']
      exact ⟨rfl, by simp only; omega⟩
    · have ht' := ht
      simp only [cgSeq, cgNext] at ht'
      rw [if_neg ht']
      refine ih (k + 1) (by omega) fun i hi => ?_
      rcases Nat.lt_or_ge i (k + 1) with h | h
      · exact hne i (by omega)
      · obtain rfl : i = k + 1 := by omega
        intro hz
        apply ht
        rw [hz]
        have := (hq 0 (le_refl _)).2
        rw [mul_self_eq_zero.1 this]
        exact htol

/-! ## The distance to the solution -/

/-- Square of the distance between `x` and `z` measured by the operator. -/
def energy (A : (Fin n → K) → (Fin n → K)) (x z : Fin n → K) : K :=
  ∑ i, (x i - z i) * A (fun j => x j - z j) i

theorem op_sub {A : (Fin n → K) → (Fin n → K)} (hA : LinOp A) (u v : Fin n → K) (i : Fin n) :
    A (fun j => u j - v j) i = A u i - A v i := by
  have e : (fun j => u j - v j) = fun j => u j + (-1) * v j := by funext j; ring
  rw [e, hA]; ring

theorem energy_step {A : (Fin n → K) → (Fin n → K)} (hA : LinOp A) (hs : SymOp A) {b x r p z : Fin n → K}
    (hz : ∀ i, A z i = b i) (hr : ∀ i, r i = b i - A x i) (h : dot r p = dot r r) (hd : 0 < dot p (A p)) :
    energy A (fun i => x i + dot r r / dot p (A p) * p i) z ≤ energy A x z := by
  generalize ha : dot r r / dot p (A p) = a
  have e1 : ∀ i, A (fun j => x j + a * p j - z j) i = A (fun j => x j - z j) i + a * A p i := by
    intro i
    rw [← hA (fun j => x j - z j) p a i]
    congr 1
    funext j; ring
  have hre : ∀ i, A (fun j => x j - z j) i = - r i := fun i => by rw [op_sub hA, hz, hr]; ring
  have e2 : energy A (fun i => x i + a * p i) z =
      energy A x z + (a * dot p (A fun j => x j - z j) + (a * dot (fun j => x j - z j) (A p) + a * a * dot p (A p))) := by
    unfold energy dot
    simp only [e1]
    rw [Finset.mul_sum, Finset.mul_sum, Finset.mul_sum, ← Finset.sum_add_distrib, ← Finset.sum_add_distrib,
      ← Finset.sum_add_distrib]
    exact Finset.sum_congr rfl fun i _ => by ring
  have e3 : dot p (A fun j => x j - z j) = - dot r r := by
    rw [← h]
    unfold dot
    rw [← Finset.sum_neg_distrib]
    exact Finset.sum_congr rfl fun i _ => by rw [hre]; ring
  have e4 : dot (fun j => x j - z j) (A p) = - dot r r := by
    rw [← sym_dot hs, dot_comm, e3]
  rw [e2, e3, e4]
  have e5 : a * dot p (A p) = dot r r := by rw [← ha]; field_simp
  have e6 : 0 ≤ a := by rw [← ha]; exact div_nonneg (dot_self_nonneg r) hd.le
  have e7 : a * a * dot p (A p) = a * dot r r := by rw [mul_assoc, e5]
  rw [e7]
  have := mul_nonneg e6 (dot_self_nonneg r)
  linarith

theorem cgLoop_energy {sqrt : K → K} {A : (Fin n → K) → (Fin n → K)} (hA : LinOp A) (hs : SymOp A) (hp : PosOp A)
    {b z : Fin n → K} (hz : ∀ i, A z i = b i) {tol : K} :
    ∀ (fuel k : Nat) (x r p : Fin n → K), (∀ i, r i = b i - A x i) → dot r p = dot r r →
      energy A (cgLoop sqrt A tol fuel k x r p (dot r r)).x z ≤ energy A x z := by
  intro fuel
  induction fuel with
  | zero => intro k x r p _ _; exact le_refl _
  | succ fuel ih =>
    intro k x r p hr hrp
    rw [cgLoop]
    simp only
    by_cases hd : dot p (A p) = 0
    · rw [if_pos hd]
    · rw [if_neg hd]
      have hpos : 0 < dot p (A p) := by
        apply hp
        by_contra hc
        push Not at hc
        exact hd (Finset.sum_eq_zero fun i _ => by rw [hc i, zero_mul])
      have hst := energy_step hA hs hz hr hrp hpos
      have h1' := fun i => residual_step hA (a := dot r r / dot p (A p)) (p := p) hr i
      split
      · exact hst
      · refine le_trans (ih (k + 1) _ _ _ h1' ?_) hst
        have e0 : dot (fun i => r i - dot r r / dot p (A p) * A p i) p = 0 := by
          rw [dot_axmy, hrp, dot_comm (A p), div_mul_cancel₀ _ hd, sub_self]
        rw [dot_axpy', e0, mul_zero, add_zero]

/-! ## C101 -/

/-- **C101**: the residual norm returned is that of the vector returned, no more than `max_iter` rounds are made, and a
result said to have converged solves the system up to the tolerance (exactly, if the start already did). -/
theorem C101_residual {sqrt : K → K} (hq : RootLaw sqrt) {A : (Fin n → K) → (Fin n → K)} (hA : LinOp A)
    (b : Fin n → K) (x0 : Option (Fin n → K)) (tol : K) (maxIter : Int) :
    let res := cgSolve sqrt A b x0 tol maxIter
    0 ≤ res.residualNorm ∧ res.residualNorm * res.residualNorm = residualSq A b res.x ∧
    (res.nIter : Int) ≤ max 0 maxIter ∧
    (res.converged = true → res.residualNorm ≤ tol ∨ ∀ i, A res.x i = b i) := by
  simp only [cgSolve]
  generalize hx : (x0.getD fun _ => 0) = x
  by_cases h : dot (fun i => b i - A x i) (fun i => b i - A x i) = 0
  · rw [if_pos h]
    refine ⟨le_refl _, ?_, by simp, fun _ => Or.inr fun i => ?_⟩
    · simp only
      rw [residualSq_of (r := fun i => b i - A x i) fun i => rfl, h, mul_zero]
    · have := dot_self_zero h i
      simp only at this ⊢
      exact (sub_eq_zero.1 this).symm
  · rw [if_neg h]
    obtain ⟨h1, h2, h3⟩ := cgLoop_facts (sqrt := sqrt) hA (tol := tol) maxIter.toNat 0 x _ (fun i => b i - A x i) _
      (b := b) (fun i => rfl) rfl
    have hnn : 0 ≤ residualSq A b (cgLoop sqrt A tol maxIter.toNat 0 x (fun i => b i - A x i) (fun i => b i - A x i)
        (dot (fun i => b i - A x i) (fun i => b i - A x i))).x := Finset.sum_nonneg fun i _ => mul_self_nonneg _
    refine ⟨?_, ?_, ?_, fun hc => Or.inl (h3 hc)⟩
    · rw [h1]; exact (hq _ hnn).1
    · rw [h1]; exact (hq _ hnn).2
    · rw [Nat.zero_add] at h2
      exact le_trans (Int.ofNat_le.2 h2) (by omega)

/-- **C101**: on a symmetric positive definite system of size `n`, `n` rounds are enough: the solver converges within
`n` rounds for every tolerance, down to zero. -/
theorem C101_converges {sqrt : K → K} (hq : RootLaw sqrt) {A : (Fin n → K) → (Fin n → K)} (hs : SymOp A) (hp : PosOp A)
    (b : Fin n → K) (x0 : Option (Fin n → K)) {tol : K} (htol : 0 ≤ tol) {maxIter : Int} (hm : (n : Int) ≤ maxIter) :
    (cgSolve sqrt A b x0 tol maxIter).converged = true ∧ (cgSolve sqrt A b x0 tol maxIter).nIter ≤ n := by
  simp only [cgSolve]
  generalize hx : (x0.getD fun _ => 0) = x
  by_cases h : dot (fun i => b i - A x i) (fun i => b i - A x i) = 0
  · rw [if_pos h]; exact ⟨rfl, Nat.zero_le _⟩
  · rw [if_neg h]
    refine cgLoop_done hq hs hp ⟨x, fun i => b i - A x i, fun i => b i - A x i⟩ rfl htol maxIter.toNat 0 (by omega)
      fun i hi => ?_
    obtain rfl : i = 0 := by omega
    exact h

/-- **C101**: with tolerance zero and `n` rounds the result is the exact solution of a symmetric positive definite
system. -/
theorem C101_exact {sqrt : K → K} (hq : RootLaw sqrt) {A : (Fin n → K) → (Fin n → K)} (hA : LinOp A) (hs : SymOp A)
    (hp : PosOp A) (b : Fin n → K) (x0 : Option (Fin n → K)) {maxIter : Int} (hm : (n : Int) ≤ maxIter) (i : Fin n) :
    A (cgSolve sqrt A b x0 0 maxIter).x i = b i := by
  obtain ⟨h1, h2, _, h4⟩ := C101_residual hq hA b x0 0 maxIter
  obtain ⟨h5, _⟩ := C101_converges hq hs hp b x0 (le_refl (0 : K)) hm
  rcases h4 h5 with h | h
  · have hz := le_antisymm h h1
    rw [hz, zero_mul] at h2
    have := dot_self_zero (u := fun i => b i - A (cgSolve sqrt A b x0 0 maxIter).x i) h2.symm i
    exact (sub_eq_zero.1 this).symm
  · exact h i

/-- **C101**: on a symmetric positive definite system the result, however early the solver stops, is at least as near
to the exact solution `z` as the starting vector, in the distance of the operator. -/
theorem C101_improves {sqrt : K → K} {A : (Fin n → K) → (Fin n → K)} (hA : LinOp A) (hs : SymOp A) (hp : PosOp A)
    (b z : Fin n → K) (hz : ∀ i, A z i = b i) (x0 : Option (Fin n → K)) (tol : K) (maxIter : Int) :
    let x := (cgSolve sqrt A b x0 tol maxIter).x
    let start := x0.getD fun _ => 0
    ∑ i, (x i - z i) * A (fun j => x j - z j) i ≤ ∑ i, (start i - z i) * A (fun j => start j - z j) i := by
  simp only [cgSolve]
  generalize hx : (x0.getD fun _ => 0) = x
  by_cases h : dot (fun i => b i - A x i) (fun i => b i - A x i) = 0
  · rw [if_pos h]
  · rw [if_neg h]
    exact cgLoop_energy hA hs hp hz maxIter.toNat 0 x _ _ (fun i => rfl) rfl

end

/-- The 2 by 2 system with matrix `[[2, 1], [1, 2]]`. -/
def demoOp (u : Fin 2 → ℝ) : Fin 2 → ℝ := fun i => if i = 0 then 2 * u 0 + u 1 else u 0 + 2 * u 1

theorem real_root : RootLaw Real.sqrt := fun x hx => ⟨Real.sqrt_nonneg x, Real.mul_self_sqrt hx⟩

theorem demoOp_spd : LinOp demoOp ∧ SymOp demoOp ∧ PosOp demoOp := by
  refine ⟨fun u v a i => ?_, fun u v => ?_, fun u hu => ?_⟩
  · fin_cases i <;> simp [demoOp] <;> ring
  · simp [demoOp, Fin.sum_univ_two]; ring
  · rw [Fin.sum_univ_two]
    simp only [demoOp, if_pos, one_ne_zero, if_false]
    by_contra hc
    have h0 : u 0 * u 0 + u 1 * u 1 + (u 0 + u 1) * (u 0 + u 1) ≤ 0 := by nlinarith
    have h1 : u 0 * u 0 = 0 := by nlinarith [mul_self_nonneg (u 0), mul_self_nonneg (u 1), mul_self_nonneg (u 0 + u 1)]
    have h2 : u 1 * u 1 = 0 := by nlinarith [mul_self_nonneg (u 0), mul_self_nonneg (u 1), mul_self_nonneg (u 0 + u 1)]
    obtain ⟨i, hi⟩ := hu
    fin_cases i
    · exact hi (mul_self_eq_zero.1 h1)
    · exact hi (mul_self_eq_zero.1 h2)

-- the hypotheses hold of a system that is not diagonal, and the solver then returns its solution
example (i : Fin 2) : demoOp (cgSolve Real.sqrt demoOp (fun i => if i = 0 then 3 else 0) none 0 2).x i =
    if i = 0 then 3 else 0 :=
  C101_exact real_root demoOp_spd.1 demoOp_spd.2.1 demoOp_spd.2.2 _ none (by norm_num) i

theorem cgLoop_break {K : Type} [Field K] [LinearOrder K] {n : Nat} {sqrt : K → K} {A : (Fin n → K) → (Fin n → K)}
    {tol : K} {x r p : Fin n → K} {rs : K} (h : dot p (A p) = 0) (fuel k : Nat) :
    cgLoop sqrt A tol fuel k x r p rs = ⟨x, k, sqrt rs, false⟩ := by
  cases fuel with
  | zero => rfl
  | succ fuel => rw [cgLoop]; simp only; rw [if_pos h]

/-- The system `diag(1, -1)`. -/
def flipOp (u : Fin 2 → Rat) : Fin 2 → Rat := fun i => if i = 0 then u 0 else - u 1

/-- **C101**, why the operator has to be positive: on `diag(1, -1)`, with right-hand side `(1, 1)` the solver breaks
down at once and returns the starting vector, whatever `max_iter`; it does not claim convergence. -/
theorem C101_breakdown (sqrt : Rat → Rat) (tol : Rat) (maxIter : Int) :
    let res := cgSolve sqrt flipOp (fun _ => 1) none tol maxIter
    res.converged = false ∧ res.nIter = 0 ∧ (∀ i, res.x i = 0) ∧ ∃ z, ∀ i, flipOp z i = 1 := by
  have e : (fun i : Fin 2 => (1 : Rat) - flipOp (fun _ => 0) i) = fun _ => 1 := by
    funext i; fin_cases i <;> simp [flipOp]
  have hd : dot (fun _ : Fin 2 => (1 : Rat)) (flipOp fun _ => 1) = 0 := by decide +kernel
  have h0 : dot (fun _ : Fin 2 => (1 : Rat)) (fun _ => 1) ≠ 0 := by decide +kernel
  simp only [cgSolve, Option.getD_none]
  rw [e, if_neg h0, cgLoop_break hd]
  exact ⟨rfl, rfl, fun _ => rfl, ⟨fun i => if i = 0 then 1 else -1, fun i => by fin_cases i <;> simp [flipOp]⟩⟩

end ModSSC.Transductive
