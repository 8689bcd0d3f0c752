import Verif.Preprocess.PcaModel
import Verif.Preprocess.PcaSpec
import Verif.ExceptLemmas
import Verif.Graph.KnnLemmas
import Mathlib.Algebra.BigOperators.Ring.Finset
import Mathlib.Algebra.Order.BigOperators.Group.Finset
import Mathlib.Tactic.Linarith
import Mathlib.Tactic.Ring
import Mathlib.Tactic.LinearCombination
import Mathlib.Tactic.FieldSimp

/-!
# PCA and ZCA whitening: theorems
-/

namespace ModSSC.Preprocess.Pca
open ModSSC Spec

variable {K : Type} [Field K] [LinearOrder K] [IsStrictOrderedRing K] {d : Nat}

section lemmas
omit [LinearOrder K] [IsStrictOrderedRing K]

theorem ip_comm (x y : Fin d → K) : ip x y = ip y x := by
  unfold ip; exact Finset.sum_congr rfl fun j _ => mul_comm _ _

theorem ip_sub_smul (u w v : Fin d → K) (c : K) : ip u (fun j => w j - c * v j) = ip u w - c * ip u v := by
  unfold ip
  rw [Finset.mul_sum, ← Finset.sum_sub_distrib]
  exact Finset.sum_congr rfl fun j _ => by ring

theorem sum_map_mul_left' {α : Type} (l : List α) (c : K) (f : α → K) : (l.map fun a => c * f a).sum = c * (l.map f).sum := by
  induction l with
  | nil => simp
  | cons a l ih => simp only [List.map_cons, List.sum_cons, ih]; ring

theorem sum_map_sub' {α : Type} (l : List α) (f g : α → K) :
    (l.map fun a => f a - g a).sum = (l.map f).sum - (l.map g).sum := by
  induction l with
  | nil => simp
  | cons a l ih => simp only [List.map_cons, List.sum_cons, ih]; ring

theorem sum_map_finset {α ι : Type} (l : List α) (s : Finset ι) (f : α → ι → K) :
    (l.map fun a => ∑ i ∈ s, f a i).sum = ∑ i ∈ s, (l.map fun a => f a i).sum := by
  induction l with
  | nil => simp
  | cons a l ih => simp only [List.map_cons, List.sum_cons, ih, Finset.sum_add_distrib]

end lemmas

theorem ip_self_nonneg (x : Fin d → K) : 0 ≤ ip x x := Finset.sum_nonneg fun j _ => mul_self_nonneg (x j)

/-- Bessel's inequality. -/
theorem bessel (vs : List (Fin d → K)) (h : Orthonormal vs) (w : Fin d → K) :
    (vs.map fun v => ip v w * ip v w).sum ≤ ip w w := by
  induction vs generalizing w with
  | nil => simpa using ip_self_nonneg w
  | cons v t ih =>
    have ht : Orthonormal t := ⟨(List.pairwise_cons.mp h.1).2, fun u hu => h.2 u (by simp [hu])⟩
    have hv : ip v v = 1 := h.2 v (by simp)
    let w' : Fin d → K := fun j => w j - ip v w * v j
    have h1 : ∀ u ∈ t, ip u w' = ip u w := by
      intro u hu
      have : ip u v = 0 := by rw [ip_comm]; exact (List.pairwise_cons.mp h.1).1 u hu
      rw [ip_sub_smul, this]; ring
    have h2 : ip w' w' = ip w w - ip v w * ip v w := by
      have e1 : ip w' w' = ip w' w - ip v w * ip w' v := ip_sub_smul _ _ _ _
      have e2 : ip w' w = ip w w - ip v w * ip v w := by
        rw [ip_comm w' w, ip_sub_smul, ip_comm w v]
      have e3 : ip w' v = 0 := by
        rw [ip_comm w' v, ip_sub_smul, hv]; ring
      rw [e1, e2, e3]; ring
    have := ih ht w'
    rw [h2] at this
    rw [List.map_cons, List.sum_cons]
    have e : (t.map fun u => ip u w' * ip u w').sum = (t.map fun u => ip u w * ip u w).sum := by
      congr 1
      exact List.map_congr_left fun u hu => by rw [h1 u hu]
    rw [e] at this
    linarith

/-- Weights between 0 and 1 that sum to at most `k` cannot beat the `k` largest values. -/
theorem weighted_le_take (s : List K) (hs : s.Pairwise (· ≥ ·)) (h0 : ∀ x ∈ s, 0 ≤ x) (p : List K) (hl : p.length = s.length)
    (hp : ∀ x ∈ p, 0 ≤ x ∧ x ≤ 1) (k : Nat) (hk : k ≤ s.length) (hsum : p.sum ≤ (k : K)) :
    ((s.zip p).map fun q => q.1 * q.2).sum ≤ (s.take k).sum := by
  -- a threshold between the two parts
  obtain ⟨t, ht0, ht1, ht2⟩ : ∃ t : K, 0 ≤ t ∧ (∀ x ∈ s.take k, t ≤ x) ∧ ∀ x ∈ s.drop k, x ≤ t := by
    rw [← List.take_append_drop k s, List.pairwise_append] at hs
    cases hd : s.drop k with
    | nil => exact ⟨0, le_refl _, fun x hx => h0 x (List.mem_of_mem_take hx), by simp⟩
    | cons y r =>
      rw [hd] at hs
      refine ⟨y, h0 y (List.mem_of_mem_drop (hd ▸ List.mem_cons_self)), fun x hx => hs.2.2 x hx y (by simp), ?_⟩
      intro x hx
      rcases List.mem_cons.mp hx with rfl | hx
      · exact le_refl _
      · exact (List.pairwise_cons.mp hs.2.1).1 x hx
  have key : ∀ (s p : List K) (k : Nat), p.length = s.length → (∀ x ∈ p, 0 ≤ x ∧ x ≤ 1) →
      (∀ x ∈ s.take k, t ≤ x) → (∀ x ∈ s.drop k, x ≤ t) → k ≤ s.length →
      ((s.zip p).map fun q => q.1 * q.2).sum ≤ (s.take k).sum + t * (p.sum - k) := by
    intro s
    induction s with
    | nil =>
      intro p k hl _ _ _ hk
      have : p = [] := by simpa using hl
      have hk0 : k = 0 := by simpa using hk
      subst this hk0; simp
    | cons a s ih =>
      intro p k hl hp h1 h2 hk
      cases p with
      | nil => simp at hl
      | cons b p =>
        have hb := hp b (by simp)
        cases k with
        | zero =>
          have := ih p 0 (by simpa using hl) (fun x hx => hp x (by simp [hx])) (by simp)
            (fun x hx => h2 x (by simpa using .inr hx)) (by simp)
          have ha : a ≤ t := h2 a (by simp)
          simp only [List.zip_cons_cons, List.map_cons, List.sum_cons, List.take_zero, List.sum_nil, Nat.cast_zero] at this ⊢
          nlinarith [mul_nonneg (sub_nonneg.mpr ha) hb.1]
        | succ k =>
          have := ih p k (by simpa using hl) (fun x hx => hp x (by simp [hx]))
            (fun x hx => h1 x (by simp [hx])) (fun x hx => h2 x (by simpa using hx)) (by simpa using hk)
          have ha : t ≤ a := h1 a (by simp)
          simp only [List.zip_cons_cons, List.map_cons, List.sum_cons, List.take_succ_cons, Nat.cast_succ] at this ⊢
          nlinarith [mul_nonneg (sub_nonneg.mpr ha) (sub_nonneg.mpr hb.2)]
  have := key s p k hl hp ht1 ht2 hk
  have h3 : t * (p.sum - k) ≤ 0 := mul_nonpos_of_nonneg_of_nonpos ht0 (by linarith)
  linarith

omit [LinearOrder K] [IsStrictOrderedRing K] in
theorem sum_swap {α β : Type} (l : List α) (m : List β) (f : α → β → K) :
    (l.map fun a => (m.map fun b => f a b).sum).sum = (m.map fun b => (l.map fun a => f a b).sum).sum := by
  induction l with
  | nil => simp
  | cons a l ih =>
    simp only [List.map_cons, List.sum_cons, ih]
    clear ih
    induction m with
    | nil => simp
    | cons b m ihm => simp only [List.map_cons, List.sum_cons]; linear_combination ihm

omit [LinearOrder K] [IsStrictOrderedRing K] in
theorem zip_map_snd_sum (s : List K) (vt : List (Fin d → K)) (g : (Fin d → K) → K) :
    ((s.zip vt).map fun p => p.1 * g p.2).sum = ((s.zip (vt.map g)).map fun q => q.1 * q.2).sum := by
  rw [List.zip_map_right, List.map_map]; rfl

/-- The first `k` right singular vectors capture at least as much as any `k` orthonormal directions. -/
theorem svd_best (rows vt : List (Fin d → K)) (h : IsRightSvd rows vt) (k : Nat) (hk : k ≤ vt.length) (ws : List (Fin d → K))
    (hw : Orthonormal ws) (hwl : ws.length ≤ k) : captured rows ws ≤ captured rows (vt.take k) := by
  obtain ⟨s, hsl, hs, h0, hv⟩ := h.values
  have hcap : ∀ ws : List (Fin d → K), captured rows ws =
      ((s.zip (vt.map fun v => (ws.map fun w => ip v w * ip v w).sum)).map fun q => q.1 * q.2).sum := by
    intro ws
    unfold captured
    rw [← zip_map_snd_sum s vt fun v => (ws.map fun w => ip v w * ip v w).sum]
    simp only [hv]
    rw [sum_swap]
    congr 1
    refine List.map_congr_left fun p _ => ?_
    exact sum_map_mul_left' ws p.1 _
  -- the singular vectors capture the largest values
  have htake : captured rows (vt.take k) = (s.take k).sum := by
    rw [hcap]
    have hgen : ∀ (vt : List (Fin d → K)) (s : List K) (k : Nat), Orthonormal vt → s.length = vt.length →
        ((s.zip (vt.map fun v => ((vt.take k).map fun w => ip v w * ip v w).sum)).map fun q => q.1 * q.2).sum =
          (s.take k).sum := by
      intro vt
      induction vt with
      | nil => intro s k _ hsl; have : s = [] := by simpa using hsl
               subst this; simp
      | cons v vt ih =>
        intro s k ho hsl
        cases s with
        | nil => simp at hsl
        | cons a s =>
          have hvt : Orthonormal vt := ⟨(List.pairwise_cons.mp ho.1).2, fun u hu => ho.2 u (by simp [hu])⟩
          have hz : ∀ u ∈ vt, ip v u = 0 := (List.pairwise_cons.mp ho.1).1
          have hvv : ip v v = 1 := ho.2 v (by simp)
          cases k with
          | zero =>
            have : ∀ (s : List K) (l : List (Fin d → K)), ((s.zip (l.map fun _ => (0 : K))).map fun q => q.1 * q.2).sum = 0 := by
              intro s; induction s with
              | nil => intro l; simp
              | cons a s ih => intro l; cases l with
                | nil => simp
                | cons b l => rw [List.map_cons, List.zip_cons_cons, List.map_cons, List.sum_cons, ih l]; ring
            exact this (a :: s) (v :: vt)
          | succ k =>
            have e1 : ((vt.take k).map fun w => ip v w * ip v w).sum = 0 := by
              rw [List.map_congr_left (g := fun _ => (0 : K)) (fun u hu => by
                rw [hz u (List.mem_of_mem_take hu)]; ring)]
              simp
            have e2 : (vt.map fun u => (((v :: vt).take (k + 1)).map fun w => ip u w * ip u w).sum) =
                vt.map fun u => ((vt.take k).map fun w => ip u w * ip u w).sum := by
              refine List.map_congr_left fun u hu => ?_
              rw [List.take_succ_cons, List.map_cons, List.sum_cons, ip_comm u v, hz u hu]; ring
            rw [List.map_cons, List.zip_cons_cons, List.map_cons, List.sum_cons, e2, ih s k hvt (by simpa using hsl)]
            simp only [List.take_succ_cons, List.map_cons, List.sum_cons, hvv, e1]
            ring
    exact hgen vt s k h.orthonormal hsl
  rw [htake, hcap]
  refine weighted_le_take s hs h0 _ (by simp [hsl]) ?_ k (by omega) ?_
  · intro x hx
    obtain ⟨v, hv', rfl⟩ := List.mem_map.mp hx
    refine ⟨List.sum_nonneg fun y hy => ?_, ?_⟩
    · obtain ⟨w, -, rfl⟩ := List.mem_map.mp hy
      exact mul_self_nonneg _
    · have := bessel ws hw v
      rw [h.orthonormal.2 v hv'] at this
      refine le_trans (le_of_eq ?_) this
      congr 1
      exact List.map_congr_left fun w _ => by rw [ip_comm v w]
  · rw [sum_swap]
    have : ∀ w ∈ ws, (vt.map fun v => ip v w * ip v w).sum ≤ 1 := by
      intro w hw'
      have := bessel vt h.orthonormal w
      rwa [hw.2 w hw'] at this
    have h2 : (ws.map fun w => (vt.map fun v => ip v w * ip v w).sum).sum ≤ (ws.length : K) := by
      clear hw hwl
      induction ws with
      | nil => simp
      | cons w ws ih =>
        have a := this w (by simp)
        have b := ih (fun u hu => this u (by simp [hu]))
        simp only [List.map_cons, List.sum_cons, List.length_cons, Nat.cast_succ]
        linarith
    exact le_trans h2 (by exact_mod_cast hwl)

/-! ## Missing values -/

omit [LinearOrder K] [IsStrictOrderedRing K] in
theorem sum_fill (X : List (Fin d → Option K)) (imp : Vec K d) (j : Fin d) :
    ((X.map (fill imp)).map fun r => r j).sum =
      (finiteCol X j).sum + ((X.length : K) - ((finiteCol X j).length : K)) * imp j := by
  induction X with
  | nil => simp [finiteCol]
  | cons r X ih =>
    cases hr : r j with
    | none =>
      have e : finiteCol (r :: X) j = finiteCol X j := by simp [finiteCol, hr]
      rw [e, List.map_cons, List.map_cons, List.sum_cons, ih]
      simp only [fill, hr, Option.getD_none, List.length_cons, Nat.cast_succ]
      ring
    | some x =>
      have e : finiteCol (r :: X) j = x :: finiteCol X j := by simp [finiteCol, hr]
      rw [e, List.map_cons, List.map_cons, List.sum_cons, ih]
      simp only [fill, hr, Option.getD_some, List.length_cons, Nat.cast_succ, List.sum_cons]
      ring

theorem imputeOf_average (X : List (Fin d → Option K)) (hne : X ≠ []) (j : Fin d) :
    IsAverage (finiteCol X j) (imputeOf X j) := by
  unfold IsAverage imputeOf
  have hpos : ∀ l : List K, l ≠ [] → (l.length : K) ≠ 0 := fun l hl =>
    Nat.cast_ne_zero.mpr (fun h => hl (List.length_eq_zero_iff.mp h))
  by_cases hall : X.all (fun r => decide (∀ j, (r j).isSome)) = true
  · rw [if_pos hall]
    have hlen : (finiteCol X j).length = X.length := by
      clear hne
      induction X with
      | nil => rfl
      | cons r X ih =>
        simp only [List.all_cons, Bool.and_eq_true, decide_eq_true_eq] at hall
        obtain ⟨x, hx⟩ := Option.isSome_iff_exists.mp (hall.1 j)
        have e : finiteCol (r :: X) j = x :: finiteCol X j := by simp [finiteCol, hx]
        rw [e, List.length_cons, ih hall.2, List.length_cons]
    have hf : finiteCol X j ≠ [] := by
      intro h
      rw [h] at hlen
      exact hne (List.length_eq_zero_iff.mp hlen.symm)
    rw [if_neg hf]
    unfold colMean
    rw [sum_fill, List.length_map, hlen]
    field_simp [hlen ▸ hpos _ hf]
    ring
  · rw [if_neg hall]
    by_cases hf : finiteCol X j = []
    · rw [if_pos hf, if_pos hf]
    · rw [if_neg hf, if_neg hf]
      field_simp [hpos _ hf]

theorem mean_fill (X : List (Fin d → Option K)) (hne : X ≠ []) (imp : Vec K d)
    (h : ∀ j, IsAverage (finiteCol X j) (imp j)) : colMean (X.map (fill imp)) = imp := by
  have hl : (X.length : K) ≠ 0 := Nat.cast_ne_zero.mpr (fun h => hne (List.length_eq_zero_iff.mp h))
  funext j
  unfold colMean
  rw [sum_fill, List.length_map]
  have := h j
  unfold IsAverage at this
  by_cases hf : finiteCol X j = []
  · rw [if_pos hf] at this
    rw [hf, this]; simp
  · rw [if_neg hf] at this
    rw [← this]
    field_simp
    ring

/-! ## The properties -/

omit [IsStrictOrderedRing K] [LinearOrder K] [Field K] in
theorem takeRows_ok {α : Type} (X : List α) (idx : List Nat) (R : List α) :
    takeRows X idx = .ok R ↔ List.Forall₂ (fun i r => X[i]? = some r) idx R := by
  unfold takeRows
  rw [mapM_ok]
  constructor <;> intro h <;> refine h.imp fun i r hr => ?_
  · cases hx : X[i]? with
    | none => simp [hx] at hr
    | some y => simp only [hx, Except.ok.injEq] at hr; rw [hr]
  · simp only [hr]

/-- The rows that are decomposed: missing values replaced by the averages and, if asked for, shifted by them. -/
def Prepared (center : Bool) (impute : Fin d → K) (Xf : List (Fin d → Option K)) : List (Fin d → K) :=
  Xf.map fun r j => (r j).getD (impute j) - if center then impute j else 0

/-- **C122.**  Fitting succeeds exactly when the fit positions lie inside the table and there is one.  What is learned depends
on the fit rows only: the averages of their present values (0 for a column without any); the mean is the same averages when
centering; and `min(max(1, n_components), rows, columns)` orthonormal components, which capture at least as much of the
prepared fit rows (their variance, when centered) as any other orthonormal directions of this number. -/
theorem C122_fit (svd : List (Fin d → K) → List (Fin d → K)) (hsvd : ∀ rows, IsRightSvd rows (svd rows)) (nc : Int)
    (center : Bool) (X : List (Fin d → Option K)) (idx : List Nat) :
    ((∃ T, fit svd nc center X idx = .ok T) ↔ idx ≠ [] ∧ ∀ i ∈ idx, i < X.length) ∧
    ∀ T, fit svd nc center X idx = .ok T → ∃ Xf, List.Forall₂ (fun i r => X[i]? = some r) idx Xf ∧
      (∀ j, IsAverage (Xf.filterMap fun r => r j) (T.impute j)) ∧
      (∀ j, T.mean j = if center then T.impute j else 0) ∧
      Orthonormal T.comps ∧ T.comps.length = min (max 1 nc).toNat (min idx.length d) ∧
      ∀ ws, Orthonormal ws → ws.length ≤ T.comps.length →
        captured (Prepared center T.impute Xf) ws ≤ captured (Prepared center T.impute Xf) T.comps := by
  have hres : ∀ Xf, takeRows X idx = .ok Xf → Xf ≠ [] → fit svd nc center X idx = .ok
      ⟨if center then colMean (Xf.map (fill (imputeOf Xf))) else fun _ => 0,
       (svd (Prepared center (imputeOf Xf) Xf)).take
        (max 1 (min nc (min ((svd (Prepared center (imputeOf Xf) Xf)).length : Int) d))).toNat, imputeOf Xf⟩ := by
    intro Xf h hne
    unfold fit
    rw [ebind_of_ok h]
    have hl : Xf.length ≠ 0 := by simpa using hne
    rw [if_neg hl]
    have e : (if center = true then (Xf.map (fill (imputeOf Xf))).map
        (fun r j => r j - (if center = true then colMean (Xf.map (fill (imputeOf Xf))) else fun _ => 0) j)
        else Xf.map (fill (imputeOf Xf))) = Prepared center (imputeOf Xf) Xf := by
      unfold Prepared
      cases center with
      | true =>
        simp only [if_true]
        rw [mean_fill Xf hne _ (imputeOf_average Xf hne), List.map_map]
        rfl
      | false =>
        simp only [Bool.false_eq_true, if_false]
        refine List.map_congr_left fun r _ => ?_
        funext j
        rw [sub_zero]
        rfl
    simp only [e]
    rfl
  constructor
  · constructor
    · rintro ⟨T, hT⟩
      unfold fit at hT
      rw [ebind_ok] at hT
      obtain ⟨Xf, h1, h2⟩ := hT
      have hf := (takeRows_ok X idx Xf).mp h1
      constructor
      · rintro rfl
        have : Xf = [] := by simpa using hf
        subst this
        simp [throw, throwThe, MonadExceptOf.throw] at h2
      · intro i hi
        obtain ⟨t, ht, rfl⟩ := List.getElem_of_mem hi
        have := List.forall₂_iff_get.mp hf
        have h3 := this.2 t ht (by omega)
        simp only [List.get_eq_getElem] at h3
        exact (List.getElem?_eq_some_iff.mp h3).1
    · rintro ⟨h1, h2⟩
      obtain ⟨Xf, hXf⟩ : ∃ Xf, takeRows X idx = .ok Xf := by
        unfold takeRows
        refine mapM_total fun i hi => ⟨X[i]'(h2 i hi), ?_⟩
        simp [List.getElem?_eq_getElem (h2 i hi)]
      refine ⟨_, hres Xf hXf ?_⟩
      rintro rfl
      have := ((takeRows_ok X idx []).mp hXf).length_eq
      exact h1 (List.length_eq_zero_iff.mp this)
  · intro T hT
    obtain ⟨Xf, hXf, h2⟩ := ebind_ok.mp hT
    have hne : Xf ≠ [] := by
      rintro rfl
      simp [throw, throwThe, MonadExceptOf.throw] at h2
    have hf := (takeRows_ok X idx Xf).mp hXf
    rw [hres Xf hXf hne] at hT
    injection hT with hT
    subst hT
    have hS := hsvd (Prepared center (imputeOf Xf) Xf)
    have hPl : (Prepared center (imputeOf Xf) Xf).length = idx.length := by
      rw [hf.length_eq]; simp [Prepared]
    have hvl := hS.length
    rw [hPl] at hvl
    refine ⟨Xf, hf, imputeOf_average Xf hne, ?_, ?_, ?_, ?_⟩
    · intro j
      cases center with
      | true =>
        simp only [if_true]
        rw [mean_fill Xf hne _ (imputeOf_average Xf hne)]
      | false => rfl
    · exact ⟨hS.orthonormal.1.sublist (List.take_sublist _ _), fun v hv => hS.orthonormal.2 v (List.mem_of_mem_take hv)⟩
    · simp only [List.length_take]
      have : 0 < idx.length := by rw [hf.length_eq]; exact List.length_pos_iff.mpr hne
      omega
    · intro ws hw hwl
      simp only [List.length_take] at hwl ⊢
      set k := (max 1 (min nc (min ((svd (Prepared center (imputeOf Xf) Xf)).length : Int) d))).toNat
      have e : (svd (Prepared center (imputeOf Xf) Xf)).take k = (svd (Prepared center (imputeOf Xf) Xf)).take
          (min k (svd (Prepared center (imputeOf Xf) Xf)).length) := by
        rw [List.take_eq_take_iff]
        omega
      rw [e]
      exact svd_best _ _ hS _ (by omega) ws hw hwl

omit [IsStrictOrderedRing K] [LinearOrder K] in
theorem transform_eq (center : Bool) (T : Fitted K d) (X : List (Fin d → Option K)) :
    transform center T X = X.map (project center T) := by
  have h := Graph.chunks_flatMap (fun i => (X[i]?).toList.map (project center T)) X.length 8192 (by decide)
  have e1 : ∀ c ∈ Graph.chunks X.length 8192, Graph.chunkRows (fun i => (X[i]?).toList.map (project center T)) c =
      ((X.drop c.1).take (c.2 - c.1)).map (project center T) := by
    intro c hc
    unfold Graph.chunkRows
    have hbound : c.2 ≤ X.length := by
      unfold Graph.chunks at hc
      obtain ⟨t, -, rfl⟩ := List.mem_map.mp hc
      simp only
      omega
    have : ∀ n, c.1 + n ≤ X.length → ((List.range n).map (fun t => c.1 + t)).flatMap
        (fun i => (X[i]?).toList.map (project center T)) = ((X.drop c.1).take n).map (project center T) := by
      intro n
      induction n with
      | zero => intro _; simp
      | succ n ih =>
        intro hn
        rw [List.range_succ, List.map_append, List.flatMap_append, ih (by omega), List.take_add_one, List.map_append]
        congr 1
        simp [List.getElem?_drop]
    by_cases hle : c.1 ≤ c.2
    · exact this _ (by omega)
    · have : c.2 - c.1 = 0 := by omega
      rw [this]; simp
  unfold transform
  rw [← List.flatMap_congr e1]
  rw [h]
  clear h e1
  induction X using List.reverseRecOn with
  | nil => rfl
  | append_singleton X r ih =>
    rw [List.length_append, List.length_singleton, List.range_succ, List.flatMap_append, List.map_append]
    congr 1
    · rw [← ih]
      refine List.flatMap_congr fun i hi => ?_
      have : i < X.length := by simpa using hi
      rw [List.getElem?_append_left this]
    · simp

omit [IsStrictOrderedRing K] [LinearOrder K] in
/-- **C122.**  A fitted PCA maps every row of any table on its own.  Coordinate `c` is the sum over the present values of their
distance from the mean, times the entry of component `c`; when centering, a missing value contributes nothing. -/
theorem C122_transform (center : Bool) (T : Fitted K d) (hT : ∀ j, T.mean j = if center then T.impute j else 0)
    (X : List (Fin d → Option K)) :
    transform center T X = X.map fun r => T.comps.map fun v =>
      ∑ j, match r j with
        | some x => (x - T.mean j) * v j
        | none => if center then 0 else T.impute j * v j := by
  rw [transform_eq]
  refine List.map_congr_left fun r _ => List.map_congr_left fun v _ => Finset.sum_congr rfl fun j _ => ?_
  cases center with
  | true =>
    have h := hT j
    simp only [if_true] at h
    cases hr : r j with
    | none => simp [fill, hr, h]
    | some x => simp [fill, hr]
  | false =>
    have h := hT j
    simp only [Bool.false_eq_true, if_false] at h
    cases hr : r j with
    | none => simp [fill, hr]
    | some x => simp [fill, hr, h]

/-! ## Whitening -/

section zca
variable {X : List (Fin d → K)} {C : Fin d → Fin d → K} {s : Fin d → K} {u : Fin d → Fin d → K}

omit [LinearOrder K] [IsStrictOrderedRing K] in
/-- Coordinates with respect to the eigenvectors are uncorrelated. -/
theorem eigen_uncorrelated (Y : List (Fin d → K)) (hC : ∀ a b, C a b * (Y.length : K) = (Y.map fun r => r a * r b).sum)
    (h : IsEigen C s u) (i j : Fin d) :
    (Y.map fun r => (∑ a, r a * u a i) * (∑ b, r b * u b j)).sum = if i = j then s i * (Y.length : K) else 0 := by
  have e1 : (Y.map fun r => (∑ a, r a * u a i) * (∑ b, r b * u b j)).sum =
      ∑ a, ∑ b, u a i * u b j * (Y.map fun r => r a * r b).sum := by
    have : ∀ r : Fin d → K, (∑ a, r a * u a i) * (∑ b, r b * u b j) = ∑ a, ∑ b, u a i * u b j * (r a * r b) := by
      intro r
      rw [Finset.sum_mul_sum]
      exact Finset.sum_congr rfl fun a _ => Finset.sum_congr rfl fun b _ => by ring
    simp only [this]
    rw [sum_map_finset]
    refine Finset.sum_congr rfl fun a _ => ?_
    rw [sum_map_finset]
    exact Finset.sum_congr rfl fun b _ => sum_map_mul_left' _ _ _
  rw [e1]
  have e2 : ∀ a b, u a i * u b j * (Y.map fun r => r a * r b).sum =
      ∑ k, (Y.length : K) * s k * ((u a i * u a k) * (u b j * u b k)) := by
    intro a b
    rw [← hC, h.decomp, Finset.sum_mul, Finset.mul_sum]
    exact Finset.sum_congr rfl fun k _ => by ring
  simp only [e2]
  have e3 : (∑ a, ∑ b, ∑ k, (Y.length : K) * s k * ((u a i * u a k) * (u b j * u b k))) =
      ∑ k, (Y.length : K) * s k * ((∑ a, u a i * u a k) * (∑ b, u b j * u b k)) := by
    have : ∀ k, (Y.length : K) * s k * ((∑ a, u a i * u a k) * (∑ b, u b j * u b k)) =
        ∑ a, ∑ b, (Y.length : K) * s k * ((u a i * u a k) * (u b j * u b k)) := by
      intro k
      rw [Finset.sum_mul_sum, Finset.mul_sum]
      exact Finset.sum_congr rfl fun a _ => by rw [Finset.mul_sum]
    simp only [this]
    exact (Finset.sum_congr rfl fun a _ => Finset.sum_comm).trans Finset.sum_comm
  rw [e3]
  simp only [h.orth]
  by_cases hij : i = j
  · subst hij
    rw [if_pos rfl, Finset.sum_eq_single i]
    · simp; ring
    · intro k _ hk; simp [Ne.symm hk]
    · simp
  · rw [if_neg hij]
    refine Finset.sum_eq_zero fun k _ => ?_
    by_cases hk : i = k
    · subst hk; simp [Ne.symm hij]
    · simp [hk]

theorem eigen_nonneg (Y : List (Fin d → K)) (hne : Y ≠ [])
    (hC : ∀ a b, C a b * (Y.length : K) = (Y.map fun r => r a * r b).sum) (h : IsEigen C s u) (j : Fin d) : 0 ≤ s j := by
  have h1 := eigen_uncorrelated Y hC h j j
  rw [if_pos rfl] at h1
  have h2 : 0 ≤ (Y.map fun r => (∑ a, r a * u a j) * (∑ b, r b * u b j)).sum := by
    refine List.sum_nonneg fun y hy => ?_
    obtain ⟨r, -, rfl⟩ := List.mem_map.mp hy
    exact mul_self_nonneg _
  have h3 : (0 : K) < (Y.length : K) := Nat.cast_pos.mpr (List.length_pos_iff.mpr hne)
  rw [h1] at h2
  exact nonneg_of_mul_nonneg_left h2 h3

/-- **C123.**  ZCA whitening fits exactly when the fit positions lie inside the table, there is one and the samples are not too
large.  It learns the mean `m` of the fit rows and a symmetric matrix; when `s` and `u` are the eigenvalues and eigenvectors of
the covariance of the fit rows, the whitened fit rows have mean 0 and the same eigenvectors, with each eigenvalue `s` replaced
by `s / (s + eps)`. -/
theorem C123_whiten (sqrt : K → K) (hsq : ∀ x, 0 < x → 0 < sqrt x ∧ sqrt x * sqrt x = x)
    (eigh : (Fin d → Fin d → K) → (Fin d → K) × (Fin d → Fin d → K))
    (heig : ∀ C, (∀ a b, C a b = C b a) → IsEigen C (eigh C).1 (eigh C).2) (eps : K) (heps : 0 < eps) (maxF : Int)
    (X : List (Fin d → K)) (idx : List Nat) :
    ((∃ T, zcaFit sqrt eigh eps maxF X idx = .ok T) ↔ idx ≠ [] ∧ (∀ i ∈ idx, i < X.length) ∧ (d : Int) ≤ maxF) ∧
    ∀ T, zcaFit sqrt eigh eps maxF X idx = .ok T → ∃ Xf, List.Forall₂ (fun i r => X[i]? = some r) idx Xf ∧
      IsMean Xf T.mean ∧ (∀ a b, T.W a b = T.W b a) ∧
      ∃ C s u, IsCov Xf T.mean C ∧ IsEigen C s u ∧ (∀ j, 0 ≤ s j) ∧
        IsMean (zcaTransform T Xf) (fun _ => 0) ∧
        ∃ D, IsCov (zcaTransform T Xf) (fun _ => 0) D ∧ IsEigen D (fun j => s j / (s j + eps)) u := by
  constructor
  · constructor
    · rintro ⟨T, hT⟩
      unfold zcaFit at hT
      obtain ⟨Xf, h1, h2⟩ := ebind_ok.mp hT
      have hf := (takeRows_ok X idx Xf).mp h1
      refine ⟨?_, ?_, ?_⟩
      · rintro rfl
        have : Xf = [] := by simpa using hf
        subst this
        rw [if_pos List.length_nil] at h2
        cases h2
      · intro i hi
        obtain ⟨t, ht, rfl⟩ := List.getElem_of_mem hi
        have := List.forall₂_iff_get.mp hf
        have h3 := this.2 t ht (by omega)
        simp only [List.get_eq_getElem] at h3
        exact (List.getElem?_eq_some_iff.mp h3).1
      · by_contra hd
        by_cases h0 : Xf.length = 0
        · rw [if_pos h0] at h2
          cases h2
        · rw [if_neg h0] at h2
          rw [if_pos (by omega)] at h2
          cases h2
    · rintro ⟨h1, h2, h3⟩
      obtain ⟨Xf, hXf⟩ : ∃ Xf, takeRows X idx = .ok Xf := by
        unfold takeRows
        refine mapM_total fun i hi => ⟨X[i]'(h2 i hi), ?_⟩
        simp [List.getElem?_eq_getElem (h2 i hi)]
      have hl : Xf.length ≠ 0 := by
        rw [← ((takeRows_ok X idx Xf).mp hXf).length_eq]
        simpa using h1
      refine ⟨⟨colMean Xf, whitener sqrt eps (eigh (cov (Xf.map fun r j => r j - colMean Xf j))).1
        (eigh (cov (Xf.map fun r j => r j - colMean Xf j))).2⟩, ?_⟩
      unfold zcaFit
      rw [ebind_of_ok hXf, if_neg hl, if_neg (by omega)]
      rfl
  · intro T hT
    obtain ⟨Xf, hXf, h2⟩ := ebind_ok.mp hT
    have hf := (takeRows_ok X idx Xf).mp hXf
    have hl : Xf.length ≠ 0 := by
      intro h0
      rw [if_pos h0] at h2
      cases h2
    have hd : ¬ (d : Int) > maxF := by
      intro hd
      rw [if_neg hl, if_pos hd] at h2
      cases h2
    rw [if_neg hl, if_neg hd] at h2
    have hlK : (Xf.length : K) ≠ 0 := Nat.cast_ne_zero.mpr hl
    set mu := colMean Xf with hmu
    set Xc := Xf.map fun r j => r j - mu j with hXc
    have hXcl : Xc.length = Xf.length := by simp [hXc]
    clear_value Xc
    have hT' : T = ⟨mu, whitener sqrt eps (eigh (cov Xc)).1 (eigh (cov Xc)).2⟩ := by
      injection h2 with h2; rw [hXc]; exact h2.symm
    subst hT'
    have hmean : IsMean Xf mu := by
      intro j
      simp only [hmu, colMean]
      field_simp
    have hcov : ∀ a b, cov Xc a b * (Xc.length : K) = (Xc.map fun r => r a * r b).sum := by
      intro a b
      unfold cov
      rw [show max 1 Xc.length = Xc.length by omega, hXcl]
      field_simp
    have hE := heig (cov Xc) (by
      intro a b
      unfold cov
      congr 2
      exact List.map_congr_left fun r _ => mul_comm _ _)
    set s := (eigh (cov Xc)).1 with hs
    set u := (eigh (cov Xc)).2 with hu
    have hs0 : ∀ j, 0 ≤ s j := eigen_nonneg Xc (by
      intro h; rw [h] at hXcl; exact hl hXcl.symm) hcov hE
    have hinv : ∀ j, (1 / sqrt (max (s j) 0 + eps)) * (1 / sqrt (max (s j) 0 + eps)) = 1 / (s j + eps) := by
      intro j
      rw [max_eq_left (hs0 j)]
      obtain ⟨a, b⟩ := hsq (s j + eps) (by have := hs0 j; linarith)
      rw [div_mul_div_comm, b, one_mul]
    -- whitened rows in terms of the coordinates
    have hout : zcaTransform ⟨mu, whitener sqrt eps s u⟩ Xf =
        Xc.map fun r b => ∑ j, (1 / sqrt (max (s j) 0 + eps)) * (∑ a, r a * u a j) * u b j := by
      rw [hXc, List.map_map]
      refine List.map_congr_left fun r _ => ?_
      funext b
      simp only [Function.comp, whitener]
      have : ∀ a, (r a - mu a) * ∑ j, u a j * (1 / sqrt (max (s j) 0 + eps)) * u b j =
          ∑ j, (1 / sqrt (max (s j) 0 + eps)) * ((r a - mu a) * u a j) * u b j := by
        intro a
        rw [Finset.mul_sum]
        exact Finset.sum_congr rfl fun j _ => by ring
      simp only [this]
      rw [Finset.sum_comm]
      refine Finset.sum_congr rfl fun j _ => ?_
      rw [← Finset.sum_mul, ← Finset.mul_sum]
    have houtl : (zcaTransform ⟨mu, whitener sqrt eps s u⟩ Xf).length = Xc.length := by rw [hout]; simp
    refine ⟨Xf, hf, hmean, ?_, cov Xc, s, u, ?_, hE, hs0, ?_, ?_⟩
    · intro a b
      simp only [whitener]
      exact Finset.sum_congr rfl fun j _ => by ring
    · intro a b
      rw [← hXcl, hcov, hXc, List.map_map]
      rfl
    · intro b
      rw [hout, List.map_map, zero_mul]
      simp only [Function.comp_def]
      rw [sum_map_finset]
      refine (Finset.sum_eq_zero fun j _ => ?_).symm
      have e : (Xc.map fun r => (1 / sqrt (max (s j) 0 + eps)) * (∑ a, r a * u a j) * u b j).sum =
          ((1 / sqrt (max (s j) 0 + eps)) * u b j) * (Xc.map fun r => ∑ a, r a * u a j).sum := by
        rw [← sum_map_mul_left']
        congr 1
        exact List.map_congr_left fun r _ => by ring
      rw [e, sum_map_finset]
      refine mul_eq_zero_of_right _ (Finset.sum_eq_zero fun a _ => ?_)
      have e2 : (Xc.map fun r => r a * u a j).sum = u a j * (Xc.map fun r => r a).sum := by
        rw [← sum_map_mul_left']
        congr 1
        exact List.map_congr_left fun r _ => mul_comm _ _
      rw [e2, hXc, List.map_map]
      refine mul_eq_zero_of_right _ ?_
      show (Xf.map fun r => r a - mu a).sum = 0
      rw [sum_map_sub', ← hmean a]
      simp [mul_comm]
    · refine ⟨fun a b => ∑ j, s j / (s j + eps) * (u a j * u b j), ?_, hE.orth, fun a b => rfl⟩
      intro a b
      rw [houtl, hout, List.map_map]
      simp only [Function.comp_def, sub_zero]
      have e1 : ∀ r : Fin d → K, (∑ j, (1 / sqrt (max (s j) 0 + eps)) * (∑ c, r c * u c j) * u a j) *
          (∑ j, (1 / sqrt (max (s j) 0 + eps)) * (∑ c, r c * u c j) * u b j) =
          ∑ i, ∑ j, ((1 / sqrt (max (s i) 0 + eps)) * (1 / sqrt (max (s j) 0 + eps)) * u a i * u b j) *
            ((∑ c, r c * u c i) * (∑ c, r c * u c j)) := by
        intro r
        rw [Finset.sum_mul_sum]
        exact Finset.sum_congr rfl fun i _ => Finset.sum_congr rfl fun j _ => by ring
      simp only [e1]
      rw [sum_map_finset, Finset.sum_mul]
      refine Finset.sum_congr rfl fun i _ => ?_
      rw [sum_map_finset, Finset.sum_eq_single i]
      · rw [sum_map_mul_left', eigen_uncorrelated Xc hcov hE, if_pos rfl, hinv]
        ring
      · intro j _ hj
        rw [sum_map_mul_left', eigen_uncorrelated Xc hcov hE, if_neg (Ne.symm hj), mul_zero]
      · simp
end zca

/-! ## Examples -/

/-- A table with a missing value in every column and a row outside the fit rows. -/
def demoTable : List (Fin 2 → Option Rat) := [![some 1, some 0], ![none, some 0], ![some 3, none], ![some 100, some 7]]

/-- The decomposition of rows that vary in the first column only. -/
def demoSvd (rows : List (Fin 2 → Rat)) : List (Fin 2 → Rat) := [![1, 0], ![0, 1]].take (min rows.length 2)

example : ((fit demoSvd 1 true demoTable [0, 1, 2]).toOption.map fun T =>
    ((T.mean 0, T.mean 1), (transform true T demoTable))) = some ((2, 0), [[-1], [0], [1], [98]]) := by decide +kernel

/-- The contract is met on the prepared rows of the example: squared singular values 2 and 0. -/
example : IsRightSvd (Prepared true (![2, 0] : Fin 2 → Rat) (demoTable.take 3))
    (demoSvd (Prepared true ![2, 0] (demoTable.take 3))) := by
  refine ⟨by decide +kernel, ⟨?_, ?_⟩, [2, 0], by decide +kernel, by decide +kernel, by decide +kernel, ?_⟩
  · simp [demoSvd, Prepared, demoTable, ip]
  · simp [demoSvd, Prepared, demoTable, ip]
  · intro w
    simp [demoSvd, Prepared, demoTable, ip]
    ring

example : (fit demoSvd 1 true demoTable ([] : List Nat)).toOption.isNone ∧
    (fit demoSvd 1 true demoTable [4]).toOption.isNone := by decide +kernel

/-- The covariance of the rows `(2, 0), (-2, 0), (0, 1), (0, -1)` is diagonal with entries 2 and 1/2. -/
example : IsEigen (cov ([![2, 0], ![-2, 0], ![0, 1], ![0, -1]] : List (Fin 2 → Rat))) ![2, 1/2] (fun a b => if a = b then 1 else 0) :=
  ⟨by decide +kernel, by decide +kernel⟩

end ModSSC.Preprocess.Pca
