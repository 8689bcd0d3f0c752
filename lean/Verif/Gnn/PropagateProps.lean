import Verif.Gnn.PrepProps
import Mathlib.RingTheory.Polynomial.Chebyshev
import Mathlib.Data.Matrix.Basic
import Mathlib.Tactic.NoncommRing

/-!
# How the GNN methods propagate features (C138)
-/

namespace ModSSC.Gnn
open ModSSC ModSSC.Transductive ModSSC.Gnn.Spec

variable {K : Type} [Field K] [LinearOrder K]

/-- C138: `k` rounds of SGC or GRAND multiply the features with the `k`-th power of the adjacency matrix. -/
theorem C138_power (n m : Nat) (es : List (WEdge K)) (h : InRange n es) (k : Nat) (X : Feat K) :
    fmat n m (propagate es k X) = mat n es ^ k * fmat n m X := by
  induction k generalizing X with
  | zero => simp [propagate]
  | succ k ih => rw [propagate, ih, C137_spmm n m es h, pow_succ, Matrix.mul_assoc]

/-- Only the rows in range matter for a product. -/
theorem spmm_congr {n : Nat} {es : List (WEdge K)} (h : InRange n es) {X Y : Feat K} {c : Nat} (hXY : ∀ s < n, X s c = Y s c)
    (i : Nat) : spmm es X i c = spmm es Y i c := by
  unfold spmm
  congr 1
  refine List.map_congr_left fun e he => ?_
  rw [hXY e.src (h e (List.mem_filter.mp he).1).1]

theorem spmm_sub (es : List (WEdge K)) (X Y : Feat K) (i c : Nat) :
    spmm es (fun i c => X i c - Y i c) i c = spmm es X i c - spmm es Y i c := by
  unfold spmm
  induction es with
  | nil => simp
  | cons e es ih =>
    rw [List.filter_cons]
    split
    · simp only [List.map_cons, List.sum_cons, ih]; ring
    · exact ih

/-- One round of APPNP. -/
def appnpStep (es : List (WEdge K)) (alpha : K) (h0 h : Feat K) : Feat K :=
  fun i c => (1 - alpha) * spmm es h i c + alpha * h0 i c

theorem appnpLoop_succ (es : List (WEdge K)) (alpha : K) (h0 : Feat K) (k : Nat) (h : Feat K) :
    appnpLoop es alpha h0 (k + 1) h = appnpStep es alpha h0 (appnpLoop es alpha h0 k h) := by
  induction k generalizing h with
  | zero => rfl
  | succ k ih => rw [appnpLoop, ih]; rfl

theorem fmat_step (n m : Nat) (es : List (WEdge K)) (hr : InRange n es) (alpha : K) (h0 h : Feat K) :
    fmat n m (appnpStep es alpha h0 h) = (1 - alpha) • (mat n es * fmat n m h) + alpha • fmat n m h0 := by
  rw [← C137_spmm n m es hr]
  ext i c
  simp [fmat, appnpStep]

/-- C138: `k` rounds of APPNP give the truncated personalised PageRank: the series of the powers of the adjacency matrix
with weights `alpha (1 - alpha)^i`, the rest of the weight on the last power. -/
theorem C138_appnp_series (n m : Nat) (es : List (WEdge K)) (hr : InRange n es) (alpha : K) (k : Nat) (H : Feat K) :
    fmat n m (appnp es alpha k H) =
      (1 - alpha) ^ k • (mat n es ^ k * fmat n m H) +
        alpha • ∑ i ∈ Finset.range k, (1 - alpha) ^ i • (mat n es ^ i * fmat n m H) := by
  unfold appnp
  induction k with
  | zero => simp [appnpLoop]
  | succ k ih =>
    rw [appnpLoop_succ, fmat_step n m es hr, ih, Finset.sum_range_succ', Matrix.mul_add, Matrix.mul_smul, Matrix.mul_smul,
      Matrix.mul_sum, ← Matrix.mul_assoc, ← pow_succ', smul_add, smul_smul, ← pow_succ', smul_smul, mul_comm (1 - alpha) alpha,
      ← smul_smul, Finset.smul_sum, smul_add]
    simp only [Matrix.mul_smul, smul_smul, ← pow_succ', ← Matrix.mul_assoc, pow_zero, Matrix.one_mul, one_smul]
    rw [add_assoc]

variable [IsStrictOrderedRing K]

/-- C138: with symmetric weights on an undirected graph without negative weights, no number of rounds of SGC makes a feature
column longer. -/
theorem C138_contraction (n : Nat) (sqrt : K → K) (hs : SqrtLaw sqrt) (eps : K) (heps : 0 < eps) (es : List (WEdge K))
    (h : InRange n es) (hw : Nonneg es) (hu : Undirected es) (k : Nat) (X : Feat K) (c : Nat) :
    colSq n (propagate (normalize sqrt eps .sym es) k X) c ≤ colSq n X c := by
  induction k generalizing X with
  | zero => exact le_refl _
  | succ k ih => exact le_trans (ih _) (C137_contraction n sqrt hs eps heps es h hw hu X c)

/-- C138: with random-walk weights (GRAND), no number of rounds leaves the range of the original values. -/
theorem C138_range (n : Nat) (sqrt : K → K) (eps : K) (heps : 0 < eps) (es : List (WEdge K)) (h : InRange n es)
    (hw : Nonneg es) (hd : ∀ d < n, eps ≤ deg n es d) (k : Nat) (X : Feat K) (c : Nat) (lo hi : K)
    (hX : Within n X c lo hi) : Within n (propagate (normalize sqrt eps .rw es) k X) c lo hi := by
  induction k generalizing X with
  | zero => exact hX
  | succ k ih => exact ih _ (C137_rw_range n sqrt eps heps es h hw hd X c lo hi hX)

theorem colSq_scale (n : Nat) (a : K) (X : Feat K) (c : Nat) : colSq n (fun i c => a * X i c) c = a ^ 2 * colSq n X c := by
  unfold colSq
  rw [Finset.mul_sum]
  exact Finset.sum_congr rfl fun i _ => by ring

/-- C138: APPNP approaches the solution of the PageRank equation geometrically: every round multiplies the squared distance
of every column with at most `(1 - alpha)^2`. -/
theorem C138_appnp_converges (n : Nat) (sqrt : K → K) (hs : SqrtLaw sqrt) (eps : K) (heps : 0 < eps) (es : List (WEdge K))
    (h : InRange n es) (hw : Nonneg es) (hu : Undirected es) (alpha : K) (H Z : Feat K) (c : Nat)
    (hZ : ∀ i < n, Z i c = (1 - alpha) * spmm (normalize sqrt eps .sym es) Z i c + alpha * H i c) (k : Nat) :
    colSq n (fun i c => appnp (normalize sqrt eps .sym es) alpha k H i c - Z i c) c ≤
      ((1 - alpha) ^ 2) ^ k * colSq n (fun i c => H i c - Z i c) c := by
  unfold appnp
  induction k with
  | zero => simp [appnpLoop]
  | succ k ih =>
    set es' := normalize sqrt eps .sym es with hes'
    have hstep : colSq n (fun i c => appnpLoop es' alpha H (k + 1) H i c - Z i c) c =
        colSq n (fun i c => (1 - alpha) * spmm es' (fun i c => appnpLoop es' alpha H k H i c - Z i c) i c) c := by
      unfold colSq
      refine Finset.sum_congr rfl fun i hi => ?_
      simp only
      rw [hZ i (Finset.mem_range.mp hi), appnpLoop_succ, spmm_sub]
      unfold appnpStep
      ring
    rw [hstep, colSq_scale, pow_succ' ((1 - alpha) ^ 2) k, mul_assoc]
    refine mul_le_mul_of_nonneg_left ?_ (sq_nonneg (1 - alpha))
    exact le_trans (C137_contraction n sqrt hs eps heps es h hw hu _ c) ih

/-- The two squares of a mix. -/
theorem mix_sq (a x y : K) (h0 : 0 ≤ a) (h1 : a ≤ 1) : ((1 - a) * x + a * y) ^ 2 ≤ (1 - a) * x ^ 2 + a * y ^ 2 := by
  nlinarith [mul_nonneg (mul_nonneg h0 (sub_nonneg.mpr h1)) (sq_nonneg (x - y))]

theorem colSq_mix (n : Nat) (a : K) (h0 : 0 ≤ a) (h1 : a ≤ 1) (X Y : Feat K) (c : Nat) :
    colSq n (fun i c => (1 - a) * X i c + a * Y i c) c ≤ (1 - a) * colSq n X c + a * colSq n Y c := by
  unfold colSq
  rw [Finset.mul_sum, Finset.mul_sum, ← Finset.sum_add_distrib]
  exact Finset.sum_le_sum fun i _ => mix_sq a _ _ h0 h1

/-- C138: APPNP never makes a column longer than the network's output, and the propagation of GCNII never longer than the
mix of its two inputs. -/
theorem C138_mix_bound (n : Nat) (sqrt : K → K) (hs : SqrtLaw sqrt) (eps : K) (heps : 0 < eps) (es : List (WEdge K))
    (h : InRange n es) (hw : Nonneg es) (hu : Undirected es) (alpha : K) (h0 : 0 ≤ alpha) (h1 : alpha ≤ 1) (c : Nat) :
    (∀ (k : Nat) (H : Feat K), colSq n (appnp (normalize sqrt eps .sym es) alpha k H) c ≤ colSq n H c) ∧
    ∀ X0 X : Feat K, colSq n (gcniiMix (normalize sqrt eps .sym es) alpha X0 X) c ≤ (1 - alpha) * colSq n X c + alpha * colSq n X0 c := by
  have hmix : ∀ X0 X : Feat K, colSq n (fun i c => (1 - alpha) * spmm (normalize sqrt eps .sym es) X i c + alpha * X0 i c) c ≤
      (1 - alpha) * colSq n X c + alpha * colSq n X0 c := by
    intro X0 X
    refine le_trans (colSq_mix n alpha h0 h1 (spmm (normalize sqrt eps .sym es) X) X0 c) ?_
    have := mul_le_mul_of_nonneg_left (C137_contraction n sqrt hs eps heps es h hw hu X c) (sub_nonneg.mpr h1)
    linarith
  refine ⟨?_, hmix⟩
  intro k H
  unfold appnp
  induction k with
  | zero => exact le_refl _
  | succ k ih =>
    rw [appnpLoop_succ]
    refine le_trans (hmix H _) ?_
    have := mul_le_mul_of_nonneg_left ih (sub_nonneg.mpr h1)
    linarith

omit [IsStrictOrderedRing K]

/-! ### ChebNet -/

theorem fmat_lap (n m : Nat) (es : List (WEdge K)) (h : InRange n es) (X : Feat K) :
    fmat n m (lapOp es X) = -mat n es * fmat n m X := by
  rw [Matrix.neg_mul, ← C137_spmm n m es h]
  ext i c
  simp [fmat, lapOp]

/-- The Chebyshev polynomial of degree `k` at minus the adjacency matrix. -/
noncomputable def chebAt (n : Nat) (es : List (WEdge K)) (k : Nat) : Matrix (Fin n) (Fin n) K :=
  Polynomial.aeval (-mat n es) (Polynomial.Chebyshev.T K k)

theorem chebAt_add_two (n : Nat) (es : List (WEdge K)) (k : Nat) :
    chebAt n es (k + 2) = (2 : K) • (-mat n es * chebAt n es (k + 1)) - chebAt n es k := by
  unfold chebAt
  push_cast
  rw [Polynomial.Chebyshev.T_add_two, map_sub, map_mul, map_mul, Polynomial.aeval_X, map_ofNat, ofNat_smul_eq_nsmul, nsmul_eq_mul]
  push_cast
  rw [mul_assoc]

theorem chebLoop_terms (n m : Nat) (es : List (WEdge K)) (h : InRange n es) (X : Feat K) (k j : Nat) (t0 t1 : Feat K)
    (h0 : fmat n m t0 = chebAt n es j * fmat n m X) (h1 : fmat n m t1 = chebAt n es (j + 1) * fmat n m X)
    (i : Nat) (T : Feat K) (hT : (chebLoop es k t0 t1)[i]? = some T) : fmat n m T = chebAt n es (j + 2 + i) * fmat n m X := by
  induction k generalizing j t0 t1 i with
  | zero => simp [chebLoop] at hT
  | succ k ih =>
    have h2 : fmat n m (fun i c => 2 * lapOp es t1 i c - t0 i c) = chebAt n es (j + 2) * fmat n m X := by
      have : fmat n m (fun i c => 2 * lapOp es t1 i c - t0 i c) = (2 : K) • fmat n m (lapOp es t1) - fmat n m t0 := by
        ext i c; simp [fmat]
      rw [this, fmat_lap n m es h, h0, h1, chebAt_add_two, Matrix.sub_mul, Matrix.smul_mul, Matrix.mul_assoc]
    simp only [chebLoop] at hT
    cases i with
    | zero =>
      simp only [List.getElem?_cons_zero, Option.some.injEq] at hT
      subst hT; exact h2
    | succ i =>
      rw [List.getElem?_cons_succ] at hT
      have := ih (j + 1) t1 _ h1 h2 i hT
      rw [this]; congr 2; omega

theorem chebLoop_length (es : List (WEdge K)) (k : Nat) (t0 t1 : Feat K) : (chebLoop es k t0 t1).length = k := by
  induction k generalizing t0 t1 with
  | zero => rfl
  | succ k ih => simp [chebLoop, ih]

/-- C138: a ChebNet layer of order `k` has `k + 1` inputs; the input of its `i`-th linear map is the `i`-th Chebyshev
polynomial of minus the normalized adjacency, applied to the features. -/
theorem C138_chebyshev (n m : Nat) (es : List (WEdge K)) (h : InRange n es) (k : Nat) (X : Feat K) :
    (chebTerms es k X).length = k + 1 ∧ ∀ (i : Nat) (T : Feat K), (chebTerms es k X)[i]? = some T →
      fmat n m T = Polynomial.aeval (-mat n es) (Polynomial.Chebyshev.T K i) * fmat n m X := by
  cases k with
  | zero =>
    refine ⟨rfl, ?_⟩
    intro i T hT
    cases i with
    | zero =>
      simp only [chebTerms, List.getElem?_cons_zero, Option.some.injEq] at hT
      subst hT; simp
    | succ i => simp [chebTerms] at hT
  | succ k =>
    refine ⟨by simp [chebTerms, chebLoop_length], ?_⟩
    intro i T hT
    have c0 : fmat n m X = chebAt n es 0 * fmat n m X := by simp [chebAt]
    have c1 : fmat n m (lapOp es X) = chebAt n es 1 * fmat n m X := by
      rw [fmat_lap n m es h]; simp [chebAt]
    rcases i with _ | _ | i
    · simp only [chebTerms, List.getElem?_cons_zero, Option.some.injEq] at hT
      subst hT; exact c0
    · simp only [chebTerms, List.getElem?_cons_zero, List.getElem?_cons_succ, Option.some.injEq] at hT
      subst hT; exact c1
    · simp only [chebTerms, List.getElem?_cons_succ] at hT
      have := chebLoop_terms n m es h X k 0 X (lapOp es X) c0 c1 i T hT
      rw [this, chebAt]
      congr 3
      push_cast; ring

/-! ### N-GCN -/

/-- A dense matrix of the first `n` nodes. -/
def dmat (n : Nat) (M : Nat → Nat → K) : Matrix (Fin n) (Fin n) K := fun i j => M i j

theorem sum_range_list (n : Nat) (f : Nat → K) : ((List.range n).map f).sum = ∑ j ∈ Finset.range n, f j := by
  induction n with
  | zero => simp
  | succ n ih => rw [List.range_succ, List.map_append, List.sum_append, ih, Finset.sum_range_succ]; simp

theorem fmat_denseMul (n m : Nat) (M : Nat → Nat → K) (X : Feat K) : fmat n m (denseMul n M X) = dmat n M * fmat n m X := by
  ext i c
  simp only [fmat, denseMul, Matrix.mul_apply, dmat, sum_range_list]
  rw [Finset.sum_range]

theorem ngcn_from (n : Nat) (M : Nat → Nat → K) (k j : Nat) (P : Feat K) (hP : fmat n n P = dmat n M ^ j) :
    (ngcnPowers n M k P).length = k ∧
      ∀ (i : Nat) (Q : Feat K), (ngcnPowers n M k P)[i]? = some Q → fmat n n Q = dmat n M ^ (j + i) := by
  induction k generalizing j P with
  | zero => exact ⟨rfl, fun i Q h => by simp [ngcnPowers] at h⟩
  | succ k ih =>
    have hn : fmat n n (denseMul n M P) = dmat n M ^ (j + 1) := by rw [fmat_denseMul, hP, pow_succ']
    obtain ⟨a, b⟩ := ih (j + 1) _ hn
    refine ⟨by simp [ngcnPowers, a], ?_⟩
    intro i Q h
    cases i with
    | zero =>
      simp only [ngcnPowers, List.getElem?_cons_zero, Option.some.injEq] at h
      subst h; simpa using hP
    | succ i =>
      simp only [ngcnPowers, List.getElem?_cons_succ] at h
      rw [b i Q h]; congr 1; omega

/-- C138: N-GCN gives its `K` parts the powers `0`, …, `K - 1` of the normalized adjacency. -/
theorem C138_ngcn_powers (n : Nat) (M : Nat → Nat → K) (k : Nat) :
    (ngcnPowers n M k eye).length = k ∧
      ∀ (i : Nat) (Q : Feat K), (ngcnPowers n M k eye)[i]? = some Q → fmat n n Q = dmat n M ^ i := by
  have h1 : fmat n n (eye : Feat K) = dmat n M ^ 0 := by
    ext i j
    simp [fmat, eye, Matrix.one_apply, Fin.ext_iff]
  obtain ⟨a, b⟩ := ngcn_from n M k 0 eye h1
  refine ⟨a, fun i Q h => ?_⟩
  rw [b i Q h, Nat.zero_add]

theorem denseSum_eq (es : List (WEdge K)) (i j : Nat) : denseSum es i j = if i = j then 0 else A es j i := by
  induction es with
  | nil => simp [denseSum, A]
  | cons e es ih =>
    unfold denseSum at ih ⊢
    rw [A, List.filter_cons]
    by_cases hij : i = j
    · subst hij
      rw [if_pos rfl] at ih ⊢
      have : ¬ (e.src = i ∧ e.dst = i ∧ e.src ≠ e.dst) := fun h => h.2.2 (h.1.trans h.2.1.symm)
      rw [if_neg (by simpa using this)]
      exact ih
    · rw [if_neg hij] at ih ⊢
      by_cases hc : e.dst = j ∧ e.src = i
      · obtain ⟨rfl, rfl⟩ := hc
        simp only [ne_eq, hij, not_false_eq_true, and_self, decide_true, if_true, List.map_cons, List.sum_cons, ih]
      · have : ¬ (e.src = i ∧ e.dst = j ∧ e.src ≠ e.dst) := fun h => hc ⟨h.2.1, h.1⟩
        rw [if_neg (by simpa using this), if_neg hc, zero_add, ih]

/-- C138: the dense adjacency of N-GCN: with `symmetrize`, both directions of a pair get the larger of the two totals, so
the matrix is symmetric; self-loops of the graph are dropped, and `add_self_loops` puts one on every diagonal place. -/
theorem C138_dense (loops : Bool) (es : List (WEdge K)) (i j : Nat) :
    denseAdj true loops es i j = (if i = j then 0 else max (A es i j) (A es j i)) + (if loops = true ∧ i = j then 1 else 0) ∧
    denseAdj true loops es i j = denseAdj true loops es j i := by
  have key : ∀ i j, denseAdj true loops es i j =
      (if i = j then 0 else max (A es i j) (A es j i)) + (if loops = true ∧ i = j then 1 else 0) := by
    intro i j
    unfold denseAdj
    simp only [if_true, denseSum_eq, Bool.and_eq_true, beq_iff_eq]
    congr 1
    by_cases h : i = j
    · subst h; simp
    · rw [if_neg h, if_neg (Ne.symm h), if_neg h, max_comm]
  refine ⟨key i j, ?_⟩
  rw [key, key, max_comm]
  by_cases h : i = j
  · subst h; rfl
  · simp [h, Ne.symm h]

/-- C138 is violated by N-GCN and H-GCN without `symmetrize`: their matrix is the transposed one, so features travel against
the edges, while the other methods send them along. -/
theorem C138_direction_violated (n : Nat) (es : List (WEdge K)) :
    (∀ i j, i ≠ j → denseAdj false false es i j = A es j i) ∧
    ∃ (es : List (WEdge Rat)) (X : Feat Rat),
      (spmm es X 0 0, spmm es X 1 0) = (0, 5) ∧
      (denseMul 2 (denseAdj false false es) X 0 0, denseMul 2 (denseAdj false false es) X 1 0) = (7, 0) := by
  refine ⟨?_, [⟨0, 1, 1⟩], fun i _ => if i = 0 then 5 else 7, by decide +kernel, by decide +kernel⟩
  intro i j h
  unfold denseAdj
  simp [denseSum_eq, h]

/-! ### Concrete cases -/

example : propagate (normalize id (1 / 1000) .rw demoEdges) 2 (fun i _ => if i = 0 then 1 else 0) 0 0 = (3 / 5 : Rat) := by
  decide +kernel
example : appnp (normalize id (1 / 1000) .rw demoEdges) (1 / 2) 2 (fun i _ => if i = 0 then 1 else 0) 0 0 = (13 / 20 : Rat) := by
  decide +kernel
example : (chebTerms demoEdges 3 (fun i _ => if i = 0 then 1 else 0)).map (fun T => (T 0 0, T 1 0, T 2 0)) =
    [((1 : Rat), 0, 0), (0, -3, 0), (17, 0, 12), (0, -147, 0)] := by decide +kernel
example : denseAdj true true [(⟨0, 1, 2⟩ : WEdge Rat), ⟨1, 0, 3⟩, ⟨1, 1, 9⟩] 0 1 = 3 := by decide +kernel

/-- A fixed point to which the convergence theorem applies: one undirected edge, constant features. -/
example : ∀ i < 2, (1 : Rat) = (1 - 1 / 10) * spmm (normalize id (1 / 1000) .sym [⟨0, 1, 1⟩, ⟨1, 0, 1⟩]) (fun _ _ => 1) i 0 + 1 / 10 * 1 := by
  decide +kernel

end ModSSC.Gnn
