import Verif.Gnn.PrepModel
import Verif.Gnn.PrepSpec
import Mathlib.Analysis.Real.Sqrt
import Mathlib.Algebra.BigOperators.Field
import Mathlib.Algebra.Order.BigOperators.Ring.Finset
import Mathlib.Tactic.Ring
import Mathlib.Tactic.Linarith
import Mathlib.Tactic.FieldSimp
import Mathlib.Tactic.Positivity
import Mathlib.Tactic.NormNum

/-!
# The adjacency used by the GNN methods (C137)
-/

namespace ModSSC.Gnn
open ModSSC ModSSC.Transductive ModSSC.Gnn.Spec

variable {K : Type} [Field K] [LinearOrder K]

/-! ### The adjacency matrix of edge lists -/

theorem A_append (a b : List (WEdge K)) (d s : Nat) : A (a ++ b) d s = A a d s + A b d s := by
  induction a with
  | nil => simp [A]
  | cons e a ih => simp [A, ih, add_assoc]

theorem cell_eq (es : List (WEdge K)) (d s : Nat) : cell es d s = A es d s := by
  induction es with
  | nil => rfl
  | cons e es ih =>
    unfold cell at ih ⊢
    rw [A, List.filter_cons]
    split
    · rename_i h
      rw [if_pos (of_decide_eq_true h), List.map_cons, List.sum_cons, ih]
    · rename_i h
      rw [if_neg (fun hc => h (decide_eq_true hc)), ih, zero_add]

theorem A_scale (f : Nat → Nat → K) (es : List (WEdge K)) (d s : Nat) :
    A (es.map fun e => { e with w := e.w * f e.src e.dst }) d s = A es d s * f s d := by
  induction es with
  | nil => simp [A]
  | cons e es ih =>
    rw [List.map_cons, A, A, ih, add_mul]
    congr 1
    split
    · rename_i h; obtain ⟨rfl, rfl⟩ := h; rfl
    · rw [zero_mul]

theorem A_eq_zero {es : List (WEdge K)} {d s : Nat} (h : ∀ e ∈ es, ¬ (e.dst = d ∧ e.src = s)) : A es d s = 0 := by
  induction es with
  | nil => rfl
  | cons e es ih =>
    rw [A, if_neg (h e List.mem_cons_self), ih fun e he => h e (List.mem_cons_of_mem _ he), zero_add]

theorem A_loops (n : Nat) (fill : K) (d s : Nat) :
    A ((List.range n).map fun i => (⟨i, i, fill⟩ : WEdge K)) d s = if d = s ∧ d < n then fill else 0 := by
  induction n with
  | zero => simp [A]
  | succ n ih =>
    rw [List.range_succ, List.map_append, A_append, ih]
    simp only [List.map_cons, List.map_nil, A, add_zero]
    by_cases hds : d = s
    · subst hds
      by_cases h1 : d < n
      · simp [h1, show ¬ n = d by omega, show d < n + 1 by omega]
      · by_cases h2 : n = d
        · subst h2; simp
        · simp [h1, h2, show ¬ d < n + 1 by omega]
    · have : ¬ (n = d ∧ n = s) := fun h => hds (h.1.symm.trans h.2)
      simp [hds, this]

/-- The row of one target of the coalesced list. -/
theorem A_row (es : List (WEdge K)) (m d d' s : Nat) :
    A ((List.range m).filterMap fun s' => if es.any fun e => decide (e.dst = d' ∧ e.src = s') then
      some (⟨s', d', cell es d' s'⟩ : WEdge K) else none) d s = if d' = d ∧ s < m then A es d s else 0 := by
  induction m with
  | zero => simp [A]
  | succ m ih =>
    rw [List.range_succ, List.filterMap_append, A_append, ih]
    by_cases hany : es.any (fun e => decide (e.dst = d' ∧ e.src = m)) = true
    · simp only [List.filterMap_cons, List.filterMap_nil, hany, if_true, A, add_zero, cell_eq]
      by_cases hd : d' = d
      · subst hd
        by_cases h1 : s < m
        · simp [h1, show ¬ m = s by omega, show s < m + 1 by omega]
        · by_cases h2 : m = s
          · subst h2; simp
          · simp [h1, h2, show ¬ s < m + 1 by omega]
      · simp [hd]
    · simp only [List.filterMap_cons, List.filterMap_nil, hany, A, add_zero]
      by_cases hd : d' = d
      · subst hd
        by_cases h2 : s = m
        · subst h2
          have : A es d' s = 0 := A_eq_zero fun e he hc => hany (List.any_eq_true.mpr ⟨e, he, decide_eq_true hc⟩)
          simp [this, A]
        · by_cases h1 : s < m
          · simp [h1, show s < m + 1 by omega, A]
          · simp [h1, show ¬ s < m + 1 by omega, A]
      · simp [hd, A]

theorem A_coalesce (n : Nat) (es : List (WEdge K)) (d s : Nat) :
    A (coalesce n es) d s = if d < n ∧ s < n then A es d s else 0 := by
  unfold coalesce
  have key : ∀ m, A ((List.range m).flatMap fun d => (List.range n).filterMap fun s =>
      if es.any fun e => decide (e.dst = d ∧ e.src = s) then some (⟨s, d, cell es d s⟩ : WEdge K) else none) d s =
      if d < m ∧ s < n then A es d s else 0 := by
    intro m
    induction m with
    | zero => simp [A]
    | succ m ih =>
      rw [List.range_succ, List.flatMap_append, A_append, ih]
      simp only [List.flatMap_cons, List.flatMap_nil, List.append_nil, A_row]
      by_cases h1 : d < m
      · simp [h1, show ¬ m = d by omega, show d < m + 1 by omega]
      · by_cases h2 : m = d
        · subst h2; simp
        · simp [h1, h2, show ¬ d < m + 1 by omega]
  exact key n

theorem A_outside {n : Nat} {es : List (WEdge K)} (h : InRange n es) {d s : Nat} (hd : ¬ (d < n ∧ s < n)) : A es d s = 0 :=
  A_eq_zero fun e he hc => hd ⟨hc.1 ▸ (h e he).2, hc.2 ▸ (h e he).1⟩

/-- Sums over the edges into a node are sums over its row. -/
theorem sum_row {n : Nat} {es : List (WEdge K)} (h : InRange n es) (g : Nat → K) (i : Nat) :
    ((es.filter fun e => e.dst = i).map fun e => g e.src * e.w).sum = ∑ s ∈ Finset.range n, A es i s * g s := by
  induction es with
  | nil => simp [A]
  | cons e es ih =>
    have ih := ih fun e he => h e (List.mem_cons_of_mem _ he)
    have he := (h e List.mem_cons_self).1
    simp only [A, add_mul, Finset.sum_add_distrib]
    rw [List.filter_cons]
    by_cases hi : e.dst = i
    · simp only [hi, decide_true, if_true, List.map_cons, List.sum_cons, ih, true_and]
      congr 1
      rw [Finset.sum_eq_single e.src]
      · simp [mul_comm]
      · intro b _ hb; simp [Ne.symm hb]
      · intro hn; exact absurd (Finset.mem_range.mpr he) hn
    · simp [hi, ih]

theorem degree_eq {n : Nat} {es : List (WEdge K)} (h : InRange n es) (i : Nat) : degree es i = deg n es i := by
  have := sum_row h (fun _ => (1 : K)) i
  simp only [one_mul, mul_one] at this
  exact this

theorem inRange_coalesce (n : Nat) (es : List (WEdge K)) : InRange n (coalesce n es) := by
  intro e he
  unfold coalesce at he
  obtain ⟨d, hd, he⟩ := List.mem_flatMap.mp he
  obtain ⟨s, hs, he⟩ := List.mem_filterMap.mp he
  split at he
  · cases he; exact ⟨List.mem_range.mp hs, List.mem_range.mp hd⟩
  · cases he

theorem inRange_map {n : Nat} {es : List (WEdge K)} (h : InRange n es) (f : WEdge K → K) :
    InRange n (es.map fun e => { e with w := f e }) := by
  intro e he
  obtain ⟨e', he', rfl⟩ := List.mem_map.mp he
  exact h e' he'

theorem inRange_normalize {n : Nat} {es : List (WEdge K)} (h : InRange n es) (sqrt : K → K) (eps : K) (mode : NormMode) :
    InRange n (normalize sqrt eps mode es) := by
  unfold normalize
  cases mode with
  | rw => exact inRange_map h _
  | sym => exact inRange_map h _

/-- C137: multiplying with an edge list is multiplying with its adjacency matrix. -/
theorem C137_spmm (n m : Nat) (es : List (WEdge K)) (h : InRange n es) (X : Feat K) :
    fmat n m (spmm es X) = mat n es * fmat n m X := by
  ext i c
  simp only [fmat, mat, Matrix.mul_apply, spmm]
  rw [sum_row h (fun s => X s c), Finset.sum_range]

/-- C137: coalescing keeps the adjacency matrix; every pair of nodes has at most one edge afterwards, and the edges are
ordered by target and source. -/
theorem C137_coalesce (n : Nat) (es : List (WEdge K)) :
    mat n (coalesce n es) = mat n es ∧ InRange n (coalesce n es) ∧
      (coalesce n es).Pairwise (fun a b => a.dst < b.dst ∨ (a.dst = b.dst ∧ a.src < b.src)) := by
  refine ⟨?_, inRange_coalesce n es, ?_⟩
  · ext d s
    simp [mat, A_coalesce, d.isLt, s.isLt]
  · unfold coalesce
    rw [List.pairwise_flatMap]
    have hmem : ∀ (d : Nat) (e : WEdge K), e ∈ ((List.range n).filterMap fun s =>
        if es.any fun e => decide (e.dst = d ∧ e.src = s) then some (⟨s, d, cell es d s⟩ : WEdge K) else none) → e.dst = d := by
      intro d e he
      obtain ⟨s, -, he⟩ := List.mem_filterMap.mp he
      split at he
      · cases he; rfl
      · cases he
    constructor
    · intro d _
      rw [List.pairwise_filterMap]
      refine List.Pairwise.imp ?_ List.pairwise_lt_range
      intro a b hab e he e' he'
      split at he
      · split at he'
        · cases he; cases he'; exact .inr ⟨rfl, hab⟩
        · cases he'
      · cases he
    · refine List.Pairwise.imp ?_ List.pairwise_lt_range
      intro a b hab e he e' he'
      left
      rw [hmem a e he, hmem b e' he']
      exact hab

/-- C137: adding self-loops adds the weight to every diagonal entry and changes nothing else. -/
theorem C137_self_loops (n : Nat) (fill : K) (es : List (WEdge K)) :
    mat n (addSelfLoops n fill es) = mat n es + fill • (1 : Matrix (Fin n) (Fin n) K) ∧ InRange n (addSelfLoops n fill es) := by
  refine ⟨?_, inRange_coalesce _ _⟩
  ext d s
  simp only [mat, addSelfLoops, A_coalesce, d.isLt, s.isLt, and_self, if_true, A_append, A_loops, and_true, Matrix.add_apply,
    Matrix.smul_apply, Matrix.one_apply, smul_eq_mul, mul_ite, mul_one, mul_zero, Fin.val_inj]

theorem A_rw (sqrt : K → K) (eps : K) (es : List (WEdge K)) (d s : Nat) :
    A (normalize sqrt eps .rw es) d s = A es d s / max eps (degree es d) := by
  unfold normalize
  simp only [div_eq_mul_inv]
  exact A_scale (fun _ d => (max eps (degree es d))⁻¹) es d s

theorem A_sym (sqrt : K → K) (eps : K) (es : List (WEdge K)) (d s : Nat) :
    A (normalize sqrt eps .sym es) d s =
      A es d s * (1 / sqrt (max eps (degree es s)) * (1 / sqrt (max eps (degree es d)))) := by
  unfold normalize
  exact A_scale (fun s d => 1 / sqrt (max eps (degree es s)) * (1 / sqrt (max eps (degree es d)))) es d s

variable [IsStrictOrderedRing K]

theorem A_nonneg {es : List (WEdge K)} (h : Nonneg es) (d s : Nat) : 0 ≤ A es d s := by
  induction es with
  | nil => exact le_refl _
  | cons e es ih =>
    rw [A]
    refine add_nonneg ?_ (ih fun e he => h e (List.mem_cons_of_mem _ he))
    split
    · exact h e List.mem_cons_self
    · exact le_refl _

/-- C137: random-walk weights: every row whose degree is at least `eps` sums to one, with the proportions unchanged. -/
theorem C137_rw (n : Nat) (sqrt : K → K) (eps : K) (heps : 0 < eps) (es : List (WEdge K)) (h : InRange n es) (d : Nat)
    (hd : eps ≤ deg n es d) :
    deg n (normalize sqrt eps .rw es) d = 1 ∧ ∀ s, A (normalize sqrt eps .rw es) d s * deg n es d = A es d s := by
  have hpos : deg n es d ≠ 0 := (lt_of_lt_of_le heps hd).ne'
  have hrow : ∀ s, A (normalize sqrt eps .rw es) d s = A es d s / deg n es d := by
    intro s
    rw [A_rw, degree_eq h, max_eq_right hd]
  refine ⟨?_, fun s => by rw [hrow, div_mul_cancel₀ _ hpos]⟩
  unfold deg at hpos ⊢
  simp only [hrow]
  rw [← Finset.sum_div]
  exact div_self hpos

/-- C137: with random-walk weights on a graph without negative weights where every node has an edge of some weight,
propagated features stay between the smallest and the largest value of their column. -/
theorem C137_rw_range (n : Nat) (sqrt : K → K) (eps : K) (heps : 0 < eps) (es : List (WEdge K)) (h : InRange n es)
    (hw : Nonneg es) (hd : ∀ d < n, eps ≤ deg n es d) (X : Feat K) (c : Nat) (lo hi : K) (hX : Within n X c lo hi) :
    Within n (spmm (normalize sqrt eps .rw es) X) c lo hi := by
  intro i hi'
  have hr := inRange_normalize h sqrt eps .rw
  have hs : spmm (normalize sqrt eps .rw es) X i c = ∑ s ∈ Finset.range n, A (normalize sqrt eps .rw es) i s * X s c :=
    sum_row hr (fun s => X s c) i
  have h1 := (C137_rw n sqrt eps heps es h i (hd i hi')).1
  have hn : ∀ s, 0 ≤ A (normalize sqrt eps .rw es) i s := by
    intro s
    rw [A_rw]
    exact div_nonneg (A_nonneg hw i s) (le_trans heps.le (le_max_left _ _))
  rw [hs]
  unfold deg at h1
  constructor
  · calc lo = ∑ s ∈ Finset.range n, A (normalize sqrt eps .rw es) i s * lo := by rw [← Finset.sum_mul, h1, one_mul]
      _ ≤ _ := Finset.sum_le_sum fun s hs => mul_le_mul_of_nonneg_left (hX s (Finset.mem_range.mp hs)).1 (hn s)
  · calc _ ≤ ∑ s ∈ Finset.range n, A (normalize sqrt eps .rw es) i s * hi :=
          Finset.sum_le_sum fun s hs => mul_le_mul_of_nonneg_left (hX s (Finset.mem_range.mp hs)).2 (hn s)
      _ = hi := by rw [← Finset.sum_mul, h1, one_mul]

/-- C137: symmetric weights: the entry for `d`, `s` is the weight over the roots of both degrees; an undirected graph stays
undirected. -/
theorem C137_sym (n : Nat) (sqrt : K → K) (hs : SqrtLaw sqrt) (eps : K) (heps : 0 < eps) (es : List (WEdge K))
    (h : InRange n es) :
    (∀ d s, eps ≤ deg n es d → eps ≤ deg n es s →
      A (normalize sqrt eps .sym es) d s * (sqrt (deg n es d) * sqrt (deg n es s)) = A es d s) ∧
    (Undirected es → Undirected (normalize sqrt eps .sym es)) := by
  refine ⟨?_, ?_⟩
  · intro d s hd hs'
    rw [A_sym, degree_eq h, degree_eq h, max_eq_right hd, max_eq_right hs']
    have p1 := (hs _ (lt_of_lt_of_le heps hd)).1.ne'
    have p2 := (hs _ (lt_of_lt_of_le heps hs')).1.ne'
    field_simp
  · intro hu d s
    rw [A_sym, A_sym, hu d s, mul_comm (1 / sqrt (max eps (degree es s)))]

/-- C137: on an undirected graph without negative weights, propagating with symmetric weights never makes a feature column
longer. -/
theorem C137_contraction (n : Nat) (sqrt : K → K) (hs : SqrtLaw sqrt) (eps : K) (heps : 0 < eps) (es : List (WEdge K))
    (h : InRange n es) (hw : Nonneg es) (hu : Undirected es) (X : Feat K) (c : Nat) :
    colSq n (spmm (normalize sqrt eps .sym es) X) c ≤ colSq n X c := by
  set D : Nat → K := fun i => max eps (degree es i) with hD
  have hDpos : ∀ i, 0 < D i := fun i => lt_of_lt_of_le heps (le_max_left _ _)
  have hdeg : ∀ i, ∑ s ∈ Finset.range n, A es i s ≤ D i := by
    intro i
    have := degree_eq h i
    unfold deg at this
    rw [← this]; exact le_max_right _ _
  have hrow : ∀ i, spmm (normalize sqrt eps .sym es) X i c ^ 2 ≤ ∑ s ∈ Finset.range n, A es i s * (X s c ^ 2 / D s) := by
    intro i
    have hsum : spmm (normalize sqrt eps .sym es) X i c =
        ∑ s ∈ Finset.range n, A (normalize sqrt eps .sym es) i s * X s c :=
      sum_row (inRange_normalize h sqrt eps .sym) (fun s => X s c) i
    rw [hsum]
    have hc := Finset.sum_sq_le_sum_mul_sum_of_sq_le_mul (Finset.range n)
      (r := fun s => A (normalize sqrt eps .sym es) i s * X s c) (f := fun s => A es i s / D i)
      (g := fun s => A es i s * (X s c ^ 2 / D s))
      (fun s _ => div_nonneg (A_nonneg hw i s) (hDpos i).le)
      (fun s _ => mul_nonneg (A_nonneg hw i s) (div_nonneg (sq_nonneg _) (hDpos s).le))
      (fun s _ => by
        rw [A_sym]
        show (A es i s * (1 / sqrt (D s) * (1 / sqrt (D i))) * X s c) ^ 2 ≤ _
        have e1 := (hs _ (hDpos s)).2
        have e2 := (hs _ (hDpos i)).2
        have p1 := (hs _ (hDpos s)).1.ne'
        have p2 := (hs _ (hDpos i)).1.ne'
        apply le_of_eq
        calc (A es i s * (1 / sqrt (D s) * (1 / sqrt (D i))) * X s c) ^ 2 =
            A es i s / (sqrt (D i) * sqrt (D i)) * (A es i s * (X s c ^ 2 / (sqrt (D s) * sqrt (D s)))) := by
              field_simp
          _ = _ := by rw [e1, e2])
    refine le_trans hc ?_
    have h1 : ∑ s ∈ Finset.range n, A es i s / D i ≤ 1 := by
      rw [← Finset.sum_div]
      exact (div_le_one (hDpos i)).mpr (hdeg i)
    have h2 : 0 ≤ ∑ s ∈ Finset.range n, A es i s * (X s c ^ 2 / D s) :=
      Finset.sum_nonneg fun s _ => mul_nonneg (A_nonneg hw i s) (div_nonneg (sq_nonneg _) (hDpos s).le)
    calc _ ≤ 1 * ∑ s ∈ Finset.range n, A es i s * (X s c ^ 2 / D s) := mul_le_mul_of_nonneg_right h1 h2
      _ = _ := one_mul _
  unfold colSq
  calc _ ≤ ∑ i ∈ Finset.range n, ∑ s ∈ Finset.range n, A es i s * (X s c ^ 2 / D s) := Finset.sum_le_sum fun i _ => hrow i
    _ = ∑ s ∈ Finset.range n, ∑ i ∈ Finset.range n, A es i s * (X s c ^ 2 / D s) := Finset.sum_comm
    _ = ∑ s ∈ Finset.range n, (∑ i ∈ Finset.range n, A es s i) * (X s c ^ 2 / D s) := by
        refine Finset.sum_congr rfl fun s _ => ?_
        rw [Finset.sum_mul]
        exact Finset.sum_congr rfl fun i _ => by rw [hu i s]
    _ ≤ ∑ s ∈ Finset.range n, X s c ^ 2 := by
        refine Finset.sum_le_sum fun s _ => ?_
        calc _ ≤ D s * (X s c ^ 2 / D s) := mul_le_mul_of_nonneg_right (hdeg s) (div_nonneg (sq_nonneg _) (hDpos s).le)
          _ = X s c ^ 2 := mul_div_cancel₀ _ (hDpos s).ne'

omit [IsStrictOrderedRing K] in
theorem degree_single (i : Nat) : degree [(⟨0, 1, 1⟩ : WEdge K)] i = if i = 1 then 1 else 0 := by
  unfold degree
  by_cases h : i = 1
  · subst h; simp
  · simp [h, Ne.symm h]

/-- C137 is violated on directed graphs: the in-degree is used for both ends of an edge, so without self-loops the features
of a node nobody points to are multiplied by a million in one step. -/
theorem C137_directed_violated (sqrt : K → K) (hs : SqrtLaw sqrt) (X : Feat K) :
    spmm (prepEdges sqrt (1 / 1000000000000) 2 false .sym [⟨0, 1, 1⟩]) X 1 0 = 1000000 * X 0 0 := by
  have hm1 : max (1 / 1000000000000 : K) 0 = 1 / 1000000000000 := max_eq_left (by norm_num)
  have hm2 : max (1 / 1000000000000 : K) 1 = 1 := max_eq_right (by norm_num)
  have hsq : sqrt (1 / 1000000000000) = 1 / 1000000 := by
    obtain ⟨p, q⟩ := hs (1 / 1000000000000) (by norm_num)
    nlinarith [q, p]
  have hs1 : sqrt 1 = 1 := by
    obtain ⟨p, q⟩ := hs 1 one_pos
    nlinarith [q, p]
  simp only [prepEdges, normalize, Bool.false_eq_true, if_false, spmm, List.map_cons, List.map_nil, List.filter_cons,
    decide_true, if_true, List.filter_nil, List.sum_cons, List.sum_nil, add_zero, degree_single, zero_ne_one, hm1, hm2, hsq, hs1]
  norm_num
  ring

/-! ### Concrete cases -/

/-- A weighted path with a doubled edge. -/
def demoEdges : List (WEdge Rat) := [⟨0, 1, 1⟩, ⟨1, 0, 1⟩, ⟨1, 2, 2⟩, ⟨2, 1, 2⟩, ⟨0, 1, 2⟩, ⟨1, 0, 2⟩]

example : coalesce 3 demoEdges = [⟨1, 0, 3⟩, ⟨0, 1, 3⟩, ⟨2, 1, 2⟩, ⟨1, 2, 2⟩] := by decide +kernel
example : addSelfLoops 3 1 demoEdges = [⟨0, 0, 1⟩, ⟨1, 0, 3⟩, ⟨0, 1, 3⟩, ⟨1, 1, 1⟩, ⟨2, 1, 2⟩, ⟨1, 2, 2⟩, ⟨2, 2, 1⟩] := by
  decide +kernel
example : normalize id (1 / 1000) .rw (coalesce 3 demoEdges) = [⟨1, 0, 1⟩, ⟨0, 1, 3 / 5⟩, ⟨2, 1, 2 / 5⟩, ⟨1, 2, 1⟩] := by
  decide +kernel

example : InRange 3 demoEdges ∧ Nonneg demoEdges ∧ ∀ d < 3, (1 / 1000 : Rat) ≤ deg 3 demoEdges d := by
  refine ⟨by unfold InRange demoEdges; decide +kernel, by unfold Nonneg demoEdges; decide +kernel, ?_⟩
  intro d hd
  have : d = 0 ∨ d = 1 ∨ d = 2 := by omega
  rcases this with rfl | rfl | rfl <;> · simp only [deg, Finset.sum_range_succ, Finset.sum_range_zero]; decide +kernel

example : Undirected demoEdges := by
  intro d s
  simp only [demoEdges, A, and_comm]
  ring

/-- The law asked of the square root holds for the real one. -/
theorem sqrtLaw_real : SqrtLaw Real.sqrt := fun x h => ⟨Real.sqrt_pos.mpr h, Real.mul_self_sqrt h.le⟩

end ModSSC.Gnn
