import Verif.Gnn.GatModel
import Mathlib.Algebra.Order.Field.Basic
import Mathlib.Algebra.BigOperators.Group.List.Basic
import Mathlib.Algebra.Order.BigOperators.Group.List
import Mathlib.Tactic.Linarith
import Mathlib.Tactic.FieldSimp
import Mathlib.Tactic.Ring
import Mathlib.Data.Rat.Lemmas
import Mathlib.Analysis.SpecialFunctions.Exp
import Mathlib.Algebra.Order.Ring.Unbundled.Rat

/-!
# C186 — attention, reach and symmetry of the graph attention network
-/

namespace ModSSC.Gnn.Gat
open ModSSC ModSSC.Transductive ModSSC.Gnn

variable {K : Type} [Field K] [LinearOrder K] [IsStrictOrderedRing K]

namespace Spec

/-- What is used of the exponential function. -/
structure ExpLaw (exp : K → K) : Prop where
  pos : ∀ x, 0 < exp x
  sub : ∀ x y, exp (x - y) = exp x / exp y

/-- The textbook softmax over the edges into the target of `e`. -/
def Softmax (exp : K → K) (l : Edge → K) (es : List Edge) (e : Edge) : K :=
  exp (l e) / ((es.filter fun e' => e'.2 = e.2).map fun e' => exp (l e')).sum

/-- `i` is `v` or has an edge to `v`. -/
def Near (es : List Edge) (v i : Nat) : Prop := i = v ∨ (i, v) ∈ es

/-- The same edges into the node, in any order. -/
def SameInto (es es' : List Edge) (v : Nat) : Prop := (es.filter fun e => e.2 = v).Perm (es'.filter fun e => e.2 = v)

end Spec

open Spec

/-! ### Attention -/

theorem foldl_max_le (l : List K) : ∀ a, a ≤ l.foldl max a ∧ (∀ x ∈ l, x ≤ l.foldl max a) ∧ (l.foldl max a = a ∨ l.foldl max a ∈ l) := by
  induction l with
  | nil => intro a; simp
  | cons b l ih =>
    intro a
    obtain ⟨h1, h2, h3⟩ := ih (max a b)
    rw [List.foldl_cons]
    refine ⟨le_trans (le_max_left _ _) h1, ?_, ?_⟩
    · intro x hx
      rcases List.mem_cons.mp hx with rfl | hx
      · exact le_trans (le_max_right _ _) h1
      · exact h2 x hx
    · rcases h3 with h3 | h3
      · rw [h3]
        rcases max_choice a b with h | h
        · left; exact h
        · right; rw [h]; simp
      · right; simp [h3]

theorem maxInto_spec (l : Edge → K) (es : List Edge) (v : Nat) (h : into es v ≠ []) :
    (∃ e ∈ into es v, l e = maxInto l es v) ∧ ∀ e ∈ into es v, l e ≤ maxInto l es v := by
  unfold maxInto
  cases hm : (into es v).map l with
  | nil => simp at hm; exact absurd hm h
  | cons a as =>
    dsimp only
    obtain ⟨h1, h2, h3⟩ := foldl_max_le as a
    have hmem : as.foldl max a ∈ (into es v).map l := by
      rw [hm]
      rcases h3 with h3 | h3
      · rw [h3]; simp
      · simp [h3]
    obtain ⟨e, he, hle⟩ := List.mem_map.mp hmem
    refine ⟨⟨e, he, hle⟩, fun e he => ?_⟩
    have : l e ∈ a :: as := by rw [← hm]; exact List.mem_map_of_mem he
    rcases List.mem_cons.mp this with h | h
    · rw [h]; exact h1
    · exact h2 _ h

theorem maxInto_perm (l : Edge → K) {es es' : List Edge} {v : Nat} (hp : (into es v).Perm (into es' v)) :
    maxInto l es v = maxInto l es' v := by
  by_cases h : into es v = []
  · have h' : into es' v = [] := by rw [h] at hp; exact hp.nil_eq.symm
    unfold maxInto
    rw [h, h']
  · have h' : into es' v ≠ [] := fun hc => h (by rw [hc] at hp; exact hp.eq_nil)
    obtain ⟨⟨e, he, hle⟩, hub⟩ := maxInto_spec l es v h
    obtain ⟨⟨e', he', hle'⟩, hub'⟩ := maxInto_spec l es' v h'
    apply le_antisymm
    · rw [← hle]; exact hub' e (hp.subset he)
    · rw [← hle']; exact hub e' (hp.symm.subset he')

theorem maxInto_congr {l l' : Edge → K} {es : List Edge} {v : Nat} (h : ∀ e ∈ into es v, l e = l' e) : maxInto l es v = maxInto l' es v := by
  unfold maxInto
  rw [List.map_congr_left h]

theorem sum_ge_mem {l : List K} (h : ∀ x ∈ l, 0 < x) : ∀ x ∈ l, x ≤ l.sum := by
  intro x hx
  exact List.single_le_sum (fun y hy => (h y hy).le) x hx

theorem exp_zero {exp : K → K} (E : ExpLaw exp) : exp 0 = 1 := by
  have := E.sub 0 0
  rw [sub_zero, div_self (E.pos 0).ne'] at this
  exact this

/-- The denominator without `eps`: at least one. -/
theorem denom_ge {exp : K → K} (E : ExpLaw exp) (l : Edge → K) (es : List Edge) (v : Nat) (h : into es v ≠ []) :
    1 ≤ ((into es v).map fun e' => exp (l e' - maxInto l es v)).sum := by
  obtain ⟨⟨e, he, hle⟩, -⟩ := maxInto_spec l es v h
  have h1 : exp (l e - maxInto l es v) = 1 := by rw [hle, sub_self, exp_zero E]
  rw [← h1]
  refine sum_ge_mem ?_ _ (List.mem_map.mpr ⟨e, he, rfl⟩)
  intro x hx
  obtain ⟨e', -, rfl⟩ := List.mem_map.mp hx
  exact E.pos _

theorem sum_div_const (l : List Edge) (f : Edge → K) (c : K) : (l.map fun e => f e / c).sum = (l.map f).sum / c := by
  induction l with
  | nil => simp
  | cons a l ih => rw [List.map_cons, List.map_cons, List.sum_cons, List.sum_cons, ih, add_div]

/-- **C186 (attention).**  For every graph and every logits: the attention of an edge is the softmax over the edges into its target, less
at most the fraction `eps`; it is positive; and over the edges into a node it sums to less than one, but at least `1 / (1 + eps)`. -/
theorem C186_attention (exp : K → K) (E : ExpLaw exp) (eps : K) (heps : 0 < eps) (l : Edge → K) (es : List Edge) :
    (∀ e ∈ es, 0 < attention exp eps l es e ∧ Softmax exp l es e / (1 + eps) ≤ attention exp eps l es e ∧
      attention exp eps l es e < Softmax exp l es e) ∧
    ∀ v, (∃ u, (u, v) ∈ es) →
      1 / (1 + eps) ≤ ((es.filter fun e => e.2 = v).map (attention exp eps l es)).sum ∧
      ((es.filter fun e => e.2 = v).map (attention exp eps l es)).sum < 1 := by
  constructor
  · intro e he
    have hmem : e ∈ into es e.2 := List.mem_filter.mpr ⟨he, by simp⟩
    have hne : into es e.2 ≠ [] := List.ne_nil_of_mem hmem
    have hD := denom_ge E l es e.2 hne
    have hs : Softmax exp l es e = exp (l e - maxInto l es e.2) / ((into es e.2).map fun e' => exp (l e' - maxInto l es e.2)).sum := by
      have h1 : ((into es e.2).map fun e' => exp (l e' - maxInto l es e.2)).sum = ((into es e.2).map fun e' => exp (l e')).sum /
          exp (maxInto l es e.2) := by
        rw [← sum_div_const]
        congr 1
        exact List.map_congr_left fun e' _ => E.sub _ _
      rw [h1, E.sub, div_div_div_cancel_right₀ (E.pos _).ne']
      rfl
    rw [hs]
    unfold attention
    set D := ((into es e.2).map fun e' => exp (l e' - maxInto l es e.2)).sum
    have hx := E.pos (l e - maxInto l es e.2)
    set x := exp (l e - maxInto l es e.2)
    have hD0 : 0 < D := lt_of_lt_of_le one_pos hD
    refine ⟨div_pos hx (by linarith), ?_, ?_⟩
    · rw [div_div]
      apply div_le_div_of_nonneg_left hx.le (by linarith)
      nlinarith
    · exact div_lt_div_of_pos_left hx hD0 (by linarith)
  · rintro v ⟨u, hu⟩
    have hne : into es v ≠ [] := List.ne_nil_of_mem (List.mem_filter.mpr ⟨hu, by simp⟩)
    have hD := denom_ge E l es v hne
    have hsum : ((es.filter fun e => e.2 = v).map (attention exp eps l es)).sum =
        ((into es v).map fun e' => exp (l e' - maxInto l es v)).sum / (((into es v).map fun e' => exp (l e' - maxInto l es v)).sum + eps) := by
      rw [← sum_div_const]
      congr 1
      refine List.map_congr_left fun e he => ?_
      have : e.2 = v := by simpa using (List.mem_filter.mp he).2
      unfold attention
      rw [this]
    rw [hsum]
    set D := ((into es v).map fun e' => exp (l e' - maxInto l es v)).sum
    have hD0 : 0 < D := lt_of_lt_of_le one_pos hD
    constructor
    · rw [div_le_div_iff₀ (by linarith) (by linarith)]
      nlinarith
    · rw [div_lt_one (by linarith)]
      linarith

/-- The exponential function is one; two edges into a node share its attention. -/
example : 1 / (1 + (1 : ℝ)) ≤ (([((0 : Nat), (2 : Nat)), (1, 2)].filter fun e => e.2 = 2).map
    (attention Real.exp 1 (fun e => (e.1 : ℝ)) [(0, 2), (1, 2)])).sum :=
  ((C186_attention Real.exp ⟨Real.exp_pos, Real.exp_sub⟩ 1 one_pos (fun e => (e.1 : ℝ)) [(0, 2), (1, 2)]).2 2 ⟨0, by simp⟩).1

/-- A function of powers of two, as rational numbers, in place of the exponential. -/
def exp2 (x : Rat) : Rat := if x.den = 1 then 2 ^ x.num else 1

/-! ### What a prediction depends on -/

omit [IsStrictOrderedRing K] in
theorem proj_congr (P : Conv K) {X X' : Feat K} {i : Nat} (h : ∀ j, X i j = X' i j) (k c : Nat) : P.proj X i k c = P.proj X' i k c := by
  unfold Conv.proj
  simp only [h]

omit [IsStrictOrderedRing K] in
theorem logit_congr (P : Conv K) {X X' : Feat K} {e : Edge} (h1 : ∀ j, X e.1 j = X' e.1 j) (h2 : ∀ j, X e.2 j = X' e.2 j) (k : Nat) :
    P.logit X k e = P.logit X' k e := by
  unfold Conv.logit
  simp only [proj_congr P h1, proj_congr P h2]

theorem message_congr (P : Conv K) (exp : K → K) (eps : K) {es es' : List Edge} {X X' : Feat K} {v : Nat}
    (hp : (into es v).Perm (into es' v)) (hX : ∀ i, Near es v i → ∀ j, X i j = X' i j) (k c : Nat) :
    P.message exp eps es X v k c = P.message exp eps es' X' v k c := by
  have hlog : ∀ e ∈ into es v, P.logit X k e = P.logit X' k e := by
    intro e he
    obtain ⟨he1, he2⟩ := List.mem_filter.mp he
    have he2 : e.2 = v := by simpa using he2
    refine logit_congr P (hX e.1 (.inr ?_)) (hX e.2 (.inl he2)) k
    rw [← he2]
    exact he1
  have hlog' : ∀ e ∈ into es' v, P.logit X k e = P.logit X' k e := fun e he => hlog e (hp.symm.subset he)
  have hmax : maxInto (P.logit X k) es v = maxInto (P.logit X' k) es' v := (maxInto_perm _ hp).trans (maxInto_congr hlog')
  have hden : ((into es v).map fun e' => exp (P.logit X k e' - maxInto (P.logit X k) es v)).sum =
      ((into es' v).map fun e' => exp (P.logit X' k e' - maxInto (P.logit X' k) es' v)).sum := by
    rw [hmax, (hp.map _).sum_eq]
    congr 1
    exact List.map_congr_left fun e he => by rw [hlog' e he]
  unfold Conv.message
  rw [(hp.map _).sum_eq]
  congr 1
  refine List.map_congr_left fun e he => ?_
  have hes := hp.symm.subset he
  obtain ⟨he1, he2⟩ := List.mem_filter.mp hes
  have he2 : e.2 = v := by simpa using he2
  have : P.proj X e.1 k c = P.proj X' e.1 k c := proj_congr P (hX e.1 (.inr (by rw [← he2]; exact he1))) k c
  rw [this]
  unfold attention
  rw [he2, hlog' e he, hden, hmax]

theorem conv_congr (P : Conv K) (exp : K → K) (eps : K) {es es' : List Edge} {X X' : Feat K} {v : Nat}
    (hp : (into es v).Perm (into es' v)) (hX : ∀ i, Near es v i → ∀ j, X i j = X' i j) (j : Nat) :
    P.forward exp eps es X v j = P.forward exp eps es' X' v j := by
  unfold Conv.forward
  simp only [message_congr P exp eps hp hX]

/-- **C186 (reach).**  The scores of a node depend only on the features of the nodes at most two steps before it, and on the edges into
it and into its neighbours, in any order. -/
theorem C186_reach (N : Net K) (exp : K → K) (eps : K) (es es' : List Edge) (X X' : Feat K) (v : Nat)
    (hes : ∀ w, Near es v w → SameInto es es' w) (hX : ∀ w i, Near es v w → Near es w i → ∀ j, X i j = X' i j) :
    N.forward exp eps es X v = N.forward exp eps es' X' v := by
  funext j
  unfold Net.forward
  refine conv_congr N.second exp eps (hes v (.inl rfl)) ?_ j
  intro i hi j'
  rw [conv_congr N.first exp eps (hes i hi) (fun k hk => hX i k hi hk) j']

/-- A small network: one head, one channel. -/
def tiny : Net Rat :=
  let P : Conv Rat := ⟨1, 1, 1, true, 1 / 5, fun _ _ _ => 1, fun _ _ => 1, fun _ _ => 1, fun _ => 0⟩
  ⟨P, P⟩

/-- A path of four nodes; what is at its start does not reach its end, what is two steps before does. -/
example : tiny.forward exp2 1 [(0, 1), (1, 2), (2, 3)] (fun i _ => if i = 0 then 1 else 0) 3 0 =
    tiny.forward exp2 1 [(0, 1), (1, 2), (2, 3)] (fun _ _ => 0) 3 0 := by decide +kernel
example : tiny.forward exp2 1 [(0, 1), (1, 2), (2, 3)] (fun i _ => if i = 1 then 1 else 0) 3 0 ≠
    tiny.forward exp2 1 [(0, 1), (1, 2), (2, 3)] (fun _ _ => 0) 3 0 := by decide +kernel

/-- **C186 (order of edges).**  The scores do not depend on the order of the edges. -/
theorem C186_edge_order (N : Net K) (exp : K → K) (eps : K) (es es' : List Edge) (X : Feat K) (h : es.Perm es') :
    N.forward exp eps es X = N.forward exp eps es' X := by
  funext v
  exact C186_reach N exp eps es es' X X v (fun w _ => h.filter _) fun _ _ _ _ _ => rfl

/-! ### Names of nodes -/

theorem conv_relabel (P : Conv K) (exp : K → K) (eps : K) (σ : Nat → Nat) (hσ : Function.Injective σ) (es : List Edge) (X X' : Feat K)
    (hX : ∀ i j, X' (σ i) j = X i j) (v j : Nat) :
    P.forward exp eps (es.map fun e => (σ e.1, σ e.2)) X' (σ v) j = P.forward exp eps es X v j := by
  have hin : ∀ v, into (es.map fun e => (σ e.1, σ e.2)) (σ v) = (into es v).map fun e => (σ e.1, σ e.2) := by
    intro v
    unfold into
    rw [List.filter_map]
    congr 1
    refine List.filter_congr fun e _ => ?_
    simp [hσ.eq_iff]
  have hproj : ∀ i k c, P.proj X' (σ i) k c = P.proj X i k c := by
    intro i k c
    unfold Conv.proj
    simp only [hX]
  have hlog : ∀ k (e : Edge), P.logit X' k (σ e.1, σ e.2) = P.logit X k e := by
    intro k e
    unfold Conv.logit
    simp only [hproj]
  have hmax : ∀ k v, maxInto (P.logit X' k) (es.map fun e => (σ e.1, σ e.2)) (σ v) = maxInto (P.logit X k) es v := by
    intro k v
    unfold maxInto
    rw [hin, List.map_map]
    have : (P.logit X' k ∘ fun e : Edge => (σ e.1, σ e.2)) = P.logit X k := by
      funext e
      exact hlog k e
    rw [this]
  have hmsg : ∀ k c, P.message exp eps (es.map fun e => (σ e.1, σ e.2)) X' (σ v) k c = P.message exp eps es X v k c := by
    intro k c
    unfold Conv.message
    rw [hin, List.map_map]
    congr 1
    refine List.map_congr_left fun e _ => ?_
    simp only [Function.comp_apply, hproj]
    congr 1
    unfold attention
    dsimp only
    rw [hin, hmax, hlog, List.map_map]
    congr 3
    refine List.map_congr_left fun e' _ => ?_
    simp only [Function.comp_apply, hlog]
  unfold Conv.forward
  simp only [hmsg]

/-- **C186 (names of nodes).**  Renaming the nodes renames the scores: no node is special. -/
theorem C186_relabel (N : Net K) (exp : K → K) (eps : K) (σ : Nat → Nat) (hσ : Function.Injective σ) (es : List Edge) (X X' : Feat K)
    (hX : ∀ i j, X' (σ i) j = X i j) (v j : Nat) :
    N.forward exp eps (es.map fun e => (σ e.1, σ e.2)) X' (σ v) j = N.forward exp eps es X v j := by
  unfold Net.forward
  refine conv_relabel N.second exp eps σ hσ es _ _ ?_ v j
  intro i j'
  rw [conv_relabel N.first exp eps σ hσ es X X' hX i j']

/-! ### Which edges are seen -/

omit [IsStrictOrderedRing K] in
theorem seen_loops (sqrt : K → K) (floor : K) (n : Nat) (es : List (WEdge K)) : seen sqrt floor n true es =
    (List.range n).flatMap fun d => (List.range n).filterMap fun s =>
      if s = d ∨ (s, d) ∈ es.map (fun e => (e.src, e.dst)) then some (s, d) else none := by
  unfold seen prepEdges normalize addSelfLoops coalesce
  simp only [if_true, List.map_map]
  rw [List.map_flatMap]
  refine List.flatMap_congr fun d hd => ?_
  rw [List.map_filterMap]
  refine List.filterMap_congr fun s hs => ?_
  have hd := List.mem_range.mp hd
  have hiff : ((es ++ (List.range n).map fun i => (⟨i, i, 1⟩ : WEdge K)).any fun e => decide (e.dst = d ∧ e.src = s)) = true ↔
      (s = d ∨ (s, d) ∈ es.map (fun e => (e.src, e.dst))) := by
    rw [List.any_append, Bool.or_eq_true, List.any_eq_true, List.any_eq_true, or_comm]
    refine or_congr ?_ ?_
    · constructor
      · rintro ⟨e, he, h⟩
        obtain ⟨i, -, rfl⟩ := List.mem_map.mp he
        have := of_decide_eq_true h
        exact this.2.symm.trans this.1
      · rintro rfl
        exact ⟨⟨s, s, 1⟩, List.mem_map.mpr ⟨s, List.mem_range.mpr hd, rfl⟩, by simp⟩
    · constructor
      · rintro ⟨e, he, h⟩
        have := of_decide_eq_true h
        exact List.mem_map.mpr ⟨e, he, by rw [this.1, this.2]⟩
      · intro h
        obtain ⟨e, he, h⟩ := List.mem_map.mp h
        cases h
        exact ⟨e, he, by simp⟩
  by_cases h : s = d ∨ (s, d) ∈ es.map (fun e => (e.src, e.dst))
  · rw [if_pos h, if_pos (hiff.mpr h)]
    rfl
  · rw [if_neg h, if_neg (fun hc => h (hiff.mp hc))]
    rfl

/-- **C186 (set of edges).**  With self-loops, predictions depend only on which edges there are: not on their weights, their order, how
often each is listed, or whether self-loops are listed. -/
theorem C186_edge_set (N : Net K) (exp sqrt : K → K) (eps floor : K) (classes n : Nat) (es es' : List (WEdge K)) (X : Feat K)
    (h : ∀ s d, s < n → d < n → s ≠ d → ((∃ e ∈ es, e.src = s ∧ e.dst = d) ↔ ∃ e ∈ es', e.src = s ∧ e.dst = d)) :
    N.predict exp sqrt eps floor classes n true es X = N.predict exp sqrt eps floor classes n true es' X := by
  have hs : seen sqrt floor n true es = seen sqrt floor n true es' := by
    rw [seen_loops, seen_loops]
    refine List.flatMap_congr fun d hd => ?_
    refine List.filterMap_congr fun s hs => ?_
    have hh := h s d (List.mem_range.mp hs) (List.mem_range.mp hd)
    have hiff : (s = d ∨ (s, d) ∈ es.map (fun e => (e.src, e.dst))) ↔ (s = d ∨ (s, d) ∈ es'.map (fun e => (e.src, e.dst))) := by
      by_cases hsd : s = d
      · simp [hsd]
      · have := hh hsd
        simpa [hsd] using this
    simp only [hiff]
  funext v c
  unfold Net.predict
  rw [hs]

/-- **C186 (weights).**  Predictions never depend on edge weights. -/
theorem C186_unweighted (N : Net K) (exp sqrt : K → K) (eps floor : K) (classes n : Nat) (loops : Bool) (es es' : List (WEdge K)) (X : Feat K)
    (h : es.map (fun e => (e.src, e.dst)) = es'.map (fun e => (e.src, e.dst))) :
    N.predict exp sqrt eps floor classes n loops es X = N.predict exp sqrt eps floor classes n loops es' X := by
  cases loops with
  | true =>
    refine C186_edge_set N exp sqrt eps floor classes n es es' X fun s d _ _ _ => ?_
    have h1 : ∀ l : List (WEdge K), (∃ e ∈ l, e.src = s ∧ e.dst = d) ↔ (s, d) ∈ l.map (fun e => (e.src, e.dst)) := by
      intro l; simp
    rw [h1, h1, h]
  | false =>
    have hs : seen sqrt floor n false es = seen sqrt floor n false es' := by
      have h2 : ∀ l : List (WEdge K), seen sqrt floor n false l = l.map (fun e => (e.src, e.dst)) := by
        intro l
        unfold seen prepEdges normalize
        simp only [Bool.false_eq_true, if_false, List.map_map]
        rfl
      rw [h2, h2, h]
    funext v c
    unfold Net.predict
    rw [hs]

/-- **C186 violated (weight zero).**  An edge of weight zero is not as no edge: its source still gets attention. -/
theorem C186_zero_weight_violated : ¬ ∀ (N : Net Rat) (n : Nat) (loops : Bool) (es : List (WEdge Rat)) (X : Feat Rat),
    N.predict exp2 id 1 1 2 n loops es X = N.predict exp2 id 1 1 2 n loops (es.filter fun e => e.w ≠ 0) X := by
  intro h
  have := congrFun (congrFun (h ⟨⟨1, 1, 1, true, 0, fun _ _ _ => 1, fun _ _ => 0, fun _ _ => 0, fun _ => 0⟩,
    ⟨1, 1, 2, false, 0, fun _ c _ => if c = 0 then 2 else 0, fun _ _ => 0, fun _ _ => 0, fun _ => 0⟩⟩ 2 true [⟨0, 1, 0⟩]
    fun i _ => if i = 0 then 9 else 0) 1) 0
  revert this
  decide +kernel

/-- **C186 violated (listed twice).**  Without self-loops an edge that is listed twice counts twice. -/
theorem C186_twice_violated : ¬ ∀ (N : Net Rat) (n : Nat) (es : List (WEdge Rat)) (X : Feat Rat),
    N.predict exp2 id 1 1 2 n false es X = N.predict exp2 id 1 1 2 n false es.dedup X := by
  intro h
  have := congrFun (congrFun (h ⟨⟨1, 1, 1, true, 0, fun _ _ _ => 1, fun _ _ => 0, fun _ _ => 0, fun _ => 0⟩,
    ⟨1, 1, 2, false, 0, fun _ c _ => if c = 0 then 36 else 0, fun _ _ => 0, fun _ _ => 0, fun _ => 0⟩⟩ 3
    [⟨0, 0, 1⟩, ⟨0, 2, 1⟩, ⟨1, 2, 1⟩, ⟨1, 2, 1⟩] fun i _ => if i = 0 then 2 else 0) 2) 0
  revert this
  decide +kernel

/-! ### Scores and the hidden layer -/

theorem sum_map_add' {α : Type} (l : List α) (f g : α → K) : (l.map fun a => f a + g a).sum = (l.map f).sum + (l.map g).sum := by
  induction l with
  | nil => simp
  | cons a l ih => simp only [List.map_cons, List.sum_cons, ih]; ring

theorem sum_map_mul' {α : Type} (l : List α) (f : α → K) (c : K) : (l.map fun a => c * f a).sum = c * (l.map f).sum := by
  induction l with
  | nil => simp
  | cons a l ih => simp only [List.map_cons, List.sum_cons, ih]; ring

theorem swap_sums (X : Nat → K) (w : Nat → Nat → K) (a : Nat → K) (cs js : List Nat) :
    (cs.map fun c => (js.map fun j => X j * w c j).sum * a c).sum = (js.map fun j => X j * (cs.map fun c => w c j * a c).sum).sum := by
  induction cs with
  | nil => simp
  | cons c cs ih =>
    simp only [List.map_cons, List.sum_cons, ih, mul_add, sum_map_add']
    congr 1
    rw [mul_comm, ← sum_map_mul']
    congr 1
    refine List.map_congr_left fun j _ => ?_
    ring

/-- **C186 (the scores).**  With a slope between 0 and 1 the score of an edge is the larger of a number and the slope times it; the number
is a linear function of the features of the source plus another of those of the target, whose coefficients are the attention vectors
pulled back through the weights. -/
theorem C186_score (P : Conv K) (h0 : 0 ≤ P.slope) (h1 : P.slope ≤ 1) (X : Feat K) (k : Nat) (e : Edge) :
    ∃ a b : Nat → K, (∀ j, a j = ((List.range P.channels).map fun c => P.weight k c j * P.attSrc k c).sum) ∧
      (∀ j, b j = ((List.range P.channels).map fun c => P.weight k c j * P.attDst k c).sum) ∧
      let s := ((List.range P.inputs).map fun j => X e.1 j * a j).sum + ((List.range P.inputs).map fun j => X e.2 j * b j).sum
      P.logit X k e = max s (P.slope * s) := by
  refine ⟨_, _, fun _ => rfl, fun _ => rfl, ?_⟩
  intro s
  have hs : P.logit X k e = leaky P.slope s := by
    unfold Conv.logit Conv.proj
    rw [swap_sums (X e.1), swap_sums (X e.2)]
  rw [hs]
  unfold leaky
  by_cases h : 0 < s
  · rw [if_pos h, max_eq_left]
    nlinarith
  · rw [if_neg h, max_eq_right]
    nlinarith [not_lt.mp h]

/-- **C186 (the hidden layer).**  What the first layer passes on grows with its sums, is never below minus one, and is the sum itself where
that is positive. -/
theorem C186_hidden (exp : K → K) (E : ExpLaw exp) (hmono : StrictMono exp) :
    StrictMono (elu exp) ∧ (∀ x, -1 < elu exp x) ∧ ∀ x, 0 ≤ x → elu exp x = x := by
  have h0 := exp_zero E
  have hneg : ∀ x, ¬ 0 < x → elu exp x = exp x - 1 := fun x h => by unfold elu; rw [if_neg h]
  have hpos : ∀ x, 0 < x → elu exp x = x := fun x h => by unfold elu; rw [if_pos h]
  refine ⟨fun x y hxy => ?_, fun x => ?_, fun x hx => ?_⟩
  · by_cases hy : 0 < y
    · rw [hpos y hy]
      by_cases hx : 0 < x
      · rw [hpos x hx]; exact hxy
      · rw [hneg x hx]
        have : exp x ≤ exp 0 := hmono.monotone (not_lt.mp hx)
        rw [h0] at this
        linarith
    · have hx : ¬ 0 < x := fun h => hy (h.trans hxy)
      rw [hneg x hx, hneg y hy]
      have := hmono hxy
      linarith
  · by_cases hx : 0 < x
    · rw [hpos x hx]; linarith
    · rw [hneg x hx]
      have := E.pos x
      linarith
  · rcases hx.lt_or_eq with hx | hx
    · exact hpos x hx
    · rw [hneg x (by rw [← hx]; exact lt_irrefl 0), ← hx, h0, sub_self]

/-! ### Predictions -/

theorem sum_pos_range {k : Nat} (hk : 0 < k) {f : Nat → K} (h : ∀ c, 0 < f c) : 0 < ((List.range k).map f).sum := by
  have h1 := sum_ge_mem (l := (List.range k).map f) (fun x hx => by obtain ⟨c, -, rfl⟩ := List.mem_map.mp hx; exact h c) (f 0)
    (List.mem_map.mpr ⟨0, List.mem_range.mpr hk, rfl⟩)
  exact lt_of_lt_of_le (h 0) h1

/-- **C186 (predictions).**  For every graph every node gets a distribution over the classes; with self-loops each node attends to itself;
a node without edges into it gets the same distribution whatever the features are. -/
theorem C186_predict (N : Net K) (exp sqrt : K → K) (E : ExpLaw exp) (eps floor : K) (classes n : Nat) (hk : 0 < classes) (loops : Bool)
    (es : List (WEdge K)) (X : Feat K) (v : Nat) :
    (∀ c, 0 < N.predict exp sqrt eps floor classes n loops es X v c) ∧
      ((List.range classes).map (N.predict exp sqrt eps floor classes n loops es X v)).sum = 1 ∧
      (loops = true → v < n → (v, v) ∈ seen sqrt floor n loops es) ∧
      (loops = false → (∀ e ∈ es, e.dst ≠ v) → ∀ X' c, N.predict exp sqrt eps floor classes n loops es X v c =
        N.predict exp sqrt eps floor classes n loops es X' v c) := by
  have hpos := sum_pos_range hk (f := fun c => exp (N.forward exp eps (seen sqrt floor n loops es) X v c)) (fun c => E.pos _)
  refine ⟨fun c => div_pos (E.pos _) hpos, ?_, ?_, ?_⟩
  · unfold Net.predict Grafn.probOf
    have : ∀ (l : List Nat) (f : Nat → K) (d : K), (l.map fun c => f c / d).sum = (l.map f).sum / d := by
      intro l f d
      induction l with
      | nil => simp
      | cons a l ih => rw [List.map_cons, List.map_cons, List.sum_cons, List.sum_cons, ih, add_div]
    rw [this, div_self hpos.ne']
  · rintro rfl hv
    rw [seen_loops]
    refine List.mem_flatMap.mpr ⟨v, List.mem_range.mpr hv, List.mem_filterMap.mpr ⟨v, List.mem_range.mpr hv, by simp⟩⟩
  · rintro rfl hv X' c
    have h2 : seen sqrt floor n false es = es.map (fun e => (e.src, e.dst)) := by
      unfold seen prepEdges normalize
      simp only [Bool.false_eq_true, if_false, List.map_map]
      rfl
    have hin : into (seen sqrt floor n false es) v = [] := by
      rw [h2]
      unfold into
      rw [List.filter_eq_nil_iff]
      intro e he
      obtain ⟨e', he', rfl⟩ := List.mem_map.mp he
      simpa using hv e' he'
    have hf : ∀ X, N.forward exp eps (seen sqrt floor n false es) X v = N.forward exp eps (seen sqrt floor n false es) X' v := by
      intro X
      funext j
      unfold Net.forward Conv.forward Conv.message
      rw [hin]
      rfl
    unfold Net.predict
    rw [hf X]

example : tiny.predict exp2 id 1 1 2 2 true [⟨0, 1, 1⟩] (fun _ _ => 0) 1 0 = 1 / 2 := by decide +kernel

end ModSSC.Gnn.Gat
