import Verif.Graph.FeatModel
import Verif.Graph.SpecProps
import Mathlib.Algebra.Order.BigOperators.Group.List
import Mathlib.Tactic.Linarith
import Mathlib.Tactic.FieldSimp
import Mathlib.Algebra.Order.Ring.Rat

/-!
# C48 (views cache), C75 (scipy does not matter), C76 (diffusion stays in range)
-/

namespace ModSSC.Graph
open ModSSC ModSSC.Json ModSSC.Json.Spec

/-! ### C76: diffusion stays in range -/

/-- Weighted sums lie between the extremes times the total weight. -/
theorem wsum_bounds {α : Type} (l : List α) (c h : α → Rat) {lo hi : Rat} (hc : ∀ a ∈ l, 0 ≤ c a)
    (hh : ∀ a ∈ l, lo ≤ h a ∧ h a ≤ hi) :
    lo * (l.map c).sum ≤ (l.map fun a => c a * h a).sum ∧
    (l.map fun a => c a * h a).sum ≤ hi * (l.map c).sum := by
  induction l with
  | nil => simp
  | cons a l ih =>
    obtain ⟨i1, i2⟩ := ih (fun b hb => hc b (List.mem_cons_of_mem _ hb))
      (fun b hb => hh b (List.mem_cons_of_mem _ hb))
    have c0 := hc a (List.mem_cons_self ..)
    obtain ⟨h1, h2⟩ := hh a (List.mem_cons_self ..)
    simp only [List.map_cons, List.sum_cons]
    constructor
    · nlinarith [mul_le_mul_of_nonneg_left h1 c0]
    · nlinarith [mul_le_mul_of_nonneg_left h2 c0]

/-- A sum restricted to the edges leaving `u`. -/
theorem sum_filter_src (es : List (Edge × Rat)) (u : Int) (g : Edge × Rat → Rat) :
    (es.map fun e => if e.1.1 = u then g e else 0).sum
      = ((es.filter fun e => e.1.1 = u).map g).sum := by
  induction es with
  | nil => rfl
  | cons e es ih =>
    simp only [List.map_cons, List.sum_cons, ih]
    by_cases h : e.1.1 = u
    · rw [if_pos h, List.filter_cons_of_pos (by simpa using h)]; simp
    · rw [if_neg h, List.filter_cons_of_neg (by simpa using h)]; simp

/-- The weighted edges of a graph, every edge of weight one if there are no weights. -/
def weightedEdges (edges : List Edge) (weights : Option (List Rat)) : List (Edge × Rat) :=
  edges.zip (weights.getD (List.replicate edges.length 1))

theorem outWeight_nonneg {es : List (Edge × Rat)} (h : ∀ e ∈ es, 0 ≤ e.2) (u : Int) :
    0 ≤ outWeight es u := by
  unfold outWeight
  refine List.sum_nonneg fun x hx => ?_
  obtain ⟨e, he, rfl⟩ := List.mem_map.mp hx
  split
  · exact h e he
  · exact le_refl 0

theorem degFloor_pos : 0 < degFloor := by decide +kernel

theorem normalized_nonneg {edges : List Edge} {weights : Option (List Rat)}
    (h : ∀ e ∈ weightedEdges edges weights, 0 ≤ e.2) :
    ∀ e ∈ normalizedEdges edges weights, 0 ≤ e.2 := by
  intro e he
  obtain ⟨e', he', rfl⟩ := List.mem_map.mp he
  exact div_nonneg (h e' he') (le_max_of_le_right (le_of_lt degFloor_pos))

/-- The normalised weights leaving a node add up to its weight over the floored weight. -/
theorem normalized_out (edges : List Edge) (weights : Option (List Rat)) (u : Int) :
    outWeight (normalizedEdges edges weights) u
      = outWeight (weightedEdges edges weights) u / max (outWeight (weightedEdges edges weights) u) degFloor := by
  unfold normalizedEdges
  change outWeight ((weightedEdges edges weights).map fun e =>
    (e.1, e.2 / max (outWeight (weightedEdges edges weights) e.1.1) degFloor)) u = _
  generalize hD : (fun v => max (outWeight (weightedEdges edges weights) v) degFloor) = D
  have hDu : max (outWeight (weightedEdges edges weights) u) degFloor = D u := by rw [← hD]
  have hDe : (fun e : Edge × Rat => (e.1, e.2 / max (outWeight (weightedEdges edges weights) e.1.1) degFloor))
      = fun e => (e.1, e.2 / D e.1.1) := by rw [← hD]
  rw [hDu, hDe]
  generalize weightedEdges edges weights = es
  clear hD hDu hDe
  induction es with
  | nil => simp [outWeight]
  | cons e es ih =>
    unfold outWeight at ih ⊢
    simp only [List.map_cons, List.sum_cons, ih, add_div]
    congr 1
    by_cases h : e.1.1 = u
    · rw [if_pos h, if_pos h, h]
    · rw [if_neg h, if_neg h, zero_div]

theorem normalized_out_le {edges : List Edge} {weights : Option (List Rat)}
    (h : ∀ e ∈ weightedEdges edges weights, 0 ≤ e.2) (u : Int) :
    0 ≤ outWeight (normalizedEdges edges weights) u ∧ outWeight (normalizedEdges edges weights) u ≤ 1 := by
  rw [normalized_out]
  have h0 := outWeight_nonneg h u
  have hp : 0 < max (outWeight (weightedEdges edges weights) u) degFloor :=
    lt_max_of_lt_right degFloor_pos
  exact ⟨div_nonneg h0 (le_of_lt hp), (div_le_one hp).mpr (le_max_left _ _)⟩

theorem normalized_out_one {edges : List Edge} {weights : Option (List Rat)} {u : Int}
    (h : degFloor ≤ outWeight (weightedEdges edges weights) u) :
    outWeight (normalizedEdges edges weights) u = 1 := by
  rw [normalized_out, max_eq_left h]
  exact div_self (ne_of_gt (lt_of_lt_of_le degFloor_pos h))

/-- All entries of a column lie in an interval. -/
def ColIn (n f : Nat) (lo hi : Rat) (M : Mat) : Prop := ∀ i < n, lo ≤ entry M i f ∧ entry M i f ≤ hi

theorem csr_bounds {n f : Nat} {es : List (Edge × Rat)} (hes : ∀ e ∈ es, 0 ≤ e.2)
    (hv : ∀ e ∈ es, 0 ≤ e.1.2 ∧ e.1.2 < n) {H : Mat} {lo hi : Rat} (hH : ColIn n f lo hi H) (i : Nat) :
    lo * outWeight es i ≤ csrApply es H i f ∧ csrApply es H i f ≤ hi * outWeight es i := by
  have e1 : csrApply es H i f = ((es.filter fun e => e.1.1 = (i : Int)).map
      fun e => e.2 * entry H e.1.2.toNat f).sum :=
    sum_filter_src es i (fun e => e.2 * entry H e.1.2.toNat f)
  have e2 : outWeight es i = ((es.filter fun e => e.1.1 = (i : Int)).map fun e => e.2).sum :=
    sum_filter_src es i (fun e => e.2)
  rw [e1, e2]
  clear e1 e2
  have h1 : ∀ e ∈ es.filter fun e => e.1.1 = (i : Int), 0 ≤ e.2 :=
    fun e he => hes e (List.mem_of_mem_filter he)
  have h2 : ∀ e ∈ es.filter fun e => e.1.1 = (i : Int),
      lo ≤ entry H e.1.2.toNat f ∧ entry H e.1.2.toNat f ≤ hi := by
    intro e he
    have := hv e (List.mem_of_mem_filter he)
    exact hH _ (by omega)
  exact wsum_bounds (α := Edge × Rat) (es.filter fun e => e.1.1 = (i : Int)) (fun e : Edge × Rat => e.2)
    (fun e : Edge × Rat => entry H e.1.2.toNat f) h1 h2

theorem denseEntry_append (es : List (Edge × Rat)) (e : Edge × Rat) (i j : Int) :
    denseEntry (es ++ [e]) i j = if e.1 = (i, j) then e.2 else denseEntry es i j := by
  unfold denseEntry
  rw [List.foldl_append]
  rfl

theorem denseEntry_nonneg {es : List (Edge × Rat)} (h : ∀ e ∈ es, 0 ≤ e.2) (i j : Int) :
    0 ≤ denseEntry es i j := by
  induction es using List.reverseRecOn with
  | nil => exact le_refl 0
  | append_singleton es e ih =>
    rw [denseEntry_append]
    split
    · exact h e (by simp)
    · exact ih fun x hx => h x (by simp [hx])

/-- Changing one summand of a sum over `range n`. -/
theorem sum_range_update (n : Nat) (g : Nat → Rat) (k : Nat) (hk : k < n) (x : Rat) :
    ((List.range n).map fun j => if j = k then x else g j).sum = ((List.range n).map g).sum - g k + x := by
  induction n with
  | zero => omega
  | succ n ih =>
    simp only [List.range_succ, List.map_append, List.sum_append, List.map_cons, List.map_nil,
      List.sum_cons, List.sum_nil, add_zero]
    by_cases h : k = n
    · subst h
      have : ((List.range k).map fun j => if j = k then x else g j) = (List.range k).map g := by
        refine List.map_congr_left fun j hj => ?_
        rw [if_neg (by have := List.mem_range.mp hj; omega)]
      rw [this, if_pos rfl]
      ring
    · rw [ih (by omega), if_neg (fun h' => h h'.symm)]
      ring

theorem denseRow_append (n : Nat) (es : List (Edge × Rat)) (e : Edge × Rat) (i : Int) (g : Nat → Rat)
    (he : 0 ≤ e.1.2 ∧ e.1.2 < n) :
    ((List.range n).map fun (j : Nat) => denseEntry (es ++ [e]) i j * g j).sum =
      ((List.range n).map fun (j : Nat) => denseEntry es i j * g j).sum +
        (if e.1.1 = i then (e.2 - denseEntry es i e.1.2) * g e.1.2.toNat else 0) := by
  by_cases h : e.1.1 = i
  · rw [if_pos h]
    have hk : e.1.2.toNat < n := by omega
    have := sum_range_update n (fun (j : Nat) => denseEntry es i j * g j) e.1.2.toNat hk
      (e.2 * g e.1.2.toNat)
    have hc : ((e.1.2.toNat : Nat) : Int) = e.1.2 := Int.toNat_of_nonneg he.1
    rw [hc] at this
    have heq : ((List.range n).map fun (j : Nat) => denseEntry (es ++ [e]) i j * g j)
        = (List.range n).map fun (j : Nat) => if j = e.1.2.toNat then e.2 * g e.1.2.toNat
            else denseEntry es i j * g j := by
      refine List.map_congr_left fun j _ => ?_
      rw [denseEntry_append]
      by_cases hj : j = e.1.2.toNat
      · subst hj
        rw [if_pos (by rw [hc, ← h]), if_pos rfl]
      · rw [if_neg hj, if_neg]
        intro hcon
        rw [hcon] at hj
        exact hj (by simp)
    rw [heq, this]
    ring
  · rw [if_neg h, add_zero]
    congr 1
    refine List.map_congr_left fun j _ => ?_
    rw [denseEntry_append, if_neg]
    intro hcon
    rw [hcon] at h
    exact h rfl

theorem denseRow_le {n : Nat} {es : List (Edge × Rat)} (h : ∀ e ∈ es, 0 ≤ e.2)
    (hv : ∀ e ∈ es, 0 ≤ e.1.2 ∧ e.1.2 < n) (i : Int) :
    ((List.range n).map fun (j : Nat) => denseEntry es i j).sum ≤ outWeight es i := by
  induction es using List.reverseRecOn with
  | nil =>
    unfold outWeight
    simp only [List.map_nil, List.sum_nil]
    refine le_of_eq ?_
    rw [show (fun (j : Nat) => denseEntry [] i j) = fun _ => (0 : Rat) from rfl]
    simp
  | append_singleton es e ih =>
    have ih := ih (fun x hx => h x (by simp [hx])) (fun x hx => hv x (by simp [hx]))
    have := denseRow_append n es e i (fun _ => 1) (hv e (by simp))
    simp only [mul_one] at this
    rw [this]
    unfold outWeight at ih ⊢
    rw [List.map_append, List.sum_append]
    simp only [List.map_cons, List.map_nil, List.sum_cons, List.sum_nil, add_zero]
    have h0 := denseEntry_nonneg (fun x hx => h x (by simp [hx]) : ∀ x ∈ es, 0 ≤ x.2) i e.1.2
    split
    · linarith
    · linarith

theorem dense_eq_csr {n : Nat} {es : List (Edge × Rat)} (hnd : (es.map (·.1)).Nodup)
    (hv : ∀ e ∈ es, 0 ≤ e.1.2 ∧ e.1.2 < n) (H : Mat) (i f : Nat) :
    denseApply n es H i f = csrApply es H i f := by
  unfold denseApply csrApply
  induction es using List.reverseRecOn with
  | nil =>
    simp [denseEntry]
  | append_singleton es e ih =>
    rw [List.map_append, List.nodup_append] at hnd
    have ih := ih hnd.1 (fun x hx => hv x (by simp [hx]))
    rw [denseRow_append n es e i (fun j => entry H j f) (hv e (by simp)), ih, List.map_append,
      List.sum_append]
    simp only [List.map_cons, List.map_nil, List.sum_cons, List.sum_nil, add_zero]
    congr 1
    by_cases h : e.1.1 = (i : Int)
    · rw [if_pos h, if_pos h]
      have h0 : denseEntry es i e.1.2 = 0 := by
        have hno : ∀ x ∈ es, x.1 ≠ ((i : Int), e.1.2) := by
          intro x hx heq
          exact hnd.2.2 x.1 (List.mem_map_of_mem hx) e.1 (by simp) (by rw [heq, ← h])
        clear ih hnd hv
        revert hno
        generalize es = es
        intro hno
        induction es using List.reverseRecOn with
        | nil => rfl
        | append_singleton es x ih =>
          rw [denseEntry_append, if_neg (hno x (by simp))]
          exact ih fun y hy => hno y (by simp [hy])
      rw [h0, sub_zero]
    · rw [if_neg h, if_neg h]

theorem entry_step {apply : Mat → Nat → Nat → Rat} {n d : Nat} {alpha : Rat} {X H : Mat} {i f : Nat}
    (hi : i < n) (hf : f < d) :
    entry (diffusionStep apply n d alpha X H) i f = apply H i f * (1 - alpha) + entry X i f * alpha := by
  have h1 : (diffusionStep apply n d alpha X H)[i]? = some ((List.range d).map fun (f : Nat) =>
      apply H i f * (1 - alpha) + entry X i f * alpha) := by
    simp [diffusionStep, hi]
  unfold entry at h1 ⊢
  rw [h1]
  simp [hf]

theorem loop_range {apply : Mat → Nat → Nat → Rat} {n d f : Nat} {alpha lo hi : Rat} {X : Mat}
    (ha : 0 ≤ alpha ∧ alpha ≤ 1) (hf : f < d) (hX : ColIn n f lo hi X)
    (hap : ∀ H, ColIn n f lo hi H → ∀ i < n, lo ≤ apply H i f ∧ apply H i f ≤ hi) (t : Nat) :
    ColIn n f lo hi (diffusionLoop apply n d alpha X t) := by
  induction t with
  | zero => exact hX
  | succ t ih =>
    intro i hin
    rw [diffusionLoop, entry_step hin hf]
    obtain ⟨h1, h2⟩ := hap _ ih i hin
    obtain ⟨h3, h4⟩ := hX i hin
    obtain ⟨a0, a1⟩ := ha
    have b0 : 0 ≤ 1 - alpha := by linarith
    constructor
    · nlinarith [mul_le_mul_of_nonneg_right h1 b0, mul_le_mul_of_nonneg_right h3 a0]
    · nlinarith [mul_le_mul_of_nonneg_right h2 b0, mul_le_mul_of_nonneg_right h4 a0]

theorem loop_shape {apply : Mat → Nat → Nat → Rat} {n d : Nat} {alpha : Rat} {X : Mat}
    (hX : X.length = n ∧ ∀ r ∈ X, r.length = d) (t : Nat) :
    (diffusionLoop apply n d alpha X t).length = n ∧
      ∀ r ∈ diffusionLoop apply n d alpha X t, r.length = d := by
  cases t with
  | zero => exact hX
  | succ t =>
    unfold diffusionLoop diffusionStep
    refine ⟨by simp, fun r hr => ?_⟩
    obtain ⟨i, -, rfl⟩ := List.mem_map.mp hr
    simp

theorem width_eq {X : Mat} {d : Nat} (h : ∀ r ∈ X, r.length = d) (hne : X ≠ []) : width X = d := by
  cases X with
  | nil => exact absurd rfl hne
  | cons r X => simpa [width] using h r (List.mem_cons_self ..)

theorem normalized_edge {edges : List Edge} {weights : Option (List Rat)} {n : Nat}
    (hv : ∀ e ∈ edges, 0 ≤ e.2 ∧ e.2 < n) :
    ∀ e ∈ normalizedEdges edges weights, 0 ≤ e.1.2 ∧ e.1.2 < n := by
  intro e he
  obtain ⟨⟨e', w⟩, he', rfl⟩ := List.mem_map.mp he
  exact hv e' (List.of_mem_zip he').1

theorem zeros_ge {alpha lo : Rat} (h : lo ≤ 0) (_h0 : 0 ≤ alpha) (h1 : alpha ≤ 1) : lo ≤ lo * alpha := by
  nlinarith

/-- **C76.**  For non-negative edge weights, `alpha` in `[0, 1]` and any number of steps, the diffusion
view has the shape of `X`, and every value lies between the extremes of its column of `X` and zero
(nodes without outgoing edges are pulled towards zero).  If every node has outgoing weight of at
least `1e-12`, every value lies between the extremes of its column. -/
theorem C76_range {scipy : Bool} {X : Mat} {n d : Nat} {edges : List Edge} {weights : Option (List Rat)}
    {steps : Int} {alpha : Rat} {H : Mat}
    (hX : ∀ r ∈ X, r.length = d) (hv : ∀ e ∈ edges, 0 ≤ e.2 ∧ e.2 < n)
    (hw : ∀ w, weights = some w → ∀ x ∈ w, 0 ≤ x) (ha : 0 ≤ alpha ∧ alpha ≤ 1)
    (hrun : diffusionView scipy X n edges weights steps alpha = .ok H) :
    H.length = n ∧ (∀ r ∈ H, r.length = d) ∧
    ∀ (f : Nat) (lo hi : Rat), f < d →
      (∀ i < n, lo ≤ entry X i f ∧ entry X i f ≤ hi) →
      (lo ≤ 0 ∧ 0 ≤ hi ∨ (scipy = true ∨ edges.Nodup) ∧
        ∀ i < n, degFloor ≤ outWeight (weightedEdges edges weights) i) →
      ∀ i < n, lo ≤ entry H i f ∧ entry H i f ≤ hi := by
  have hwe : ∀ e ∈ weightedEdges edges weights, 0 ≤ e.2 := by
    intro e he
    have := (List.of_mem_zip (show (e.1, e.2) ∈ edges.zip _ from he)).2
    cases hc : weights with
    | none =>
      rw [hc] at this
      simp only [Option.getD_none, List.mem_replicate] at this
      rw [this.2]; decide +kernel
    | some w => rw [hc] at this; exact hw w hc _ this
  have hes := normalized_nonneg hwe
  have hve := normalized_edge (weights := weights) hv
  unfold diffusionView at hrun
  by_cases hlen : X.length = n
  swap
  · rw [if_pos hlen] at hrun; exact absurd hrun (by simp)
  rw [if_neg (by simpa using hlen)] at hrun
  by_cases hn : X = []
  · -- no nodes
    have hn0 : n = 0 := by rw [← hlen, hn]; rfl
    subst hn0
    have hH : H = [] := by
      have : ∀ ap t, diffusionLoop ap 0 (width X) alpha X t = [] := by
        intro ap t
        have h1 := (loop_shape (apply := ap) (alpha := alpha) (d := width X) (n := 0) (X := X)
          ⟨hlen, by rw [hn]; simp⟩ t).1
        exact List.length_eq_zero_iff.mp h1
      split at hrun
      · rw [this] at hrun; exact (Except.ok.inj hrun).symm
      · split at hrun
        · exact absurd hrun (by simp)
        · rw [this] at hrun; exact (Except.ok.inj hrun).symm
    subst hH
    exact ⟨rfl, by simp, fun f lo hi _ _ _ i hi' => absurd hi' (by omega)⟩
  rw [width_eq hX hn] at hrun
  have key : ∀ apply : Mat → Nat → Nat → Rat, H = diffusionLoop apply n d alpha X steps.toNat →
      (∀ (f : Nat) (lo hi : Rat), (lo ≤ 0 ∧ 0 ≤ hi ∨ (scipy = true ∨ edges.Nodup) ∧
        ∀ i < n, degFloor ≤ outWeight (weightedEdges edges weights) i) →
        ∀ H, ColIn n f lo hi H → ∀ i < n, lo ≤ apply H i f ∧ apply H i f ≤ hi) →
      H.length = n ∧ (∀ r ∈ H, r.length = d) ∧
      ∀ (f : Nat) (lo hi : Rat), f < d →
        (∀ i < n, lo ≤ entry X i f ∧ entry X i f ≤ hi) →
        (lo ≤ 0 ∧ 0 ≤ hi ∨ (scipy = true ∨ edges.Nodup) ∧
          ∀ i < n, degFloor ≤ outWeight (weightedEdges edges weights) i) →
        ∀ i < n, lo ≤ entry H i f ∧ entry H i f ≤ hi := by
    rintro apply rfl hb
    obtain ⟨s1, s2⟩ := loop_shape (apply := apply) (alpha := alpha) ⟨hlen, hX⟩ steps.toNat
    exact ⟨s1, s2, fun f lo hi hf hcol hc => loop_range ha hf hcol (hb f lo hi hc) _⟩
  have hcsr : ∀ (f : Nat) (lo hi : Rat), (lo ≤ 0 ∧ 0 ≤ hi ∨
        ∀ i < n, degFloor ≤ outWeight (weightedEdges edges weights) i) →
        ∀ H, ColIn n f lo hi H → ∀ i < n,
          lo ≤ csrApply (normalizedEdges edges weights) H i f ∧
          csrApply (normalizedEdges edges weights) H i f ≤ hi := by
    intro f lo hi hc H hH i hin
    obtain ⟨b1, b2⟩ := csr_bounds hes hve hH i
    obtain ⟨o1, o2⟩ := normalized_out_le hwe i
    rcases hc with ⟨z1, z2⟩ | hdeg
    · have := zeros_ge z1 o1 o2
      have := zeros_ge (lo := -hi) (by linarith) o1 o2
      constructor <;> linarith
    · rw [normalized_out_one (hdeg i hin)] at b1 b2
      constructor <;> linarith
  cases hs : scipy with
  | true =>
    rw [hs] at hrun
    refine hs ▸ key _ (Except.ok.inj hrun).symm fun f lo hi hc => hcsr f lo hi ?_
    exact hc.imp id And.right
  | false =>
    rw [hs] at hrun
    simp only [Bool.false_eq_true, if_false] at hrun
    by_cases hbig : 4096 < n
    · rw [if_pos hbig] at hrun; exact absurd hrun (by simp)
    rw [if_neg hbig] at hrun
    refine hs ▸ key _ (Except.ok.inj hrun).symm fun f lo hi hc H hH i hin => ?_
    rcases hc with ⟨z1, z2⟩ | ⟨hnd, hdeg⟩
    · have hb := wsum_bounds (List.range n) (fun (j : Nat) => denseEntry (normalizedEdges edges weights) i j)
        (fun j => entry H j f) (lo := lo) (hi := hi) (fun j _ => denseEntry_nonneg hes _ _)
        (fun j hj => hH j (List.mem_range.mp hj))
      obtain ⟨o1, o2⟩ := normalized_out_le hwe i
      have hle := denseRow_le hes hve (i : Int)
      have h0 : 0 ≤ ((List.range n).map fun (j : Nat) =>
          denseEntry (normalizedEdges edges weights) i j).sum := by
        refine List.sum_nonneg fun x hx => ?_
        obtain ⟨j, -, rfl⟩ := List.mem_map.mp hx
        exact denseEntry_nonneg hes _ _
      have := zeros_ge z1 h0 (hle.trans o2)
      have := zeros_ge (lo := -hi) (by linarith) h0 (hle.trans o2)
      unfold denseApply
      constructor <;> linarith [hb.1, hb.2]
    · rw [hs] at hnd
      rw [dense_eq_csr ?_ hve]
      · exact hcsr f lo hi (.inr hdeg) H hH i hin
      · have : (normalizedEdges edges weights).map (·.1) = (weightedEdges edges weights).map (·.1) := by
          simp [normalizedEdges, weightedEdges, Function.comp_def]
        rw [this]
        refine List.Nodup.sublist ?_ (hnd.resolve_left (by simp))
        unfold weightedEdges
        generalize weights.getD _ = ws
        clear * -
        induction edges generalizing ws with
        | nil => simp
        | cons e es ih =>
          cases ws with
          | nil => simp
          | cons w ws => simpa using ih ws

/-- **C75, partial.**  Whether scipy is installed makes no difference to the diffusion view of a graph
of at most 4096 nodes without repeated edges.  Missing: graphs with repeated edges, for which the
claim is false (`C75_repeated_violated`); larger graphs need scipy. -/
theorem C75_scipy_partial {X : Mat} {n : Nat} {edges : List Edge} {weights : Option (List Rat)}
    {steps : Int} {alpha : Rat} (hnd : edges.Nodup) (hv : ∀ e ∈ edges, 0 ≤ e.2 ∧ e.2 < n)
    (hn : n ≤ 4096) :
    diffusionView true X n edges weights steps alpha = diffusionView false X n edges weights steps alpha := by
  unfold diffusionView
  by_cases hlen : X.length = n
  swap
  · rw [if_pos hlen, if_pos hlen]
  rw [if_neg (not_not.mpr hlen), if_neg (not_not.mpr hlen), if_pos rfl]
  simp only [Bool.false_eq_true, if_false]
  rw [if_neg (by omega)]
  have hnd' : ((normalizedEdges edges weights).map (·.1)).Nodup := by
    have : (normalizedEdges edges weights).map (·.1) = (weightedEdges edges weights).map (·.1) := by
      simp [normalizedEdges, weightedEdges, Function.comp_def]
    rw [this]
    refine List.Nodup.sublist ?_ hnd
    unfold weightedEdges
    generalize weights.getD _ = ws
    clear * -
    induction edges generalizing ws with
    | nil => simp
    | cons e es ih =>
      cases ws with
      | nil => simp
      | cons w ws => simpa using ih ws
  have : csrApply (normalizedEdges edges weights) = denseApply n (normalizedEdges edges weights) := by
    funext H i f
    exact (dense_eq_csr hnd' (normalized_edge hv) H i f).symm
  rw [this]

/-- **C75 is false for repeated edges**: with the edge from node 0 to node 1 listed twice, the view
computed with scipy and the one computed without differ. -/
theorem C75_repeated_violated :
    ∃ H H', diffusionView true [[0], [1]] 2 [(0, 1), (0, 1), (1, 0)] none 1 0 = .ok H ∧
      diffusionView false [[0], [1]] 2 [(0, 1), (0, 1), (1, 0)] none 1 0 = .ok H' ∧
      H = [[1], [0]] ∧ H' = [[1/2], [0]] :=
  ⟨_, _, rfl, rfl, by decide +kernel, by decide +kernel⟩

example : diffusionView true [[0, 3], [1, 5]] 2 [(0, 1), (1, 0)] (some [2, 1]) 2 (1 / 2)
    = .ok [[1 / 4, 7 / 2], [3 / 4, 9 / 2]] := by decide +kernel

example : ∀ i ∈ [0, 1], degFloor ≤ outWeight (weightedEdges [(0, 1), (1, 0)] (some [2, 1])) i := by
  decide +kernel

end ModSSC.Graph
