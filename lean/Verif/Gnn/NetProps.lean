import Verif.Gnn.NetModel
import Verif.Gnn.PrepProps
import Mathlib.Data.List.Perm.Basic
import Mathlib.Logic.Equiv.Defs
import Mathlib.Logic.Equiv.Basic

/-!
# C187 — reach and symmetry of the propagation networks
-/

namespace ModSSC.Gnn.Nets
open ModSSC ModSSC.Transductive ModSSC.Gnn

variable {K : Type} [Field K] [LinearOrder K] [IsStrictOrderedRing K]

namespace Spec

/-- `i` is at most `k` edges before `v`. -/
def Within (es : List (WEdge K)) (v : Nat) : Nat → Nat → Prop
  | 0, i => i = v
  | k + 1, i => Within es v k i ∨ ∃ w, Within es v k w ∧ ∃ e ∈ es, e.src = i ∧ e.dst = w

/-- The same edges into the node, in any order. -/
def SameInto (es es' : List (WEdge K)) (v : Nat) : Prop := (es.filter fun e => e.dst = v).Perm (es'.filter fun e => e.dst = v)

/-- How far a network looks: two layers; `k` propagations; two layers of `k`; one per layer. -/
def steps : Net K → Nat
  | .gcn _ _ => 2
  | .sgc k _ => k
  | .appnp k _ _ _ => k
  | .cheb k _ _ _ _ => 2 * k
  | .gcnii _ _ _ layers _ => layers.length
  | .sage _ _ _ _ => 2

/-- The edge with renamed ends. -/
def rename (σ : Nat → Nat) (e : WEdge K) : WEdge K := ⟨σ e.src, σ e.dst, e.w⟩

/-- What is used of the exponential function. -/
def ExpLaw (exp : K → K) : Prop := ∀ x, 0 < exp x

end Spec

open Spec

/-! ### Functions of a graph that look `k` steps back -/

/-- The functions built from row-wise functions and propagation, with the number of propagations one after the other. -/
inductive Prog : Nat → (List (WEdge K) → Feat K → Feat K) → Prop
  | row (f : (Nat → K) → Nat → K) : Prog 0 (fun _ X i => f (X i))
  | prop : Prog 1 spmm
  | comp {a b F G} : Prog a F → Prog b G → Prog (a + b) (fun es X => G es (F es X))
  | pair {a F G} (g : (Nat → K) → (Nat → K) → Nat → K) : Prog a F → Prog a G → Prog a (fun es X i => g (F es X i) (G es X i))
  | mono {a b F} : a ≤ b → Prog a F → Prog b F

omit [Field K] [LinearOrder K] [IsStrictOrderedRing K] in
theorem within_mono {es : List (WEdge K)} {v i : Nat} {a b : Nat} (h : a ≤ b) (hw : Within es v a i) : Within es v b i := by
  induction h with
  | refl => exact hw
  | step _ ih => exact .inl ih

omit [Field K] [LinearOrder K] [IsStrictOrderedRing K] in
theorem within_trans {es : List (WEdge K)} {v w : Nat} {a : Nat} (h : Within es v a w) : ∀ b i, Within es w b i → Within es v (a + b) i
  | 0, i, hi => by rw [show i = w from hi]; exact h
  | b + 1, i, hi => by
    rcases hi with hi | ⟨u, hu, he⟩
    · exact .inl (within_trans h b i hi)
    · exact .inr ⟨u, within_trans h b u hu, he⟩

theorem prog_local {k : Nat} {F : List (WEdge K) → Feat K → Feat K} (h : Prog k F) : ∀ (es es' : List (WEdge K)) (X X' : Feat K) (v : Nat),
    (∀ j < k, ∀ w, Within es v j w → SameInto es es' w) → (∀ i, Within es v k i → X i = X' i) → F es X v = F es' X' v := by
  induction h with
  | row f =>
    intro es es' X X' v _ hX
    dsimp only
    rw [hX v rfl]
  | prop =>
    intro es es' X X' v hes hX
    funext c
    have hp : SameInto es es' v := hes 0 (by omega) v rfl
    unfold spmm
    have h1 : ((es.filter fun e => e.dst = v).map fun e => X e.src c * e.w) = (es.filter fun e => e.dst = v).map fun e => X' e.src c * e.w := by
      refine List.map_congr_left fun e he => ?_
      have hd : e.dst = v := by simpa using (List.mem_filter.mp he).2
      rw [hX e.src (.inr ⟨v, rfl, e, (List.mem_filter.mp he).1, rfl, hd⟩)]
    rw [h1]
    exact (hp.map _).sum_eq
  | @comp a b F G _ _ ihF ihG =>
    intro es es' X X' v hes hX
    refine ihG es es' _ _ v (fun j hj w hw => hes j (by omega) w hw) fun i hi => ?_
    refine ihF es es' X X' i (fun j hj w hw => hes (b + j) (by omega) w (within_trans hi j w hw)) fun u hu => ?_
    exact hX u (by rw [Nat.add_comm]; exact within_trans hi a u hu)
  | pair g _ _ ihF ihG =>
    intro es es' X X' v hes hX
    dsimp only
    rw [ihF es es' X X' v hes hX, ihG es es' X X' v hes hX]
  | mono hab _ ih =>
    intro es es' X X' v hes hX
    exact ih es es' X X' v (fun j hj => hes j (by omega)) fun i hi => hX i (within_mono hab hi)

theorem prog_rename {k : Nat} {F : List (WEdge K) → Feat K → Feat K} (h : Prog k F) (σ : Nat → Nat) (hσ : Function.Injective σ) :
    ∀ (es : List (WEdge K)) (X X' : Feat K), (∀ i, X' (σ i) = X i) → ∀ v, F (es.map (rename σ)) X' (σ v) = F es X v := by
  induction h with
  | row f =>
    intro es X X' hX v
    dsimp only
    rw [hX v]
  | prop =>
    intro es X X' hX v
    funext c
    unfold spmm
    rw [List.filter_map, List.map_map]
    have : (es.filter ((fun e : WEdge K => decide (e.dst = σ v)) ∘ rename σ)) = es.filter fun e => decide (e.dst = v) := by
      refine List.filter_congr fun e _ => ?_
      simp [rename, hσ.eq_iff]
    rw [this]
    congr 1
    refine List.map_congr_left fun e _ => ?_
    simp [rename, hX]
  | comp _ _ ihF ihG =>
    intro es X X' hX v
    exact ihG es _ _ (fun i => ihF es X X' hX i) v
  | pair g _ _ ihF ihG =>
    intro es X X' hX v
    dsimp only
    rw [ihF es X X' hX v, ihG es X X' hX v]
  | mono _ _ ih => exact ih

/-! ### The networks are such functions -/

theorem prog_app (L : Linear K) : Prog 0 (fun (_ : List (WEdge K)) X => L.app X) :=
  .row fun r o => ((List.range L.inputs).map fun j => r j * L.weight o j).sum + L.bias o

theorem prog_relu : Prog 0 (fun (_ : List (WEdge K)) X => relu X) := .row fun r c => max (r c) 0

theorem prog_id : Prog 0 (fun (_ : List (WEdge K)) (X : Feat K) => X) := .row fun r => r

theorem prog_then_row {a : Nat} {F : List (WEdge K) → Feat K → Feat K} (h : Prog a F) {G : List (WEdge K) → Feat K → Feat K}
    (hG : Prog 0 G) : Prog a (fun es X => G es (F es X)) := .comp (b := 0) h hG

theorem prog_propagate : ∀ k, Prog (K := K) k (fun es X => propagate es k X)
  | 0 => prog_id
  | k + 1 => by
    have := Prog.comp (K := K) .prop (prog_propagate k)
    rw [Nat.add_comm] at this
    exact this

theorem prog_appnp (alpha : K) {a : Nat} {F0 : List (WEdge K) → Feat K → Feat K} (h0 : Prog a F0) : ∀ (k b : Nat)
    (H : List (WEdge K) → Feat K → Feat K), a ≤ b → Prog b H → Prog (b + k) (fun es X => appnpLoop es alpha (F0 es X) k (H es X))
  | 0, b, H, _, hH => hH
  | k + 1, b, H, hab, hH => by
    have hstep : Prog (b + 1) (fun es X i c => (1 - alpha) * spmm es (H es X) i c + alpha * F0 es X i c) :=
      Prog.pair (fun x y c => (1 - alpha) * x c + alpha * y c) (.comp hH .prop) (.mono (by omega) h0)
    have := prog_appnp alpha h0 k (b + 1) _ (by omega) hstep
    rw [show b + (k + 1) = b + 1 + k by omega]
    exact this

theorem prog_lap {b : Nat} {F : List (WEdge K) → Feat K → Feat K} (h : Prog b F) : Prog (b + 1) (fun es X => lapOp es (F es X)) :=
  prog_then_row (.comp h .prop) (.row fun r c => - r c)

theorem prog_cheb (lins : Nat → Linear K) : ∀ (k b s : Nat) (T0 T1 : List (WEdge K) → Feat K → Feat K), Prog b T0 → Prog b T1 →
    Prog (b + k) (fun es X i o => (((chebLoop es k (T0 es X) (T1 es X)).zipIdx s).map fun t => (lins t.2).app t.1 i o).sum)
  | 0, b, s, T0, T1, _, _ => .mono (Nat.zero_le _) (.row fun _ _ => 0)
  | k + 1, b, s, T0, T1, h0, h1 => by
    have h2 : Prog (b + 1) (fun es X i c => 2 * lapOp es (T1 es X) i c - T0 es X i c) :=
      Prog.pair (fun x y c => 2 * x c - y c) (prog_lap h1) (.mono (by omega) h0)
    have hrest := prog_cheb lins k (b + 1) (s + 1) T1 _ (.mono (by omega) h1) h2
    rw [show b + (k + 1) = b + 1 + k by omega]
    exact Prog.pair (fun x y o => x o + y o) (.mono (by omega) (prog_then_row h2 (prog_app (lins s)))) hrest

theorem prog_chebConv (k : Nat) (lins : Nat → Linear K) (bias : Nat → K) : Prog k (fun es X => chebConv k lins bias es X) := by
  cases k with
  | zero =>
    have : Prog (K := K) 0 (fun _ X i o => ([(X, 0)].map fun t : Feat K × Nat => (lins t.2).app t.1 i o).sum + bias o) :=
      .row fun r o => ([0].map fun t : Nat => ((List.range (lins t).inputs).map fun j => r j * (lins t).weight o j).sum + (lins t).bias o).sum +
        bias o
    exact this
  | succ k =>
    have h1 : Prog (K := K) 1 (fun es X => lapOp es X) := prog_lap prog_id
    have hrest := prog_cheb lins k 1 2 (fun _ X => X) _ (.mono (by omega) prog_id) h1
    have ha := Prog.pair (K := K) (fun x y o => x o + (y o)) (.mono (a := 0) (b := 1 + k) (by omega) (prog_app (lins 0)))
      (Prog.pair (fun x y o => x o + y o) (.mono (b := 1 + k) (by omega) (prog_then_row h1 (prog_app (lins 1)))) hrest)
    have hb := prog_then_row ha (.row fun r o => r o + bias o)
    rw [Nat.add_comm 1 k] at hb
    exact hb

theorem prog_gcnii (alpha : K) (beta : Nat → K) {a : Nat} {F0 : List (WEdge K) → Feat K → Feat K} (h0 : Prog a F0) :
    ∀ (layers : List (Linear K)) (i b : Nat) (H : List (WEdge K) → Feat K → Feat K), a ≤ b → Prog b H →
      Prog (b + layers.length) (fun es X => gcniiLoop es alpha beta (F0 es X) i layers (H es X))
  | [], i, b, H, _, hH => hH
  | L :: rest, i, b, H, hab, hH => by
    have hmix : Prog (b + 1) (fun es X => gcniiMix es alpha (F0 es X) (H es X)) :=
      Prog.pair (fun x y c => (1 - alpha) * x c + alpha * y c) (.comp hH .prop) (.mono (by omega) h0)
    have hlay : Prog (b + 1) (fun es X => relu fun v c => (1 - beta i) * gcniiMix es alpha (F0 es X) (H es X) v c +
        beta i * L.app (gcniiMix es alpha (F0 es X) (H es X)) v c) :=
      prog_then_row (Prog.pair (fun x y c => (1 - beta i) * x c + beta i * y c) hmix (prog_then_row hmix (prog_app L))) prog_relu
    have := prog_gcnii alpha beta h0 rest (i + 1) (b + 1) _ (by omega) hlay
    rw [List.length_cons, show b + (rest.length + 1) = b + 1 + rest.length by omega]
    exact this

theorem prog_sage (d : Nat) (L : Linear K) : Prog 1 (fun es X => sageConv d L es X) :=
  prog_then_row (Prog.pair (fun x y j => if j < d then x j else y (j - d)) (.mono (by omega) prog_id) .prop) (prog_app L)

theorem prog_net (N : Net K) : Prog (steps N) N.forward := by
  cases N with
  | gcn a b =>
    have h1 : Prog 1 (fun es X => relu (gcnConv a es X)) := prog_then_row (.comp (a := 0) (prog_app a) .prop) prog_relu
    exact Prog.comp h1 (.comp (a := 0) (prog_app b) .prop)
  | sgc k a => exact prog_then_row (prog_propagate k) (prog_app a)
  | appnp k alpha a b =>
    have h0 : Prog 0 (fun _ X => b.app (relu (a.app X))) := prog_then_row (prog_then_row (prog_app a) prog_relu) (prog_app b)
    have := prog_appnp alpha h0 k 0 _ (Nat.le_refl 0) h0
    rw [Nat.zero_add] at this
    exact this
  | cheb k l1 b1 l2 b2 =>
    have := Prog.comp (prog_then_row (prog_chebConv k l1 b1) prog_relu) (prog_chebConv k l2 b2)
    rw [← Nat.two_mul] at this
    exact this
  | gcnii alpha beta first layers last =>
    have h0 : Prog 0 (fun _ X => relu (first.app X)) := prog_then_row (prog_app first) prog_relu
    have := prog_gcnii alpha beta h0 layers 1 0 _ (Nat.le_refl 0) h0
    rw [Nat.zero_add] at this
    exact prog_then_row this (prog_app last)
  | sage d1 a d2 b => exact Prog.comp (prog_then_row (prog_sage d1 a) prog_relu) (prog_sage d2 b)

/-! ### Reach -/

/-- **C187 (reach in the normalized graph).**  The scores of a node depend only on the features of the nodes at most `steps` edges before
it and on the weighted edges into nodes at most `steps - 1` edges before it, in any order. -/
theorem C187_local (N : Net K) (es es' : List (WEdge K)) (X X' : Feat K) (v : Nat)
    (hes : ∀ j < steps N, ∀ w, Within es v j w → SameInto es es' w) (hX : ∀ i, Within es v (steps N) i → X i = X' i) :
    N.forward es X v = N.forward es' X' v := prog_local (prog_net N) es es' X X' v hes hX

omit [IsStrictOrderedRing K] in
theorem mem_coalesce {n : Nat} {es : List (WEdge K)} {e : WEdge K} : e ∈ coalesce n es ↔
    e.dst < n ∧ e.src < n ∧ (∃ e' ∈ es, e'.src = e.src ∧ e'.dst = e.dst) ∧ e.w = cell es e.dst e.src := by
  unfold coalesce
  simp only [List.mem_flatMap, List.mem_range, List.mem_filterMap]
  constructor
  · rintro ⟨d, hd, s, hs, h⟩
    by_cases ha : (es.any fun e => decide (e.dst = d ∧ e.src = s)) = true
    · rw [if_pos ha] at h
      cases h
      obtain ⟨e', he', h'⟩ := List.any_eq_true.mp ha
      have := of_decide_eq_true h'
      exact ⟨hd, hs, ⟨e', he', this.2, this.1⟩, rfl⟩
    · rw [if_neg ha] at h
      cases h
  · rintro ⟨hd, hs, ⟨e', he', h1, h2⟩, hw⟩
    refine ⟨e.dst, hd, e.src, hs, ?_⟩
    rw [if_pos (List.any_eq_true.mpr ⟨e', he', decide_eq_true ⟨h2, h1⟩⟩), ← hw]

omit [IsStrictOrderedRing K] in
theorem mem_prep {sqrt : K → K} {eps : K} {n : Nat} {loops : Bool} {mode : NormMode} {es : List (WEdge K)} {e : WEdge K}
    (h : e ∈ prepEdges sqrt eps n loops mode es) : e.src = e.dst ∨ ∃ e' ∈ es, e'.src = e.src ∧ e'.dst = e.dst := by
  unfold prepEdges normalize at h
  obtain ⟨e1, he1, h1⟩ := List.mem_map.mp h
  have hs : e.src = e1.src ∧ e.dst = e1.dst := by cases mode <;> (rw [← h1]; exact ⟨rfl, rfl⟩)
  rw [hs.1, hs.2]
  cases loops with
  | false => exact .inr ⟨e1, he1, rfl, rfl⟩
  | true =>
    obtain ⟨-, -, ⟨e2, he2, h2, h3⟩, -⟩ := mem_coalesce.mp (show e1 ∈ coalesce n _ from he1)
    rcases List.mem_append.mp he2 with he2 | he2
    · exact .inr ⟨e2, he2, h2, h3⟩
    · obtain ⟨i, -, rfl⟩ := List.mem_map.mp he2
      exact .inl (h2.symm.trans h3)

omit [IsStrictOrderedRing K] in
theorem within_prep {sqrt : K → K} {eps : K} {n : Nat} {loops : Bool} {mode : NormMode} {es : List (WEdge K)} {v : Nat} :
    ∀ k i, Within (prepEdges sqrt eps n loops mode es) v k i → Within es v k i
  | 0, _, h => h
  | k + 1, i, h => by
    rcases h with h | ⟨w, hw, e, he, rfl, rfl⟩
    · exact .inl (within_prep k i h)
    · have hw' := within_prep k _ hw
      rcases mem_prep he with hs | ⟨e', he', h1, h2⟩
      · rw [hs]; exact .inl hw'
      · exact .inr ⟨_, hw', e', he', h1, h2⟩

/-- **C187 (reach).**  Whatever the graph: features of nodes that are more than `steps` edges before a node do not matter for its
scores. -/
theorem C187_reach (N : Net K) (sqrt : K → K) (eps : K) (loops : Bool) (n : Nat) (es : List (WEdge K)) (X X' : Feat K) (v : Nat)
    (hX : ∀ i, Within es v (steps N) i → X i = X' i) :
    N.scores sqrt eps loops ⟨n, es, X⟩ v = N.scores sqrt eps loops ⟨n, es, X'⟩ v :=
  C187_local N _ _ X X' v (fun _ _ _ _ => List.Perm.refl _) fun i hi => hX i (within_prep _ i hi)

/-- A linear layer that copies one number. -/
def copy1 : Linear Rat := ⟨1, fun _ _ => 1, fun _ => 0⟩

/-- The reach is not smaller: on a path what is exactly `steps` before a node matters, what is one more before does not. -/
example : (Net.gcn copy1 copy1).scores id 1 false ⟨4, [⟨0, 1, 1⟩, ⟨1, 2, 1⟩, ⟨2, 3, 1⟩], fun i _ => if i = 1 then 1 else 0⟩ 3 0 ≠
    (Net.gcn copy1 copy1).scores id 1 false ⟨4, [⟨0, 1, 1⟩, ⟨1, 2, 1⟩, ⟨2, 3, 1⟩], fun _ _ => 0⟩ 3 0 := by decide +kernel
example : (Net.gcn copy1 copy1).scores id 1 false ⟨4, [⟨0, 1, 1⟩, ⟨1, 2, 1⟩, ⟨2, 3, 1⟩], fun i _ => if i = 0 then 1 else 0⟩ 3 0 =
    (Net.gcn copy1 copy1).scores id 1 false ⟨4, [⟨0, 1, 1⟩, ⟨1, 2, 1⟩, ⟨2, 3, 1⟩], fun _ _ => 0⟩ 3 0 := by decide +kernel

/-! ### Order of edges -/

omit [IsStrictOrderedRing K] in
theorem degree_perm {es es' : List (WEdge K)} (h : es.Perm es') (i : Nat) : degree es i = degree es' i := by
  unfold degree
  exact ((h.filter _).map _).sum_eq

omit [IsStrictOrderedRing K] in
theorem normalize_perm (sqrt : K → K) (eps : K) (mode : NormMode) {es es' : List (WEdge K)} (h : es.Perm es') :
    (normalize sqrt eps mode es).Perm (normalize sqrt eps mode es') := by
  unfold normalize
  simp only [degree_perm h]
  exact h.map _

omit [IsStrictOrderedRing K] in
theorem coalesce_perm (n : Nat) {es es' : List (WEdge K)} (h : es.Perm es') : coalesce n es = coalesce n es' := by
  unfold coalesce
  have h1 : ∀ d s, cell es d s = cell es' d s := fun d s => ((h.filter _).map _).sum_eq
  have h2 : ∀ d s, (es.any fun e => decide (e.dst = d ∧ e.src = s)) = es'.any fun e => decide (e.dst = d ∧ e.src = s) := by
    intro d s
    rw [Bool.eq_iff_iff, List.any_eq_true, List.any_eq_true]
    exact exists_congr fun e => and_congr_left fun _ => h.mem_iff
  simp only [h1, h2]

omit [IsStrictOrderedRing K] in
theorem prep_perm (sqrt : K → K) (eps : K) (n : Nat) (loops : Bool) (mode : NormMode) {es es' : List (WEdge K)} (h : es.Perm es') :
    (prepEdges sqrt eps n loops mode es).Perm (prepEdges sqrt eps n loops mode es') := by
  unfold prepEdges
  cases loops with
  | false => exact normalize_perm sqrt eps mode h
  | true =>
    simp only [if_true, addSelfLoops]
    rw [coalesce_perm n (h.append_right _)]

theorem forward_perm (N : Net K) {es es' : List (WEdge K)} (h : es.Perm es') (X : Feat K) : N.forward es X = N.forward es' X := by
  funext v
  exact C187_local N es es' X X v (fun _ _ _ _ => h.filter _) fun _ _ => rfl

/-- **C187 (order of edges).**  The scores do not depend on the order in which the edges are listed. -/
theorem C187_edge_order (N : Net K) (sqrt : K → K) (eps : K) (loops : Bool) (n : Nat) (es es' : List (WEdge K)) (X : Feat K)
    (h : es.Perm es') : N.scores sqrt eps loops ⟨n, es, X⟩ = N.scores sqrt eps loops ⟨n, es', X⟩ :=
  forward_perm N (prep_perm sqrt eps n loops N.mode h) X

/-! ### Names of nodes -/

omit [IsStrictOrderedRing K] in
theorem cell_rename (σ : Nat → Nat) (hσ : Function.Injective σ) (es : List (WEdge K)) (d s : Nat) :
    cell (es.map (rename σ)) (σ d) (σ s) = cell es d s := by
  unfold cell
  rw [List.filter_map, List.map_map]
  have : es.filter ((fun e : WEdge K => decide (e.dst = σ d ∧ e.src = σ s)) ∘ rename σ) = es.filter fun e => decide (e.dst = d ∧ e.src = s) := by
    refine List.filter_congr fun e _ => ?_
    simp [rename, hσ.eq_iff]
  rw [this]
  rfl

omit [IsStrictOrderedRing K] in
theorem degree_rename (σ : Nat → Nat) (hσ : Function.Injective σ) (es : List (WEdge K)) (i : Nat) :
    degree (es.map (rename σ)) (σ i) = degree es i := by
  unfold degree
  rw [List.filter_map, List.map_map]
  have : es.filter ((fun e : WEdge K => decide (e.dst = σ i)) ∘ rename σ) = es.filter fun e => decide (e.dst = i) := by
    refine List.filter_congr fun e _ => ?_
    simp [rename, hσ.eq_iff]
  rw [this]
  rfl

omit [IsStrictOrderedRing K] in
theorem normalize_rename (sqrt : K → K) (eps : K) (mode : NormMode) (σ : Nat → Nat) (hσ : Function.Injective σ) (es : List (WEdge K)) :
    normalize sqrt eps mode (es.map (rename σ)) = (normalize sqrt eps mode es).map (rename σ) := by
  unfold normalize
  rw [List.map_map, List.map_map]
  refine List.map_congr_left fun e _ => ?_
  have h1 := degree_rename σ hσ es e.src
  have h2 := degree_rename σ hσ es e.dst
  have h3 : (rename σ e).src = σ e.src := rfl
  have h4 : (rename σ e).dst = σ e.dst := rfl
  cases mode <;> simp only [Function.comp_apply, h3, h4, h1, h2] <;> rfl

theorem coalesce_nodup (n : Nat) (es : List (WEdge K)) : (coalesce n es).Nodup := by
  refine (C137_coalesce n es).2.2.imp ?_
  rintro a b h rfl
  omega

theorem coalesce_rename (n : Nat) (σ : Equiv.Perm Nat) (hn : ∀ i, σ i < n ↔ i < n) (es : List (WEdge K)) :
    (coalesce n (es.map (rename σ))).Perm ((coalesce n es).map (rename σ)) := by
  have hinj : Function.Injective (rename (K := K) σ) := by
    rintro ⟨s, d, w⟩ ⟨s', d', w'⟩ h
    simp only [rename, WEdge.mk.injEq, EmbeddingLike.apply_eq_iff_eq] at h
    obtain ⟨rfl, rfl, rfl⟩ := h
    rfl
  refine (List.perm_ext_iff_of_nodup (coalesce_nodup n _) ((coalesce_nodup n es).map hinj)).mpr fun e => ?_
  rw [mem_coalesce, List.mem_map]
  constructor
  · rintro ⟨hd, hs, ⟨e', he', h1, h2⟩, hw⟩
    obtain ⟨e1, he1, rfl⟩ := List.mem_map.mp he'
    have h1 : σ e1.src = e.src := h1
    have h2 : σ e1.dst = e.dst := h2
    refine ⟨⟨e1.src, e1.dst, e.w⟩, mem_coalesce.mpr ⟨(hn _).mp (by rw [h2]; exact hd), (hn _).mp (by rw [h1]; exact hs),
      ⟨e1, he1, rfl, rfl⟩, ?_⟩, ?_⟩
    · dsimp only
      rw [hw, ← h1, ← h2, cell_rename σ σ.injective]
    · unfold rename
      dsimp only
      rw [h1, h2]
  · rintro ⟨e1, he1, rfl⟩
    obtain ⟨hd, hs, ⟨e', he', h1, h2⟩, hw⟩ := mem_coalesce.mp he1
    refine ⟨(hn _).mpr hd, (hn _).mpr hs, ⟨rename σ e', List.mem_map_of_mem he', congrArg σ h1, congrArg σ h2⟩, ?_⟩
    show e1.w = cell _ (σ e1.dst) (σ e1.src)
    rw [hw, cell_rename σ σ.injective]

theorem range_rename {n : Nat} (σ : Equiv.Perm Nat) (hn : ∀ i, σ i < n ↔ i < n) : (List.range n).Perm ((List.range n).map σ) := by
  refine (List.perm_ext_iff_of_nodup List.nodup_range (List.nodup_range.map σ.injective)).mpr fun i => ?_
  rw [List.mem_range, List.mem_map]
  constructor
  · intro hi
    refine ⟨σ.symm i, List.mem_range.mpr ((hn _).mp ?_), σ.apply_symm_apply i⟩
    rw [σ.apply_symm_apply]
    exact hi
  · rintro ⟨j, hj, rfl⟩
    exact (hn j).mpr (List.mem_range.mp hj)

theorem prep_rename (sqrt : K → K) (eps : K) (n : Nat) (loops : Bool) (mode : NormMode) (σ : Equiv.Perm Nat) (hn : ∀ i, σ i < n ↔ i < n)
    (es : List (WEdge K)) :
    (prepEdges sqrt eps n loops mode (es.map (rename σ))).Perm ((prepEdges sqrt eps n loops mode es).map (rename σ)) := by
  unfold prepEdges
  cases loops with
  | false =>
    simp only [Bool.false_eq_true, if_false]
    rw [normalize_rename sqrt eps mode σ σ.injective]
  | true =>
    simp only [if_true]
    rw [← normalize_rename sqrt eps mode σ σ.injective]
    refine normalize_perm sqrt eps mode ?_
    unfold addSelfLoops
    have hloops : ((List.range n).map fun i => (⟨i, i, 1⟩ : WEdge K)).Perm (((List.range n).map fun i => (⟨i, i, 1⟩ : WEdge K)).map (rename σ)) := by
      have hr := range_rename σ hn
      have := hr.map fun i => (⟨i, i, 1⟩ : WEdge K)
      rw [List.map_map] at this
      rw [List.map_map]
      exact this
    rw [coalesce_perm n (hloops.append_left _), ← List.map_append]
    exact coalesce_rename n σ hn _

/-- **C187 (names of nodes).**  Renaming the nodes renames the scores. -/
theorem C187_relabel (N : Net K) (sqrt : K → K) (eps : K) (loops : Bool) (n : Nat) (σ : Equiv.Perm Nat) (hn : ∀ i, σ i < n ↔ i < n)
    (es : List (WEdge K)) (X X' : Feat K) (hX : ∀ i, X' (σ i) = X i) (v : Nat) :
    N.scores sqrt eps loops ⟨n, es.map (rename σ), X'⟩ (σ v) = N.scores sqrt eps loops ⟨n, es, X⟩ v := by
  unfold Net.scores
  dsimp only
  rw [forward_perm N (prep_rename sqrt eps n loops N.mode σ hn es) X']
  exact prog_rename (prog_net N) σ σ.injective _ X X' hX v

example : ∀ i, (Equiv.swap 0 2) i < 4 ↔ i < 4 := by
  intro i
  rw [Equiv.swap_apply_def]
  split
  · omega
  · split <;> omega

/-! ### Predictions -/

theorem probOf_distribution (exp : K → K) (E : ExpLaw exp) (classes : Nat) (hk : 0 < classes) (s : Nat → K) :
    (∀ c, 0 < Grafn.probOf exp classes s c) ∧ ((List.range classes).map (Grafn.probOf exp classes s)).sum = 1 := by
  have hpos : 0 < ((List.range classes).map fun c => exp (s c)).sum := by
    have h1 : exp (s 0) ≤ ((List.range classes).map fun c => exp (s c)).sum :=
      List.single_le_sum (fun y hy => by obtain ⟨c, -, rfl⟩ := List.mem_map.mp hy; exact (E _).le) _
        (List.mem_map.mpr ⟨0, List.mem_range.mpr hk, rfl⟩)
    exact lt_of_lt_of_le (E _) h1
  refine ⟨fun c => div_pos (E _) hpos, ?_⟩
  unfold Grafn.probOf
  have : ∀ (l : List Nat) (f : Nat → K) (d : K), (l.map fun c => f c / d).sum = (l.map f).sum / d := by
    intro l f d
    induction l with
    | nil => simp
    | cons a l ih => rw [List.map_cons, List.map_cons, List.sum_cons, List.sum_cons, ih, add_div]
  rw [this, div_self hpos.ne']

/-- **C187 (distributions).**  Every prediction is a distribution over the classes. -/
theorem C187_distribution (N : Net K) (exp sqrt : K → K) (E : ExpLaw exp) (eps : K) (classes : Nat) (hk : 0 < classes) (loops : Bool)
    (fit d : Data K) (p : Nat → Nat → K) (h : N.predict exp sqrt eps classes loops fit d = .ok p) (v : Nat) :
    (∀ c, 0 < p v c) ∧ ((List.range classes).map (p v)).sum = 1 := by
  have hp : ∃ d', p = fun v => Grafn.probOf exp classes (N.scores sqrt eps loops d' v) := by
    cases N with
    | sgc k a =>
      unfold Net.predict at h
      dsimp only at h
      split at h
      · cases h
      · cases h; exact ⟨fit, rfl⟩
    | _ => cases h; exact ⟨d, rfl⟩
  obtain ⟨d', rfl⟩ := hp
  exact probOf_distribution exp E classes hk _

/-- **C187 (the data that is given).**  Except for SGC, predictions are those of the network on the data given to `predict_proba`, whatever
it was fitted on; SGC predicts for the data it was fitted on, and refuses another number of nodes. -/
theorem C187_data_partial (N : Net K) (exp sqrt : K → K) (eps : K) (classes : Nat) (loops : Bool) (fit d : Data K) :
    ((∀ k a, N ≠ .sgc k a) → N.predict exp sqrt eps classes loops fit d =
      .ok fun v => Grafn.probOf exp classes (N.scores sqrt eps loops d v)) ∧
    (∀ k a, N = .sgc k a → (d.n = fit.n → N.predict exp sqrt eps classes loops fit d =
      .ok fun v => Grafn.probOf exp classes (N.scores sqrt eps loops fit v)) ∧
      (d.n ≠ fit.n → N.predict exp sqrt eps classes loops fit d = .error .valueError)) := by
  constructor
  · intro h
    cases N with
    | sgc k a => exact absurd rfl (h k a)
    | _ => rfl
  · rintro k a rfl
    refine ⟨fun h => ?_, fun h => ?_⟩
    · unfold Net.predict
      simp [h]
    · unfold Net.predict
      simp [h]

/-- **C187 violated (the data that is given).**  SGC ignores the features and edges it is asked about. -/
theorem C187_data_violated : ¬ ∀ (N : Net Rat) (fit d : Data Rat), fit.n = d.n →
    N.predict (fun x => 1 + x * x) id 1 2 true fit d = .ok fun v => Grafn.probOf (fun x => 1 + x * x) 2 (N.scores id 1 true d v) := by
  intro h
  have h1 := h (.sgc 1 ⟨1, fun o _ => if o = 0 then 1 else 0, fun _ => 0⟩) ⟨1, [], fun _ _ => 1⟩ ⟨1, [], fun _ _ => 0⟩ rfl
  have h2 : (fun v => Grafn.probOf (fun x : Rat => 1 + x * x) 2 ((Net.sgc 1 ⟨1, fun o _ => if o = 0 then 1 else 0, fun _ => 0⟩).scores id 1 true
      ⟨1, [], fun _ _ => 1⟩ v)) = fun v => Grafn.probOf (fun x : Rat => 1 + x * x) 2
        ((Net.sgc 1 ⟨1, fun o _ => if o = 0 then 1 else 0, fun _ => 0⟩).scores id 1 true ⟨1, [], fun _ _ => 0⟩ v) := Except.ok.inj h1
  have h3 := congrFun (congrFun h2 0) 0
  revert h3
  decide +kernel

end ModSSC.Gnn.Nets
