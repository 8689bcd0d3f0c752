import Verif.Graph.Node2vecModel
import Mathlib.Data.List.ProdSigma
import Mathlib.Data.List.Chain
import Mathlib.Data.List.Perm.Subperm
import Mathlib.Tactic.Linarith
import Mathlib.Tactic.Ring
import Mathlib.Algebra.Order.Field.Rat
import Mathlib.Algebra.Order.BigOperators.Group.List

/-!
# The node2vec walks (C147)
-/

namespace ModSSC.Node2vec
open ModSSC

/-- One can go from `a` to `b`: an edge between different nodes of the graph, in this direction or, if undirected, in any. -/
def Spec.Step (n : Nat) (undirected : Bool) (es : List (Int × Int)) (a b : Nat) : Prop :=
  a < n ∧ b < n ∧ a ≠ b ∧ (((a : Int), (b : Int)) ∈ es ∨ (undirected = true ∧ ((b : Int), (a : Int)) ∈ es))

theorem mem_adjacency {n : Nat} {und : Bool} {es : List (Int × Int)} {i j : Nat} :
    j ∈ adjacency n und es i ↔ Spec.Step n und es i j := by
  unfold adjacency Spec.Step
  simp only [List.mem_filter, List.mem_range, Bool.and_eq_true, decide_eq_true_eq, List.any_eq_true, Bool.or_eq_true]
  constructor
  · rintro ⟨hj, ⟨hi, hij⟩, ⟨a, b⟩, he, h | h⟩
    · exact ⟨hi, hj, hij, .inl (by obtain ⟨rfl, rfl⟩ := h; exact he)⟩
    · obtain ⟨hu, h1, h2⟩ := h
      simp only at h1 h2
      subst h1; subst h2
      exact ⟨hi, hj, hij, .inr ⟨hu, he⟩⟩
  · rintro ⟨hi, hj, hij, he | ⟨hu, he⟩⟩
    · exact ⟨hj, ⟨hi, hij⟩, _, he, .inl ⟨rfl, rfl⟩⟩
    · exact ⟨hj, ⟨hi, hij⟩, _, he, .inr ⟨hu, rfl, rfl⟩⟩

/-- C147: the neighbours of a node are exactly the nodes one can go to, in order, none twice; in an undirected graph one can
always go back. -/
theorem C147_adjacency (n : Nat) (und : Bool) (es : List (Int × Int)) (i : Nat) :
    (∀ j, j ∈ adjacency n und es i ↔ Spec.Step n und es i j) ∧ (adjacency n und es i).Pairwise (· < ·) ∧
    (und = true → ∀ j, j ∈ adjacency n und es i ↔ i ∈ adjacency n und es j) := by
  refine ⟨fun j => mem_adjacency, List.pairwise_lt_range.filter _, ?_⟩
  intro hu j
  rw [mem_adjacency, mem_adjacency]
  unfold Spec.Step
  constructor <;> rintro ⟨h1, h2, h3, h4⟩ <;> refine ⟨h2, h1, fun h => h3 h.symm, ?_⟩ <;> tauto

variable {σ : Type} {D : Draw σ} (hD : D.Lawful)
include hD

theorem next_mem (p q : Rat) (adj : Nat → List Nat) (prev : Option Nat) (cur : Nat) (s : σ) (h : adj cur ≠ []) :
    (next D p q adj prev cur s).1 ∈ adj cur := by
  have hu : (adj cur).getD (D.integers s (adj cur).length).1 0 ∈ adj cur := by
    have := hD.integers_lt s (adj cur).length (List.length_pos_iff.mpr h)
    rw [List.getD_eq_getElem?_getD, List.getElem?_eq_getElem this]
    exact List.getElem_mem _
  unfold next
  cases prev with
  | none => exact hu
  | some u =>
    simp only
    split
    · exact hu
    · exact hD.choice_mem _ _ _ h

theorem steps_spec (p q : Rat) (adj : Nat → List Nat) (k : Nat) (prev : Option Nat) (cur : Nat) (s : σ) :
    List.IsChain (fun a b => b ∈ adj a) (cur :: (steps D p q adj k prev cur s).1) ∧
    (steps D p q adj k prev cur s).1.length ≤ k ∧
    ((steps D p q adj k prev cur s).1.length < k →
      adj ((cur :: (steps D p q adj k prev cur s).1).getLast (by simp)) = []) := by
  induction k generalizing prev cur s with
  | zero => simp [steps]
  | succ k ih =>
    by_cases h : adj cur = []
    · simp [steps, h]
    · have hne : ¬ (adj cur).isEmpty = true := by simpa using h
      have hm := next_mem hD p q adj prev cur s h
      obtain ⟨h1, h2, h3⟩ := ih (some cur) (next D p q adj prev cur s).1 (next D p q adj prev cur s).2
      have heq : (steps D p q adj (k + 1) prev cur s).1 = (next D p q adj prev cur s).1 ::
          (steps D p q adj k (some cur) (next D p q adj prev cur s).1 (next D p q adj prev cur s).2).1 := by
        rw [steps, if_neg hne]
      simp only [heq]
      refine ⟨List.IsChain.cons_cons hm h1, by simpa using h2, ?_⟩
      intro hl
      rw [List.getLast_cons (by simp)]
      exact h3 (by simpa using hl)

theorem walksFrom_spec (p q : Rat) (adj : Nat → List Nat) (len : Int) (start w : Nat) (s : σ) :
    (walksFrom D p q adj len start w s).1.length = w ∧
    ∀ x ∈ (walksFrom D p q adj len start w s).1, ∃ rest s', x = start :: rest ∧
      rest = (steps D p q adj (len - 1).toNat none start s').1 := by
  induction w generalizing s with
  | zero => simp [walksFrom]
  | succ w ih =>
    obtain ⟨h1, h2⟩ := ih (steps D p q adj (len - 1).toNat none start s).2
    refine ⟨by rw [walksFrom]; simp only [List.length_cons, h1], ?_⟩
    intro x hx
    simp only [walksFrom, List.mem_cons] at hx
    rcases hx with rfl | hx
    · exact ⟨_, s, rfl, rfl⟩
    · exact h2 x hx

theorem walksLoop_spec (p q : Rat) (adj : Nat → List Nat) (num len : Int) (starts : List Nat) (s : σ) :
    ∀ x ∈ walksLoop D p q adj num len starts s, ∃ start ∈ starts, adj start ≠ [] ∧ ∃ rest s', x = start :: rest ∧
      rest = (steps D p q adj (len - 1).toNat none start s').1 := by
  induction starts generalizing s with
  | nil => simp [walksLoop]
  | cons a starts ih =>
    intro x hx
    rw [walksLoop] at hx
    split at hx
    · obtain ⟨st, hst, h⟩ := ih s x hx
      exact ⟨st, List.mem_cons_of_mem _ hst, h⟩
    · rename_i hne
      simp only [List.mem_append] at hx
      rcases hx with hx | hx
      · exact ⟨a, List.mem_cons_self, by simpa using hne, (walksFrom_spec hD p q adj len a num.toNat s).2 x hx⟩
      · obtain ⟨st, hst, h⟩ := ih _ x hx
        exact ⟨st, List.mem_cons_of_mem _ hst, h⟩

/-- C147: every walk goes along edges, has between one and `walk_length` nodes, and is shorter only if it ended in a node one
cannot leave; in an undirected graph no walk is shorter. -/
theorem C147_walk (p q : Rat) (n : Nat) (und : Bool) (es : List (Int × Int)) (num len : Int) (s : σ) (w : List Nat)
    (hw : w ∈ walks D p q n (adjacency n und es) num len s) :
    List.IsChain (Spec.Step n und es) w ∧ ∃ hne : w ≠ [], w.head hne < n ∧
      (w.length : Int) ≤ max 1 len ∧ ((w.length : Int) < len → ∀ j, ¬ Spec.Step n und es (w.getLast hne) j) ∧
      (und = true → (w.length : Int) = max 1 len) := by
  obtain ⟨st, hst, hadj, rest, s', rfl, rfl⟩ := walksLoop_spec hD p q (adjacency n und es) num len (List.range n) s w hw
  obtain ⟨h1, h2, h3⟩ := steps_spec hD p q (adjacency n und es) (len - 1).toNat none st s'
  generalize (steps D p q (adjacency n und es) (len - 1).toNat none st s').1 = rest at h1 h2 h3 hw
  have hstuck : ∀ a, adjacency n und es a = [] → ∀ j, ¬ Spec.Step n und es a j := by
    intro a ha j hj
    have := mem_adjacency.mpr hj
    rw [ha] at this
    simp at this
  refine ⟨h1.imp fun a b h => mem_adjacency.mp h, by simp, by simpa using hst, ?_, ?_, ?_⟩
  · rw [List.length_cons]; push_cast; omega
  · intro hl
    exact hstuck _ (h3 (by rw [List.length_cons] at hl; push_cast at hl; omega))
  · intro hu
    rw [List.length_cons]
    by_contra hne
    have hlt : rest.length < (len - 1).toNat := by push_cast at hne; omega
    have hlast := h3 hlt
    -- the node before the last one is a neighbour of the last
    rcases List.eq_nil_or_concat rest with hr | ⟨pre, z, hr⟩
    · subst hr
      simp only [List.getLast_singleton] at hlast
      exact hadj hlast
    · subst hr
      rw [List.getLast_cons (by simp)] at hlast
      simp only [List.concat_eq_append, List.getLast_append_singleton] at hlast
      rw [List.concat_eq_append, ← List.cons_append] at h1
      rw [List.isChain_append] at h1
      obtain ⟨-, -, h1⟩ := h1
      have hy := h1 ((st :: pre).getLast (by simp)) (by rw [List.getLast?_eq_getLast_of_ne_nil (by simp)]; rfl) z (by simp)
      have := ((C147_adjacency n und es z).2.2 hu ((st :: pre).getLast (by simp))).mpr hy
      rw [hlast] at this
      simp at this

theorem walksLoop_count (p q : Rat) (adj : Nat → List Nat) (num len : Int) (starts : List Nat) (hn : starts.Nodup) (s : σ) (v : Nat) :
    ((walksLoop D p q adj num len starts s).filter fun w => w.head? == some v).length =
      if v ∈ starts ∧ adj v ≠ [] then num.toNat else 0 := by
  induction starts generalizing s with
  | nil => simp [walksLoop]
  | cons a starts ih =>
    rw [List.nodup_cons] at hn
    rw [walksLoop]
    split
    · rename_i he
      rw [ih hn.2]
      have : adj a = [] := by simpa using he
      by_cases hv : v = a
      · subst hv; simp [this]
      · simp [hv]
    · rename_i hne
      have hne : adj a ≠ [] := by simpa using hne
      simp only
      rw [List.filter_append, List.length_append, ih hn.2]
      obtain ⟨h1, h2⟩ := walksFrom_spec hD p q adj len a num.toNat s
      by_cases hv : v = a
      · subst hv
        rw [List.filter_eq_self.mpr, h1]
        · simp [hn.1, hne]
        · intro w hw
          obtain ⟨r, s', rfl, -⟩ := h2 w hw
          simp
      · rw [List.filter_eq_nil_iff.mpr]
        · simp [hv]
        · intro w hw
          obtain ⟨r, s', rfl, -⟩ := h2 w hw
          simp [Ne.symm hv]

/-- C147: every node one can leave starts exactly `num_walks` walks, every other node none. -/
theorem C147_count (p q : Rat) (n : Nat) (und : Bool) (es : List (Int × Int)) (num len : Int) (s : σ) (v : Nat) :
    ((∃ j, Spec.Step n und es v j) →
      ((walks D p q n (adjacency n und es) num len s).filter fun w => w.head? == some v).length = num.toNat) ∧
    ((∀ j, ¬ Spec.Step n und es v j) →
      ((walks D p q n (adjacency n und es) num len s).filter fun w => w.head? == some v).length = 0) := by
  unfold walks
  rw [walksLoop_count hD p q _ num len _ List.nodup_range s v]
  constructor
  · rintro ⟨j, hj⟩
    rw [if_pos ⟨List.mem_range.mpr hj.1, List.ne_nil_of_mem (mem_adjacency.mpr hj)⟩]
  · intro h
    rw [if_neg]
    rintro ⟨-, hne⟩
    obtain ⟨j, hj⟩ := List.exists_mem_of_ne_nil _ hne
    exact h j (mem_adjacency.mp hj)

omit hD

/-- C147: the law of a biased step: a probability for every neighbour, all positive, summing to one, in the proportions `1/p`
for the node before, `1` for a neighbour of it, `1/q` for any other. -/
theorem C147_law (p q : Rat) (hp : 1 / 1000000000000 ≤ p) (hq : 1 / 1000000000000 ≤ q) (prevNbrs nbrs : List Nat) (prev : Nat)
    (hne : nbrs ≠ []) :
    (probs p q prevNbrs nbrs prev).length = nbrs.length ∧ (probs p q prevNbrs nbrs prev).sum = 1 ∧
    ∃ c : Rat, 0 < c ∧ ∀ (i x : Nat), nbrs[i]? = some x → ∃ r : Rat, (probs p q prevNbrs nbrs prev)[i]? = some (c * r) ∧ 0 < r ∧
      (x = prev → r = 1 / p) ∧ (x ≠ prev → x ∈ prevNbrs → r = 1) ∧ (x ≠ prev → x ∉ prevNbrs → r = 1 / q) := by
  have hp0 : 0 < p := lt_of_lt_of_le (by norm_num) hp
  have hq0 : 0 < q := lt_of_lt_of_le (by norm_num) hq
  have hpos : ∀ w ∈ weights p q prevNbrs nbrs prev, 0 < w := by
    intro w hw
    obtain ⟨x, -, rfl⟩ := List.mem_map.mp hw
    split
    · rw [max_eq_left hp]; exact one_div_pos.mpr hp0
    · split
      · norm_num
      · rw [max_eq_left hq]; exact one_div_pos.mpr hq0
  have hS : 0 < (weights p q prevNbrs nbrs prev).sum := by
    obtain ⟨a, l, hal⟩ := List.exists_cons_of_ne_nil (show weights p q prevNbrs nbrs prev ≠ [] by simpa [weights] using hne)
    rw [hal] at hpos ⊢
    rw [List.sum_cons]
    exact add_pos_of_pos_of_nonneg (hpos a List.mem_cons_self)
      (List.sum_nonneg fun x hx => (hpos x (List.mem_cons_of_mem _ hx)).le)
  refine ⟨by simp [probs, weights], ?_, 1 / (weights p q prevNbrs nbrs prev).sum, one_div_pos.mpr hS, ?_⟩
  · unfold probs
    generalize hT : (weights p q prevNbrs nbrs prev).sum = T at hS
    have key : ∀ l : List Rat, (l.map (· / T)).sum = l.sum / T := by
      intro l
      induction l with
      | nil => simp
      | cons a l ih => simp only [List.map_cons, List.sum_cons, ih, add_div]
    rw [key, hT, div_self hS.ne']
  · intro i x hx
    refine ⟨if x = prev then 1 / p else if x ∈ prevNbrs then 1 else 1 / q, ?_, ?_, ?_, ?_, ?_⟩
    · unfold probs
      generalize (weights p q prevNbrs nbrs prev).sum = T
      rw [List.getElem?_map, weights, List.getElem?_map, hx, max_eq_left hp, max_eq_left hq]
      simp only [Option.map_some, Option.some.injEq]
      ring
    · split
      · exact one_div_pos.mpr hp0
      · split
        · norm_num
        · exact one_div_pos.mpr hq0
    · intro h; rw [if_pos h]
    · intro h1 h2; rw [if_neg h1, if_pos h2]
    · intro h1 h2; rw [if_neg h1, if_neg h2]

/-- Two positions of a walk at most `window` apart. -/
def Spec.near (window : Int) (ij : Nat × Nat) : Bool := decide (ij.1 ≠ ij.2) && decide (|(ij.1 : Int) - ij.2| ≤ window)

/-- C147: the training pairs of a walk are the nodes at any two different positions at most `window_size` apart, each pair of
positions once, in both orders. -/
theorem C147_pairs (window : Int) (w : List Nat) :
    pairsOf window w = ((List.range w.length ×ˢ List.range w.length).filter (Spec.near window)).map
      (fun ij => (w.getD ij.1 0, w.getD ij.2 0)) := by
  unfold pairsOf
  show _ = List.map _ (List.filter _ (List.product _ _))
  unfold List.product
  rw [List.filter_flatMap, List.map_flatMap]
  congr 1
  funext i
  rw [List.filter_map, List.map_map]
  congr 1
  apply List.filter_congr
  intro j hj
  have hj := List.mem_range.mp hj
  simp only [Spec.near, Function.comp]
  rw [Bool.eq_iff_iff]
  simp only [Bool.and_eq_true, decide_eq_true_eq, abs_le]
  omega

/-- C147: pairs are symmetric: `(a, b)` is a training pair as often as `(b, a)`. -/
theorem C147_pairs_symmetric (window : Int) (ws : List (List Nat)) (a b : Nat) :
    (pairs window ws).count (a, b) = (pairs window ws).count (b, a) := by
  unfold pairs
  induction ws with
  | nil => rfl
  | cons w ws ih =>
    rw [List.flatMap_cons, List.count_append, List.count_append, ih, C147_pairs]
    congr 1
    have hmem : ∀ x y : Nat, (x, y) ∈ (List.range w.length ×ˢ List.range w.length) ↔ x ∈ List.range w.length ∧ y ∈ List.range w.length :=
      fun x y => List.mem_product
    have hsw : (((List.range w.length ×ˢ List.range w.length).filter (Spec.near window)).map Prod.swap).Perm
        ((List.range w.length ×ˢ List.range w.length).filter (Spec.near window)) := by
      rw [List.perm_ext_iff_of_nodup]
      · rintro ⟨i, j⟩
        simp only [List.mem_map, List.mem_filter, hmem, Prod.exists, Prod.swap_prod_mk, Prod.mk.injEq,
          Spec.near, Bool.and_eq_true, decide_eq_true_eq]
        constructor
        · rintro ⟨x, y, ⟨⟨h1, h2⟩, h3, h4⟩, rfl, rfl⟩
          exact ⟨⟨h2, h1⟩, Ne.symm h3, by rwa [abs_sub_comm]⟩
        · rintro ⟨⟨h1, h2⟩, h3, h4⟩
          exact ⟨j, i, ⟨⟨h2, h1⟩, Ne.symm h3, by rwa [abs_sub_comm]⟩, rfl, rfl⟩
      · exact ((List.nodup_range.product List.nodup_range).filter _).map Prod.swap_injective
      · exact (List.nodup_range.product List.nodup_range).filter _
    rw [List.count_eq_countP, List.count_eq_countP, List.countP_map, List.countP_map]
    conv_rhs => rw [← hsw.countP_eq, List.countP_map]
    apply List.countP_congr
    rintro ⟨i, j⟩ -
    simp [and_comm]

theorem gather_range {D : Type} (data : List D) : (List.range data.length).filterMap (data[·]?) = data := by
  induction data using List.reverseRecOn with
  | nil => rfl
  | append_singleton l a ih =>
    rw [List.length_append, List.length_singleton, List.range_succ, List.filterMap_append]
    congr 1
    · calc (List.range l.length).filterMap ((l ++ [a])[·]?) = (List.range l.length).filterMap (l[·]?) := by
            apply List.filterMap_congr
            intro i hi
            rw [List.getElem?_append_left (List.mem_range.mp hi)]
        _ = l := ih
    · simp

/-- C147: how a node that has neighbours is left.  The first step, and every step when both parameters are 1, draws a position
among the neighbours uniformly; any other step draws a neighbour with probabilities in the proportions `1/p` for the node the walk
comes from, `1` for the neighbours of that node, `1/q` for the others. -/
theorem C147_step {σ : Type} (D : Draw σ) (p q : Rat) (hp : 1 / 1000000000000 ≤ p) (hq : 1 / 1000000000000 ≤ q)
    (adj : Nat → List Nat) (cur : Nat) (s : σ) (hne : adj cur ≠ []) (prev : Option Nat) :
    (prev = none ∨ (p = 1 ∧ q = 1) → next D p q adj prev cur s =
      ((adj cur).getD (D.integers s (adj cur).length).1 0, (D.integers s (adj cur).length).2)) ∧
    (∀ u, prev = some u → ¬ (p = 1 ∧ q = 1) → ∃ ps, next D p q adj prev cur s = D.choice s (adj cur) ps ∧
      ps.length = (adj cur).length ∧ ps.sum = 1 ∧
      ∃ c : Rat, 0 < c ∧ ∀ (i x : Nat), (adj cur)[i]? = some x → ∃ r : Rat, ps[i]? = some (c * r) ∧ 0 < r ∧
        (x = u → r = 1 / p) ∧ (x ≠ u → x ∈ adj u → r = 1) ∧ (x ≠ u → x ∉ adj u → r = 1 / q)) := by
  refine ⟨?_, ?_⟩
  · rintro (rfl | h)
    · rfl
    · cases prev with
      | none => rfl
      | some u => simp only [next]; rw [if_pos h]
  · rintro u rfl h
    refine ⟨probs p q (adj u) (adj cur) u, ?_, C147_law p q hp hq (adj u) (adj cur) u hne⟩
    simp only [next]
    rw [if_neg h]

example : (1 : Rat) / 1000000000000 ≤ 2 ∧ ¬ ((2 : Rat) = 1 ∧ (1 : Rat) = 1) := by norm_num

/-- C147: with a batch size of at least the number of labeled nodes, the supervised batch is all of them, in order, and nothing is
drawn. -/
theorem C147_supervised_all {G : Type} (randperm : G → Nat → List Nat × G) (train : List Nat) (size : Nat) (g : G)
    (h : train.length ≤ size) : supSel randperm train size g = (train, g) := by
  unfold supSel; rw [if_neg (by omega)]

/-- C147: the supervised batch of Planetoid: all labeled nodes, or `sup_batch_size` different ones of them. -/
theorem C147_supervised {G : Type} (randperm : G → Nat → List Nat × G) (hr : ∀ g n, (randperm g n).1.Perm (List.range n))
    (train : List Nat) (hn : train.Nodup) (size : Nat) (g : G) :
    (supSel randperm train size g).1.Nodup ∧ (∀ i ∈ (supSel randperm train size g).1, i ∈ train) ∧
    (supSel randperm train size g).1.length = min size train.length := by
  unfold supSel
  split
  · rename_i h
    simp only
    have hp := hr g train.length
    have hsub : (((randperm g train.length).1.take size).filterMap (train[·]?)).Subperm train := by
      have h1 := (List.take_sublist size (randperm g train.length).1).filterMap (train[·]?)
      have h2 : ((randperm g train.length).1.filterMap (train[·]?)).Perm train := by
        refine (hp.filterMap _).trans ?_
        rw [gather_range]
      exact h1.subperm.trans h2.subperm
    refine ⟨?_, fun i hi => hsub.subset hi, ?_⟩
    · obtain ⟨l, hl, hs⟩ := hsub
      exact hl.nodup_iff.mp (hn.sublist hs)
    · have hin : ∀ i ∈ (randperm g train.length).1.take size, i < train.length := fun i hi =>
        List.mem_range.mp (hp.mem_iff.mp (List.mem_of_mem_take hi))
      have hlen : ∀ l : List Nat, (∀ i ∈ l, i < train.length) → (l.filterMap (train[·]?)).length = l.length := by
        intro l hl
        induction l with
        | nil => rfl
        | cons a l ih =>
          rw [List.filterMap_cons, List.getElem?_eq_getElem (hl a List.mem_cons_self)]
          simp [ih fun i hi => hl i (List.mem_cons_of_mem _ hi)]
      rw [hlen _ hin, List.length_take, hp.length_eq, List.length_range]
  · rename_i h
    exact ⟨hn, fun i hi => hi, by simp only; omega⟩

/-- C147 (partial): the embedding depends on the global generator of torch only through the initial weights, as long as no
batch step draws from it (at most `sup_batch_size` labeled nodes).  Missing: independence of the generator. -/
theorem C147_seed_partial {B S G : Type} (init : G → S × G) (f : B → S → S) (step : B → S × G → S × G)
    (hstep : ∀ b t, step b t = (f b t.1, t.2)) (batches : Int → List B) (seed : Int) (g g' : G)
    (h : (init g).1 = (init g').1) : train init step batches seed g = train init step batches seed g' := by
  unfold train
  generalize init g = t at h
  generalize init g' = t' at h
  induction batches seed generalizing t t' with
  | nil => exact h
  | cons b bs ih =>
    simp only [List.foldl_cons]
    apply ih
    rw [hstep, hstep, h]

/-- C147 is violated by the embedding itself: it is created with weights from the global generator of torch, which is never
seeded, so equal seeds and equal graphs give different embeddings (here: the weight is the number drawn, batches leave it). -/
theorem C147_seed_violated :
    ∃ (init : Nat → Nat × Nat) (step : Unit → Nat × Nat → Nat × Nat) (batches : Int → List Unit) (seed : Int) (g g' : Nat),
      train init step batches seed g ≠ train init step batches seed g' :=
  ⟨fun g => (g, g + 1), fun _ t => t, fun _ => [()], 0, 0, 1, by decide⟩

/-- A generator that always takes the last item. -/
def demoDraw : Draw Unit := ⟨fun s n => (n - 1, s), fun s l _ => (l.getLastD 0, s)⟩

theorem demoDraw_lawful : demoDraw.Lawful where
  integers_lt := fun _ n h => by simp only [demoDraw]; omega
  choice_mem := fun _ l _ h => by
    simp only [demoDraw]
    rw [List.getLastD_eq_getLast?, List.getLast?_eq_getLast_of_ne_nil h]
    exact List.getLast_mem h

example : walks demoDraw 1 (1 / 2) 4 (adjacency 4 true [(0, 1), (1, 2), (7, 1), (2, 2)]) 1 4 () = [[0, 1, 2, 1], [1, 2, 1, 2], [2, 1, 2, 1]] := by
  decide +kernel
example : walks demoDraw 1 1 3 (adjacency 3 false [(0, 1), (1, 2)]) 2 5 () = [[0, 1, 2], [0, 1, 2], [1, 2], [1, 2]] := by decide +kernel
example : pairs 1 [[0, 1, 2]] = [(0, 1), (1, 0), (1, 2), (2, 1)] := by decide +kernel
example : probs 2 (1 / 2) [1, 2] [0, 2, 3] 0 = [1 / 7, 2 / 7, 4 / 7] := by decide +kernel

end ModSSC.Node2vec
