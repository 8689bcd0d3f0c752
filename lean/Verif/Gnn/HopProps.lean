import Verif.Gnn.HopModel
import Verif.Gnn.HopSpec
import Verif.Gnn.PrepProps
import Mathlib.Tactic.FieldSimp
import Mathlib.Algebra.CharZero.Defs

/-!
# The neighbourhoods of GraphHop (C143)
-/

namespace ModSSC.Gnn
open ModSSC ModSSC.Transductive ModSSC.Gnn.Spec

/-- The neighbour lists are the joined pairs. -/
theorem mem_hopAdj (n : Nat) (sym : Bool) (es : List (Int × Int)) (i j : Nat) :
    j ∈ hopAdj n sym es i ↔ Joined n sym es i j := by
  unfold hopAdj Joined
  simp only [List.mem_filter, List.mem_range, Bool.and_eq_true, decide_eq_true_eq, List.any_eq_true, Bool.or_eq_true, ne_eq]
  constructor
  · rintro ⟨hj, ⟨⟨hi, hne⟩, e, he, h⟩⟩
    refine ⟨hi, hj, hne, ?_⟩
    rcases h with ⟨h1, h2⟩ | ⟨hs, h1, h2⟩
    · left; rw [← h1, ← h2]; exact he
    · right; refine ⟨hs, ?_⟩; rw [← h1, ← h2]; exact he
  · rintro ⟨hi, hj, hne, h⟩
    refine ⟨hj, ⟨hi, hne⟩, ?_⟩
    rcases h with h | ⟨hs, h⟩
    · exact ⟨_, h, .inl ⟨rfl, rfl⟩⟩
    · exact ⟨_, h, .inr ⟨hs, rfl, rfl⟩⟩

theorem walk_succ {adj : Nat → Nat → Prop} {i k v : Nat} : Walk adj i (k + 1) v ↔ ∃ u, Walk adj i k u ∧ adj u v := by
  constructor
  · intro h; cases h with | step h1 h2 => exact ⟨_, h1, h2⟩
  · rintro ⟨u, h1, h2⟩; exact .step h1 h2

/-- A node at distance `k + 1` has a neighbour at distance `k`. -/
theorem atDist_succ {adj : Nat → Nat → Prop} {i k v : Nat} :
    AtDist adj i (k + 1) v ↔ (∃ u, AtDist adj i k u ∧ adj u v) ∧ ∀ j ≤ k, ¬ Walk adj i j v := by
  constructor
  · rintro ⟨h1, h2⟩
    obtain ⟨u, hu, huv⟩ := walk_succ.mp h1
    refine ⟨⟨u, ⟨hu, ?_⟩, huv⟩, fun j hj => h2 j (by omega)⟩
    intro j hj hw
    exact h2 (j + 1) (by omega) (.step hw huv)
  · rintro ⟨⟨u, hu, huv⟩, h⟩
    exact ⟨.step hu.1 huv, fun j hj => h j (by omega)⟩

theorem hopSets_spec (n : Nat) (adj : Nat → List Nat) (hn : ∀ v, ∀ u ∈ adj v, u < n) (i : Nat) (k d : Nat)
    (visited frontier : List Nat)
    (hf : ∀ u, u ∈ frontier ↔ AtDist (fun a b => b ∈ adj a) i d u)
    (hv : ∀ u, u ∈ visited ↔ ∃ j ≤ d, Walk (fun a b => b ∈ adj a) i j u) :
    (hopSets n adj k visited frontier).length = k ∧ ∀ (h : Nat) (l : List Nat), (hopSets n adj k visited frontier)[h]? = some l →
      l.Nodup ∧ ∀ u, u ∈ l ↔ AtDist (fun a b => b ∈ adj a) i (d + 1 + h) u := by
  induction k generalizing d visited frontier with
  | zero => exact ⟨rfl, fun h l hl => by simp [hopSets] at hl⟩
  | succ k ih =>
    have hnext : ∀ u, u ∈ (List.range n).filter (fun u => frontier.any (fun v => decide (u ∈ adj v)) && !decide (u ∈ visited)) ↔
        AtDist (fun a b => b ∈ adj a) i (d + 1) u := by
      intro u
      simp only [List.mem_filter, List.mem_range, Bool.and_eq_true, List.any_eq_true, decide_eq_true_eq, Bool.not_eq_true',
        decide_eq_false_iff_not]
      rw [atDist_succ, hv]
      constructor
      · rintro ⟨-, ⟨v, hvf, huv⟩, hnv⟩
        exact ⟨⟨v, (hf v).mp hvf, huv⟩, fun j hj hw => hnv ⟨j, hj, hw⟩⟩
      · rintro ⟨⟨v, hvf, huv⟩, hnv⟩
        exact ⟨hn v u huv, ⟨v, (hf v).mpr hvf, huv⟩, fun ⟨j, hj, hw⟩ => hnv j hj hw⟩
    have hvis : ∀ u, u ∈ visited ++ (List.range n).filter
        (fun u => frontier.any (fun v => decide (u ∈ adj v)) && !decide (u ∈ visited)) ↔
        ∃ j ≤ d + 1, Walk (fun a b => b ∈ adj a) i j u := by
      intro u
      rw [List.mem_append, hnext, hv]
      constructor
      · rintro (⟨j, hj, hw⟩ | h)
        · exact ⟨j, by omega, hw⟩
        · exact ⟨d + 1, Nat.le_refl _, h.1⟩
      · rintro ⟨j, hj, hw⟩
        by_cases hc : ∃ j ≤ d, Walk (fun a b => b ∈ adj a) i j u
        · exact .inl hc
        · right
          rcases Nat.lt_or_eq_of_le hj with hj | rfl
          · exact absurd ⟨j, by omega, hw⟩ hc
          · exact ⟨hw, fun j hj hw' => hc ⟨j, by omega, hw'⟩⟩
    obtain ⟨h1, h2⟩ := ih (d + 1) _ _ hnext hvis
    refine ⟨by simp [hopSets, h1], ?_⟩
    intro h l hl
    cases h with
    | zero =>
      simp only [hopSets, List.getElem?_cons_zero, Option.some.injEq] at hl
      subst hl
      exact ⟨List.nodup_range.filter _, hnext⟩
    | succ h =>
      simp only [hopSets, List.getElem?_cons_succ] at hl
      obtain ⟨a, b⟩ := h2 h l hl
      refine ⟨a, fun u => ?_⟩
      rw [b u]
      have : d + 1 + 1 + h = d + 1 + (h + 1) := by omega
      rw [this]

theorem adj_lt (n : Nat) (sym : Bool) (es : List (Int × Int)) (v u : Nat) (h : u ∈ hopAdj n sym es v) : u < n :=
  ((mem_hopAdj n sym es v u).mp h).2.1

/-- The nodes of hop `h` around `i`. -/
theorem hopSet_at (n : Nat) (sym : Bool) (es : List (Int × Int)) (maxHops h : Nat) (hh : h < maxHops) (i : Nat) :
    ∃ l, (hopSets n (hopAdj n sym es) maxHops [i] [i])[h]? = some l ∧ l.Nodup ∧
      ∀ u, u ∈ l ↔ AtDist (Joined n sym es) i (h + 1) u := by
  have h0 : ∀ u, u ∈ [i] ↔ AtDist (fun a b => b ∈ hopAdj n sym es a) i 0 u := by
    intro u
    simp only [List.mem_singleton]
    constructor
    · rintro rfl; exact ⟨.here, fun j hj => by omega⟩
    · rintro ⟨h, -⟩; cases h; rfl
  have h1 : ∀ u, u ∈ [i] ↔ ∃ j ≤ 0, Walk (fun a b => b ∈ hopAdj n sym es a) i j u := by
    intro u
    simp only [List.mem_singleton]
    constructor
    · rintro rfl; exact ⟨0, Nat.le_refl _, .here⟩
    · rintro ⟨j, hj, h⟩
      obtain rfl : j = 0 := by omega
      cases h; rfl
  obtain ⟨a, b⟩ := hopSets_spec n (hopAdj n sym es) (fun v u hu => adj_lt n sym es v u hu) i maxHops 0 [i] [i] h0 h1
  have hl : h < (hopSets n (hopAdj n sym es) maxHops [i] [i]).length := by omega
  refine ⟨_, List.getElem?_eq_getElem hl, ?_⟩
  obtain ⟨c, d⟩ := b h _ (List.getElem?_eq_getElem hl)
  refine ⟨c, fun u => ?_⟩
  rw [d u]
  have e : (fun a b => b ∈ hopAdj n sym es a) = Joined n sym es := by
    funext a b; exact propext (mem_hopAdj n sym es a b)
  rw [e]
  have : 0 + 1 + h = h + 1 := by omega
  rw [this]

/-- C143: the edges of hop number `h` (from 0) lead to every node from exactly the nodes at distance `h + 1` from it; no edge
is there twice. -/
theorem C143_distance (n : Nat) (sym : Bool) (es : List (Int × Int)) (maxHops h : Nat) (hh : h < maxHops) :
    (hopEdges n (hopAdj n sym es) maxHops h).Nodup ∧
    ∀ u i, (u, i) ∈ hopEdges n (hopAdj n sym es) maxHops h ↔ i < n ∧ AtDist (Joined n sym es) i (h + 1) u := by
  constructor
  · unfold hopEdges
    rw [List.nodup_flatMap]
    constructor
    · intro i _
      obtain ⟨l, hl, hnd, -⟩ := hopSet_at n sym es maxHops h hh i
      rw [hl]
      exact hnd.map fun a b hab => (Prod.mk.inj hab).1
    · refine List.Pairwise.imp ?_ List.pairwise_lt_range
      intro a b hab
      show List.Disjoint _ _
      intro x hx hy
      obtain ⟨u, -, rfl⟩ := List.mem_map.mp hx
      obtain ⟨v, -, hv⟩ := List.mem_map.mp hy
      have := (Prod.mk.inj hv).2
      omega
  · intro u i
    unfold hopEdges
    simp only [List.mem_flatMap, List.mem_range, List.mem_map, Prod.mk.injEq]
    constructor
    · rintro ⟨i', hi', u', hu', rfl, rfl⟩
      obtain ⟨l, hl, -, hm⟩ := hopSet_at n sym es maxHops h hh i'
      rw [hl] at hu'
      exact ⟨hi', (hm _).mp hu'⟩
    · rintro ⟨hi, hd⟩
      obtain ⟨l, hl, -, hm⟩ := hopSet_at n sym es maxHops h hh i
      exact ⟨i, hi, u, by rw [hl]; exact (hm u).mpr hd, rfl, rfl⟩

/-- The edges into node `i`. -/
theorem hopEdges_into (n : Nat) (sym : Bool) (es : List (Int × Int)) (maxHops h : Nat) (hh : h < maxHops) (i : Nat) (hi : i < n) :
    ∃ l : List Nat, l.Nodup ∧ (∀ u, u ∈ l ↔ AtDist (Joined n sym es) i (h + 1) u) ∧
      (hopEdges n (hopAdj n sym es) maxHops h).filter (fun e => e.2 = i) = l.map fun u => (u, i) := by
  obtain ⟨l, hl, hnd, hm⟩ := hopSet_at n sym es maxHops h hh i
  refine ⟨l, hnd, hm, ?_⟩
  unfold hopEdges
  have key : ∀ (m : Nat), ((List.range m).flatMap fun i => ((hopSets n (hopAdj n sym es) maxHops [i] [i])[h]?.getD []).map
      fun u => (u, i)).filter (fun e => e.2 = i) = if i < m then l.map fun u => (u, i) else [] := by
    intro m
    induction m with
    | zero => simp
    | succ m ih =>
      rw [List.range_succ, List.flatMap_append, List.filter_append, ih]
      simp only [List.flatMap_cons, List.flatMap_nil, List.append_nil]
      by_cases hc : m = i
      · subst hc
        rw [if_neg (Nat.lt_irrefl _), if_pos (by omega), hl, List.nil_append, List.filter_eq_self.mpr]
        · rfl
        · intro e he
          obtain ⟨u, -, rfl⟩ := List.mem_map.mp he
          simp
      · rw [List.filter_eq_nil_iff.mpr, List.append_nil]
        · by_cases h1 : i < m
          · rw [if_pos h1, if_pos (by omega)]
          · rw [if_neg h1, if_neg (by omega)]
        · intro e he
          obtain ⟨u, -, rfl⟩ := List.mem_map.mp he
          simpa using hc
  rw [key n, if_pos hi]

variable {K : Type} [Field K] [CharZero K]

/-- C143: the features of a hop are the plain average over the nodes at that distance, and zero for a node without any. -/
theorem C143_average (n : Nat) (sym : Bool) (es : List (Int × Int)) (maxHops h : Nat) (hh : h < maxHops) (X : Feat K)
    (i : Nat) (hi : i < n) (c : Nat) :
    ∃ l : List Nat, l.Nodup ∧ (∀ u, u ∈ l ↔ AtDist (Joined n sym es) i (h + 1) u) ∧
      hopFeatures n (hopAdj n sym es) maxHops h X i c * l.length = (l.map fun u => X u c).sum ∧
      (l = [] → hopFeatures n (hopAdj n sym es) maxHops h X i c = 0) := by
  obtain ⟨l, h1, h2, h3⟩ := hopEdges_into n sym es maxHops h hh i hi
  have hval : hopFeatures n (hopAdj n sym es) maxHops h X i c = (l.map fun u => X u c * (1 / (l.length : K))).sum := by
    unfold hopFeatures
    split
    · rename_i he
      rw [List.isEmpty_iff.mp he] at h3
      simp only [List.filter_nil] at h3
      have : l = [] := List.map_eq_nil_iff.mp h3.symm
      simp [this]
    · unfold spmm rowWeights
      rw [List.filter_map, List.map_map]
      have hf : (hopEdges n (hopAdj n sym es) maxHops h).filter ((fun e : WEdge K => decide (e.dst = i)) ∘ fun e =>
          (⟨e.1, e.2, if 0 < ((hopEdges n (hopAdj n sym es) maxHops h).filter fun e' => e'.2 = e.2).length then
            1 / (((hopEdges n (hopAdj n sym es) maxHops h).filter fun e' => e'.2 = e.2).length : K) else 0⟩ : WEdge K)) =
          (hopEdges n (hopAdj n sym es) maxHops h).filter fun e => e.2 = i := by
        rfl
      rw [hf, h3, List.map_map]
      congr 1
      refine List.map_congr_left fun u hu => ?_
      simp only [Function.comp, h3, List.length_map]
      rw [if_pos (List.length_pos_of_mem hu)]
  refine ⟨l, h1, h2, ?_, ?_⟩
  · rw [hval]
    by_cases hl : l = []
    · simp [hl]
    · have hne : (l.length : K) ≠ 0 := Nat.cast_ne_zero.mpr (fun h0 => hl (List.length_eq_zero_iff.mp h0))
      have : ∀ m : List Nat, (m.map fun u => X u c * (1 / (l.length : K))).sum * l.length = (m.map fun u => X u c).sum := by
        intro m
        induction m with
        | nil => simp
        | cons a m ih =>
          simp only [List.map_cons, List.sum_cons, add_mul, ih]
          congr 1
          field_simp
      exact this l
  · rintro rfl
    rw [hval]; rfl

/-- C143 differs from the other methods without `symmetrize`: the neighbours of a node are the nodes it points to, so
features travel against the edges. -/
theorem C143_direction_violated :
    hopFeatures 2 (hopAdj 2 false [(0, 1)]) 1 0 (fun i _ => if i = 0 then (5 : Rat) else 7) 0 0 = 7 ∧
    hopFeatures 2 (hopAdj 2 false [(0, 1)]) 1 0 (fun i _ => if i = 0 then (5 : Rat) else 7) 1 0 = 0 ∧
    spmm [(⟨0, 1, 1⟩ : WEdge Rat)] (fun i _ => if i = 0 then 5 else 7) 1 0 = 5 := by decide +kernel

example : (List.range 3).map (hopEdges 4 (hopAdj 4 true [(0, 1), (1, 2), (2, 3), (3, 3), (0, 9)]) 3) =
    [[(1, 0), (0, 1), (2, 1), (1, 2), (3, 2), (2, 3)], [(2, 0), (3, 1), (0, 2), (1, 3)], [(3, 0), (0, 3)]] := by decide +kernel
example : hopFeatures 3 (hopAdj 3 true [(0, 1), (1, 2)]) 2 0 (fun i _ => (i : Rat)) 1 0 = 1 := by decide +kernel
example : Joined 3 true [(0, 1), (1, 2)] 1 0 := by unfold Joined; decide

end ModSSC.Gnn
