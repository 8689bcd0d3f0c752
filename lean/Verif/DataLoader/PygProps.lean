import Verif.DataLoader.PygModel
import Verif.DataLoader.ProviderNameProps
import Verif.DataLoader.ProviderLoadProps

/-!
# PyTorch Geometric provider: properties
-/

/-! ### Specification -/

namespace ModSSC.DataLoader.Pyg.Spec
open ModSSC ModSSC.DataLoader.Pyg

variable {F L : Type}

/-- The array `m` lists the edges `ps`, as two rows or as two columns. -/
def Lists (m : Mat) (ps : List (Nat × Nat)) : Prop :=
  (m.rows = [ps.map fun p => (p.1 : Int), ps.map fun p => (p.2 : Int)] ∧ m.width = ps.length) ∨
  (m.rows = ps.map (fun p => [(p.1 : Int), (p.2 : Int)]) ∧ m.width = 2 ∧ ps.length ≠ 2)

/-- A graph with `n` nodes, edges `ps` and masks with one flag per node (missing flags and labels at the end are
allowed). -/
structure HasNodes (g : Graph F L) (n : Nat) (ps : List (Nat × Nat)) (masks : List (String × List Bool)) : Prop where
  features : ∀ x, g.x = some x → x.length = n
  labels : ∀ y, g.y = some y → y.length ≤ n ∧ (g.x = none → y.length = n)
  something : g.x = none → g.y = none → n = 0
  edges : (g.edges = none ∧ ps = []) ∨ ∃ m, g.edges = some m ∧ Lists m ps
  ends : ∀ p ∈ ps, p.1 < n ∧ p.2 < n
  flags : ∀ p ∈ masks, p.2.length ≤ n
  masks : g.masks = masks.map fun p => (p.1, p.2.map fun b => [b])

/-- The label of a node: padded if the labels are fewer than the nodes. -/
def label (pad : L) (y : List L) (i : Nat) : L := y.getD i pad

/-- The class filter lets a node pass; without labels there is nothing to filter. -/
def PassesFilter (pad : L) (keepLabel : Option (L → Bool)) (y : Option (List L)) (i : Nat) : Prop :=
  ∀ p, keepLabel = some p → ∀ ys, y = some ys → p (label pad ys i) = true

/-- `keep` is a right choice of nodes: in their order, only allowed ones; all of them, if they are at most `max_nodes`, else
exactly `max_nodes` many, without a seed the first ones. -/
structure Chosen (allowed : Nat → Prop) (n : Nat) (maxNodes seed : Option Int) (keep : List Nat) : Prop where
  ordered : keep.Pairwise (· < ·)
  limit : ∀ m, maxNodes = some m → 0 ≤ m → (keep.length : Int) ≤ m
  complete : (∀ m, maxNodes = some m → 0 ≤ m ∧ (keep.length : Int) < m) → ∀ i < n, allowed i → i ∈ keep
  first : seed = none → ∀ i ∈ keep, ∀ j < i, allowed j → j ∈ keep
  only : ∀ i ∈ keep, i < n ∧ allowed i

/-- `r` is the part of the graph on the nodes `keep`: features, labels and flags of these nodes, and exactly the edges
between them, in their order, renumbered. -/
structure Induced (g : Graph F L) (pad : L) (ps : List (Nat × Nat)) (masks : List (String × List Bool)) (keep : List Nat)
    (r : Loaded F L) : Prop where
  features : r.x.map (·.map some) = g.x.map fun x => keep.map fun i => x[i]?
  labels : r.y = g.y.map fun y => keep.map (label pad y)
  noEdges : ps = [] ∨ keep = [] → r.edges = none
  edges : ps ≠ [] → keep ≠ [] → ∃ s d, r.edges = some (s, d) ∧ s.length = d.length ∧
    List.Forall₂ (fun (p : Nat × Nat) (q : Int × Int) => ∃ i j : Nat, q = (↑i, ↑j) ∧ keep[i]? = some p.1 ∧ keep[j]? = some p.2)
      (ps.filter fun p => p.1 ∈ keep ∧ p.2 ∈ keep) (s.zip d)
  noMasks : masks = [] ∨ keep = [] → r.masks = none
  masks : masks ≠ [] → keep ≠ [] → r.masks = some (masks.map fun p => (p.1, keep.map fun i => p.2.getD i false))

end ModSSC.DataLoader.Pyg.Spec

namespace ModSSC.DataLoader.Pyg
open ModSSC ModSSC.DataLoader ModSSC.DataLoader.Provider Spec
set_option linter.unusedSectionVars false

variable {F L : Type}

/-! ### Helpers -/

theorem padLabels_get (pad : L) (y : List L) (n i : Nat) : (padLabels pad y n).getD i pad = y.getD i pad := by
  unfold padLabels
  split
  · rfl
  · rw [List.getD_eq_getElem?_getD, List.getD_eq_getElem?_getD, List.getElem?_append]
    split
    · rfl
    · rename_i h1 h2
      rw [List.getElem?_eq_none (by omega : y.length ≤ i), List.getElem?_replicate]
      split <;> simp

theorem padLabels_length (pad : L) (y : List L) (n : Nat) : (padLabels pad y n).length = max y.length n := by
  unfold padLabels
  split
  · omega
  · simp; omega

theorem newNumber_nat (keep : List Nat) (n i : Nat) (h : i < n) :
    newNumber keep n (i : Int) = .ok (if i ∈ keep then (keep.idxOf i : Int) else -1) := by
  unfold newNumber
  simp only
  rw [if_neg (by omega : ¬ ((i : Int) < 0)), if_neg (by omega)]
  simp

theorem mapM_newNumber (keep : List Nat) (n : Nat) : ∀ (l : List Nat), (∀ i ∈ l, i < n) →
    (l.map fun i : Nat => (i : Int)).mapM (newNumber keep n) = .ok (l.map fun i : Nat => if i ∈ keep then (keep.idxOf i : Int) else -1) := by
  intro l hl
  refine mapM_ok.mpr ?_
  rw [List.forall₂_map_left_iff, List.forall₂_map_right_iff, List.forall₂_same]
  exact fun i hi => newNumber_nat keep n i (hl i hi)

theorem endpoints_lists {m : Mat} {ps : List (Nat × Nat)} (h : Lists m ps) :
    endpoints m = .ok (ps.map fun p => (p.1 : Int), ps.map fun p => (p.2 : Int)) := by
  unfold endpoints
  rcases h with ⟨h1, h2⟩ | ⟨h1, h2, h3⟩
  · rw [if_pos (by rw [h1]; rfl), h1]; rfl
  · rw [if_neg (by rw [h1]; simpa using h3), if_pos h2]
    simp only [Mat.col, h1, List.map_map]
    rfl

theorem subEdges_ok {keep : List Nat} {n : Nat} {edges : Option Mat} {ps : List (Nat × Nat)}
    (he : (edges = none ∧ ps = []) ∨ ∃ m, edges = some m ∧ Lists m ps) (hp : ∀ p ∈ ps, p.1 < n ∧ p.2 < n) :
    ∃ r, subEdges keep n edges = .ok r ∧ (ps = [] → r = none) ∧ (ps ≠ [] → ∃ s d, r = some (s, d) ∧ s.length = d.length ∧
      List.Forall₂ (fun (p : Nat × Nat) (q : Int × Int) => ∃ i j : Nat, q = (↑i, ↑j) ∧ keep[i]? = some p.1 ∧
        keep[j]? = some p.2) (ps.filter fun p => p.1 ∈ keep ∧ p.2 ∈ keep) (s.zip d)) := by
  unfold subEdges
  rcases he with ⟨rfl, rfl⟩ | ⟨m, rfl, hm⟩
  · exact ⟨none, rfl, fun _ => rfl, fun h => absurd rfl h⟩
  simp only
  by_cases c : m.rows = [] ∨ m.width = 0
  · rw [if_pos c]
    refine ⟨none, rfl, fun _ => rfl, fun h => ?_⟩
    exfalso
    rcases hm with ⟨h1, h2⟩ | ⟨h1, h2, h3⟩
    · rcases c with c | c
      · rw [h1] at c; cases c
      · exact h (List.length_eq_zero_iff.mp (by omega))
    · rcases c with c | c
      · rw [h1] at c; exact h (List.map_eq_nil_iff.mp c)
      · omega
  rw [if_neg c, endpoints_lists hm]
  have e1 : (ps.map fun p => (p.1 : Int)) = (ps.map (·.1)).map fun i : Nat => (i : Int) := by rw [List.map_map]; rfl
  have e2 : (ps.map fun p => (p.2 : Int)) = (ps.map (·.2)).map fun i : Nat => (i : Int) := by rw [List.map_map]; rfl
  simp only
  rw [e1, e2, mapM_newNumber keep n _ (by intro i hi; obtain ⟨p, hp', rfl⟩ := List.mem_map.mp hi; exact (hp p hp').1),
    mapM_newNumber keep n _ (by intro i hi; obtain ⟨p, hp', rfl⟩ := List.mem_map.mp hi; exact (hp p hp').2)]
  refine ⟨_, rfl, fun h => ?_, fun _ => ⟨_, _, rfl, by simp, ?_⟩⟩
  · exfalso
    subst h
    rcases hm with ⟨h1, h2⟩ | ⟨h1, h2, h3⟩
    · exact c (.inr h2)
    · exact c (.inl (by rw [h1]; rfl))
  · have hz : ∀ (l : List (Int × Int)), (l.map (·.1)).zip (l.map (·.2)) = l := by
      intro l; induction l with
      | nil => rfl
      | cons a l ih => simp [ih]
    rw [hz, List.map_map, List.map_map, List.zip_map', List.filter_map, List.forall₂_map_right_iff]
    have hq : (ps.filter fun p => decide (p.1 ∈ keep ∧ p.2 ∈ keep)) = ps.filter ((fun p : Int × Int => decide (0 ≤ p.1 ∧ 0 ≤ p.2)) ∘
        fun x : Nat × Nat => (((fun i => if i ∈ keep then (keep.idxOf i : Int) else -1) ∘ fun x => x.1) x,
          ((fun i => if i ∈ keep then (keep.idxOf i : Int) else -1) ∘ fun x => x.2) x)) := by
      refine List.filter_congr fun p _ => ?_
      simp only [Function.comp_apply, decide_eq_decide]
      by_cases a : p.1 ∈ keep <;> by_cases b : p.2 ∈ keep <;> simp [a, b]
    rw [← hq, List.forall₂_same]
    intro p hp'
    have := (List.mem_filter.mp hp').2
    simp only [decide_eq_true_eq] at this
    refine ⟨keep.idxOf p.1, keep.idxOf p.2, by simp [this.1, this.2], ?_, ?_⟩
    · rw [List.getElem?_eq_getElem (List.idxOf_lt_length_of_mem this.1), List.getElem_idxOf]
    · rw [List.getElem?_eq_getElem (List.idxOf_lt_length_of_mem this.2), List.getElem_idxOf]

theorem subMask_ok {keep : List Nat} {n : Nat} (hk : ∀ i ∈ keep, i < n) (bs : List Bool) (hb : bs.length ≤ n) :
    subMask keep n (bs.map fun b => [b]) = .ok (keep.map fun i => bs.getD i false) := by
  unfold subMask
  have e : (bs.map fun b => [b]).flatten = bs := by
    induction bs with
    | nil => rfl
    | cons b bs ih => simp at hb; simp [ih (by omega)]
  simp only [e]
  have e2 : (if bs.length < n then bs ++ List.replicate (n - bs.length) false else bs) =
      padLabels false bs n := by
    unfold padLabels
    by_cases h : bs.length < n
    · rw [if_pos h, if_neg (by omega)]
    · rw [if_neg h, if_pos (by omega)]
  rw [e2]
  obtain ⟨out, h1, h2⟩ := takeIdx_ok (padLabels false bs n) keep (fun i hi => by
    rw [padLabels_length]; have := hk i hi; omega)
  rw [h1]
  congr 1
  have h3 : out.map some = (keep.map fun i => bs.getD i false).map some := by
    rw [h2, List.map_map]
    refine List.map_congr_left fun i hi => ?_
    have hlt : i < (padLabels false bs n).length := by rw [padLabels_length]; have := hk i hi; omega
    have := padLabels_get false bs n i
    rw [List.getD_eq_getElem?_getD, List.getElem?_eq_getElem hlt] at this
    simp only [Option.getD_some] at this
    rw [List.getElem?_eq_getElem hlt, Function.comp_apply, this]
  exact List.map_injective_iff.mpr (Option.some_injective _) h3

/-! ### The choice of nodes -/

theorem prefix_first {l : List Nat} (h : l.Pairwise (· < ·)) (k : Nat) {i j : Nat} (hi : i ∈ l.take k) (hj : j ∈ l)
    (hlt : j < i) : j ∈ l.take k := by
  rw [← List.take_append_drop k l] at h hj
  rcases List.mem_append.mp hj with hj | hj
  · exact hj
  · have := (List.pairwise_append.mp h).2.2 i hi j hj
    omega

theorem pySlice_take (idx : List Nat) (m : Int) : ∃ k, keepIdx.pySlice idx m = idx.take k ∧ (0 ≤ m → k = m.toNat) := by
  unfold keepIdx.pySlice
  by_cases h : 0 ≤ m
  · exact ⟨m.toNat, by rw [if_pos h], fun _ => rfl⟩
  · exact ⟨_, by rw [if_neg h], fun h' => absurd h' h⟩

theorem limited {allowed : Nat → Prop} {n : Nat} {idx : List Nat} (hp : idx.Pairwise (· < ·))
    (hm : ∀ i, i ∈ idx ↔ i < n ∧ allowed i) (shuffle : Int → List Nat → List Nat) (hs : ∀ s l, (shuffle s l).Perm l)
    (maxNodes seed : Option Int) :
    Chosen allowed n maxNodes seed (match maxNodes with
      | none => idx
      | some m =>
        if m < (idx.length : Int) then
          (keepIdx.pySlice (match seed with | some s => shuffle s idx | none => idx) m).insertionSort (· ≤ ·)
        else idx) := by
  cases maxNodes with
  | none =>
    exact ⟨hp, by simp, fun _ i hi ha => (hm i).mpr ⟨hi, ha⟩, fun _ i hi j hj ha => (hm j).mpr ⟨by
      have := ((hm i).mp hi).1; omega, ha⟩, fun i hi => (hm i).mp hi⟩
  | some m =>
    simp only
    by_cases c : m < (idx.length : Int)
    · rw [if_pos c]
      obtain ⟨idx', he, hperm, hseed⟩ : ∃ idx', (match seed with | some s => shuffle s idx | none => idx) = idx' ∧
          idx'.Perm idx ∧ (seed = none → idx' = idx) := by
        cases seed with
        | none => exact ⟨idx, rfl, .refl _, fun _ => rfl⟩
        | some s => exact ⟨_, rfl, hs s idx, fun h => by cases h⟩
      rw [he]
      obtain ⟨k, hk, hk'⟩ := pySlice_take idx' m
      rw [hk]
      have hmem : ∀ i, i ∈ (idx'.take k).insertionSort (· ≤ ·) ↔ i ∈ idx'.take k := fun i =>
        (List.perm_insertionSort (· ≤ ·) _).mem_iff
      have hlen : ((idx'.take k).insertionSort (· ≤ ·)).length = min k idx'.length := by
        rw [List.length_insertionSort, List.length_take]
      have hnd : ((idx'.take k).insertionSort (· ≤ ·)).Nodup := by
        rw [(List.perm_insertionSort (· ≤ ·) _).nodup_iff]
        exact ((hperm.nodup_iff).mpr (hp.imp fun h => Nat.ne_of_lt h)).sublist (List.take_sublist _ _)
      refine ⟨?_, ?_, ?_, ?_, ?_⟩
      · have h1 := List.pairwise_insertionSort (α := Nat) (· ≤ ·) (idx'.take k)
        exact (List.Pairwise.and h1 hnd).imp fun ⟨a, b⟩ => Nat.lt_of_le_of_ne a b
      · intro m' e h0
        simp only [Option.some.injEq] at e
        subst e
        rw [hlen, hk' h0]
        omega
      · intro h
        obtain ⟨h0, h1⟩ := h m rfl
        rw [hlen, hk' h0, hperm.length_eq] at h1
        omega
      · intro h i hi j hj ha
        rw [hseed h, hmem] at *
        exact prefix_first hp k hi ((hm j).mpr ⟨by
          have := ((hm i).mp (List.mem_of_mem_take hi)).1; omega, ha⟩) hj
      · intro i hi
        rw [hmem] at hi
        exact (hm i).mp (hperm.mem_iff.mp (List.mem_of_mem_take hi))
    · rw [if_neg c]
      refine ⟨hp, ?_, fun _ i hi ha => (hm i).mpr ⟨hi, ha⟩, fun _ i hi j hj ha => (hm j).mpr ⟨by
        have := ((hm i).mp hi).1; omega, ha⟩, fun i hi => (hm i).mp hi⟩
      intro m' e _
      simp only [Option.some.injEq] at e
      omega

theorem keepIdx_chosen (shuffle : Int → List Nat → List Nat) (hs : ∀ s l, (shuffle s l).Perm l) (pad : L)
    (keepLabel : Option (L → Bool)) (maxNodes seed : Option Int) (y : Option (List L)) (n : Nat)
    (hy : ∀ ys, y = some ys → ys.length ≤ n) :
    Chosen (PassesFilter pad keepLabel y) n maxNodes seed
      (keepIdx shuffle keepLabel maxNodes seed (y.map fun ys => padLabels pad ys n) n) := by
  have hr : (List.range n).Pairwise (· < ·) := List.pairwise_lt_range
  cases keepLabel with
  | none =>
    have := limited (n := n) (allowed := PassesFilter pad none y) hr (fun i => by simp [PassesFilter]) shuffle hs maxNodes seed
    unfold keepIdx
    exact this
  | some p =>
    cases y with
    | none =>
      have := limited (n := n) (allowed := PassesFilter pad (some p) none) hr (fun i => by simp [PassesFilter]) shuffle hs maxNodes seed
      unfold keepIdx
      exact this
    | some ys =>
      have hl : (padLabels pad ys n).length = n := by rw [padLabels_length]; have := hy ys rfl; omega
      have hm : ∀ i, i ∈ (List.range (padLabels pad ys n).length).filter (fun i =>
          ((padLabels pad ys n)[i]?.map p).getD false) ↔ i < n ∧ PassesFilter pad (some p) (some ys) i := by
        intro i
        rw [List.mem_filter, List.mem_range, hl]
        refine and_congr_right fun hi => ?_
        have hg := padLabels_get pad ys n i
        have hi' : i < (padLabels pad ys n).length := by omega
        rw [List.getD_eq_getElem?_getD, List.getElem?_eq_getElem hi'] at hg
        simp only [Option.getD_some] at hg
        rw [List.getElem?_eq_getElem hi', hg]
        simp [PassesFilter, label]
      have := limited (allowed := PassesFilter pad (some p) (some ys)) (List.Pairwise.filter _ (List.pairwise_lt_range
        (n := (padLabels pad ys n).length))) hm shuffle hs maxNodes seed
      unfold keepIdx
      exact this

/-! ### The loaded graph -/

theorem gatherOpt_ok {α : Type} (a : Option (List α)) (keep : List Nat) (h : ∀ x, a = some x → ∀ i ∈ keep, i < x.length) :
    ∃ r, gatherOpt a keep = .ok r ∧ r.map (·.map some) = a.map fun x => keep.map fun i => x[i]? := by
  cases a with
  | none => exact ⟨none, rfl, rfl⟩
  | some x =>
    obtain ⟨r, h1, h2⟩ := takeIdx_ok x keep (h x rfl)
    exact ⟨some r, by simp [gatherOpt, h1, Except.map], by simp [h2]⟩

/-- **C171 (graph).**  The first graph of the dataset is loaded as the subgraph on a right choice of nodes: features, labels
and masks of the same nodes in their order, and exactly the edges between chosen nodes, pointing to the same nodes. -/
theorem C171_graph (shuffle : Int → List Nat → List Nat) (hs : ∀ s l, (shuffle s l).Perm l) (pad : L) (hasRoot : Bool)
    (make : Bool → Except PyErr (List (Graph F L))) (g : Graph F L) (rest : List (Graph F L))
    (hmake : make hasRoot = .ok (g :: rest)) (n : Nat) (ps : List (Nat × Nat)) (masks : List (String × List Bool))
    (hg : HasNodes g n ps masks) (keepLabel : Option (L → Bool)) (maxNodes seed : Option Int) :
    ∃ keep r, pygLoad shuffle pad true hasRoot make keepLabel maxNodes seed = .ok r ∧
      Chosen (PassesFilter pad keepLabel g.y) n maxNodes seed keep ∧ Induced g pad ps masks keep r := by
  have hn : nNodes g.x g.y = n := by
    unfold nNodes
    cases hx : g.x with
    | some x => exact hg.features x hx
    | none =>
      cases hy : g.y with
      | some y => exact (hg.labels y hy).2 hx
      | none => exact (hg.something hx hy).symm
  have hC := keepIdx_chosen shuffle hs pad keepLabel maxNodes seed g.y n (fun ys h => (hg.labels ys h).1)
  refine ⟨keepIdx shuffle keepLabel maxNodes seed (g.y.map fun y => padLabels pad y n) n, ?_⟩
  unfold pygLoad firstGraph
  simp only [hmake, Bool.true_eq_false, if_false, hn]
  generalize keepIdx shuffle keepLabel maxNodes seed (g.y.map fun y => padLabels pad y n) n = keep at hC
  unfold subsetGraph
  by_cases hk : keep = []
  · rw [if_pos hk]
    subst hk
    refine ⟨_, rfl, hC, ?_, ?_, fun _ => rfl, fun _ h => absurd rfl h, fun _ => rfl, fun _ h => absurd rfl h⟩
    · cases g.x <;> rfl
    · cases g.y <;> rfl
  rw [if_neg hk]
  have hkn : ∀ i ∈ keep, i < n := fun i hi => (hC.only i hi).1
  have hylen : ∀ y, g.y = some y → (padLabels pad y n).length = n := fun y hy => by
    rw [padLabels_length]; have := (hg.labels y hy).1; omega
  have hmax : max ((g.x.map List.length).getD 0) (((g.y.map fun y => padLabels pad y n).map List.length).getD 0) = n := by
    cases hx : g.x with
    | some x =>
      cases hy : g.y with
      | some y => simp [hg.features x hx, hylen y hy]
      | none => simp [hg.features x hx]
    | none =>
      cases hy : g.y with
      | some y => simp [hylen y hy]
      | none => simp [hg.something hx hy]
  simp only [hmax]
  obtain ⟨e', h1, h2, h3⟩ := subEdges_ok (keep := keep) hg.edges hg.ends
  rw [h1]
  simp only
  have hmk : (g.masks.mapM fun p => (subMask keep n p.2).map fun a => (p.1, a)) =
      .ok (masks.map fun p => (p.1, keep.map fun i => p.2.getD i false)) := by
    refine mapM_ok.mpr ?_
    rw [hg.masks, List.forall₂_map_left_iff, List.forall₂_map_right_iff, List.forall₂_same]
    intro p hp
    rw [subMask_ok hkn p.2 (hg.flags p hp)]
    rfl
  rw [hmk]
  simp only
  obtain ⟨x', x1, x2⟩ := gatherOpt_ok g.x keep (fun x hx i hi => by rw [hg.features x hx]; exact hkn i hi)
  obtain ⟨y', y1, y2⟩ := gatherOpt_ok (g.y.map fun y => padLabels pad y n) keep (fun y hy i hi => by
    obtain ⟨y0, hy0, rfl⟩ := Option.map_eq_some_iff.mp hy
    rw [hylen y0 hy0]; exact hkn i hi)
  rw [x1, y1]
  refine ⟨_, rfl, hC, x2, ?_, ?_, fun a _ => h3 a, ?_, ?_⟩
  · simp only
    cases hy : g.y with
    | none => rw [hy] at y2; cases y' <;> simp_all
    | some y =>
      rw [hy] at y2
      cases y' with
      | none => simp at y2
      | some out =>
        simp only [Option.map_some, Option.some.injEq] at y2 ⊢
        have : out.map some = (keep.map (label pad y)).map some := by
          rw [y2, List.map_map]
          refine List.map_congr_left fun i hi => ?_
          have hlt : i < (padLabels pad y n).length := by rw [hylen y hy]; exact hkn i hi
          have hgd := padLabels_get pad y n i
          rw [List.getD_eq_getElem?_getD, List.getElem?_eq_getElem hlt] at hgd
          simp only [Option.getD_some] at hgd
          rw [List.getElem?_eq_getElem hlt, Function.comp_apply, label, hgd]
        exact List.map_injective_iff.mpr (Option.some_injective _) this
  · rintro (h | h)
    · exact h2 h
    · exact absurd h hk
  · rintro (h | h)
    · subst h; rfl
    · exact absurd h hk
  · intro h _
    simp only
    rw [if_neg (by simpa using h)]

/-- **C171 (no dataset).**  A class that does not exist, a constructor that raises and a dataset without graphs are errors;
a `TypeError` of the constructor is reported as a `ValueError`. -/
theorem C171_errors (shuffle : Int → List Nat → List Nat) (pad : L) (hasRoot : Bool)
    (make : Bool → Except PyErr (List (Graph F L))) (keepLabel : Option (L → Bool)) (maxNodes seed : Option Int) :
    pygLoad shuffle pad false hasRoot make keepLabel maxNodes seed = .error .valueError ∧
    (make hasRoot = .ok [] → pygLoad shuffle pad true hasRoot make keepLabel maxNodes seed = .error .valueError) ∧
    (∀ e, make hasRoot = .error e → pygLoad shuffle pad true hasRoot make keepLabel maxNodes seed =
      .error (if e = .typeError then .valueError else e)) := by
  refine ⟨rfl, fun h => by simp [pygLoad, firstGraph, h], fun e h => ?_⟩
  cases e <;> simp [pygLoad, firstGraph, h]

/-! ### Naming -/

theorem rstripSlash_append (a : List Char) (c : Char) (hc : c ≠ '/') : rstripSlash (a ++ [c]) = a ++ [c] := by
  unfold rstripSlash
  simp [hc]

theorem rstripSlash_trimmed {s : List Char} {c : Char} (h : s.getLast? = some c) (hc : c ≠ '/') : rstripSlash s = s := by
  obtain ⟨a, rfl⟩ := List.getLast?_eq_some_iff.mp h
  exact rstripSlash_append a c hc

/-- **C171 (reference).**  `Class/Name` loads the class with this name, `Class` the class without one; the canonical URI is
the reference itself, so that resolving it gives the same again. -/
theorem C171_reference (ws : Char → Bool) (hs : ws '/' = false) (c : List Char) (a : Option (List Char))
    (hc : PlainName ws c) (ha : PlainVariant ws a) (hl : ∀ v, a = some v → v.getLast? ≠ some '/') :
    pygResolve ws (writeRef c a) none = ⟨"pyg:".toList ++ writeRef c a, c, a⟩ := by
  obtain ⟨hc, hcs⟩ := hc
  have hne := trimmed_ne_nil hc
  cases a with
  | none =>
    unfold pygResolve writeRef
    rw [strip_trimmed ws hc, (splitOnce_none '/').mpr hcs]
    obtain ⟨b, hb⟩ := Option.isSome_iff_exists.mp (List.getLast?_isSome.mpr hne)
    have hb' : b ≠ '/' := fun e => hcs (e ▸ List.mem_of_getLast? hb)
    have : rstripSlash (c ++ '/' :: []) = c := by
      have h2 : rstripSlash (c ++ ['/']) = rstripSlash c := by simp [rstripSlash]
      rw [h2, rstripSlash_trimmed hb hb']
    simp [this]
  | some v =>
    have hv : Trimmed ws v := ha
    unfold pygResolve
    simp only [writeRef]
    rw [strip_trimmed ws (trimmed_joined ws c v '/' hs (.inr hc) (.inr hv)), splitOnce_append '/' c v hcs]
    obtain ⟨b, hb⟩ := Option.isSome_iff_exists.mp (List.getLast?_isSome.mpr (trimmed_ne_nil hv))
    have hb' : b ≠ '/' := fun e => hl v rfl (e ▸ hb)
    have h2 : (c ++ '/' :: v).getLast? = some b := by
      rw [List.getLast?_append, List.getLast?_cons]; simp [hb]
    simp only [strip_trimmed ws hv, Option.getD_some, Option.getD_none, rstripSlash_trimmed h2 hb']

/-- **C171 (identity).**  Requests for different datasets have different canonical URIs. -/
theorem C171_distinct (ws : Char → Bool) (hs : ws '/' = false) (c c' : List Char) (a a' : Option (List Char))
    (hc : PlainName ws c) (ha : PlainVariant ws a) (hl : ∀ v, a = some v → v.getLast? ≠ some '/')
    (hc' : PlainName ws c') (ha' : PlainVariant ws a') (hl' : ∀ v, a' = some v → v.getLast? ≠ some '/')
    (h : (pygResolve ws (writeRef c a) none).canonical = (pygResolve ws (writeRef c' a') none).canonical) :
    c = c' ∧ a = a' := by
  have h1 := C171_reference ws hs c a hc ha hl
  have h2 := C171_reference ws hs c' a' hc' ha' hl'
  rw [h1, h2] at h
  have e : writeRef c a = writeRef c' a' := List.append_cancel_left h
  rw [e, h2] at h1
  exact ⟨(congrArg PygNamed.cls h1).symm, (congrArg PygNamed.arg h1).symm⟩

example : pygResolve blank " Planetoid/ Cora ".toList none =
    ⟨"pyg:Planetoid/Cora".toList, "Planetoid".toList, some "Cora".toList⟩ := by decide +kernel

/-! ### Violations -/

/-- **C171 (several splits, violated).**  Datasets with several splits in one mask (one column per split) load a mask that
is no column of theirs: the flag of node `1` is the flag of node `0` in the second split. -/
theorem C171_mask_columns_violated : ∃ (g : Graph Nat Int) (r : Loaded Nat Int), g.x = some [10, 11, 12] ∧
    g.masks = [("train", [[true, true], [false, false], [false, false]])] ∧
    pygLoad (fun _ l => l) (-1) true true (fun _ => .ok [g]) none none none = .ok r ∧
    r.masks = some [("train", [true, true, false])] :=
  ⟨⟨some [10, 11, 12], some [0, 1, 0], none, [("train", [[true, true], [false, false], [false, false]])]⟩, _, rfl, rfl, rfl, by
    decide +kernel⟩

/-- **C171 (graph labels, violated).**  Of a dataset of many labelled graphs only the first graph is loaded, and its label
becomes the label of its first node; all other nodes get `-1`. -/
theorem C171_graph_label_violated : ∃ (g g' : Graph Nat Int) (r : Loaded Nat Int), g.y = some [7] ∧ g'.y = some [8] ∧
    pygLoad (fun _ l => l) (-1) true true (fun _ => .ok [g, g']) none none none = .ok r ∧ r.y = some [7, -1, -1] :=
  ⟨⟨some [10, 11, 12], some [7], none, []⟩, ⟨some [13, 14], some [8], none, []⟩, _, rfl, rfl, rfl, by decide +kernel⟩

/-- **C171 (structure only, violated).**  A graph without features and labels is loaded as nothing: its edges are gone. -/
theorem C171_no_features_violated (g : Graph F L) (hx : g.x = none) (hy : g.y = none) (shuffle : Int → List Nat → List Nat)
    (pad : L) :
    pygLoad shuffle pad true true (fun _ => .ok [g]) none none none = .ok ⟨none, none, none, none⟩ := by
  simp [pygLoad, firstGraph, nNodes, hx, hy, keepIdx, subsetGraph]

/-- **C171 (class override, violated).**  `options["dataset_class"]` keeps the name of the reference. -/
example : pygResolve blank "Planetoid/Cora".toList (some "Reddit".toList) =
    ⟨"pyg:Reddit/Cora".toList, "Reddit".toList, some "Cora".toList⟩ := by decide +kernel

/-! ### A concrete graph -/

/-- Four nodes, three edges, the last label missing. -/
def demoGraph : Graph Nat Int :=
  ⟨some [10, 11, 12, 13], some [0, 1, 0], some ⟨[[0, 1, 2], [1, 2, 3]], 3⟩, [("train", [[true], [false], [true]])]⟩

example : HasNodes demoGraph 4 [(0, 1), (1, 2), (2, 3)] [("train", [true, false, true])] where
  features := by rintro x ⟨⟩; rfl
  labels := by rintro y ⟨⟩; exact ⟨by decide, fun h => by cases h⟩
  something := fun h => by cases h
  edges := .inr ⟨_, rfl, .inl ⟨rfl, rfl⟩⟩
  ends := by decide
  flags := by decide
  masks := rfl

/-- Nodes 0 and 2 of class 0, and the padded node 3 not; no edge between them. -/
example : pygLoad (fun _ l => l) (-1) true true (fun _ => .ok [demoGraph]) (some (· == 0)) none none =
    .ok ⟨some [10, 12], some [0, 0], some ([], []), some [("train", [true, true])]⟩ := by decide +kernel

/-- The first three nodes and the two edges between them. -/
example : pygLoad (fun _ l => l) (-1) true true (fun _ => .ok [demoGraph]) none (some 3) none =
    .ok ⟨some [10, 11, 12], some [0, 1, 0], some ([0, 1], [1, 2]), some [("train", [true, false, true])]⟩ := by decide +kernel

end ModSSC.DataLoader.Pyg
