import Verif.Deep.GraphSpec
import Verif.Deep.BatchProps
import Verif.Deep.SharpProps

/-!
# Proofs about graph inputs and prediction (C108, C109)
-/

set_option linter.unusedSectionVars false

namespace ModSSC.Deep
open ModSSC ModSSC.Deep.Spec

/-! ## Slicing -/

theorem takeRows_ok_range {α : Type} (X : List α) (idx : List Nat) (r : List α)
    (h : takeRows X idx = .ok r) : ∀ i ∈ idx, i < X.length := by
  have h' := (takeRows_ok X idx r).mp h
  intro i hi
  unfold RowsAt at h'
  have hm : X[i]? ∈ idx.map fun i => X[i]? := List.mem_map.mpr ⟨i, hi, rfl⟩
  rw [← h'] at hm
  obtain ⟨x, -, hx⟩ := List.mem_map.mp hm
  by_contra hlt
  rw [List.getElem?_eq_none (by omega)] at hx
  simp at hx

theorem sliceTensor_total {β : Type} (n : Nat) (idx : List Nat) (h : ∀ i ∈ idx, i < n) (v : List β) :
    ∃ r, sliceTensor n idx v = .ok r := by
  unfold sliceTensor
  by_cases hv : v.length = n
  · rw [if_pos hv]; exact takeRows_total v idx (hv ▸ h)
  · rw [if_neg hv]; exact ⟨v, rfl⟩

theorem sliceTensor_ok {β : Type} (n : Nat) (idx : List Nat) (v r : List β) (h : sliceTensor n idx v = .ok r) :
    (v.length = n → RowsAt v idx r) ∧ (v.length ≠ n → r = v) := by
  unfold sliceTensor at h
  by_cases hv : v.length = n
  · rw [if_pos hv] at h; exact ⟨fun _ => (takeRows_ok _ _ _).mp h, fun hne => absurd hv hne⟩
  · rw [if_neg hv] at h
    simp only [Except.ok.injEq] at h
    exact ⟨fun he => absurd he hv, fun _ => h.symm⟩

theorem map_ok {α β : Type} {f : α → β} {x : Except PyErr α} {b : β} :
    x.map f = .ok b ↔ ∃ a, x = .ok a ∧ f a = b := by
  cases x <;> simp [Except.map]

theorem sliceGraph_ok {α β : Type} (X r : GDict α β) (idx : List Nat) :
    sliceGraph X idx = .ok r ↔ takeRows X.x idx = .ok r.x ∧ r.edges = X.edges.map (subgraphEdges idx) ∧
      sliceOpt X.x.length idx X.weight = .ok r.weight ∧
      X.extra.mapM (sliceNamed X.x.length idx) = .ok r.extra := by
  unfold sliceGraph
  simp only [ebind_ok, pure, Except.pure, Except.ok.injEq]
  constructor
  · rintro ⟨x, hx, w, hw, ex, he, rfl⟩
    exact ⟨hx, rfl, hw, he⟩
  · rintro ⟨hx, h2, hw, he⟩
    refine ⟨_, hx, _, hw, _, he, ?_⟩
    cases r
    simp_all

/-- **C109 (acceptance).**  Slicing a graph fails exactly when a position is outside of the graph. -/
theorem C109_accepts {α β : Type} (X : GDict α β) (idx : List Nat) :
    (∃ r, sliceGraph X idx = .ok r) ↔ ∀ i ∈ idx, i < X.x.length := by
  constructor
  · rintro ⟨r, h⟩
    exact takeRows_ok_range _ _ _ ((sliceGraph_ok X r idx).mp h).1
  · intro h
    obtain ⟨x, hx⟩ := takeRows_total X.x idx h
    obtain ⟨w, hw⟩ : ∃ w, sliceOpt X.x.length idx X.weight = .ok w := by
      cases X.weight with
      | none => exact ⟨none, rfl⟩
      | some v =>
        obtain ⟨r, hr⟩ := sliceTensor_total X.x.length idx h v
        exact ⟨some r, by simp [sliceOpt, hr, Except.map]⟩
    obtain ⟨ex, he⟩ : ∃ ex, X.extra.mapM (sliceNamed X.x.length idx) = .ok ex := by
      apply mapM_total
      rintro ⟨k, v⟩ -
      obtain ⟨r, hr⟩ := sliceTensor_total X.x.length idx h v
      exact ⟨(k, r), by simp [sliceNamed, hr, Except.map]⟩
    exact ⟨⟨x, X.edges.map (subgraphEdges idx), w, ex⟩, (sliceGraph_ok X _ idx).mpr ⟨hx, rfl, hw, he⟩⟩

theorem getD_idxOf (idx : List Nat) (i : Nat) (h : i ∈ idx) : idx.getD (idx.idxOf i) 0 = i := by
  have hl := List.idxOf_lt_length_iff.mpr h
  rw [List.getD_eq_getElem _ _ hl]
  exact List.getElem_idxOf hl

theorem induced (idx : List Nat) (es : List (Nat × Nat)) : InducedEdges idx es (subgraphEdges idx es) := by
  constructor
  · intro e he
    obtain ⟨e', he', rfl⟩ := List.mem_map.mp he
    have := (List.mem_filter.mp he').2
    simp only [decide_eq_true_eq] at this
    exact ⟨List.idxOf_lt_length_iff.mpr this.1, List.idxOf_lt_length_iff.mpr this.2⟩
  · unfold subgraphEdges
    rw [List.map_map]
    conv_rhs => rw [← List.map_id (es.filter _)]
    apply List.map_congr_left
    intro e he
    have := (List.mem_filter.mp he).2
    simp only [decide_eq_true_eq] at this
    simp [getD_idxOf _ _ this.1, getD_idxOf _ _ this.2, -List.getD_eq_getElem?_getD]

/-- **C109 (slicing, partial).**  A batch of a graph is the subgraph induced by its nodes: rows in the order of the
positions, exactly the edges between them, and the node-wise tensors of the same nodes.  Missing: edge weights
(`C109_weights_violated`). -/
theorem C109_slice_partial {α β : Type} (X r : GDict α β) (idx : List Nat) (h : sliceGraph X idx = .ok r) :
    RowsAt X.x idx r.x ∧ (X.edges = none → r.edges = none) ∧
    (∀ es, X.edges = some es → ∃ es', r.edges = some es' ∧ InducedEdges idx es es') ∧
    r.extra.map (·.1) = X.extra.map (·.1) ∧
    ∀ k < X.extra.length, ∀ v v' : String × List β, X.extra[k]? = some v → r.extra[k]? = some v' →
      (v.2.length = X.x.length → RowsAt v.2 idx v'.2) ∧ (v.2.length ≠ X.x.length → v'.2 = v.2) := by
  obtain ⟨h1, h2, h3, h4⟩ := (sliceGraph_ok X r idx).mp h
  have hf := mapM_ok.mp h4
  have hn : ∀ (v v' : String × List β), sliceNamed X.x.length idx v = .ok v' →
      v'.1 = v.1 ∧ sliceTensor X.x.length idx v.2 = .ok v'.2 := by
    intro v v' hv
    unfold sliceNamed at hv
    obtain ⟨a, ha, rfl⟩ := map_ok.mp hv
    exact ⟨rfl, ha⟩
  refine ⟨(takeRows_ok _ _ _).mp h1, ?_, ?_, ?_, ?_⟩
  · intro he; rw [h2, he]; rfl
  · intro es he
    exact ⟨_, by rw [h2, he]; rfl, induced idx es⟩
  · generalize X.extra = a at hf
    generalize r.extra = b at hf
    clear h4
    induction hf with
    | nil => rfl
    | cons ha _ ih => simp [(hn _ _ ha).1, ih]
  · intro k hk v v' hv hv'
    obtain ⟨hk1, e1⟩ := List.getElem?_eq_some_iff.mp hv
    obtain ⟨hk2, e2⟩ := List.getElem?_eq_some_iff.mp hv'
    have := List.Forall₂.get hf (i := k) hk1 hk2
    simp only [List.get_eq_getElem, e1, e2] at this
    exact sliceTensor_ok _ _ _ _ (hn v v' this).2

theorem takeRows_range {α : Type} (X : List α) : takeRows X (List.range X.length) = .ok X := by
  rw [takeRows_ok]
  unfold RowsAt
  apply List.ext_getElem
  · simp
  · intro i h1 h2
    have : i < X.length := by simpa using h1
    simp [this]

theorem subgraph_range (n : Nat) (es : List (Nat × Nat)) (h : ∀ e ∈ es, e.1 < n ∧ e.2 < n) :
    subgraphEdges (List.range n) es = es := by
  unfold subgraphEdges
  rw [List.filter_eq_self.mpr (by intro e he; have := h e he; simp [this])]
  conv_rhs => rw [← List.map_id es]
  apply List.map_congr_left
  intro e he
  have key : ∀ i < n, (List.range n).idxOf i = i := by
    intro i hi
    have hm : i ∈ List.range n := by simpa using hi
    have hl := List.idxOf_lt_length_iff.mpr hm
    have h2 := List.getElem_idxOf hl
    rw [List.getElem_range] at h2
    exact h2
  have := h e he
  rw [key _ this.1, key _ this.2]
  rfl

/-- **C109 (whole graph).**  Taking all nodes in order gives the graph back, weights included. -/
theorem C109_whole {α β : Type} (X : GDict α β)
    (h : ∀ es, X.edges = some es → ∀ e ∈ es, e.1 < X.x.length ∧ e.2 < X.x.length) :
    sliceGraph X (List.range X.x.length) = .ok X := by
  have ht : ∀ v : List β, sliceTensor X.x.length (List.range X.x.length) v = .ok v := by
    intro v
    unfold sliceTensor
    by_cases hv : v.length = X.x.length
    · rw [if_pos hv, ← hv]; exact takeRows_range v
    · rw [if_neg hv]
  rw [sliceGraph_ok]
  refine ⟨takeRows_range X.x, ?_, ?_, ?_⟩
  · cases he : X.edges with
    | none => rfl
    | some es => simp [subgraph_range _ es (h es he)]
  · cases X.weight with
    | none => rfl
    | some v => simp [sliceOpt, ht, Except.map]
  · rw [mapM_ok]
    generalize X.extra = ex
    induction ex with
    | nil => exact .nil
    | cons a ex ih => exact .cons (by simp [sliceNamed, ht, Except.map]) ih

/-- A path of three nodes plus a reverse edge; one weight per edge. -/
def demoGraph : GDict Nat Nat :=
  ⟨[10, 11, 12], some [(0, 1), (1, 0), (1, 2)], some [5, 6, 7], [("y", [0, 1, 1]), ("flag", [9])]⟩

/-- **C109 (violated).**  Slicing breaks the weights: with aligned weights a batch can have more weights than edges
(the weights are indexed by node), or as many but belonging to other edges: here the weights 5 and 6 of the edges
0 → 1 and 1 → 0 are exchanged. -/
theorem C109_weights_violated :
    (∃ (X r : GDict Nat Nat) (idx : List Nat), Aligned X ∧ idx.Nodup ∧ sliceGraph X idx = .ok r ∧ ¬ Aligned r) ∧
    ∃ (X r : GDict Nat Nat) (idx : List Nat), Aligned X ∧ idx.Nodup ∧ sliceGraph X idx = .ok r ∧ Aligned r ∧
      ((0, 1), 5) ∈ weightedEdges X ∧ ((1, 0), 6) ∈ weightedEdges r ∧ idx.getD 1 7 = 0 ∧ idx.getD 0 7 = 1 ∧
      (weightedEdges X).filter (fun e => e.1 = (0, 1)) = [((0, 1), 5)] := by
  have al : ∀ (g : GDict Nat Nat) es w, g.edges = some es → g.weight = some w → w.length = es.length → Aligned g := by
    intro g es w h1 h2 h3 es' w' h1' h2'
    rw [h1] at h1'; rw [h2] at h2'
    obtain rfl := Option.some.inj h1'
    obtain rfl := Option.some.inj h2'
    exact h3
  refine ⟨⟨demoGraph, ⟨[11, 12], some [(0, 1)], some [6, 7], [("y", [1, 1]), ("flag", [9])]⟩, [1, 2],
    al _ _ _ rfl rfl rfl, by decide, by decide +kernel, ?_⟩,
    ⟨demoGraph, ⟨[11, 10], some [(1, 0), (0, 1)], some [6, 5], [("y", [1, 0]), ("flag", [9])]⟩, [1, 0],
    al _ _ _ rfl rfl rfl, by decide, by decide +kernel, al _ _ _ rfl rfl rfl, by decide, by decide, rfl, rfl,
    by decide⟩⟩
  intro h
  have := h _ _ rfl rfl
  simp at this

/-! ## Concatenation -/

theorem shiftEdges_eq {α β : Type} : ∀ (gs : List (GDict α β)) (off : Nat), shiftEdges off gs =
    ((List.range gs.length).map fun k => ((gs[k]?.bind (·.edges)).getD []).map fun e =>
      (e.1 + (off + offset gs k), e.2 + (off + offset gs k))).flatten
  | [], off => by simp [shiftEdges]
  | g :: gs, off => by
    rw [shiftEdges, shiftEdges_eq gs (off + g.x.length), List.length_cons, List.range_succ_eq_map, List.map_cons,
      List.map_map, List.flatten_cons]
    congr 1
    congr 1
    apply List.map_congr_left
    intro k hk
    simp [offset, Nat.add_assoc]

/-- **C109 (concatenation).**  When every block has edges, the result is their disjoint union: the rows one block after
the other, and exactly the edges of the blocks, each shifted by the number of nodes before its block. -/
theorem C109_concat {α β : Type} (gs : List (GDict α β)) (h : ∀ g ∈ gs, g.edges.isSome = true) :
    (concatGraphs gs).x = (gs.map (·.x)).flatten ∧
    (concatGraphs gs).edges = some ((List.range gs.length).map fun k =>
      ((gs[k]?.bind (·.edges)).getD []).map fun e => (e.1 + offset gs k, e.2 + offset gs k)).flatten := by
  have hall : gs.all (fun g => g.edges.isSome) = true := List.all_eq_true.mpr h
  refine ⟨rfl, ?_⟩
  simp only [concatGraphs, hall, if_true]
  rw [shiftEdges_eq]
  simp

theorem filterMap_weight {α β : Type} : ∀ (gs : List (GDict α β)), (∀ g ∈ gs, g.weight.isSome = true) →
    gs.filterMap (·.weight) = gs.map fun g => g.weight.getD []
  | [], _ => rfl
  | g :: gs, h => by
    obtain ⟨w, hw⟩ := Option.isSome_iff_exists.mp (h g (by simp))
    rw [List.filterMap_cons_some hw, filterMap_weight gs (fun g' hg => h g' (by simp [hg]))]
    simp [hw]

theorem shift_zip {α β : Type} : ∀ (gs : List (GDict α β)) (off : Nat),
    (∀ g ∈ gs, (g.weight.getD []).length = (g.edges.getD []).length) →
    (shiftEdges off gs).zip (gs.map fun g => g.weight.getD []).flatten =
      ((List.range gs.length).map fun k => (((gs[k]?.map weightedEdges)).getD []).map fun e =>
        ((e.1.1 + (off + offset gs k), e.1.2 + (off + offset gs k)), e.2)).flatten
  | [], off, _ => by simp [shiftEdges]
  | g :: gs, off, h => by
    rw [shiftEdges, List.map_cons, List.flatten_cons, List.zip_append (by simp [h g (by simp)]),
      shift_zip gs (off + g.x.length) (fun g' hg => h g' (by simp [hg])), List.length_cons,
      List.range_succ_eq_map, List.map_cons, List.map_map, List.flatten_cons]
    congr 1
    · simp [offset, weightedEdges, List.zip_map_left]
    · congr 1
      apply List.map_congr_left
      intro k hk
      simp [offset, Nat.add_assoc]

/-- **C109 (weights of a concatenation).**  When every block has edges with one weight each, every edge of the result
has the weight it had in its block. -/
theorem C109_concat_weights {α β : Type} (gs : List (GDict α β)) (hne : gs ≠ [])
    (h : ∀ g ∈ gs, g.edges.isSome = true ∧ g.weight.isSome = true ∧ Aligned g) :
    Aligned (concatGraphs gs) ∧ weightedEdges (concatGraphs gs) = ((List.range gs.length).map fun k =>
      (((gs[k]?.map weightedEdges)).getD []).map fun e =>
        ((e.1.1 + offset gs k, e.1.2 + offset gs k), e.2)).flatten := by
  have hall : gs.all (fun g => g.edges.isSome) = true := List.all_eq_true.mpr fun g hg => (h g hg).1
  have hlen : ∀ g ∈ gs, (g.weight.getD []).length = (g.edges.getD []).length := by
    intro g hg
    obtain ⟨h1, h2, h3⟩ := h g hg
    obtain ⟨es, he⟩ := Option.isSome_iff_exists.mp h1
    obtain ⟨w, hw⟩ := Option.isSome_iff_exists.mp h2
    rw [he, hw]
    exact h3 es w he hw
  have hw : catWeights gs = some (gs.map fun g => g.weight.getD []).flatten := by
    unfold catWeights
    rw [if_neg, filterMap_weight gs fun g hg => (h g hg).2.1]
    intro hc
    cases gs with
    | nil => exact hne rfl
    | cons g gs =>
      have h1 := List.all_eq_true.mp hc g (by simp)
      have h2 := (h g (by simp)).2.1
      cases hgw : g.weight with
      | none => rw [hgw] at h2; simp at h2
      | some w => rw [hgw] at h1; simp at h1
  have e1 : (concatGraphs gs).edges = some (shiftEdges 0 gs) := by simp [concatGraphs, hall]
  have e2 : (concatGraphs gs).weight = some (gs.map fun g => g.weight.getD []).flatten := by
    simp only [concatGraphs, hall, if_true]; exact hw
  have hs : ∀ (gs : List (GDict α β)) off, (∀ g ∈ gs, (g.weight.getD []).length = (g.edges.getD []).length) →
      (gs.map fun g => g.weight.getD []).flatten.length = (shiftEdges off gs).length := by
    intro gs
    induction gs with
    | nil => intro off _; simp [shiftEdges]
    | cons g gs ih =>
      intro off hl
      simp only [List.map_cons, List.flatten_cons, List.length_append, shiftEdges, List.length_map]
      rw [hl g (by simp), ih _ (fun g' hg => hl g' (by simp [hg]))]
  constructor
  · intro es w he hw'
    rw [e1] at he; rw [e2] at hw'
    obtain rfl := Option.some.inj he
    obtain rfl := Option.some.inj hw'
    exact hs gs 0 hlen
  · unfold weightedEdges
    rw [e1, e2]
    simp only [Option.getD_some]
    rw [shift_zip gs 0 hlen]
    simp only [Nat.zero_add]
    rfl

/-- The entry of a block under a key, empty if it has none. -/
def value {α β : Type} (b : GDict α β) (k : String) : List β := ((b.extra.find? (·.1 = k)).map (·.2)).getD []

/-- **C109 (other entries of a concatenation).**  The result has an entry exactly for the keys of the first block that all blocks have: the
entries one after the other if every block has one element for each of its nodes, else the entry of the first block. -/
theorem C109_concat_extra {α β : Type} (g : GDict α β) (gs : List (GDict α β)) (k : String) (v : List β)
    (h : (k, v) ∈ (concatGraphs (g :: gs)).extra) :
    (∀ b ∈ g :: gs, ∃ e ∈ b.extra, e.1 = k) ∧
    ((∀ b ∈ g :: gs, (value b k).length = b.x.length) → v = ((g :: gs).map fun b => value b k).flatten) ∧
    ((∃ b ∈ g :: gs, (value b k).length ≠ b.x.length) → v = value g k) := by
  unfold concatGraphs at h
  dsimp only at h
  obtain ⟨k', hk', he⟩ := List.mem_map.mp h
  injection he with h1 h2
  subst h1 h2
  obtain ⟨-, hall⟩ := List.mem_filter.mp hk'
  refine ⟨fun b hb => ?_, fun hl => ?_, fun hl => ?_⟩
  · obtain ⟨e, he, hek⟩ := List.any_eq_true.mp (List.all_eq_true.mp hall b hb)
    exact ⟨e, he, of_decide_eq_true hek⟩
  · unfold catExtra
    exact if_pos (List.all_eq_true.mpr fun b hb => decide_eq_true (hl b hb))
  · unfold catExtra
    rw [if_neg]
    · rfl
    · intro hc
      obtain ⟨b, hb, hne⟩ := hl
      exact hne (of_decide_eq_true (List.all_eq_true.mp hc b hb))

/-- Every key of the first block that all blocks have is kept. -/
theorem C109_concat_keys {α β : Type} (g : GDict α β) (gs : List (GDict α β)) (k : String)
    (h : ∀ b ∈ g :: gs, ∃ e ∈ b.extra, e.1 = k) : ∃ v, (k, v) ∈ (concatGraphs (g :: gs)).extra := by
  refine ⟨_, List.mem_map.mpr ⟨k, List.mem_filter.mpr ⟨?_, List.all_eq_true.mpr fun b hb => ?_⟩, rfl⟩⟩
  · obtain ⟨e, he, hk⟩ := h g List.mem_cons_self
    exact List.mem_map.mpr ⟨e, he, hk⟩
  · obtain ⟨e, he, hk⟩ := h b hb
    exact List.any_eq_true.mpr ⟨e, he, decide_eq_true hk⟩

example : (concatGraphs [(⟨[1, 2], none, none, [("y", [5, 6]), ("z", [1])]⟩ : GDict Nat Nat), ⟨[3], none, none, [("z", [2]), ("y", [7])]⟩]).extra =
    [("y", [5, 6, 7]), ("z", [1])] := by decide +kernel

/-- **C109 (violated).**  When only some blocks carry weights the result has fewer weights than edges, and when a graph
is concatenated with a plain tensor all its edges are lost. -/
theorem C109_concat_violated :
    (∃ gs : List (GDict Nat Nat), (∀ g ∈ gs, g.edges.isSome = true ∧ Aligned g) ∧ ¬ Aligned (concatGraphs gs)) ∧
    ∃ gs : List (GDict Nat Nat), (∃ g ∈ gs, g.edges = some [(0, 1)]) ∧ (concatGraphs gs).edges = none := by
  refine ⟨⟨[⟨[1, 2], some [(0, 1)], some [5], []⟩, ⟨[3, 4], some [(1, 0)], none, []⟩], ?_, ?_⟩,
    ⟨[⟨[1, 2], some [(0, 1)], none, []⟩, ⟨[3], none, none, []⟩], ⟨_, List.mem_cons_self, rfl⟩, by decide +kernel⟩⟩
  · intro g hg
    simp only [List.mem_cons, List.not_mem_nil, or_false] at hg
    rcases hg with rfl | rfl
    · refine ⟨rfl, fun es w he hw => ?_⟩
      obtain rfl := Option.some.inj he
      obtain rfl := Option.some.inj hw
      rfl
    · refine ⟨rfl, fun es w he hw => ?_⟩
      simp at hw
  · intro h
    have := h [(0, 1), (3, 2)] [5] (by decide +kernel) (by decide +kernel)
    simp at this

example : concatGraphs [demoGraph, ⟨[20, 21], some [(0, 1)], some [8], [("y", [0, 0])]⟩] =
    ⟨[10, 11, 12, 20, 21], some [(0, 1), (1, 0), (1, 2), (3, 4)], some [5, 6, 7, 8], [("y", [0, 1, 1, 0, 0])]⟩ := by
  decide +kernel

/-! ## Prediction -/

theorem starts_batches {α : Type} (X : List α) (b : Nat) (hb : 0 < b) :
    ((starts X.length b).map fun s => (X.drop s).take b).flatten = X := by
  have h : ∀ (m : Nat), ((List.range m).map fun k => (X.drop (k * b)).take b).flatten = X.take (m * b) := by
    intro m
    induction m with
    | zero => simp
    | succ m ih =>
      rw [List.range_succ, List.map_append, List.flatten_append, ih]
      simp only [List.map_cons, List.map_nil, List.flatten_cons, List.flatten_nil, List.append_nil]
      rw [Nat.succ_mul, List.take_add]
  unfold starts
  rw [List.map_map]
  have := h ((X.length + b - 1) / b)
  simp only [Function.comp_def]
  rw [this]
  exact List.take_of_length_le (ceil_mul _ _ hb)

theorem starts_lt (n b : Nat) (hb : 0 < b) : ∀ s ∈ starts n b, s < n := by
  intro s hs
  obtain ⟨k, hk, rfl⟩ := List.mem_map.mp hs
  exact ceil_lt n b k hb (by simpa using hk)

theorem starts_ne (n b : Nat) (hn : 0 < n) (hb : 0 < b) : starts n b ≠ [] := by
  intro h
  have := congrArg List.length h
  have hp : 0 < (n + b - 1) / b := Nat.div_pos (by omega) hb
  simp [starts] at this
  omega

/-- **C108.**  For a network that treats rows independently (logits `f row`, `k` classes), the probabilities of a
non-empty input are `softmax (f row)`, row by row and in the order of the input, whatever the batch size; the training
mode is as before. -/
theorem C108_rows {α K : Type} (net : List α → Except PyErr (Mat K)) (softmax : List K → List K) (f : α → List K)
    (k : Nat) (hnet : ∀ B : List α, B ≠ [] → net B = .ok ⟨k, B.map f⟩) (X : List α) (hX : X ≠ []) (b : Nat)
    (hb : 0 < b) (training : Bool) :
    predictProba true (tensorBatch X b) net softmax X.length b training =
      (.ok ⟨k, X.map fun x => softmax (f x)⟩, training) := by
  have hn := List.length_pos_iff.mpr hX
  have hl : logitsLoop (tensorBatch X b) net (starts X.length b) =
      .ok ((starts X.length b).map fun s => ⟨k, ((X.drop s).take b).map f⟩) := by
    unfold logitsLoop
    rw [mapM_ok, List.forall₂_map_right_iff, List.forall₂_same]
    intro s hs
    have := starts_lt _ _ hb s hs
    show net ((X.drop s).take b) = _
    apply hnet
    intro h0
    have := congrArg List.length h0
    simp at this
    omega
  have hc : catLogits ((starts X.length b).map fun s => (⟨k, ((X.drop s).take b).map f⟩ : Mat K)) =
      .ok ⟨k, X.map f⟩ := by
    have hs := starts_batches X b hb
    have hne := starts_ne X.length b hn hb
    generalize starts X.length b = ss at *
    cases ss with
    | nil => exact absurd rfl hne
    | cons s ss =>
      simp only [List.map_cons, catLogits]
      rw [if_pos (by simp)]
      conv_rhs => rw [← hs]
      simp [List.map_flatten, Function.comp_def]
  unfold predictProba
  rw [if_neg (by simp), if_neg (by omega), hl]
  simp only [hc, List.map_map, Function.comp_def]

/-- **C108 (labels).**  Labels are predicted row by row and are a most probable class of the row. -/
theorem C108_labels {α K : Type} [Field K] [LinearOrder K] (net : List α → Except PyErr (Mat K))
    (softmax : List K → List K) (f : α → List K) (k : Nat) (hk : 0 < k)
    (hnet : ∀ B : List α, B ≠ [] → net B = .ok ⟨k, B.map f⟩) (hs : ∀ x, softmax (f x) ≠ [])
    (argmax : List K → Nat) (ha : ArgmaxLaw argmax) (X : List α) (hX : X ≠ []) (b : Nat) (hb : 0 < b)
    (training : Bool) :
    ∃ ls, predictLabels argmax (predictProba true (tensorBatch X b) net softmax X.length b training).1 = .ok ls ∧
      List.Forall₂ (fun x l => MostProbable (softmax (f x)) l) X ls := by
  rw [C108_rows net softmax f k hnet X hX b hb training]
  refine ⟨X.map fun x => argmax (softmax (f x)), ?_, ?_⟩
  · simp only [predictLabels]
    rw [if_neg (by omega)]
    simp
  · rw [List.forall₂_map_right_iff, List.forall₂_same]
    intro x _
    exact ha _ (hs x)

/-- **C108 (graphs, partial).**  For a graph input, a batch size of at least the number of nodes gives the network's
result on the whole graph.  Missing: other batch sizes, for which the result differs (`C108_graph_violated`). -/
theorem C108_graph_partial {α β K : Type} (net : GDict α β → Except PyErr (Mat K)) (softmax : List K → List K)
    (X : GDict α β) (hX : X.x ≠ []) (he : ∀ es, X.edges = some es → ∀ e ∈ es, e.1 < X.x.length ∧ e.2 < X.x.length)
    (b : Nat) (hb : X.x.length ≤ b) (training : Bool) (m : Mat K) (hnet : net X = .ok m) :
    predictProba true (graphBatch X b) net softmax X.x.length b training =
      (.ok ⟨m.cols, m.rows.map softmax⟩, training) := by
  have hn := List.length_pos_iff.mpr hX
  have hst : starts X.x.length b = [0] := by
    have : (X.x.length + b - 1) / b = 1 := by
      apply Nat.div_eq_of_lt_le <;> omega
    simp [starts, this]
  have hb0 : graphBatch X b 0 = .ok X := by
    unfold graphBatch
    rw [Nat.zero_add, Nat.min_eq_right hb, Nat.sub_zero, ← List.range_eq_range']
    exact C109_whole X he
  have hl : logitsLoop (graphBatch X b) net [0] = .ok [m] := by
    unfold logitsLoop
    rw [mapM_ok]
    refine .cons ?_ .nil
    rw [ebind_of_ok hb0, hnet]
  unfold predictProba
  rw [if_neg (by simp), if_neg (by omega), hst, hl]
  simp [catLogits]

/-- A graph network for the witness: the first logit of a node sums its own feature and those of the sources of its
incoming edges. -/
def demoNet (g : GDict Nat Nat) : Except PyErr (Mat Nat) :=
  .ok ⟨2, (List.range g.x.length).map fun i =>
    [g.x.getD i 0 + (((g.edges.getD []).filter (·.2 = i)).map fun e => g.x.getD e.1 0).sum, 3]⟩

/-- **C108 (violated for graphs).**  The prediction for a graph depends on the batch size of the method: edges between
batches are dropped, here changing the largest logit of node 1. -/
theorem C108_graph_violated : ∃ (X : GDict Nat Nat) (b b' : Nat), 0 < b ∧ 0 < b' ∧
    (predictProba true (graphBatch X b) demoNet id X.x.length b false).1 = .ok ⟨2, [[2, 3], [4, 3]]⟩ ∧
    (predictProba true (graphBatch X b') demoNet id X.x.length b' false).1 = .ok ⟨2, [[2, 3], [2, 3]]⟩ :=
  ⟨⟨[2, 2], some [(0, 1)], none, []⟩, 2, 1, by decide, by decide, by decide +kernel, by decide +kernel⟩

/-- **C108 (empty input).**  Probabilities of an empty input are an empty 0 × 0 matrix, but predicting labels for it
raises. -/
theorem C108_empty {α K : Type} (net : List α → Except PyErr (Mat K)) (softmax : List K → List K)
    (argmax : List K → Nat) (b : Nat) (hb : 0 < b) (training : Bool) :
    predictProba true (tensorBatch ([] : List α) b) net softmax 0 b training = (.ok ⟨0, []⟩, training) ∧
    predictLabels argmax (predictProba true (tensorBatch ([] : List α) b) net softmax 0 b training).1 =
      .error .indexError := by
  have : starts 0 b = [] := by
    unfold starts
    rw [Nat.div_eq_of_lt (by omega)]; rfl
  have h : predictProba true (tensorBatch ([] : List α) b) net softmax 0 b training = (.ok ⟨0, []⟩, training) := by
    unfold predictProba
    rw [if_neg (by simp), if_neg (by omega), this]
    rfl
  rw [h]
  exact ⟨rfl, rfl⟩

/-- **C108 (mode, partial).**  A successful prediction leaves the training mode as it was, and so does a call before
`fit`.  Missing: failing predictions (`C108_mode_violated`). -/
theorem C108_mode_partial {I K : Type} (fitted : Bool) (batch : Nat → Except PyErr I) (net : I → Except PyErr (Mat K))
    (softmax : List K → List K) (n b : Nat) (training : Bool)
    (h : fitted = false ∨ ∃ m, (predictProba fitted batch net softmax n b training).1 = .ok m) :
    (predictProba fitted batch net softmax n b training).2 = training := by
  unfold predictProba at *
  by_cases hf : fitted = false
  · rw [if_pos (by simp [hf])]
  rw [if_neg (by simpa using hf)] at h ⊢
  rcases h with h | ⟨m, h⟩
  · exact absurd h hf
  by_cases hb : b = 0
  · rw [if_pos hb] at h; simp at h
  rw [if_neg hb] at h ⊢
  cases hl : logitsLoop batch net (starts n b) with
  | error e => rw [hl] at h; simp at h
  | ok ms =>
    rw [hl] at h
    simp only at h ⊢
    cases hc : catLogits ms with
    | error e => rw [hc] at h; simp at h
    | ok m => rfl

/-- **C108 (violated).**  When the network raises, a model that was in training mode is left in evaluation mode. -/
theorem C108_mode_violated : ∃ (net : List Nat → Except PyErr (Mat Nat)) (X : List Nat),
    predictProba true (tensorBatch X 2) net id X.length 2 true = (.error .runtimeError, false) :=
  ⟨fun _ => .error .runtimeError, [1, 2, 3], by decide +kernel⟩

/-- **C108 (before fit).**  Without a fitted model the call raises `RuntimeError`. -/
theorem C108_unfitted {I K : Type} (batch : Nat → Except PyErr I) (net : I → Except PyErr (Mat K))
    (softmax : List K → List K) (n b : Nat) (training : Bool) :
    (predictProba false batch net softmax n b training).1 = .error .runtimeError := by
  simp [predictProba]

example : predictProba true (tensorBatch [3, 1, 2] 2) (fun B => .ok ⟨2, B.map fun x => [x, 2]⟩) id 3 2 true =
    (.ok ⟨2, [[3, 2], [1, 2], [2, 2]]⟩, true) := by decide +kernel

/-! ## Freezing batch normalisation -/

theorem freezeLeave_spec : ∀ (ms ms' : List Mod), ms'.map (·.bn) = ms.map (·.bn) →
    freezeLeave ms' ((ms.filter (·.bn)).map (·.training)) =
      List.zipWith (fun m m' => if m.bn then m else m') ms ms'
  | [], ms', h => by
    have : ms' = [] := by simpa using h
    simp [this, freezeLeave]
  | m :: ms, [], h => by simp at h
  | m :: ms, m' :: ms', h => by
    simp only [List.map_cons, List.cons.injEq] at h
    have ih := freezeLeave_spec ms ms' h.2
    cases hb : m.bn with
    | true =>
      have hb' : m'.bn = true := by rw [h.1, hb]
      rw [List.filter_cons_of_pos (by simpa using hb)]
      simp only [List.map_cons, freezeLeave, hb', if_true, List.zipWith_cons_cons, hb]
      rw [ih]
      congr 1
      cases m; simp_all
    | false =>
      have hb' : m'.bn = false := by rw [h.1, hb]
      rw [List.filter_cons_of_neg (by simpa using hb)]
      simp only [freezeLeave, hb', List.zipWith_cons_cons, hb]
      rw [ih]
      simp

/-- **C108 (batch normalisation).**  Inside the block all batch normalisation modules are in evaluation mode and no
other module is touched; afterwards, whatever the block did to the flags and also when it raised, every batch
normalisation module has the flag it had before, and the other modules are as the block left them. -/
theorem C108_freeze (body : List Mod → List Mod) (hb : ∀ ms, (body ms).map (·.bn) = ms.map (·.bn)) (ms : List Mod) :
    (∀ m ∈ (freezeEnter ms).1, m.bn = true → m.training = false) ∧
    (∀ (i : Nat) (m : Mod), ms[i]? = some m → m.bn = false → (freezeEnter ms).1[i]? = some m) ∧
    (withFreeze true body ms).length = ms.length ∧
    (∀ (i : Nat) (m : Mod), ms[i]? = some m → m.bn = true → (withFreeze true body ms)[i]? = some m) ∧
    (∀ (i : Nat) (m : Mod), ms[i]? = some m → m.bn = false → (withFreeze true body ms)[i]? = (body (freezeEnter ms).1)[i]?) ∧
    withFreeze false body ms = body ms := by
  have hm : (freezeEnter ms).1.map (·.bn) = ms.map (·.bn) := by
    simp only [freezeEnter, List.map_map]
    apply List.map_congr_left
    intro m _
    cases hbm : m.bn <;> simp [hbm]
  have hbm := (hb (freezeEnter ms).1).trans hm
  have hl : (body (freezeEnter ms).1).length = ms.length := by simpa using congrArg List.length hbm
  have hz : withFreeze true body ms =
      List.zipWith (fun m m' => if m.bn then m else m') ms (body (freezeEnter ms).1) := by
    unfold withFreeze
    rw [if_pos rfl]
    exact freezeLeave_spec ms _ hbm
  refine ⟨?_, ?_, ?_, ?_, ?_, ?_⟩
  · intro m hmem
    obtain ⟨m0, -, rfl⟩ := List.mem_map.mp hmem
    split
    · simp
    · intro h; simp_all
  · intro i m hi hbf
    simp [freezeEnter, hi, hbf]
  · rw [hz]; simp [hl]
  · intro i m hi hbt
    obtain ⟨hlt, e⟩ := List.getElem?_eq_some_iff.mp hi
    rw [hz, List.getElem?_eq_getElem (by simp [hl, hlt])]
    simp [e, hbt]
  · intro i m hi hbf
    obtain ⟨hlt, e⟩ := List.getElem?_eq_some_iff.mp hi
    rw [hz, List.getElem?_eq_getElem (by simp [hl, hlt]), List.getElem?_eq_getElem (by omega)]
    simp [e, hbf]
  · simp [withFreeze]

example : withFreeze true (fun ms => ms.map fun m => ⟨m.bn, true⟩) [⟨true, true⟩, ⟨false, false⟩, ⟨true, false⟩] =
    [⟨true, true⟩, ⟨false, true⟩, ⟨true, false⟩] := by decide +kernel

end ModSSC.Deep
