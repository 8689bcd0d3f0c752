import Verif.Bench.SliceModel
import Mathlib.Data.List.Nodup
import Mathlib.Data.List.Basic

/-!
# Row selection (C61, C94)
-/

namespace ModSSC.Bench
open ModSSC

/-- Specification: `out` is the rows of `rows` at the positions `idx`, in that order. -/
def IsSelection {α : Type} (rows : List α) (idx : List Int) (out : List α) : Prop :=
  out.length = idx.length ∧
  ∀ (j : Nat) (i : Int), idx[j]? = some i → 0 ≤ i ∧ ∃ r, rows[i.toNat]? = some r ∧ out[j]? = some r

theorem asIdx_ok {idx : List Int} {l : List Nat} : asIdx idx = .ok l ↔ (∀ i ∈ idx, 0 ≤ i) ∧ l = idx.map Int.toNat := by
  unfold asIdx
  split
  · rename_i h
    simp only [List.any_eq_true, decide_eq_true_eq] at h
    obtain ⟨i, h1, h2⟩ := h
    constructor
    · intro h; simp at h
    · rintro ⟨h, -⟩
      have := h i h1
      omega
  · rename_i h
    simp only [List.any_eq_true, decide_eq_true_eq, not_exists, not_and, not_lt] at h
    simp only [Except.ok.injEq]
    exact ⟨fun e => ⟨h, e.symm⟩, fun e => e.2.symm⟩

theorem takeRows_ok {α : Type} {rows : List α} {idx : List Nat} {out : List α} :
    takeRows rows idx = .ok out ↔ List.Forall₂ (fun i r => rows[i]? = some r) idx out := by
  unfold takeRows
  rw [mapM_ok]
  have : ∀ (i : Nat) (r : α), (match rows[i]? with
      | some r => (.ok r : Except PyErr α)
      | none => .error .indexError) = .ok r ↔ rows[i]? = some r := by
    intro i r
    cases rows[i]? <;> simp
  constructor
  · exact fun h => h.imp (fun i r => (this i r).mp)
  · exact fun h => h.imp (fun i r => (this i r).mpr)

theorem selection_iff {α : Type} {rows : List α} {idx : List Int} {out : List α} :
    IsSelection rows idx out ↔ (∀ i ∈ idx, 0 ≤ i) ∧
      List.Forall₂ (fun i r => rows[i]? = some r) (idx.map Int.toNat) out := by
  induction idx generalizing out with
  | nil =>
    unfold IsSelection
    cases out <;> simp
  | cons i idx ih =>
    constructor
    · rintro ⟨h1, h2⟩
      cases out with
      | nil => simp at h1
      | cons r out =>
        obtain ⟨h3, r', h4, h5⟩ := h2 0 i rfl
        simp only [List.getElem?_cons_zero, Option.some.injEq] at h5
        subst h5
        have := ih.mp ⟨by simpa using h1, fun j i' hj => by simpa using h2 (j + 1) i' (by simpa using hj)⟩
        refine ⟨?_, List.Forall₂.cons h4 this.2⟩
        intro x hx
        rcases List.mem_cons.mp hx with rfl | hx
        · exact h3
        · exact this.1 x hx
    · rintro ⟨h1, h2⟩
      simp only [List.map_cons] at h2
      cases out with
      | nil => cases h2
      | cons r out =>
        obtain ⟨h3, h4⟩ := List.forall₂_cons.mp h2
        have := ih.mpr ⟨fun x hx => h1 x (by simp [hx]), h4⟩
        refine ⟨by simpa using this.1, ?_⟩
        intro j i' hj
        cases j with
        | zero =>
          simp only [List.getElem?_cons_zero, Option.some.injEq] at hj
          subst hj
          exact ⟨h1 i (by simp), r, h3, rfl⟩
        | succ j =>
          simp only [List.getElem?_cons_succ] at hj ⊢
          exact this.2 j i' hj

/-- **C61 (rows).**  Selecting from an array, tensor or list returns exactly the rows at the given positions in the
given order, and returns if and only if all positions exist. -/
theorem C61_rows {α : Type} (rows : List α) (idx : List Int) (out : Item α) :
    (selectRows (.array rows) idx = .ok out ↔ ∃ l, out = .array l ∧ IsSelection rows idx l) ∧
    (selectRows (.list rows) idx = .ok out ↔ ∃ l, out = .list l ∧ IsSelection rows idx l) ∧
    ((∃ l, IsSelection rows idx l) ↔ ∀ i ∈ idx, 0 ≤ i ∧ i < rows.length) := by
  refine ⟨?_, ?_, ?_⟩
  · unfold selectRows
    cases ha : asIdx idx with
    | error e =>
      simp only [reduceCtorEq, false_iff, not_exists, not_and]
      rintro l rfl hl
      have := (asIdx_ok (l := idx.map Int.toNat)).mpr ⟨(selection_iff.mp hl).1, rfl⟩
      rw [ha] at this
      simp at this
    | ok l =>
      obtain ⟨h1, rfl⟩ := asIdx_ok.mp ha
      simp only
      cases ht : takeRows rows (idx.map Int.toNat) with
      | error e =>
        simp only [Except.map, reduceCtorEq, false_iff, not_exists, not_and]
        rintro l rfl hl
        rw [takeRows_ok.mpr (selection_iff.mp hl).2] at ht
        simp at ht
      | ok l =>
        simp only [Except.map, Except.ok.injEq]
        constructor
        · rintro rfl
          exact ⟨l, rfl, selection_iff.mpr ⟨h1, takeRows_ok.mp ht⟩⟩
        · rintro ⟨l', rfl, hl⟩
          rw [takeRows_ok.mpr (selection_iff.mp hl).2] at ht
          rw [Except.ok.inj ht]
  · unfold selectRows
    cases ha : asIdx idx with
    | error e =>
      simp only [reduceCtorEq, false_iff, not_exists, not_and]
      rintro l rfl hl
      have := (asIdx_ok (l := idx.map Int.toNat)).mpr ⟨(selection_iff.mp hl).1, rfl⟩
      rw [ha] at this
      simp at this
    | ok l =>
      obtain ⟨h1, rfl⟩ := asIdx_ok.mp ha
      simp only
      cases ht : takeRows rows (idx.map Int.toNat) with
      | error e =>
        simp only [Except.map, reduceCtorEq, false_iff, not_exists, not_and]
        rintro l rfl hl
        rw [takeRows_ok.mpr (selection_iff.mp hl).2] at ht
        simp at ht
      | ok l =>
        simp only [Except.map, Except.ok.injEq]
        constructor
        · rintro rfl
          exact ⟨l, rfl, selection_iff.mpr ⟨h1, takeRows_ok.mp ht⟩⟩
        · rintro ⟨l', rfl, hl⟩
          rw [takeRows_ok.mpr (selection_iff.mp hl).2] at ht
          rw [Except.ok.inj ht]
  · constructor
    · rintro ⟨l, h1, h2⟩ i hi
      obtain ⟨j, hj⟩ := List.getElem?_of_mem hi
      obtain ⟨h3, r, h4, -⟩ := h2 j i hj
      have := (List.getElem?_eq_some_iff.mp h4).1
      exact ⟨h3, by omega⟩
    · intro h
      have : ∃ l, takeRows rows (idx.map Int.toNat) = .ok l := by
        refine mapM_total (fun i hi => ?_)
        obtain ⟨k, hk, rfl⟩ := List.mem_map.mp hi
        have := h k hk
        rw [List.getElem?_eq_getElem (by omega)]
        exact ⟨_, rfl⟩
      obtain ⟨l, hl⟩ := this
      exact ⟨l, selection_iff.mpr ⟨fun i hi => (h i hi).1, takeRows_ok.mp hl⟩⟩

/-- **C61 (alignment).**  Features and labels selected with the same indices stay together: the row and the label at
each position of the results are a row and a label from one position of the inputs. -/
theorem C61_aligned {α β : Type} (X : List α) (y : List β) (idx : List Int) (X' : List α) (y' : List β)
    (hX : selectRows (.array X) idx = .ok (.array X')) (hy : selectRows (.array y) idx = .ok (.array y')) :
    X'.length = y'.length ∧
    ∀ (j : Nat) a b, X'[j]? = some a → y'[j]? = some b → ∃ i : Nat, idx[j]? = some (i : Int) ∧ X[i]? = some a ∧ y[i]? = some b := by
  obtain ⟨l1, e1, h1⟩ := (C61_rows X idx _).1.mp hX
  obtain ⟨l2, e2, h2⟩ := (C61_rows y idx _).1.mp hy
  simp only [Item.array.injEq] at e1 e2
  subst e1 e2
  refine ⟨by rw [h1.1, h2.1], ?_⟩
  intro j a b ha hb
  have hj : j < idx.length := by rw [← h1.1]; exact (List.getElem?_eq_some_iff.mp ha).1
  have hi := List.getElem?_eq_getElem hj
  obtain ⟨h3, r, h4, h5⟩ := h1.2 j _ hi
  obtain ⟨-, r', h6, h7⟩ := h2.2 j _ hi
  rw [ha] at h5
  rw [hb] at h7
  obtain rfl := Option.some.inj h5
  obtain rfl := Option.some.inj h7
  exact ⟨(idx[j]).toNat, by rw [hi, Int.toNat_of_nonneg h3], h4, h6⟩

/-- **C61 (refusals).**  A negative index is refused, whatever is selected from. -/
theorem C61_negative {α : Type} (x : Item α) (m : Mapping α) (idx : List Int) (i : Int) (hi : i ∈ idx) (hneg : i < 0) :
    selectRows x idx = .error .runtimeError ∧ selectMapping m idx = .error .runtimeError := by
  have : asIdx idx = .error .runtimeError := by
    unfold asIdx
    rw [if_pos]
    simp only [List.any_eq_true, decide_eq_true_eq]
    exact ⟨i, hi, hneg⟩
  constructor
  · unfold selectRows
    rw [this]
  · unfold selectMapping
    rw [this]
    rfl

theorem shouldSlice_iff {n : Nat} {idx : List Nat} : shouldSlice n idx = true ↔ ∀ i ∈ idx, i < n := by
  simp [shouldSlice]

/-- **C61 (mappings).**  Selecting existing nodes from a mapping keeps its keys, selects the rows of every per-node
array and list, and keeps `None` and other values. -/
theorem C61_mapping {α : Type} (m : Mapping α) (idx : List Int) (n : Nat) (hidx : ∀ i ∈ idx, 0 ≤ i ∧ i < n)
    (m' : Mapping α) (h : selectMapping m idx = .ok m') :
    m'.entries.map (·.1) = m.entries.map (·.1) ∧
    ∀ (j : Nat) k v v', m.entries[j]? = some (k, v) → m'.entries[j]? = some (k, v') →
      (∀ rows, v = .array rows → rows.length = n → ∃ l, v' = .array l ∧ IsSelection rows idx l) ∧
      (∀ rows, v = .list rows → rows.length = n → ∃ l, v' = .list l ∧ IsSelection rows idx l) ∧
      (v = .none → v' = .none) ∧ (∀ x, v = .other x → v' = .other x) := by
  unfold selectMapping at h
  rw [ebind_ok] at h
  obtain ⟨ids, h1, h⟩ := h
  rw [ebind_ok] at h
  obtain ⟨es, h2, h⟩ := h
  simp only [pure, Except.pure, Except.ok.injEq] at h
  subst h
  obtain ⟨hpos, rfl⟩ := asIdx_ok.mp h1
  rw [mapM_ok] at h2
  have hlen := h2.length_eq
  have hent : ∀ (j : Nat) (a b : String × Item α), m.entries[j]? = some a → es[j]? = some b →
      b.1 = a.1 ∧ sliceEntry (idx.map Int.toNat) a.2 = .ok b.2 := by
    intro j a b ha hb
    obtain ⟨hj, rfl⟩ := List.getElem?_eq_some_iff.mp ha
    obtain ⟨hj', rfl⟩ := List.getElem?_eq_some_iff.mp hb
    have := (List.forall₂_iff_get.mp h2).2 j hj hj'
    simp only [List.get_eq_getElem] at this
    cases hs : sliceEntry (idx.map Int.toNat) (m.entries[j]).2 with
    | error e => rw [hs] at this; simp [Except.map] at this
    | ok v =>
      rw [hs] at this
      simp only [Except.map, Except.ok.injEq] at this
      rw [← this]
      exact ⟨rfl, rfl⟩
  refine ⟨?_, ?_⟩
  · refine List.ext_getElem (by simp [hlen]) (fun j hj hj' => ?_)
    simp only [List.length_map] at hj hj'
    simp only [List.getElem_map]
    exact (hent j _ _ (List.getElem?_eq_getElem hj') (List.getElem?_eq_getElem hj)).1
  · intro j k v v' hv hv'
    have he := (hent j _ _ hv hv').2
    simp only at he
    have hbound : ∀ i ∈ idx.map Int.toNat, i < n := by
      intro i hi
      obtain ⟨x, hx, rfl⟩ := List.mem_map.mp hi
      have := hidx x hx
      omega
    refine ⟨?_, ?_, ?_, ?_⟩
    · rintro rows rfl hn
      simp only [sliceEntry] at he
      rw [if_pos (shouldSlice_iff.mpr (by rw [hn]; exact hbound))] at he
      cases ht : takeRows rows (idx.map Int.toNat) with
      | error e => rw [ht] at he; simp [Except.map] at he
      | ok l =>
        rw [ht] at he
        simp only [Except.map, Except.ok.injEq] at he
        exact ⟨l, he.symm, selection_iff.mpr ⟨hpos, takeRows_ok.mp ht⟩⟩
    · rintro rows rfl hn
      simp only [sliceEntry] at he
      rw [if_pos (shouldSlice_iff.mpr (by rw [hn]; exact hbound))] at he
      cases ht : takeRows rows (idx.map Int.toNat) with
      | error e => rw [ht] at he; simp [Except.map] at he
      | ok l =>
        rw [ht] at he
        simp only [Except.map, Except.ok.injEq] at he
        exact ⟨l, he.symm, selection_iff.mpr ⟨hpos, takeRows_ok.mp ht⟩⟩
    · rintro rfl
      simp only [sliceEntry, Except.ok.injEq] at he
      exact he.symm
    · rintro x rfl
      simp only [sliceEntry, Except.ok.injEq] at he
      exact he.symm

/-- **C61 (edges).**  The edges of the selection are the edges between selected nodes, renumbered to the positions of
their ends: with distinct indices, `(a, b)` is an edge afterwards if and only if `(idx[a], idx[b])` was one. -/
theorem C61_edges {α : Type} (m : Mapping α) (edges : List (Nat × Nat)) (he : m.edgeIndex = some edges) (idx : List Nat)
    (hnd : idx.Nodup) (m' : Mapping α) (h : selectMapping m (idx.map (fun (i : Nat) => (i : Int))) = .ok m') :
    ∃ edges', m'.edgeIndex = some edges' ∧
    ∀ a b, (a, b) ∈ edges' ↔ ∃ u v, idx[a]? = some u ∧ idx[b]? = some v ∧ (u, v) ∈ edges := by
  unfold selectMapping at h
  rw [ebind_ok] at h
  obtain ⟨ids, h1, h⟩ := h
  rw [ebind_ok] at h
  obtain ⟨es, h2, h⟩ := h
  simp only [pure, Except.pure, Except.ok.injEq] at h
  subst h
  obtain ⟨-, rfl⟩ := asIdx_ok.mp h1
  have hids : (idx.map (fun (i : Nat) => (i : Int))).map Int.toNat = idx := by
    rw [List.map_map]
    conv_rhs => rw [← List.map_id idx]
    exact List.map_congr_left (fun i _ => by simp)
  rw [hids, he]
  refine ⟨subgraph idx edges, rfl, ?_⟩
  intro a b
  simp only [subgraph, List.mem_map, List.mem_filter, Bool.and_eq_true, decide_eq_true_eq, Prod.mk.injEq, Prod.exists]
  constructor
  · rintro ⟨u, v, ⟨h3, h4, h5⟩, rfl, rfl⟩
    exact ⟨u, v, by simp [List.getElem?_eq_getElem (List.idxOf_lt_length_of_mem h4)],
      by simp [List.getElem?_eq_getElem (List.idxOf_lt_length_of_mem h5)], h3⟩
  · rintro ⟨u, v, hu, hv, h3⟩
    obtain ⟨ha, rfl⟩ := List.getElem?_eq_some_iff.mp hu
    obtain ⟨hb, rfl⟩ := List.getElem?_eq_some_iff.mp hv
    exact ⟨idx[a], idx[b], ⟨h3, List.getElem_mem ha, List.getElem_mem hb⟩, hnd.idxOf_getElem a ha, hnd.idxOf_getElem b hb⟩

/-- **C94, partial.**  An entry with no more rows than some selected index is kept whole.
Missing: per-edge entries with more rows, see `C94_weights_violated`. -/
theorem C94_short_partial {α : Type} (rows : List α) (idx : List Nat) (i : Nat) (hi : i ∈ idx) (hlen : rows.length ≤ i) :
    sliceEntry idx (.array rows) = .ok (.array rows) ∧ sliceEntry idx (.list rows) = .ok (.list rows) := by
  have : shouldSlice rows.length idx = false := by
    rw [Bool.eq_false_iff]
    intro h
    have := shouldSlice_iff.mp h i hi
    omega
  simp [sliceEntry, this]

/-- **C94 is violated.**  A graph of three nodes with edges 0→1, 1→2, 2→0 of weights 10, 20, 30.  For the nodes
0 and 2 the only edge left is 2→0, but the weights are selected by node number: there are two, and the first is that of
the edge 0→1. -/
theorem C94_weights_violated :
    let m : Mapping Rat := ⟨some [(0, 1), (1, 2), (2, 0)], [("x", .array [0, 1, 2]), ("edge_weight", .array [10, 20, 30])]⟩
    selectMapping m [0, 2] = .ok ⟨some [(1, 0)], [("x", .array [0, 2]), ("edge_weight", .array [10, 30])]⟩ := by
  decide +kernel

theorem takeRows_in {α : Type} {rows : List α} {idx : List Nat} (h : shouldSlice rows.length idx = true) :
    ∃ l, takeRows rows idx = .ok l := by
  unfold takeRows
  refine mapM_total fun i hi => ?_
  have := shouldSlice_iff.mp h i hi
  rw [List.getElem?_eq_getElem this]
  exact ⟨_, rfl⟩

/-- **C61 (mappings, when).**  Selecting rows of a mapping succeeds exactly if no index is negative and, should there be no
index at all, no entry is 0-dimensional; 0-dimensional entries are kept as they are. -/
theorem C61_mapping_accepts {α : Type} (m : Mapping α) (idx : List Int) :
    ((∃ m', selectMapping m idx = .ok m') ↔
      (∀ i ∈ idx, 0 ≤ i) ∧ (idx = [] → ∀ kv ∈ m.entries, ∀ v, kv.2 ≠ .scalar v)) ∧
    ∀ m' (j : Nat) k v v', selectMapping m idx = .ok m' → m.entries[j]? = some (k, .scalar v) → m'.entries[j]? = some (k, v') →
      v' = .scalar v := by
  have hasIdx : (∀ i ∈ idx, 0 ≤ i) → asIdx idx = .ok (idx.map Int.toNat) := by
    intro h
    unfold asIdx
    rw [if_neg]
    simp only [List.any_eq_true, decide_eq_true_eq, not_exists, not_and, not_lt]
    exact h
  refine ⟨⟨?_, ?_⟩, ?_⟩
  · rintro ⟨m', h⟩
    have hpos : ∀ i ∈ idx, 0 ≤ i := by
      intro i hi
      by_contra hn
      rw [(C61_negative (.none : Item α) m idx i hi (by omega)).2] at h
      cases h
    refine ⟨hpos, ?_⟩
    rintro rfl kv hkv v hv
    unfold selectMapping at h
    rw [hasIdx hpos] at h
    obtain ⟨ids, h1, h⟩ := ebind_ok.mp h
    obtain rfl := Except.ok.inj h1
    obtain ⟨es, h2, -⟩ := ebind_ok.mp h
    have hf := mapM_ok.mp h2
    obtain ⟨j, hj, rfl⟩ := List.getElem_of_mem hkv
    obtain ⟨hl, hall⟩ := List.forall₂_iff_get.mp hf
    have hb := hall j hj (by omega)
    simp only [List.get_eq_getElem, hv] at hb
    cases hb
  · rintro ⟨hpos, hs⟩
    unfold selectMapping
    rw [hasIdx hpos]
    obtain ⟨es, he⟩ : ∃ es, m.entries.mapM (fun kv => (sliceEntry (idx.map Int.toNat) kv.2).map (fun v => (kv.1, v))) = .ok es := by
      refine mapM_total fun kv hkv => ?_
      have : ∃ v, sliceEntry (idx.map Int.toNat) kv.2 = .ok v := by
        unfold sliceEntry
        cases hv : kv.2 with
        | array rows =>
          simp only
          by_cases hc : shouldSlice rows.length (idx.map Int.toNat) = true
          · obtain ⟨l, hl⟩ := takeRows_in hc
            rw [if_pos hc, hl]
            exact ⟨_, rfl⟩
          · rw [if_neg hc]; exact ⟨_, rfl⟩
        | scalar v =>
          simp only
          rw [if_neg]
          · exact ⟨_, rfl⟩
          · intro h0
            exact hs (by simpa using h0) kv hkv v hv
        | list l =>
          simp only
          by_cases hc : shouldSlice l.length (idx.map Int.toNat) = true
          · obtain ⟨l', hl⟩ := takeRows_in hc
            rw [if_pos hc, hl]
            exact ⟨_, rfl⟩
          · rw [if_neg hc]; exact ⟨_, rfl⟩
        | none => exact ⟨_, rfl⟩
        | other v => exact ⟨_, rfl⟩
      obtain ⟨v, hv⟩ := this
      exact ⟨(kv.1, v), by rw [hv]; rfl⟩
    exact ⟨_, ebind_ok.mpr ⟨_, rfl, ebind_ok.mpr ⟨es, he, rfl⟩⟩⟩
  · intro m' j k v v' h hj hj'
    unfold selectMapping at h
    obtain ⟨ids, h1, h⟩ := ebind_ok.mp h
    obtain ⟨es, h2, h⟩ := ebind_ok.mp h
    obtain rfl := Except.ok.inj h
    have hf := mapM_ok.mp h2
    simp only at hj'
    obtain ⟨hl, hall⟩ := List.forall₂_iff_get.mp hf
    obtain ⟨b1, e1⟩ := List.getElem?_eq_some_iff.mp hj
    obtain ⟨b2, e2⟩ := List.getElem?_eq_some_iff.mp hj'
    have := hall j b1 b2
    simp only [List.get_eq_getElem, e1, e2, sliceEntry] at this
    split_ifs at this
    · cases this
    · simp only [Except.map, Except.ok.injEq, Prod.mk.injEq, true_and] at this
      exact this.symm

/-- **C61 (no rows), violated.**  Selecting no rows from a mapping with a 0-dimensional entry raises, although selecting any
row from it succeeds. -/
theorem C61_empty_violated : selectMapping (⟨none, [("x", .array [5, 6]), ("num_nodes", .scalar 2)]⟩ : Mapping Nat) [] = .error .indexError ∧
    selectMapping (⟨none, [("x", .array [5, 6]), ("num_nodes", .scalar 2)]⟩ : Mapping Nat) [1] =
      .ok ⟨none, [("x", .array [6]), ("num_nodes", .scalar 2)]⟩ := by
  decide +kernel

/-- Non-vacuity. -/
example : selectRows (.array [10, 11, 12, 13]) [3, 0, 3] = .ok (.array [13, 10, 13]) := by decide +kernel
example : selectRows (.list [10, 11]) [0, 2] = .error .indexError := by decide +kernel
example : selectMapping (⟨some [(0, 1), (1, 3)], [("x", .array [5, 6, 7, 8]), ("names", .list [1, 2])]⟩ : Mapping Nat) [3, 1]
    = .ok ⟨some [(1, 0)], [("x", .array [8, 6]), ("names", .list [1, 2])]⟩ := by decide +kernel

end ModSSC.Bench
