import Verif.Graph.AnchorModel
import Verif.Graph.AnchorSpec
import Verif.Graph.KnnProps
import Verif.ExceptLemmas
import Mathlib.Analysis.Real.Sqrt

/-!
# Anchor graphs: theorems
-/

namespace ModSSC.Graph.Anchor
open ModSSC ModSSC.Graph ModSSC.Graph.Spec

variable {K : Type} [Field K] [LinearOrder K]

/-- Contract of the functions outside the project, for points of dimension `dim`: numpy as for the exact graphs; choices
without replacement; k-means gives as many centres as asked for; library queries return nearest rows. -/
structure Lawful [IsStrictOrderedRing K] (E : Ext K) (eps : K) (metric : Metric) (dim : Nat) : Prop where
  np : E.toNumpyExt.Lawful
  choice : ∀ seed n m, m ≤ n → (E.choice seed n m).length = m ∧ (E.choice seed n m).Nodup ∧ ∀ j ∈ E.choice seed n m, j < n
  centers : ∀ seed X m, m ≤ X.length → (∀ x ∈ X, x.length = dim) →
    (E.centers seed X m).length = m ∧ ∀ c ∈ E.centers seed X m, c.length = dim
  pick : ∀ seed i cand l, l ≤ cand.length → cand.Nodup →
    (E.pick seed i cand l).length = l ∧ (E.pick seed i cand l).Nodup ∧ ∀ j ∈ E.pick seed i cand l, j ∈ cand
  query : ∀ q r k, 0 < k → k ≤ r.length → (∀ x ∈ q, x.length = dim) → (∀ x ∈ r, x.length = dim) →
    (E.query q r k).length = q.length ∧
    AreNearestAnchors (fun i a d => Dist eps metric (q.getD i []) (r.getD a []) d) q.length r.length k
      (fun i => (E.query q r k).getD i [])

section
variable [IsStrictOrderedRing K]

theorem pairDist_eq (ext : NumpyExt K) (eps : K) (m : Metric) (x y : List K) :
    pairDist ext eps m x y = rep ext eps m x y := by cases m <;> rfl

theorem selectNearest_spec {ext : NumpyExt K} (hl : ext.Lawful) (ds : List K) (k : Nat) (hk : 0 < k) (hkl : k ≤ ds.length) :
    (selectNearest ext ds k).length = k ∧ (selectNearest ext ds k).Nodup ∧ (∀ j ∈ selectNearest ext ds k, j < ds.length) ∧
    (selectNearest ext ds k).Pairwise (fun a b => ds.getD a 0 ≤ ds.getD b 0) ∧
    ∀ j, j < ds.length → j ∉ selectNearest ext ds k → ∀ a ∈ selectNearest ext ds k, ds.getD a 0 ≤ ds.getD j 0 := by
  unfold selectNearest
  set row : List (WithTop K) := ds.map (fun d : K => ((d : K) : WithTop K)) with hrow
  have hlen : row.length = ds.length := by simp [hrow]
  have hget : ∀ j, j < ds.length → row.getD j ⊤ = ((ds.getD j 0 : K) : WithTop K) := by
    intro j hj
    rw [List.getD_eq_getElem _ _ (by omega), List.getD_eq_getElem ds _ hj]
    simp [hrow]
  have hperm := hl.part_perm row (k - 1) (by omega)
  have hle := hl.part_le row (k - 1) (by omega)
  rw [show k - 1 + 1 = k by omega] at hle
  rw [hlen] at hperm
  set p := ext.argpartition row (k - 1) with hp
  have hpl : p.length = ds.length := by rw [hperm.length_eq]; simp
  have hpn : p.Nodup := hperm.nodup_iff.mpr List.nodup_range
  have hlt : ∀ j ∈ p, j < ds.length := fun j hj => by simpa using hperm.mem_iff.mp hj
  set idx := p.take k with hidx
  have hil : idx.length = k := by simp [hidx]; omega
  have hin : idx.Nodup := hpn.sublist (List.take_sublist _ _)
  have hilt : ∀ j ∈ idx, j < ds.length := fun j hj => hlt j (List.mem_of_mem_take hj)
  set dsel := idx.map (fun j => row.getD j ⊤) with hdsel
  have hdl : dsel.length = k := by simp [hdsel, hil]
  have hsp := hl.sort_perm dsel
  have hsl := hl.sort_le dsel
  rw [hdl] at hsp
  set order := ext.argsort dsel with horder
  have holt : ∀ o ∈ order, o < k := fun o ho => by simpa using hsp.mem_iff.mp ho
  have hdget : ∀ o, o < k → dsel.getD o ⊤ = ((ds.getD (idx.getD o 0) 0 : K) : WithTop K) := by
    intro o ho
    rw [List.getD_eq_getElem _ _ (by omega), List.getD_eq_getElem idx _ (by omega)]
    simp only [hdsel, List.getElem_map]
    exact hget _ (hilt _ (List.getElem_mem _))
  have hpi : (order.map (fun o => idx.getD o 0)).Perm idx := by
    have := hsp.map (fun o => idx.getD o 0)
    rw [← hil, map_getD_range] at this
    exact this
  refine ⟨hpi.length_eq.trans hil, hpi.nodup_iff.mpr hin, fun j hj => hilt j (hpi.mem_iff.mp hj), ?_, ?_⟩
  · rw [List.pairwise_map]
    refine List.Pairwise.imp_of_mem ?_ hsl
    intro a b ha hb hab
    rw [hdget a (holt a ha), hdget b (holt b hb)] at hab
    exact WithTop.coe_le_coe.mp hab
  · intro j hj hnot a ha
    rw [hpi.mem_iff] at hnot ha
    have hjd : j ∈ p.drop k := by
      have : j ∈ p := hperm.mem_iff.mpr (by simpa using hj)
      rw [← List.take_append_drop k p] at this
      exact (List.mem_append.mp this).resolve_left hnot
    have := hle a ha j hjd
    rw [hget _ (hilt _ ha), hget _ hj] at this
    exact WithTop.coe_le_coe.mp this

/-- The selected positions of a list of candidates with their distances are the nearest candidates. -/
theorem select_isNearest {ext : NumpyExt K} (hl : ext.Lawful) (D : Nat → K → Prop) (f : Nat → K) (cand : List Nat)
    (hD : ∀ j ∈ cand, ∀ d, D j d ↔ d = f j) (hn : cand.Nodup) (k : Nat) (hk : 0 < k) (hkl : k ≤ cand.length) :
    IsNearest D (· ∈ cand) k
      ((selectNearest ext (cand.map f) k).map (fun s => (cand.getD s 0, (cand.map f).getD s 0))) := by
  obtain ⟨h1, h2, h3, h4, h5⟩ := selectNearest_spec hl (cand.map f) k hk (by simpa using hkl)
  generalize selectNearest ext (cand.map f) k = sel at *
  rw [List.length_map] at h3
  have hf : ∀ s, s < cand.length → (cand.map f).getD s 0 = f (cand.getD s 0) := by
    intro s hs
    rw [List.getD_eq_getElem _ _ (by simpa using hs), List.getD_eq_getElem cand _ hs]
    simp
  have hm : ∀ s, s < cand.length → cand.getD s 0 ∈ cand := by
    intro s hs
    rw [List.getD_eq_getElem cand _ hs]; exact List.getElem_mem _
  refine ⟨by simpa using h1, ?_, ?_, ?_, ?_⟩
  · rw [List.map_map]
    refine List.Nodup.map_on ?_ h2
    intro a ha b hb hab
    simp only [Function.comp] at hab
    rw [List.getD_eq_getElem cand _ (h3 a ha), List.getD_eq_getElem cand _ (h3 b hb)] at hab
    exact (List.Nodup.getElem_inj_iff hn).mp hab
  · intro p hp
    obtain ⟨s, hs, rfl⟩ := List.mem_map.mp hp
    exact ⟨hm s (h3 s hs), (hD _ (hm s (h3 s hs)) _).mpr (hf s (h3 s hs))⟩
  · rw [List.pairwise_map]
    exact h4
  · intro j hj hnot d hd p hp
    obtain ⟨s, hs, rfl⟩ := List.mem_map.mp hp
    rw [(hD j hj d).mp hd]
    obtain ⟨t, ht, rfl⟩ := List.getElem_of_mem hj
    have : t ∉ sel := by
      intro htm
      apply hnot
      rw [List.map_map]
      refine List.mem_map.mpr ⟨t, htm, ?_⟩
      exact List.getD_eq_getElem cand _ ht
    have h := h5 t (by simpa using ht) this s hs
    rw [hf t ht, List.getD_eq_getElem cand _ ht] at h
    exact h

theorem queryNumpy_eq (ext : NumpyExt K) (eps : K) (m : Metric) (q r : List (List K)) (k : Nat) (c : Int) (hc : 0 < c) :
    queryNumpy ext eps m q r k c = .ok ((List.range q.length).map
      (fun i => selectNearest ext (r.map (pairDist ext eps m (q.getD i []))) (min k r.length))) := by
  unfold queryNumpy
  rw [if_neg (by omega)]
  show Except.ok _ = _
  rw [chunks_flatMap _ _ _ (by omega)]
  congr 1
  generalize List.range q.length = l
  induction l with
  | nil => rfl
  | cons a l ih => rw [List.flatMap_cons, ih]; rfl

theorem map_range_getD {α : Type} (f : Nat → α) (n i : Nat) (d : α) (hi : i < n) :
    ((List.range n).map f).getD i d = f i := by
  rw [List.getD_eq_getElem _ _ (by simpa using hi)]; simp

theorem range_getD_map {α β : Type} (l : List α) (f : α → β) (d : α) :
    (List.range l.length).map (fun j => f (l.getD j d)) = l.map f := by
  apply List.ext_getElem (by simp)
  intro i h1 h2
  simp only [List.length_map] at h2
  simp only [List.getElem_map, List.getElem_range]
  rw [List.getD_eq_getElem _ _ h2]

/-- The numpy query returns nearest anchors. -/
theorem queryNumpy_nearest {ext : NumpyExt K} (hl : ext.Lawful) (eps : K) (m : Metric) (q r : List (List K)) (k dim : Nat)
    (hk : 0 < k) (hkr : k ≤ r.length) (hq : ∀ x ∈ q, x.length = dim) (hr : ∀ x ∈ r, x.length = dim) (c : Int) (hc : 0 < c) :
    ∃ near, queryNumpy ext eps m q r k c = .ok near ∧ near.length = q.length ∧
      AreNearestAnchors (fun i a d => Dist eps m (q.getD i []) (r.getD a []) d) q.length r.length k
        (fun i => near.getD i []) := by
  refine ⟨_, queryNumpy_eq ext eps m q r k c hc, by simp, ?_⟩
  intro i hi
  simp only
  rw [map_range_getD _ _ _ _ hi, Nat.min_eq_left hkr]
  have hnd : (List.range r.length).Nodup := List.nodup_range
  have hkl : k ≤ (List.range r.length).length := by simpa using hkr
  have hx : (q.getD i []).length = dim := by
    rw [List.getD_eq_getElem _ _ hi]; exact hq _ (List.getElem_mem _)
  have := select_isNearest hl (fun a d => Dist eps m (q.getD i []) (r.getD a []) d)
    (fun a => pairDist ext eps m (q.getD i []) (r.getD a [])) (List.range r.length)
    (by
      intro a ha d
      have ha' : a < r.length := by simpa using ha
      rw [pairDist_eq]
      refine dist_iff hl m ?_ d
      rw [hx, List.getD_eq_getElem _ _ ha', hr _ (List.getElem_mem _)]) hnd k hk hkl
  rw [range_getD_map r (fun y => pairDist ext eps m (q.getD i []) y) []] at this
  have hs := (selectNearest_spec hl (r.map (pairDist ext eps m (q.getD i []))) k hk (by simpa using hkr)).2.2.1
  have e : (selectNearest ext (r.map (pairDist ext eps m (q.getD i []))) k).map
      (fun s => ((List.range r.length).getD s 0, (r.map (fun y => pairDist ext eps m (q.getD i []) y)).getD s 0)) =
      (selectNearest ext (r.map (pairDist ext eps m (q.getD i []))) k).zip
        ((selectNearest ext (r.map (pairDist ext eps m (q.getD i []))) k).map
          (fun s => (r.map (fun y => pairDist ext eps m (q.getD i []) y)).getD s 0)) := by
    rw [List.zip_map_right]
    generalize selectNearest ext (r.map (pairDist ext eps m (q.getD i []))) k = sel at *
    have hz : ∀ l : List Nat, l.zip l = l.map (fun s => (s, s)) := by
      intro l; induction l with
      | nil => rfl
      | cons a l ih => simp [ih]
    rw [hz, List.map_map]
    refine List.map_congr_left ?_
    intro s hs'
    have : s < r.length := by simpa using hs s hs'
    simp only [Function.comp, Prod.map, id]
    rw [List.getD_eq_getElem _ _ (by simpa using this)]
    simp
  refine ⟨(selectNearest ext (r.map (pairDist ext eps m (q.getD i []))) k).map
          (fun s => (r.map (fun y => pairDist ext eps m (q.getD i []) y)).getD s 0), by simp, ?_⟩
  · rw [← e]
    refine ⟨this.length, this.distinct, ?_, this.sorted, ?_⟩
    · intro p hp
      obtain ⟨h1, h2⟩ := this.candidates p hp
      exact ⟨by simpa using h1, h2⟩
    · intro j hj
      exact this.nearest j (by simpa using hj)

/-! ## Candidates -/

theorem modify_fold_length (l : List Nat) (i : Nat) (M : List (List Nat)) :
    (l.foldl (fun M a => M.modify a (· ++ [i])) M).length = M.length := by
  induction l generalizing M with
  | nil => rfl
  | cons a l ih => simp [ih]

theorem mem_modify (M : List (List Nat)) (a b i j : Nat) (hb : b < M.length) :
    j ∈ (M.modify a (· ++ [i])).getD b [] ↔ j ∈ M.getD b [] ∨ (a = b ∧ j = i) := by
  rw [List.getD_eq_getElem _ _ (by simpa using hb), List.getD_eq_getElem M _ hb, List.getElem_modify]
  by_cases h : a = b
  · simp [h]
  · simp [h]

theorem mem_modify_fold (l : List Nat) (i b j : Nat) (M : List (List Nat)) (hb : b < M.length) :
    j ∈ (l.foldl (fun M a => M.modify a (· ++ [i])) M).getD b [] ↔ j ∈ M.getD b [] ∨ (b ∈ l ∧ j = i) := by
  induction l generalizing M with
  | nil => simp
  | cons a l ih =>
    rw [List.foldl_cons, ih _ (by simpa using hb), mem_modify _ _ _ _ _ hb]
    simp only [List.mem_cons]
    constructor
    · rintro ((h | ⟨h1, h2⟩) | h)
      · exact .inl h
      · exact .inr ⟨.inl h1.symm, h2⟩
      · exact .inr ⟨.inr h.1, h.2⟩
    · rintro (h | ⟨h1 | h1, h2⟩)
      · exact .inl (.inl h)
      · exact .inl (.inr ⟨h1.symm, h2⟩)
      · exact .inr ⟨h1, h2⟩

theorem mem_anchorToNodes (m : Nat) (near : List (List Nat)) (b j : Nat) (hb : b < m) :
    j ∈ (anchorToNodes m near).getD b [] ↔ j < near.length ∧ b ∈ near.getD j [] := by
  unfold anchorToNodes
  have : ∀ n, ((List.range n).foldl
      (fun M i => (near.getD i []).foldl (fun M a => M.modify a (· ++ [i])) M) (List.replicate m [])).length = m ∧
      (j ∈ ((List.range n).foldl
      (fun M i => (near.getD i []).foldl (fun M a => M.modify a (· ++ [i])) M) (List.replicate m [])).getD b [] ↔
        j < n ∧ b ∈ near.getD j []) := by
    intro n
    induction n with
    | zero =>
      refine ⟨by simp, ?_⟩
      rw [List.range_zero, List.foldl_nil, List.getD_eq_getElem _ _ (by simpa using hb)]
      simp
    | succ n ih =>
      rw [List.range_succ, List.foldl_append, List.foldl_cons, List.foldl_nil]
      refine ⟨by rw [modify_fold_length]; exact ih.1, ?_⟩
      rw [mem_modify_fold _ _ _ _ _ (by rw [ih.1]; exact hb), ih.2]
      constructor
      · rintro (⟨h1, h2⟩ | ⟨h1, rfl⟩)
        · exact ⟨by omega, h2⟩
        · exact ⟨by omega, h1⟩
      · rintro ⟨h1, h2⟩
        by_cases h : j = n
        · subst h; exact .inr ⟨h2, rfl⟩
        · exact .inl ⟨by omega, h2⟩
  exact (this near.length).2

theorem mem_candidates (m : Nat) (near : List (List Nat)) (hlt : ∀ i, ∀ a ∈ near.getD i [], a < m) (self : Bool) (i j : Nat) :
    j ∈ candidates near (anchorToNodes m near) self i ↔ Shares (fun i => near.getD i []) near.length self i j := by
  have h : ∀ j, j ∈ (npSort ((near.getD i []).flatMap (fun a => (anchorToNodes m near).getD a []))).dedup ↔
      j < near.length ∧ ∃ a, a ∈ near.getD i [] ∧ a ∈ near.getD j [] := by
    intro j
    rw [List.mem_dedup, (npSort_perm _).mem_iff, List.mem_flatMap]
    constructor
    · rintro ⟨a, ha, hj⟩
      obtain ⟨h1, h2⟩ := (mem_anchorToNodes m near a j (hlt i a ha)).mp hj
      exact ⟨h1, a, ha, h2⟩
    · rintro ⟨h1, a, ha, h2⟩
      exact ⟨a, ha, (mem_anchorToNodes m near a j (hlt i a ha)).mpr ⟨h1, h2⟩⟩
  unfold candidates Shares
  cases self with
  | true =>
    show j ∈ (npSort _).dedup ↔ _
    rw [h]; simp
  | false =>
    show j ∈ List.filter _ (npSort _).dedup ↔ _
    rw [List.mem_filter, h]
    simp only [decide_eq_true_eq, Bool.false_eq_true, false_or]
    tauto

theorem candidates_nodup (near atn : List (List Nat)) (self : Bool) (i : Nat) : (candidates near atn self i).Nodup := by
  unfold candidates
  cases self with
  | true => exact List.nodup_dedup _
  | false => exact (List.nodup_dedup _).filter _

theorem limit_pool {E : Ext K} {eps : K} {metric : Metric} {dim : Nat} (hE : Lawful E eps metric dim) (seed limit : Int)
    (hl : 0 ≤ limit) (i : Nat) (C : Nat → Prop) (cand : List Nat) (hn : cand.Nodup) (hC : ∀ j, j ∈ cand ↔ C j) :
    ∃ pool, limitCandidates E seed limit i cand = .ok pool ∧ IsPool C limit.toNat pool ∧
      ((cand.length : Int) ≤ limit → pool = cand) := by
  unfold limitCandidates
  by_cases h : (cand.length : Int) > limit
  · obtain ⟨h1, h2, h3⟩ := hE.pick seed i cand limit.toNat (by omega) hn
    refine ⟨npSort (E.pick seed i cand limit.toNat), by rw [if_pos h, if_neg (by omega)], ?_, fun h' => by omega⟩
    have hp := npSort_perm (E.pick seed i cand limit.toNat)
    exact ⟨hp.nodup_iff.mpr h2, fun j hj => (hC j).mp (h3 j (hp.mem_iff.mp hj)), by rw [hp.length_eq, h1],
      fun hlt => by rw [hp.length_eq, h1] at hlt; omega⟩
  · refine ⟨cand, by rw [if_neg h], ?_, fun _ => rfl⟩
    exact ⟨hn, fun j hj => (hC j).mp hj, by omega, fun _ j hj => (hC j).mpr hj⟩

/-- The edges of a node. -/
theorem nodeEdges_spec {E : Ext K} {eps : K} {metric : Metric} {dim : Nat} (hE : Lawful E eps metric dim) (X : List (List K))
    (hX : ∀ x ∈ X, x.length = dim) (k : Int) (m : Nat) (near : List (List Nat)) (hnl : near.length = X.length)
    (hlt : ∀ i, ∀ a ∈ near.getD i [], a < m) (self : Bool) (seed limit : Int) (hl : 0 ≤ limit) (i : Nat) (hi : i < X.length) :
    ∃ es pool, nodeEdges E eps metric X k near (anchorToNodes m near) self seed limit i = .ok es ∧ (∀ e ∈ es, e.1 = i) ∧
      IsPool (Shares (fun i => near.getD i []) X.length self i) limit.toNat pool ∧
      IsNearest (fun j d => Dist eps metric (X.getD i []) (X.getD j []) d) (· ∈ pool) (min k.toNat pool.length)
        (es.map (·.2)) := by
  have hmem := mem_candidates m near hlt self i
  rw [hnl] at hmem
  have hnd := candidates_nodup near (anchorToNodes m near) self i
  unfold nodeEdges
  generalize candidates near (anchorToNodes m near) self i = cand at hmem hnd
  obtain ⟨pool, h1, h2, h3⟩ := limit_pool hE seed limit hl i _ cand hnd hmem
  have hnil : ∀ {k' : Nat} {C : Nat → Prop} {D : Nat → K → Prop}, k' = 0 → IsNearest D C k' [] := by
    intro k' C D h
    exact ⟨h.symm, by simp, by simp, by simp, by simp⟩
  cases hc : cand with
  | nil =>
    subst hc
    refine ⟨[], [], rfl, by simp, ?_, hnil (by simp)⟩
    exact ⟨by simp, by simp, by simp, fun _ j hj => absurd ((hmem j).mpr hj) (by simp)⟩
  | cons c cs =>
    rw [← hc]
    have hne : cand.isEmpty = false := by rw [hc]; rfl
    by_cases hkk : min k (pool.length : Int) ≤ 0
    · refine ⟨[], pool, ?_, by simp, h2, hnil (by omega)⟩
      simp only [hne, h1]
      show (if min k (pool.length : Int) ≤ 0 then _ else _) = _
      rw [if_pos hkk]; rfl
    · refine ⟨(selectNearest E.toNumpyExt (pool.map (fun j => pairDist E.toNumpyExt eps metric (X.getD i []) (X.getD j [])))
          (min k (pool.length : Int)).toNat).map (fun s => (i, pool.getD s 0,
            (pool.map (fun j => pairDist E.toNumpyExt eps metric (X.getD i []) (X.getD j []))).getD s 0)), pool, ?_, ?_, h2, ?_⟩
      · simp only [hne, h1]
        show (if min k (pool.length : Int) ≤ 0 then _ else _) = _
        rw [if_neg hkk]; rfl
      · intro e he
        obtain ⟨s, -, rfl⟩ := List.mem_map.mp he
        rfl
      · rw [List.map_map]
        have e : min k.toNat pool.length = (min k (pool.length : Int)).toNat := by omega
        rw [e]
        refine select_isNearest hE.np _ _ pool ?_ h2.distinct _ (by omega) (by omega)
        intro j hj d
        have hj' : j < X.length := (h2.sound j hj).1
        rw [pairDist_eq]
        refine dist_iff hE.np metric ?_ d
        rw [List.getD_eq_getElem _ _ hi, List.getD_eq_getElem _ _ hj', hX _ (List.getElem_mem _), hX _ (List.getElem_mem _)]

/-! ## The property -/

theorem mapM_eq_map {α β : Type} (f : α → Except PyErr β) (g : α → β) (l : List α) (h : ∀ a ∈ l, f a = .ok (g a)) :
    l.mapM f = .ok (l.map g) := by
  rw [mapM_ok, List.forall₂_map_right_iff, List.forall₂_same]
  exact h

theorem zip_fst {α β : Type} (l : List α) (l' : List β) (h : l.length = l'.length) : (l.zip l').map (·.1) = l := by
  induction l generalizing l' with
  | nil => rfl
  | cons a l ih =>
    cases l' with
    | nil => simp at h
    | cons b l' => simp at h ⊢; exact ih l' h

theorem numAnchors_bounds (E : Ext K) (n : Nat) (p : Params) (hn : 0 < n) : 1 ≤ numAnchors E n p ∧ numAnchors E n p ≤ n := by
  unfold numAnchors
  cases p.nAnchors <;> simp only <;> omega

/-- **C79.**  For points of equal dimension and sensible parameters the anchor graph is built.  There are as many anchors as
asked for (at least one, at most one per node), points of the data in the random scheme; every node is attached to its
nearest anchors; its candidates are the nodes attached to one of the same anchors (itself only with `include_self`), all of
them or `candidate_limit` of them; and its neighbours are the nearest `k` candidates with their true distances, closest
first. -/
theorem C79_anchor {E : Ext K} {eps : K} {metric : Metric} {dim : Nat} (hE : Lawful E eps metric dim) {X : List (List K)}
    (hX : ∀ x ∈ X, x.length = dim) (hne : X ≠ []) (k : Int) (backend : Backend) (seed : Int) (p : Params) (self : Bool)
    (hm : p.method ≠ .other) (hb : backend ≠ .other) (hc : backend = .numpy → 0 < p.chunkSize) (hl : 0 ≤ p.candidateLimit) :
    ∃ edges A near, anchorEdges E eps X k metric backend seed p self = .ok edges ∧
      (A.length : Int) = min (max 1 (p.nAnchors.getD (max 10 (E.root X.length)))) X.length ∧
      (p.method = .random → ∃ idx : List Nat, idx.Nodup ∧ (∀ j ∈ idx, j < X.length) ∧ A = idx.map (fun j => X.getD j [])) ∧
      (∀ a ∈ A, a.length = dim) ∧
      AreNearestAnchors (fun i a d => Dist eps metric (X.getD i []) (A.getD a []) d) X.length A.length
        (min (max 1 p.anchorsK) A.length).toNat near ∧
      (∀ e ∈ edges, e.1 < X.length) ∧
      ∀ i, i < X.length → ∃ pool, IsPool (Shares near X.length self i) p.candidateLimit.toNat pool ∧
        IsNearest (fun j d => Dist eps metric (X.getD i []) (X.getD j []) d) (· ∈ pool) (min k.toNat pool.length)
          (nbrs edges i) := by
  have hn : 0 < X.length := List.length_pos_iff.mpr hne
  obtain ⟨m1, m2⟩ := numAnchors_bounds E X.length p hn
  have hmv : ((numAnchors E X.length p : Nat) : Int) = min (max 1 (p.nAnchors.getD (max 10 (E.root X.length)))) X.length := by
    unfold numAnchors
    cases p.nAnchors <;> simp only [Option.getD] <;> omega
  -- anchors
  obtain ⟨A, hA, hAl, hAd, hAr⟩ : ∃ A, chooseAnchors E X (numAnchors E X.length p) p.method seed = .ok A ∧
      A.length = numAnchors E X.length p ∧ (∀ a ∈ A, a.length = dim) ∧
      (p.method = .random → ∃ idx : List Nat, idx.Nodup ∧ (∀ j ∈ idx, j < X.length) ∧ A = idx.map (fun j => X.getD j [])) := by
    cases hme : p.method with
    | random =>
      obtain ⟨h1, h2, h3⟩ := hE.choice seed X.length _ m2
      refine ⟨_, rfl, by simpa using h1, ?_, fun _ => ⟨_, h2, h3, rfl⟩⟩
      intro a ha
      obtain ⟨j, hj, rfl⟩ := List.mem_map.mp ha
      rw [List.getD_eq_getElem _ _ (h3 j hj)]
      exact hX _ (List.getElem_mem _)
    | kmeans =>
      obtain ⟨h1, h2⟩ := hE.centers seed X _ m2 hX
      exact ⟨_, rfl, h1, h2, fun h => by cases h⟩
    | other => exact absurd hme hm
  set m := numAnchors E X.length p with hmdef
  set r := (min (max 1 p.anchorsK) (m : Int)).toNat with hr
  obtain ⟨near, hq, hnl, hnear⟩ : ∃ near, queryAnchors E eps metric backend X A r p.chunkSize = .ok near ∧ near.length = X.length ∧
      AreNearestAnchors (fun i a d => Dist eps metric (X.getD i []) (A.getD a []) d) X.length A.length r
        (fun i => near.getD i []) := by
    cases backend with
    | numpy => exact queryNumpy_nearest hE.np eps metric X A r dim (by omega) (by omega) hX hAd _ (hc rfl)
    | library => exact ⟨_, rfl, hE.query X A r (by omega) (by omega) hX hAd⟩
    | other => exact absurd rfl hb
  have hlt : ∀ i, ∀ a ∈ near.getD i [], a < m := by
    intro i a ha
    by_cases hi : i < X.length
    · obtain ⟨ds, h1, h2⟩ := hnear i hi
      have : a ∈ ((near.getD i []).zip ds).map (·.1) := by rw [zip_fst _ _ h1]; exact ha
      obtain ⟨q, hq, rfl⟩ := List.mem_map.mp this
      rw [← hAl]
      exact (h2.candidates q hq).1
    · rw [List.getD_eq_default _ _ (by omega)] at ha
      simp at ha
  have hnode := fun i hi => nodeEdges_spec hE X hX k m near hnl hlt self seed p.candidateLimit hl i hi
  choose es pool hes htag hpool hnearest using hnode
  let g : Nat → List (DEdge K) := fun i => if h : i < X.length then es i h else []
  have hg : ∀ i (h : i < X.length), g i = es i h := fun i h => dif_pos h
  have hgt : ∀ i, ∀ e ∈ g i, e.1 = i := by
    intro i e he
    by_cases h : i < X.length
    · rw [hg i h] at he; exact htag i h e he
    · simp only [g, dif_neg h] at he; simp at he
  refine ⟨(List.range X.length).flatMap g, A, fun i => near.getD i [], ?_, ?_, hAr, hAd, ?_, ?_, ?_⟩
  · unfold anchorEdges
    rw [if_neg (by omega)]
    show (chooseAnchors E X (numAnchors E X.length p) p.method seed >>= _) = _
    rw [← hmdef, ebind_of_ok hA, ebind_of_ok hq]
    have := mapM_eq_map (nodeEdges E eps metric X k near (anchorToNodes m near) self seed p.candidateLimit) g
      (List.range X.length) (by
        intro i hi
        have hi' : i < X.length := by simpa using hi
        rw [hes i hi', hg i hi'])
    simp only [this]
    rfl
  · rw [hAl]; exact hmv
  · have e : (min (max 1 p.anchorsK) (A.length : Int)).toNat = r := by rw [hr, hAl]
    rw [e]; exact hnear
  · intro e he
    obtain ⟨i, hi, he⟩ := List.mem_flatMap.mp he
    have := hgt i e he
    simp only [List.mem_range] at hi
    omega
  · intro i hi
    refine ⟨pool i hi, hpool i hi, ?_⟩
    unfold nbrs
    rw [flatMap_filter _ hgt, if_pos hi, hg i hi]
    exact hnearest i hi

/-- **C79.**  The graph is exact when every node is attached to all anchors and candidates are not limited: every node gets
its `k` nearest nodes among all. -/
theorem C79_exact {E : Ext K} {eps : K} {metric : Metric} {dim : Nat} (hE : Lawful E eps metric dim) {X : List (List K)}
    (hX : ∀ x ∈ X, x.length = dim) (hne : X ≠ []) (k : Int) (backend : Backend) (seed : Int) (p : Params) (self : Bool)
    (hm : p.method ≠ .other) (hb : backend ≠ .other) (hc : backend = .numpy → 0 < p.chunkSize)
    (hl : (X.length : Int) ≤ p.candidateLimit)
    (hall : min (max 1 (p.nAnchors.getD (max 10 (E.root X.length)))) (X.length : Int) ≤ p.anchorsK) :
    ∃ edges, anchorEdges E eps X k metric backend seed p self = .ok edges ∧
      ∀ i, i < X.length → IsNearest (fun j d => Dist eps metric (X.getD i []) (X.getD j []) d)
        (fun j => j < X.length ∧ (self = true ∨ j ≠ i)) (min k.toNat (if self then X.length else X.length - 1))
        (nbrs edges i) := by
  have hn : 0 < X.length := List.length_pos_iff.mpr hne
  obtain ⟨edges, A, near, h1, h2, -, -, h4, -, h6⟩ := C79_anchor hE hX hne k backend seed p self hm hb hc (by omega)
  refine ⟨edges, h1, ?_⟩
  have hAl : 0 < A.length := by omega
  have hr : (min (max 1 p.anchorsK) (A.length : Int)).toNat = A.length := by omega
  rw [hr] at h4
  have h0 : ∀ i, i < X.length → 0 ∈ near i := by
    intro i hi
    obtain ⟨ds, hd1, hd2⟩ := h4 i hi
    have hl' := hd2.length
    have hnd := hd2.distinct
    rw [zip_fst _ _ hd1] at hnd
    have hlen : (near i).length = A.length := by rw [← hl', List.length_zip]; omega
    have hmem : ∀ a ∈ near i, a < A.length := by
      intro a ha
      have : a ∈ ((near i).zip ds).map (·.1) := by rw [zip_fst _ _ hd1]; exact ha
      obtain ⟨q, hq, rfl⟩ := List.mem_map.mp this
      exact (hd2.candidates q hq).1
    have hperm : (near i).Perm (List.range A.length) := by
      refine List.Subperm.perm_of_length_le (hnd.subperm (fun a ha => by simpa using hmem a ha)) (by simp [hlen])
    exact hperm.mem_iff.mpr (by simpa using hAl)
  intro i hi
  obtain ⟨pool, hp, hnb⟩ := h6 i hi
  have hC : ∀ j, Shares near X.length self i j ↔ j < X.length ∧ (self = true ∨ j ≠ i) := by
    intro j
    constructor
    · exact fun h => ⟨h.1, h.2.1⟩
    · exact fun h => ⟨h.1, h.2, 0, h0 i hi, h0 j h.1⟩
  -- the pool is everything
  have hsub : pool.Subperm (List.range X.length) :=
    hp.distinct.subperm (fun j hj => by simpa using (hp.sound j hj).1)
  have hple : pool.length ≤ X.length := by simpa using hsub.length_le
  have hfull : ∀ j, j ∈ pool ↔ j < X.length ∧ (self = true ∨ j ≠ i) := by
    intro j
    rw [← hC]
    refine ⟨hp.sound j, fun hj => ?_⟩
    by_cases hlt : pool.length < p.candidateLimit.toNat
    · exact hp.full hlt j hj
    · have : pool.Perm (List.range X.length) := hsub.perm_of_length_le (by simp; omega)
      exact this.mem_iff.mpr (by simpa using hj.1)
  have hlen : pool.length = if self then X.length else X.length - 1 := by
    have hperm : pool.Perm (if self then List.range X.length else (List.range X.length).erase i) := by
      refine (List.perm_ext_iff_of_nodup hp.distinct ?_).mpr ?_
      · cases self
        · exact List.nodup_range.erase i
        · exact List.nodup_range
      · intro j
        rw [hfull]
        cases self
        · simp [List.nodup_range.mem_erase_iff, and_comm]
        · simp
    rw [hperm.length_eq]
    cases self
    · simp [List.length_erase_of_mem, hi]
    · simp
  rw [← hlen]
  refine ⟨hnb.length, hnb.distinct, ?_, hnb.sorted, ?_⟩
  · intro q hq
    obtain ⟨a, b⟩ := hnb.candidates q hq
    exact ⟨(hfull _).mp a, b⟩
  · intro j hj
    exact hnb.nearest j ((hfull j).mpr hj)

omit [IsStrictOrderedRing K] in
/-- **C79.**  No nodes give no edges; an unknown anchor method or backend is refused; so is chunk size 0 of the numpy
backend. -/
theorem C79_refuses (E : Ext K) (eps : K) (X : List (List K)) (k : Int) (metric : Metric) (backend : Backend) (seed : Int)
    (p : Params) (self : Bool) :
    anchorEdges E eps [] k metric backend seed p self = .ok [] ∧
    (X ≠ [] → p.method = .other ∨ backend = .other → anchorEdges E eps X k metric backend seed p self = .error .validation) ∧
    (X ≠ [] → p.method ≠ .other → p.chunkSize = 0 → anchorEdges E eps X k metric .numpy seed p self = .error .valueError) := by
  refine ⟨rfl, ?_, ?_⟩
  · intro hne h
    have hn : X.length ≠ 0 := by simpa using hne
    unfold anchorEdges
    rw [if_neg hn]
    cases hme : p.method with
    | other => rfl
    | random =>
      have : backend = .other := h.resolve_left (by simp [hme])
      subst this; rfl
    | kmeans =>
      have : backend = .other := h.resolve_left (by simp [hme])
      subst this; rfl
  · intro hne hm hc
    have hn : X.length ≠ 0 := by simpa using hne
    have hq : ∀ A r, queryNumpy E.toNumpyExt eps metric X A r p.chunkSize = .error .valueError := by
      intro A r
      unfold queryNumpy
      rw [if_pos (by omega)]; rfl
    unfold anchorEdges
    rw [if_neg hn]
    cases hme : p.method with
    | other => exact absurd hme hm
    | random => simp only [chooseAnchors, queryAnchors, hq]; rfl
    | kmeans => simp only [chooseAnchors, queryAnchors, hq]; rfl

theorem sqDist_nonneg (x y : List K) : 0 ≤ sqDist x y := by
  unfold sqDist
  refine List.sum_nonneg ?_
  intro a ha
  obtain ⟨q, -, rfl⟩ := List.mem_map.mp ha
  exact mul_self_nonneg _

theorem sqDist_self (x : List K) : sqDist x x = 0 := by
  unfold sqDist
  induction x with
  | nil => rfl
  | cons a x ih => simpa using ih

theorem eq_of_sqDist (x y : List K) (hl : x.length = y.length) (h : sqDist x y = 0) : x = y := by
  induction x generalizing y with
  | nil => cases y with
    | nil => rfl
    | cons b y => simp at hl
  | cons a x ih =>
    cases y with
    | nil => simp at hl
    | cons b y =>
      have h1 : sqDist (a :: x) (b :: y) = (a - b) * (a - b) + sqDist x y := by simp [sqDist]
      have h2 := sqDist_nonneg x y
      have h3 := mul_self_nonneg (a - b)
      rw [h1] at h
      have h4 : (a - b) * (a - b) = 0 := by linarith
      have h5 : sqDist x y = 0 := by linarith
      rw [ih y (by simpa using hl) h5, sub_eq_zero.mp (mul_self_eq_zero.mp h4)]

/-- **C79 (violated).**  "Every node gets `k` neighbours if there are enough nodes": nodes that share no anchor are never
candidates.  When every node is an anchor, each node is attached to one anchor and the points are distinct, the graph has no
edge at all, whatever `k` is. -/
theorem C79_few_violated {E : Ext K} {eps : K} {dim : Nat} (hE : Lawful E eps .euclidean dim) {X : List (List K)}
    (hX : ∀ x ∈ X, x.length = dim) (hne : X ≠ []) (hnd : X.Nodup) (k : Int) (seed : Int) (m : Int)
    (hm : (X.length : Int) ≤ m) (c l : Int) (hc : 0 < c) (hl : 0 ≤ l) :
    anchorEdges E eps X k .euclidean .numpy seed
      { nAnchors := some m, anchorsK := 1, candidateLimit := l, chunkSize := c } false = .ok [] := by
  have hn : 0 < X.length := List.length_pos_iff.mpr hne
  obtain ⟨edges, A, near, h1, h2, h3, hAd, h4, h5, h6⟩ := C79_anchor hE hX hne k .numpy seed
    { nAnchors := some m, anchorsK := 1, candidateLimit := l, chunkSize := c } false (by simp) (by simp) (fun _ => hc) hl
  obtain ⟨idx, hi1, hi2, hi3⟩ := h3 rfl
  have hAl : A.length = X.length := by simp only [Option.getD_some] at h2; omega
  have hidx : idx.Perm (List.range X.length) :=
    (hi1.subperm (fun a ha => by simpa using hi2 a ha)).perm_of_length_le (by
      have : idx.length = X.length := by rw [← hAl, hi3, List.length_map]
      simp [this])
  have hr : (min (max 1 (1 : Int)) (A.length : Int)).toNat = 1 := by omega
  simp only at h4
  rw [hr] at h4
  have hxl : ∀ i, i < X.length → (X.getD i []).length = dim := by
    intro i hi; rw [List.getD_eq_getElem _ _ hi]; exact hX _ (List.getElem_mem _)
  -- every node is attached to an anchor at its own place
  have hplace : ∀ i, i < X.length → ∀ a ∈ near i, A.getD a [] = X.getD i [] := by
    intro i hi a ha
    obtain ⟨ds, hd1, hd2⟩ := h4 i hi
    have hz := zip_fst _ _ hd1
    have hlen : (near i).length = 1 := by
      have := hd2.length
      rw [List.length_zip] at this
      omega
    obtain ⟨a', ha'⟩ := List.length_eq_one_iff.mp hlen
    have haa : a = a' := by rw [ha'] at ha; simpa using ha
    subst haa
    -- the position of node `i` among the anchors
    obtain ⟨t, ht, htv⟩ := List.getElem_of_mem (hidx.mem_iff.mpr (by simpa using hi : i ∈ List.range X.length))
    have htA : t < A.length := by rw [hi3, List.length_map]; exact ht
    have hAt : A.getD t [] = X.getD i [] := by
      rw [List.getD_eq_getElem _ _ htA]
      simp only [hi3, List.getElem_map, htv]
    by_cases hta : t ∈ near i
    · have : t = a := by rw [ha'] at hta; simpa using hta
      rw [← this]; exact hAt
    · have hmem : a ∈ ((near i).zip ds).map (·.1) := by rw [hz]; exact ha
      obtain ⟨q, hq, hqa⟩ := List.mem_map.mp hmem
      have hle := hd2.nearest t htA (by rw [hz]; exact hta) 0
        (by beta_reduce; rw [hAt]; exact ⟨le_refl _, by rw [sqDist_self]; ring⟩) q hq
      obtain ⟨hc1, hc2⟩ := hd2.candidates q hq
      rw [hqa] at hc1 hc2
      have hq0 : q.2 = 0 := le_antisymm hle hc2.1
      have hsd : sqDist (X.getD i []) (A.getD a []) = 0 := by rw [← hc2.2, hq0]; ring
      refine (eq_of_sqDist _ _ ?_ hsd).symm
      rw [hxl i hi, List.getD_eq_getElem _ _ hc1]
      exact (hAd _ (List.getElem_mem _)).symm
  have hno : ∀ i, i < X.length → ∀ j, ¬ Shares near X.length false i j := by
    rintro i hi j ⟨hj, hji, a, ha1, ha2⟩
    have := (hplace i hi a ha1).symm.trans (hplace j hj a ha2)
    rw [List.getD_eq_getElem _ _ hi, List.getD_eq_getElem _ _ hj] at this
    have := (List.Nodup.getElem_inj_iff hnd).mp this
    simp at hji
    omega
  have hnb : ∀ i, i < X.length → nbrs edges i = [] := by
    intro i hi
    obtain ⟨pool, hp, hnb⟩ := h6 i hi
    cases hz : nbrs edges i with
    | nil => rfl
    | cons q t =>
      exact absurd (hp.sound _ (hnb.candidates q (by rw [hz]; simp)).1) (hno i hi _)
  have : edges = [] := by
    cases hz : edges with
    | nil => rfl
    | cons e t =>
      have he := h5 e (by rw [hz]; simp)
      have := hnb e.1 he
      rw [hz] at this
      simp [nbrs] at this
  rw [h1, this]

/-! ## Examples -/

/-- A lawful set of external functions. -/
def demoExt (sqrt : K → K) (eps : K) (metric : Metric) : Ext K where
  toNumpyExt := stableExt sqrt
  root n := Nat.sqrt n
  choice _ _ m := List.range m
  centers _ X m := X.take m
  pick _ _ cand l := cand.take l
  query q r k := (List.range q.length).map (fun i => selectNearest (stableExt sqrt)
    (r.map (pairDist (stableExt sqrt) eps metric (q.getD i []))) (min k r.length))

theorem demoExt_lawful {sqrt : K → K} (h : ∀ x, 0 ≤ x → 0 ≤ sqrt x ∧ sqrt x * sqrt x = x) (eps : K) (metric : Metric)
    (dim : Nat) : Lawful (demoExt sqrt eps metric) eps metric dim := by
  refine ⟨stableExt_lawful h, ?_, ?_, ?_, ?_⟩
  · intro _ n m hm
    exact ⟨by simp [demoExt], List.nodup_range, fun j hj => by
      have : j < m := by simpa [demoExt] using hj
      omega⟩
  · intro _ X m hm hX
    exact ⟨by simp [demoExt, hm], fun c hc => hX c (List.mem_of_mem_take hc)⟩
  · intro _ _ cand l hl hn
    exact ⟨by simp [demoExt, hl], hn.sublist (List.take_sublist _ _), fun j hj => List.mem_of_mem_take hj⟩
  · intro q r k hk hkr hq hr
    obtain ⟨near, h1, h2, h3⟩ := queryNumpy_nearest (stableExt_lawful h) eps metric q r k dim hk hkr hq hr 1 (by decide)
    rw [queryNumpy_eq _ _ _ _ _ _ _ (by decide)] at h1
    injection h1 with h1
    subst h1
    exact ⟨h2, h3⟩

end

/-- The hypotheses of `C79_anchor` and `C79_few_violated` can be met: real square roots. -/
noncomputable example : Ext ℝ := demoExt Real.sqrt (1/10) .euclidean

example : Lawful (demoExt Real.sqrt (1/10 : ℝ) .euclidean) (1/10) .euclidean 1 :=
  demoExt_lawful (fun x hx => ⟨Real.sqrt_nonneg x, Real.mul_self_sqrt hx⟩) _ _ _

/-- Two points, both anchors: no edges although each has another node. -/
example : anchorEdges (demoExt Real.sqrt (1/10 : ℝ) .euclidean) (1/10) [[0], [1]] 1 .euclidean .numpy 0
    { nAnchors := some 2, anchorsK := 1, candidateLimit := 1000, chunkSize := 512 } false = .ok [] :=
  C79_few_violated (dim := 1) (demoExt_lawful (fun x hx => ⟨Real.sqrt_nonneg x, Real.mul_self_sqrt hx⟩) _ _ _)
    (by simp) (by simp) (by simp) _ _ _ (by simp) _ _ (by decide) (by decide)

/-- Four points on a line in two groups, two anchors, `anchors_k = 1`: neighbours come from the same group (squared
distances on the line are compared here: the square root is replaced by the identity to be able to compute). -/
example : anchorEdges (demoExt (fun x : Rat => x) (1/10) .euclidean) (1/10) [[0], [10], [1], [11]] 2 .euclidean .numpy 0
    { nAnchors := some 2, anchorsK := 1 } false =
    .ok [(0, 2, 1), (1, 3, 1), (2, 0, 1), (3, 1, 1)] := by decide +kernel

/-- With a limit of one candidate. -/
example : anchorEdges (demoExt (fun x : Rat => x) (1/10) .euclidean) (1/10) [[0], [10], [1], [11]] 2 .euclidean .numpy 0
    { nAnchors := some 2, anchorsK := 2, candidateLimit := 2 } true =
    .ok [(0, 0, 0), (0, 1, 100), (1, 1, 0), (1, 0, 100), (2, 0, 1), (2, 1, 81), (3, 1, 1), (3, 0, 121)] := by decide +kernel

end ModSSC.Graph.Anchor
