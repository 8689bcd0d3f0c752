import Verif.Graph.NeighborModel
import Verif.Graph.KnnProps

/-!
# C197: the neighbour backends of scikit-learn and faiss give the graph that is asked for
-/

namespace ModSSC.Graph.Neighbor
open ModSSC ModSSC.Graph ModSSC.Graph.Spec

variable {K : Type} [LinearOrder K]

/-! ## Specification of the libraries -/

/-- `kneighbors` gives the nearest of all nodes. -/
def ExactRows (d : Nat → Nat → K) (n : Nat) (f : Nat → Nat → List (Nat × K)) : Prop :=
  ∀ m i, 0 < m → m ≤ n → i < n → IsNearest (fun j x => x = d i j) (fun j => j < n) m (f m i)

/-- An exact index: the nearest of all nodes, filled up with -1. -/
def ExactIndex (d : Nat → Nat → K) (n : Nat) (f : Nat → Nat → List (Option (Nat × K))) : Prop :=
  ∀ m i, i < n → ∃ nb, f m i = nb.map some ++ List.replicate (m - min m n) none ∧
    IsNearest (fun j x => x = d i j) (fun j => j < n) (min m n) nb

/-- Any index: different nodes with their distances, and -1. -/
def AnyIndex (d : Nat → Nat → K) (n : Nat) (f : Nat → Nat → List (Option (Nat × K))) : Prop :=
  ∀ m i, i < n → (f m i).length = m ∧ (((f m i).filterMap id).map (·.1)).Nodup ∧
    ∀ p, some p ∈ f m i → p.1 < n ∧ p.2 = d i p.1

/-- `radius_neighbors` gives the nodes within the radius, closest first. -/
structure RadiusRows (d : Nat → Nat → K) (n : Nat) (r : K) (f : Nat → List (Nat × K)) : Prop where
  distinct : ∀ i, i < n → ((f i).map (·.1)).Nodup
  mem : ∀ i, i < n → ∀ j x, (j, x) ∈ f i ↔ j < n ∧ x = d i j ∧ d i j ≤ r
  sorted : ∀ i, i < n → (f i).Pairwise fun p q => p.2 ≤ q.2

/-! ## Helper lemmas -/

theorem nbrs_flatMap (n : Nat) (g : Nat → List (Nat × K)) (i : Nat) (hi : i < n) :
    nbrs ((List.range n).flatMap fun i => (g i).map fun p => (i, p.1, p.2)) i = g i := by
  unfold nbrs
  have key : ∀ l : List Nat, l.Nodup →
      (((l.flatMap fun i => (g i).map fun p => ((i, p.1, p.2) : DEdge K)).filter fun e => decide (e.1 = i)).map (·.2)) =
        if i ∈ l then g i else [] := by
    intro l
    induction l with
    | nil => intro _; rfl
    | cons a l ih =>
      intro hn
      obtain ⟨h1, h2⟩ := List.nodup_cons.mp hn
      rw [List.flatMap_cons, List.filter_append, List.map_append, ih h2]
      by_cases ha : a = i
      · subst ha
        rw [if_neg h1, if_pos (by simp), List.append_nil, List.filter_eq_self.mpr]
        · rw [List.map_map]; exact List.map_id'' (fun _ => rfl) _
        · intro e he
          obtain ⟨p, -, rfl⟩ := List.mem_map.mp he
          simp
      · rw [show ((g a).map fun p => ((a, p.1, p.2) : DEdge K)).filter (fun e => decide (e.1 = i)) = [] from by
          rw [List.filter_eq_nil_iff]
          intro e he
          obtain ⟨p, -, rfl⟩ := List.mem_map.mp he
          simpa using ha]
        have : i ∈ a :: l ↔ i ∈ l := by simp [Ne.symm ha]
        simp only [this, List.map_nil, List.nil_append]
  rw [key _ List.nodup_range, if_pos (List.mem_range.mpr hi)]

theorem edges_src (n : Nat) (g : Nat → List (Nat × K)) :
    ∀ e ∈ (List.range n).flatMap fun i => (g i).map fun p => ((i, p.1, p.2) : DEdge K), e.1 < n := by
  intro e he
  obtain ⟨i, hi, he⟩ := List.mem_flatMap.mp he
  obtain ⟨p, -, rfl⟩ := List.mem_map.mp he
  exact List.mem_range.mp hi

/-- Removing the node itself from a list with it leaves one entry less (helper). -/
theorem length_without {i : Nat} : ∀ {l : List (Nat × K)}, (l.map (·.1)).Nodup → i ∈ l.map (·.1) →
    (l.filter fun p => decide (p.1 ≠ i)).length + 1 = l.length
  | [], _, h => absurd h (by simp)
  | p :: l, hn, h => by
    rw [List.map_cons] at hn h
    obtain ⟨h1, h2⟩ := List.nodup_cons.mp hn
    by_cases e : p.1 = i
    · rw [List.filter_cons_of_neg (by simpa using e), List.filter_eq_self.mpr]
      · rfl
      · intro q hq
        simp only [ne_eq, decide_eq_true_eq]
        exact fun e' => h1 (List.mem_map.mpr ⟨q, hq, e'.trans e.symm⟩)
    · rw [List.filter_cons_of_pos (by simpa using e), List.length_cons, List.length_cons,
        length_without h2 ((List.mem_cons.mp h).resolve_left (fun e' => e e'.symm))]

theorem filter_self_eq {i : Nat} {l : List (Nat × K)} (h : i ∉ l.map (·.1)) : (l.filter fun p => decide (p.1 ≠ i)) = l := by
  rw [List.filter_eq_self]
  intro q hq
  simp only [ne_eq, decide_eq_true_eq]
  exact fun e => h (List.mem_map.mpr ⟨q, hq, e⟩)

theorem nodup_length_le {l : List Nat} {n : Nat} (hn : l.Nodup) (h : ∀ j ∈ l, j < n) : l.length ≤ n := by
  have := (List.Nodup.subperm hn (fun j hj => List.mem_range.mpr (h j hj)) : l.Subperm (List.range n)).length_le
  simpa using this

/-- The `k` nearest other nodes out of the `k + 1` nearest nodes (helper): the node itself dropped, then at most `k` kept. -/
theorem nearest_others {d : Nat → K} {n k i : Nat} (hi : i < n) {nb : List (Nat × K)}
    (h : IsNearest (fun j x => x = d j) (fun j => j < n) (min (k + 1) n) nb) :
    IsNearest (fun j x => x = d j) (fun j => j < n ∧ j ≠ i) (min k (n - 1)) ((nb.filter fun p => decide (p.1 ≠ i)).take k) := by
  have hsub : ((nb.filter fun p => decide (p.1 ≠ i)).take k).Sublist nb := (List.take_sublist _ _).trans List.filter_sublist
  have hlen : min k (nb.filter fun p => decide (p.1 ≠ i)).length = min k (n - 1) ∧
      (i ∉ nb.map (·.1) → k < n - 1) := by
    by_cases hm : i ∈ nb.map (·.1)
    · have := length_without h.distinct hm
      rw [h.length] at this
      exact ⟨by omega, fun h => absurd hm h⟩
    · rw [filter_self_eq hm, h.length]
      have h1 : (i :: nb.map (·.1)).length ≤ n := nodup_length_le (List.nodup_cons.mpr ⟨hm, h.distinct⟩) (by
        intro j hj
        rcases List.mem_cons.mp hj with rfl | hj
        · exact hi
        · obtain ⟨p, hp, rfl⟩ := List.mem_map.mp hj
          exact (h.candidates p hp).1)
      rw [List.length_cons, List.length_map, h.length] at h1
      exact ⟨by omega, fun _ => by omega⟩
  refine ⟨by rw [List.length_take, hlen.1], (h.distinct).sublist (hsub.map _), ?_, h.sorted.sublist hsub, ?_⟩
  · intro p hp
    have hp' : p ∈ nb.filter fun p => decide (p.1 ≠ i) := List.mem_of_mem_take hp
    have := h.candidates p (hsub.subset hp)
    exact ⟨⟨this.1, by simpa using (List.mem_filter.mp hp').2⟩, this.2⟩
  · intro j hj hnot x hx p hp
    by_cases hjn : j ∈ nb.map (·.1)
    · obtain ⟨q, hq, rfl⟩ := List.mem_map.mp hjn
      have hqf : q ∈ nb.filter fun p => decide (p.1 ≠ i) := List.mem_filter.mpr ⟨hq, by simpa using hj.2⟩
      have hqd : q ∈ (nb.filter fun p => decide (p.1 ≠ i)).drop k := by
        rw [← List.take_append_drop k (nb.filter fun p => decide (p.1 ≠ i))] at hqf
        exact (List.mem_append.mp hqf).resolve_left (fun h' => hnot (List.mem_map.mpr ⟨q, h', rfl⟩))
      have hs : (nb.filter fun p => decide (p.1 ≠ i)).Pairwise fun p q => p.2 ≤ q.2 := h.sorted.sublist List.filter_sublist
      rw [← List.take_append_drop k (nb.filter fun p => decide (p.1 ≠ i)), List.pairwise_append] at hs
      have := hs.2.2 p hp q hqd
      rw [hx, ← (h.candidates q hq).2]
      exact this
    · exact h.nearest j hj.1 hjn x hx p (hsub.subset hp)

/-! ## C197 -/

/-- C197: with an exact faiss index every node gets its `k` nearest other nodes (with `include_self`: nodes), as many as there
are, each with its distance, also when there are equal points. -/
theorem C197_faiss_exact (d : Nat → Nat → K) (n : Nat) (search : Nat → Nat → List (Option (Nat × K))) (hs : ExactIndex d n search)
    (k : Nat) (includeSelf : Bool) :
    (∀ e ∈ faissKnn search n k includeSelf, e.1 < n) ∧
      ∀ i, i < n → IsNearest (fun j x => x = d i j) (fun j => j < n ∧ (includeSelf = true ∨ j ≠ i))
        (min k (if includeSelf then n else n - 1)) (nbrs (faissKnn search n k includeSelf) i) := by
  refine ⟨edges_src n _, fun i hi => ?_⟩
  unfold faissKnn
  rw [nbrs_flatMap n (fun i => (faissRow k includeSelf i (search (faissK n k includeSelf) i)).filterMap id) i hi]
  obtain ⟨nb, h1, h2⟩ := hs (faissK n k includeSelf) i hi
  have hnone : ∀ m, (List.replicate m (none : Option (Nat × K))).filterMap id = [] := by
    intro m; induction m with
    | zero => rfl
    | succ m ih => rw [List.replicate_succ, List.filterMap_cons_none rfl, ih]
  have hsome : ∀ l : List (Nat × K), (l.map some).filterMap id = l := by
    intro l; rw [List.filterMap_map]; exact List.filterMap_some
  cases includeSelf with
  | true =>
    unfold faissRow faissK at *
    simp only [if_true] at h1 h2 ⊢
    rw [h1, List.filterMap_append, hsome, hnone, List.append_nil]
    exact ⟨h2.length, h2.distinct, fun p hp => ⟨⟨(h2.candidates p hp).1, .inl trivial⟩, (h2.candidates p hp).2⟩, h2.sorted,
      fun j hj => h2.nearest j hj.1⟩
  | false =>
    have hk : faissK n k false = min (k + 1) n := rfl
    rw [hk] at h1 h2
    rw [Nat.min_eq_left (Nat.min_le_right (k + 1) n)] at h1 h2
    rw [hk, h1, Nat.sub_self, List.replicate_zero, List.append_nil]
    unfold faissRow
    simp only [Bool.false_eq_true, if_false]
    have hf : (nb.map some).filter (fun o => decide (o.map (·.1) ≠ some i)) = (nb.filter fun p => decide (p.1 ≠ i)).map some := by
      rw [List.filter_map]
      congr 1
      apply List.filter_congr
      intro p _
      simp
    rw [hf, ← List.map_take, List.filterMap_append, hsome, hnone, List.append_nil]
    have := nearest_others (d := d i) hi h2
    exact ⟨this.length, this.distinct, fun p hp => ⟨⟨(this.candidates p hp).1.1, .inr (this.candidates p hp).1.2⟩,
      (this.candidates p hp).2⟩, this.sorted, fun j hj => this.nearest j ⟨hj.1, hj.2.resolve_left (by simp)⟩⟩

/-- C197: whatever the index finds (the default one is approximate), every node gets at most `k` different nodes with their true
distances, and itself only with `include_self`. -/
theorem C197_faiss_any (d : Nat → Nat → K) (n : Nat) (search : Nat → Nat → List (Option (Nat × K))) (hs : AnyIndex d n search)
    (k : Nat) (includeSelf : Bool) (i : Nat) (hi : i < n) :
    (nbrs (faissKnn search n k includeSelf) i).length ≤ k ∧ ((nbrs (faissKnn search n k includeSelf) i).map (·.1)).Nodup ∧
      ∀ p ∈ nbrs (faissKnn search n k includeSelf) i, p.1 < n ∧ p.2 = d i p.1 ∧ (includeSelf = true ∨ p.1 ≠ i) := by
  unfold faissKnn
  rw [nbrs_flatMap n (fun i => (faissRow k includeSelf i (search (faissK n k includeSelf) i)).filterMap id) i hi]
  obtain ⟨h1, h2, h3⟩ := hs (faissK n k includeSelf) i hi
  have hnone : ∀ m, (List.replicate m (none : Option (Nat × K))).filterMap id = [] := by
    intro m; induction m with
    | zero => rfl
    | succ m ih => rw [List.replicate_succ, List.filterMap_cons_none rfl, ih]
  cases includeSelf with
  | true =>
    unfold faissRow
    simp only [if_true]
    refine ⟨?_, h2, ?_⟩
    · calc _ ≤ (search (faissK n k true) i).length := List.length_filterMap_le _ _
        _ = _ := h1
        _ = k := rfl
    · intro p hp
      obtain ⟨o, ho, he⟩ := List.mem_filterMap.mp hp
      obtain rfl : o = some p := he
      exact ⟨(h3 p ho).1, (h3 p ho).2, .inl trivial⟩
  | false =>
    unfold faissRow
    simp only [Bool.false_eq_true, if_false]
    rw [List.filterMap_append, hnone, List.append_nil]
    refine ⟨?_, ?_, ?_⟩
    · exact le_trans (List.length_filterMap_le _ _) (by rw [List.length_take]; omega)
    · exact h2.sublist ((((List.take_sublist _ _).trans List.filter_sublist).filterMap _).map _)
    · intro p hp
      obtain ⟨o, ho, he⟩ := List.mem_filterMap.mp hp
      obtain rfl : o = some p := he
      have ho' := List.mem_filter.mp (List.mem_of_mem_take ho)
      exact ⟨(h3 p ho'.1).1, (h3 p ho'.1).2, .inr (by simpa using ho'.2)⟩

/-- C197 violated: with an index that is not exact (the default) a node can be left without neighbours although there are others. -/
theorem C197_approximate_violated : ∃ (d : Nat → Nat → Rat) (search : Nat → Nat → List (Option (Nat × Rat))),
    AnyIndex d 3 search ∧ nbrs (faissKnn search 3 2 false) 0 = [] :=
  ⟨fun _ _ => 0, fun m _ => List.replicate m none, fun m i _ => ⟨by simp, by
    rw [show (List.replicate m (none : Option (Nat × Rat))).filterMap id = [] from by
      induction m with
      | zero => rfl
      | succ m ih => rw [List.replicate_succ, List.filterMap_cons_none rfl, ih]]
    exact List.nodup_nil, fun p hp => by simp at hp⟩, by decide +kernel⟩

/-- C197: scikit-learn: nodes are different, within range, never the node itself unless asked for, sorted by distance, at most
`k + 1` of them, and none left out is closer. -/
theorem C197_sklearn (d : Nat → Nat → K) (n : Nat) (kn : Nat → Nat → List (Nat × K)) (hs : ExactRows d n kn) (k : Nat) (hk : 0 < k)
    (includeSelf : Bool) : ∃ E, sklearnKnn kn n k includeSelf = .ok E ∧ (∀ e ∈ E, e.1 < n) ∧ ∀ i, i < n →
      (nbrs E i).length ≤ (if includeSelf then k else k + 1) ∧ ((nbrs E i).map (·.1)).Nodup ∧
      (nbrs E i).Pairwise (fun p q => p.2 ≤ q.2) ∧
      (∀ p ∈ nbrs E i, p.1 < n ∧ p.2 = d i p.1 ∧ (includeSelf = true ∨ p.1 ≠ i)) ∧
      ∀ j < n, (includeSelf = true ∨ j ≠ i) → j ∉ (nbrs E i).map (·.1) → ∀ p ∈ nbrs E i, p.2 ≤ d i j := by
  by_cases hn : n = 0
  · subst hn
    exact ⟨[], rfl, by simp, fun i hi => absurd hi (by omega)⟩
  have hm0 : ¬ min (n : Int) ((k : Int) + (if includeSelf then 0 else 1)) ≤ 0 := by cases includeSelf <;> simp <;> omega
  have hmn : (min (n : Int) ((k : Int) + (if includeSelf then 0 else 1))).toNat = min n (if includeSelf then k else k + 1) := by
    cases includeSelf <;> simp <;> omega
  refine ⟨(List.range n).flatMap fun i => (dropSelf includeSelf i (kn (min n (if includeSelf then k else k + 1)) i)).map
    fun p => (i, p.1, p.2), ?_, edges_src n _, fun i hi => ?_⟩
  · unfold sklearnKnn
    rw [if_neg hn]
    simp only
    rw [if_neg hm0, hmn]
  · rw [nbrs_flatMap n (fun i => dropSelf includeSelf i (kn (min n (if includeSelf then k else k + 1)) i)) i hi]
    have h := hs (min n (if includeSelf then k else k + 1)) i (by cases includeSelf <;> simp <;> omega) (Nat.min_le_left _ _) hi
    cases includeSelf with
    | true =>
      unfold dropSelf
      simp only [if_true] at h ⊢
      refine ⟨by rw [h.length]; exact Nat.min_le_right _ _, h.distinct, h.sorted, fun p hp => ⟨(h.candidates p hp).1,
        (h.candidates p hp).2, .inl trivial⟩, fun j hj _ hnot p hp => h.nearest j hj hnot _ rfl p hp⟩
    | false =>
      unfold dropSelf
      simp only [Bool.false_eq_true, if_false, false_or] at h ⊢
      have hsub := List.filter_sublist (l := kn (min n (k + 1)) i) (p := fun p => decide (p.1 ≠ i))
      refine ⟨le_trans hsub.length_le (by rw [h.length]; exact Nat.min_le_right _ _), h.distinct.sublist (hsub.map _),
        h.sorted.sublist hsub, fun p hp => ⟨(h.candidates p (hsub.subset hp)).1, (h.candidates p (hsub.subset hp)).2,
          by simpa using (List.mem_filter.mp hp).2⟩, fun j hj hji hnot p hp => ?_⟩
      refine h.nearest j hj (fun hjm => hnot ?_) _ rfl p (hsub.subset hp)
      obtain ⟨q, hq, rfl⟩ := List.mem_map.mp hjm
      exact List.mem_map.mpr ⟨q, List.mem_filter.mpr ⟨hq, by simpa using hji⟩, rfl⟩

/-- C197 (partial): scikit-learn gives a node exactly its `k` nearest other nodes when the node itself is among the neighbours that
are found for it, as it is when no other point equals it. -/
theorem C197_sklearn_partial (d : Nat → Nat → K) (n : Nat) (kn : Nat → Nat → List (Nat × K)) (hs : ExactRows d n kn) (k : Nat)
    (hk : 0 < k) (i : Nat) (hi : i < n) (hself : ∀ j < n, j ≠ i → d i i < d i j) :
    ∃ E, sklearnKnn kn n k false = .ok E ∧
      IsNearest (fun j x => x = d i j) (fun j => j < n ∧ j ≠ i) (min k (n - 1)) (nbrs E i) := by
  have hn : n ≠ 0 := by omega
  have hm0 : ¬ min (n : Int) ((k : Int) + (if false = true then 0 else 1)) ≤ 0 := by simp; omega
  have hmn : (min (n : Int) ((k : Int) + (if false = true then 0 else 1))).toNat = min (k + 1) n := by simp; omega
  refine ⟨(List.range n).flatMap fun i => (dropSelf false i (kn (min (k + 1) n) i)).map fun p => (i, p.1, p.2), ?_, ?_⟩
  · unfold sklearnKnn
    rw [if_neg hn]
    simp only
    rw [if_neg hm0, hmn]
  · rw [nbrs_flatMap n (fun i => dropSelf false i (kn (min (k + 1) n) i)) i hi]
    have h := hs (min (k + 1) n) i (by omega) (Nat.min_le_right _ _) hi
    have := nearest_others (d := d i) hi h
    have hmem : i ∈ (kn (min (k + 1) n) i).map (·.1) := by
      by_contra hnot
      rcases hk : kn (min (k + 1) n) i with _ | ⟨p, rest⟩
      · have := h.length; rw [hk] at this; simp at this; omega
      · have hp : p ∈ kn (min (k + 1) n) i := by rw [hk]; simp
        have h1 := h.nearest i hi hnot _ rfl p hp
        have h2 := h.candidates p hp
        have hne : p.1 ≠ i := fun e => hnot (List.mem_map.mpr ⟨p, hp, e⟩)
        rw [h2.2] at h1
        exact absurd h1 (not_le.mpr (hself p.1 h2.1 hne))
    have hl := length_without h.distinct hmem
    rw [h.length] at hl
    rw [List.take_of_length_le (by omega)] at this
    exact this

/-- C197 violated: with equal points a node can get `k + 1` neighbours from scikit-learn. -/
theorem C197_sklearn_violated : ∃ (kn : Nat → Nat → List (Nat × Rat)) (E : List (DEdge Rat)),
    ExactRows (fun _ _ => 0) 3 kn ∧ sklearnKnn kn 3 1 false = .ok E ∧ (nbrs E 0).length = 2 := by
  refine ⟨fun m i => (([1, 2, 0] : List Nat).take m).map fun j => (j, 0), _, ?_, rfl, by decide +kernel⟩
  intro m i h0 hm hi
  refine ⟨by simp; omega, ?_, ?_, ?_, ?_⟩
  · rw [List.map_map]
    exact (List.Nodup.sublist (List.take_sublist m [1, 2, 0]) (by decide)).map (fun a b h => h)
  · intro p hp
    obtain ⟨j, hj, rfl⟩ := List.mem_map.mp hp
    have := List.mem_of_mem_take hj
    refine ⟨?_, rfl⟩
    simp only [List.mem_cons, List.not_mem_nil, or_false] at this
    show j < 3
    omega
  · rw [List.pairwise_map]
    exact List.pairwise_of_forall fun _ _ => le_refl _
  · intro j hj hnot x hx p hp
    obtain ⟨j', -, rfl⟩ := List.mem_map.mp hp
    rw [hx]

/-- C197: with scikit-learn the radius graph has exactly the pairs within the radius, each once, closest first. -/
theorem C197_sklearn_radius (d : Nat → Nat → K) (n : Nat) (r : K) (rn : Nat → List (Nat × K)) (hs : RadiusRows d n r rn)
    (includeSelf : Bool) : (∀ e ∈ sklearnRadius rn n includeSelf, e.1 < n) ∧ ∀ i, i < n →
      ((nbrs (sklearnRadius rn n includeSelf) i).map (·.1)).Nodup ∧
      (nbrs (sklearnRadius rn n includeSelf) i).Pairwise (fun p q => p.2 ≤ q.2) ∧
      ∀ j x, (j, x) ∈ nbrs (sklearnRadius rn n includeSelf) i ↔ j < n ∧ x = d i j ∧ d i j ≤ r ∧ (includeSelf = true ∨ j ≠ i) := by
  by_cases hn : n = 0
  · subst hn
    exact ⟨by simp [sklearnRadius], fun i hi => absurd hi (by omega)⟩
  have hE : sklearnRadius rn n includeSelf =
      (List.range n).flatMap fun i => (dropSelf includeSelf i (rn i)).map fun p => (i, p.1, p.2) := by
    unfold sklearnRadius
    rw [if_neg hn]
    split_ifs with h0
    · symm
      rw [List.flatMap_eq_nil_iff]
      intro i hi
      have hz : (rn i).length = 0 := by
        have := List.sum_eq_zero_iff.mp h0 (rn i).length (List.mem_map.mpr ⟨i, hi, rfl⟩)
        exact this
      rw [List.length_eq_zero_iff.mp hz]
      cases includeSelf <;> rfl
    · rfl
  rw [hE]
  refine ⟨edges_src n _, fun i hi => ?_⟩
  rw [nbrs_flatMap n (fun i => dropSelf includeSelf i (rn i)) i hi]
  cases includeSelf with
  | true =>
    refine ⟨hs.distinct i hi, hs.sorted i hi, fun j x => ?_⟩
    show (j, x) ∈ rn i ↔ _
    rw [hs.mem i hi]
    simp
  | false =>
    have hsub := List.filter_sublist (l := rn i) (p := fun p => decide (p.1 ≠ i))
    refine ⟨(hs.distinct i hi).sublist (hsub.map _), (hs.sorted i hi).sublist hsub, fun j x => ?_⟩
    show (j, x) ∈ (rn i).filter _ ↔ _
    rw [List.mem_filter, hs.mem i hi]
    simp [and_assoc]

/-- C197: the distances of the `k` nearest are the same whichever backend finds them: they can differ only in the choice among equally
distant nodes. -/
theorem C197_same_distances (D : Nat → K → Prop) (hD : ∀ j x x', D j x → D j x' → x = x') (C : Nat → Prop) (k : Nat)
    (a b : List (Nat × K)) (ha : IsNearest D C k a) (hb : IsNearest D C k b) : a.map (·.2) = b.map (·.2) := by
  have key : ∀ a b : List (Nat × K), IsNearest D C k a → IsNearest D C k b → ∀ t (hta : t < a.length) (htb : t < b.length),
      ¬ (a[t].2 < b[t].2) := by
    intro a b ha hb t hta htb hlt
    -- the first `t + 1` nodes of `a` are all among the first `t` nodes of `b`
    have hin : ∀ p ∈ a.take (t + 1), p.1 ∈ (b.take t).map (·.1) := by
      intro p hp
      have hpa : p ∈ a := List.mem_of_mem_take hp
      have hple : p.2 ≤ a[t].2 := by
        obtain ⟨s, hs, rfl⟩ := List.getElem_of_mem hp
        rw [List.length_take] at hs
        rw [List.getElem_take]
        rcases Nat.lt_or_ge s t with h | h
        · exact List.pairwise_iff_getElem.mp ha.sorted s t (by omega) hta h
        · have : s = t := by omega
          subst this
          exact le_refl _
      have hpb : p.1 ∈ b.map (·.1) := by
        by_contra hnot
        have := hb.nearest p.1 (ha.candidates p hpa).1 hnot p.2 (ha.candidates p hpa).2 b[t] (List.getElem_mem _)
        exact absurd (lt_of_le_of_lt (le_trans this hple) hlt) (lt_irrefl _)
      obtain ⟨q, hq, e⟩ := List.mem_map.mp hpb
      have hq2 : q.2 = p.2 := hD p.1 _ _ (e ▸ (hb.candidates q hq).2) (ha.candidates p hpa).2
      obtain ⟨s, hs, rfl⟩ := List.getElem_of_mem hq
      have hst : s < t := by
        by_contra hge
        have : b[t].2 ≤ b[s].2 := by
          rcases Nat.lt_or_ge t s with h | h
          · exact List.pairwise_iff_getElem.mp hb.sorted t s htb hs h
          · have : s = t := by omega
            subst this
            exact le_refl _
        rw [hq2] at this
        exact absurd (lt_of_lt_of_le hlt (le_trans this hple)) (lt_irrefl _)
      refine List.mem_map.mpr ⟨b[s], ?_, e⟩
      rw [List.mem_take_iff_getElem]
      exact ⟨s, by omega, rfl⟩
    have hnd : ((a.take (t + 1)).map (·.1)).Nodup := ha.distinct.sublist ((List.take_sublist _ _).map _)
    have hsub : ((a.take (t + 1)).map (·.1)).Subperm ((b.take t).map (·.1)) := hnd.subperm (by
      intro j hj
      obtain ⟨p, hp, rfl⟩ := List.mem_map.mp hj
      exact hin p hp)
    have := hsub.length_le
    rw [List.length_map, List.length_map, List.length_take, List.length_take] at this
    omega
  apply List.ext_getElem
  · rw [List.length_map, List.length_map, ha.length, hb.length]
  · intro t h1 h2
    rw [List.length_map] at h1 h2
    rw [List.getElem_map, List.getElem_map]
    exact le_antisymm (not_lt.mp (key b a hb ha t h2 h1)) (not_lt.mp (key a b ha hb t h1 h2))

/-- Three points on a line, searched exactly (helper for examples). -/
def lineSearch (m i : Nat) : List (Option (Nat × Int)) :=
  ((([[0, 1, 2], [1, 0, 2], [2, 1, 0]] : List (List Nat)).getD i []).take m).map (fun j : Nat => some (j, (((i : Int) - (j : Int)).natAbs : Int))) ++
    List.replicate (m - min m 3) none

example : nbrs (faissKnn lineSearch 3 1 false) 2 = [(1, 1)] ∧ (nbrs (faissKnn lineSearch 3 5 true) 0).length = 3 ∧
    nbrs (faissKnn lineSearch 3 5 false) 1 = [(0, 1), (2, 1)] := by
  refine ⟨?_, ?_, ?_⟩ <;> decide +kernel

example : ExactIndex (fun i j => (((i : Int) - (j : Int)).natAbs : Int)) 3 lineSearch := by
  intro m i hi
  refine ⟨((([[0, 1, 2], [1, 0, 2], [2, 1, 0]] : List (List Nat)).getD i []).take m).map (fun j : Nat => (j, (((i : Int) - (j : Int)).natAbs : Int))),
    by unfold lineSearch; rw [List.map_map]; rfl, ?_⟩
  have hm : m = 0 ∨ m = 1 ∨ m = 2 ∨ 3 ≤ m := by omega
  have hcase : i = 0 ∨ i = 1 ∨ i = 2 := by omega
  have htake : ∀ l : List Nat, l.length = 3 → 3 ≤ m → l.take m = l.take 3 := fun l hl hm => by
    rw [List.take_of_length_le (by omega), List.take_of_length_le (by omega)]
  rcases hm with rfl | rfl | rfl | hm
  all_goals rcases hcase with rfl | rfl | rfl
  all_goals
    first
      | rw [htake _ rfl hm, show min m 3 = 3 by omega]
      | skip
  all_goals
    refine ⟨by decide, by decide, by decide, by decide, ?_⟩
    intro j hj hnot x hx p hp
    have hj3 : j = 0 ∨ j = 1 ∨ j = 2 := by omega
    subst hx
    rcases hj3 with rfl | rfl | rfl <;> revert hnot p <;> decide

end ModSSC.Graph.Neighbor
