import Verif.Supervised.KnnModel
import Verif.Supervised.KnnSpec
import Verif.Labels.Props
import Verif.Graph.KnnLemmas
import Mathlib.Data.List.GetD
import Mathlib.Algebra.BigOperators.Ring.List

/-!
# The numpy nearest-neighbour classifier (C50, C89)
-/

namespace ModSSC.Supervised
open ModSSC Spec

set_option linter.unusedSectionVars false

section
variable {K : Type} [Field K] [LinearOrder K] {α : Type} [LinearOrder α]

/-! ### The batch loop -/

theorem batchLoop_pure {votes : Nat × Nat → Except PyErr (List (List K))} {V : Nat × Nat → List (List K)}
    (bs : List (Nat × Nat)) (h : ∀ b ∈ bs, votes b = .ok (V b)) (out : List (List K)) :
    batchLoop votes bs out = .ok (bs.foldl (fun o b => addAt o b.1 (V b)) out) := by
  induction bs generalizing out with
  | nil => rfl
  | cons b bs ih =>
    unfold batchLoop
    rw [ebind_of_ok (h b (by simp)), ih (fun b hb => h b (by simp [hb]))]
    rfl

theorem zero_add_row (v : List K) : List.zipWith (· + ·) (List.replicate v.length (0 : K)) v = v := by
  induction v with
  | nil => rfl
  | cons a v ih => rw [List.length_cons, List.replicate_succ, List.zipWith_cons_cons, ih, zero_add]

theorem loop_rows (rows : List (List K)) (vote : List K → List K) (nc : Nat) (hv : ∀ q, (vote q).length = nc)
    (c : Nat) (hc : 0 < c) :
    (Graph.chunks rows.length c).foldl
      (fun o b => addAt o b.1 (((rows.drop b.1).take (b.2 - b.1)).map vote))
      (List.replicate rows.length (List.replicate nc 0)) = rows.map vote := by
  have key : ∀ m, ((List.range m).map (fun t => (t * c, min rows.length (t * c + c)))).foldl
      (fun o b => addAt o b.1 (((rows.drop b.1).take (b.2 - b.1)).map vote))
      (List.replicate rows.length (List.replicate nc 0))
      = rows.mapIdx fun r q => if r < m * c then vote q else List.replicate nc 0 := by
    intro m
    induction m with
    | zero =>
      simp only [List.range_zero, List.map_nil, List.foldl_nil]
      apply List.ext_getElem
      · simp
      · intro r h1 h2
        simp
    | succ m ih =>
      rw [List.range_succ, List.map_append, List.foldl_append, ih]
      simp only [List.map_cons, List.map_nil, List.foldl_cons, List.foldl_nil]
      rw [show (m + 1) * c = m * c + c by ring]
      generalize m * c = a
      apply List.ext_getElem
      · simp [addAt]
      · intro r h1 h2
        have hr : r < rows.length := by simpa using h2
        simp only [addAt, List.getElem_mapIdx]
        have hlen : (((rows.drop a).take (min rows.length (a + c) - a)).map vote).length
            = min rows.length (a + c) - a := by
          simp only [List.length_map, List.length_take, List.length_drop]
          omega
        by_cases h3 : a ≤ r ∧ r < a + (((rows.drop a).take (min rows.length (a + c) - a)).map vote).length
        · rw [if_pos h3, if_neg (by omega), if_pos (by omega)]
          have h4 : r - a < (((rows.drop a).take (min rows.length (a + c) - a)).map vote).length := by omega
          rw [List.getD_eq_getElem _ _ h4, List.getElem_map, List.getElem_take, List.getElem_drop]
          have h5 : a + (r - a) = r := by omega
          simp only [h5]
          have h8 := zero_add_row (vote rows[r])
          rw [hv] at h8
          exact h8
        · rw [if_neg h3]
          by_cases h6 : r < a
          · rw [if_pos h6, if_pos (by omega)]
          · rw [if_neg h6, if_neg (by omega)]
  unfold Graph.chunks
  rw [key]
  have h7 : rows.length ≤ ((rows.length + c - 1) / c) * c := by
    have h1 := Nat.div_add_mod (rows.length + c - 1) c
    have h2 := Nat.mod_lt (rows.length + c - 1) hc
    rw [Nat.mul_comm] at h1
    generalize (rows.length + c - 1) / c * c = q at *
    omega
  apply List.ext_getElem
  · simp
  · intro r h1 h2
    have hr : r < rows.length := by simpa using h2
    rw [List.getElem_mapIdx, if_pos (by omega), List.getElem_map]

/-! ### Fitting -/

/-- A successful fit. -/
structure Fitted (p : KnnParams K) (X : ArrIn K) (y : List α) (X2 : Arr2 K) (st : KnnState K α) : Prop where
  x : ensure2d X = .ok X2
  size : X2.rows.length * X2.width ≠ 0
  len : X2.rows.length = y.length
  k : 0 < p.k
  metric : p.metric = "euclidean" ∨ p.metric = "cosine"
  weights : p.weights = "uniform" ∨ p.weights = "distance"
  classes : st.classes = some (Labels.unique y)
  train : st.train = some (X2, y.map (Labels.searchsorted (Labels.unique y)))

theorem fit_ok {p : KnnParams K} {st st' : KnnState K α} {X : ArrIn K} {y : List α} {r : Nat × Nat × Nat} :
    fit p st X y = (st', .ok r) ↔
      ∃ X2, Fitted p X y X2 st' ∧ r = (X2.rows.length, X2.width, (Labels.unique y).length) := by
  unfold fit
  cases hX : ensure2d X with
  | error e =>
    constructor
    · intro h; simp at h
    · rintro ⟨X2, F, -⟩; rw [F.x] at hX; simp at hX
  | ok X2 =>
    simp only
    have aux : ∀ (s : KnnState K α) (e : PyErr), (s, Except.error e) = (st', Except.ok r) ↔ False := by simp
    by_cases h1 : X2.rows.length * X2.width = 0
    · rw [if_pos h1, aux]
      refine ⟨False.elim, ?_⟩
      rintro ⟨X3, F, -⟩
      rw [F.x] at hX
      obtain rfl := Except.ok.inj hX
      exact F.size h1
    rw [if_neg h1]
    by_cases h2 : X2.rows.length ≠ (Labels.encodeLabels y).1.length
    · rw [if_pos h2, aux]
      refine ⟨False.elim, ?_⟩
      rintro ⟨X3, F, -⟩
      rw [F.x] at hX
      obtain rfl := Except.ok.inj hX
      exact h2 (by simpa [Labels.encodeLabels] using F.len)
    rw [if_neg h2]
    by_cases h3 : p.k ≤ 0
    · rw [if_pos h3, aux]
      refine ⟨False.elim, ?_⟩
      rintro ⟨X3, F, -⟩
      have := F.k
      omega
    rw [if_neg h3]
    by_cases h4 : p.metric ≠ "euclidean" ∧ p.metric ≠ "cosine"
    · rw [if_pos h4, aux]
      refine ⟨False.elim, ?_⟩
      rintro ⟨X3, F, -⟩
      rcases F.metric with h | h
      · exact h4.1 h
      · exact h4.2 h
    rw [if_neg h4]
    by_cases h5 : p.weights ≠ "uniform" ∧ p.weights ≠ "distance"
    · rw [if_pos h5, aux]
      refine ⟨False.elim, ?_⟩
      rintro ⟨X3, F, -⟩
      rcases F.weights with h | h
      · exact h5.1 h
      · exact h5.2 h
    rw [if_neg h5]
    rw [not_not] at h2
    constructor
    · intro h
      obtain ⟨rfl, h6⟩ := Prod.mk.inj h
      refine ⟨X2, ⟨hX, h1, ?_, by omega, ?_, ?_, rfl, rfl⟩, (Except.ok.inj h6).symm⟩
      · simpa [Labels.encodeLabels] using h2
      · by_contra hc; push Not at hc; exact h4 hc
      · by_contra hc; push Not at hc; exact h5 hc
    · rintro ⟨X3, F, rfl⟩
      have hx := F.x
      rw [hX] at hx
      obtain rfl := Except.ok.inj hx
      obtain ⟨c, t⟩ := st'
      have e1 := F.classes
      have e2 := F.train
      simp only at e1 e2
      subst e1 e2
      rfl

/-! ### Neighbours and votes -/

/-- The neighbours of a query. -/
def neighbours (ext : KnnExt K) (p : KnnParams K) (X : Arr2 K) (q : List K) : List Nat :=
  (ext.argpartition ((X.rows.map (pairScore ext p q)).map fun s => -s) ((min p.k X.rows.length).toNat - 1)).take
    (min p.k X.rows.length).toNat

variable [IsStrictOrderedRing K]

/-- The distance of training row `i` from the query. -/
def dist (ext : KnnExt K) (p : KnnParams K) (X : Arr2 K) (q : List K) (i : Nat) : K :=
  distance ext.sqrt p.eps p.metric q (X.rows.getD i [])

theorem score_dist (ext : KnnExt K) (p : KnnParams K) {q x : List K} (hl : q.length = x.length) :
    distance ext.sqrt p.eps p.metric q x
      = if p.metric = "euclidean" then - pairScore ext p q x else 1 - pairScore ext p q x := by
  unfold distance pairScore
  by_cases h : p.metric = "euclidean"
  · rw [if_pos h, if_pos h, if_pos h, Graph.sq_identity hl, neg_neg]
  · rw [if_neg h, if_neg h, if_neg h, Graph.dotp_scale, Graph.dotp_eq, Graph.dotp_eq, Graph.dotp_eq]

theorem score_le (ext : KnnExt K) (p : KnnParams K) {q x z : List K} (hx : q.length = x.length) (hz : q.length = z.length)
    (h : - pairScore ext p q x ≤ - pairScore ext p q z) :
    distance ext.sqrt p.eps p.metric q x ≤ distance ext.sqrt p.eps p.metric q z := by
  rw [score_dist ext p hx, score_dist ext p hz]
  split
  · exact h
  · linarith

/-- Rows of equal width. -/
def Arr2.Wf (a : Arr2 K) : Prop := ∀ r ∈ a.rows, r.length = a.width

theorem neighbours_nearest {ext : KnnExt K} (hext : IsArgpartition ext.argpartition) {p : KnnParams K} {X : Arr2 K}
    (hX : X.Wf) (hne : X.rows ≠ []) (hk : 0 < p.k) {q : List K} (hq : q.length = X.width) :
    Nearest (dist ext p X q) X.rows.length (min p.k X.rows.length).toNat (neighbours ext p X q) := by
  have hn : 0 < X.rows.length := List.length_pos_of_ne_nil hne
  set k := (min p.k X.rows.length).toNat with hkdef
  have hk1 : 1 ≤ k := by omega
  have hkn : k ≤ X.rows.length := by omega
  set a := (X.rows.map (pairScore ext p q)).map fun s => -s with ha
  have hal : a.length = X.rows.length := by simp [ha]
  obtain ⟨hperm, hle⟩ := hext a (k - 1) (by omega)
  have hk' : k - 1 + 1 = k := by omega
  rw [hk'] at hle
  have hN : neighbours ext p X q = (ext.argpartition a (k - 1)).take k := rfl
  have hnd : (ext.argpartition a (k - 1)).Nodup := hperm.nodup_iff.mpr List.nodup_range
  have hget : ∀ i, i < X.rows.length → a.getD i 0 = - pairScore ext p q (X.rows.getD i []) := by
    intro i hi
    rw [List.getD_eq_getElem _ _ (by omega), List.getD_eq_getElem _ _ hi]
    simp [ha]
  have hw : ∀ i, i < X.rows.length → q.length = (X.rows.getD i []).length := by
    intro i hi
    rw [List.getD_eq_getElem _ _ hi, hX _ (List.getElem_mem hi), hq]
  have hmem : ∀ i, i ∈ ext.argpartition a (k - 1) ↔ i < X.rows.length := by
    intro i
    rw [hperm.mem_iff, List.mem_range, hal]
  rw [hN]
  refine ⟨(List.take_sublist _ _).nodup hnd, ?_, fun i hi => (hmem i).mp (List.mem_of_mem_take hi), ?_⟩
  · rw [List.length_take, hperm.length_eq, List.length_range, hal]
    omega
  · intro i hi j hj hnot
    have hi' := (hmem i).mp (List.mem_of_mem_take hi)
    have hj2 : j ∈ (ext.argpartition a (k - 1)).drop k := by
      have := (hmem j).mpr hj
      rw [← List.take_append_drop k (ext.argpartition a (k - 1)), List.mem_append] at this
      rcases this with h | h
      · exact absurd h hnot
      · exact h
    have := hle i hi j hj2
    rw [hget i hi', hget j hj] at this
    exact score_le ext p (hw i hi') (hw j hj) this

theorem voteWeight_eq (ext : KnnExt K) (p : KnnParams K) {q x : List K} (hl : q.length = x.length) :
    voteWeight p (pairScore ext p q x) = weight p.weights p.eps (distance ext.sqrt p.eps p.metric q x) := by
  unfold voteWeight weight
  rw [score_dist ext p hl]
  by_cases h : p.weights = "uniform"
  · rw [if_pos h, if_pos h]
  · rw [if_neg h, if_neg h]
    by_cases h2 : p.metric = "euclidean"
    · rw [if_pos h2, if_pos h2]
    · rw [if_neg h2, if_neg h2]

/-- The votes for each class. -/
def votes (ext : KnnExt K) (p : KnnParams K) (X : Arr2 K) (y : List α) (q : List K) : List K :=
  (Labels.unique y).map fun c =>
    (((neighbours ext p X q).filter fun i => decide (y[i]? = some c)).map fun i =>
      weight p.weights p.eps (dist ext p X q i)).sum

theorem enc_lt {y : List α} {i : Nat} (hi : i < y.length) :
    (y.map (Labels.searchsorted (Labels.unique y))).getD i 0 < (Labels.unique y).length ∧
    ∀ c (hc : c < (Labels.unique y).length),
      ((y.map (Labels.searchsorted (Labels.unique y))).getD i 0 = c ↔ y[i]? = some (Labels.unique y)[c]) := by
  have hd := Labels.searchsorted_decode (Labels.unique_sorted y) (Labels.mem_unique.mpr (List.getElem_mem hi))
  rw [List.getD_eq_getElem _ _ (by simpa using hi), List.getElem_map]
  obtain ⟨h1, h2⟩ := List.getElem?_eq_some_iff.mp hd
  refine ⟨h1, fun c hc => ?_⟩
  rw [List.getElem?_eq_getElem hi]
  constructor
  · rintro rfl
    rw [h2]
  · intro h
    rw [Option.some.inj h, Labels.searchsorted_get (Labels.unique_sorted y) hc]

theorem rowVotes_ok {ext : KnnExt K} (hext : IsArgpartition ext.argpartition) {p : KnnParams K} {X : Arr2 K}
    (hX : X.Wf) (hne : X.rows ≠ []) (hk : 0 < p.k) {y : List α} (hy : X.rows.length = y.length) {q : List K}
    (hq : q.length = X.width) :
    rowVotes ext p X (y.map (Labels.searchsorted (Labels.unique y))) (Labels.unique y).length q
      = .ok (votes ext p X y q) := by
  have hN := neighbours_nearest hext hX hne hk hq
  unfold rowVotes
  simp only
  rw [show (ext.argpartition ((X.rows.map (pairScore ext p q)).map fun s => -s)
    ((min p.k X.rows.length).toNat - 1)).take (min p.k X.rows.length).toNat = neighbours ext p X q from rfl]
  rw [if_neg]
  · congr 1
    unfold votes
    apply List.ext_getElem
    · simp
    · intro c h1 h2
      have hc : c < (Labels.unique y).length := by simpa using h2
      rw [List.getElem_map, List.getElem_range, List.getElem_map]
      have hf : (neighbours ext p X q).filter
            (fun i => decide ((y.map (Labels.searchsorted (Labels.unique y))).getD i 0 = c))
          = (neighbours ext p X q).filter (fun i => decide (y[i]? = some (Labels.unique y)[c])) := by
        apply List.filter_congr
        intro i hi
        have hi' := hN.range i hi
        rw [decide_eq_decide]
        exact (enc_lt (by omega)).2 c hc
      rw [hf]
      congr 1
      apply List.map_congr_left
      intro i hi
      have hi' := hN.range i (List.mem_of_mem_filter hi)
      rw [List.getD_eq_getElem _ _ (by simpa using hi'), List.getElem_map]
      unfold dist
      rw [List.getD_eq_getElem _ _ hi']
      exact voteWeight_eq ext p (by rw [hX _ (List.getElem_mem hi'), hq])
  · simp only [List.any_eq_true, List.mem_map, decide_eq_true_eq, not_exists, not_and]
    rintro c ⟨i, hi, rfl⟩
    have hi' := hN.range i hi
    have := (enc_lt (y := y) (i := i) (by omega)).1
    omega

/-- What `predict_proba` returns after a successful fit. -/
theorem predictProba_eq {ext : KnnExt K} (hext : IsArgpartition ext.argpartition) {p : KnnParams K} {X : ArrIn K}
    {y : List α} {X2 : Arr2 K} {st : KnnState K α} (F : Fitted p X y X2 st) (hX : X2.Wf) (hb : 0 < p.batchSize)
    {Q : ArrIn K} {Q2 : Arr2 K} (hQ : ensure2d Q = .ok Q2) (hQw : Q2.Wf) :
    predictProba ext p st Q
      = if Q2.rows ≠ [] ∧ Q2.width ≠ X2.width then .error .valueError
        else .ok (Q2.rows.map fun q => normRow (votes ext p X2 y q)) := by
  have hne : X2.rows ≠ [] := by
    rintro h0
    apply F.size
    rw [h0]
    simp
  unfold predictProba
  rw [ebind_of_ok hQ, F.train, F.classes]
  simp only
  have hch : Graph.allChunks Q2.rows.length p.batchSize = .ok (Graph.chunks Q2.rows.length p.batchSize.toNat) := by
    unfold Graph.allChunks
    rw [if_neg (by omega), if_neg (by omega)]
  rw [ebind_of_ok hch]
  by_cases hw : Q2.width ≠ X2.width
  · by_cases hr : Q2.rows = []
    · rw [if_neg (fun h => h.1 hr), hr]
      have : Graph.chunks ([] : List (List K)).length p.batchSize.toNat = [] := by
        unfold Graph.chunks
        have : ([] : List (List K)).length + p.batchSize.toNat - 1 < p.batchSize.toNat := by simp; omega
        rw [Nat.div_eq_of_lt this]
        rfl
      rw [this]
      rfl
    · rw [if_pos ⟨hr, hw⟩]
      have hpos : 0 < Q2.rows.length := List.length_pos_of_ne_nil hr
      have : ∃ m, (Q2.rows.length + p.batchSize.toNat - 1) / p.batchSize.toNat = m + 1 := by
        have : 1 ≤ (Q2.rows.length + p.batchSize.toNat - 1) / p.batchSize.toNat := by
          rw [Nat.one_le_div_iff (by omega)]
          omega
        exact ⟨_, (Nat.sub_add_cancel this).symm⟩
      obtain ⟨m, hm⟩ := this
      unfold Graph.chunks
      rw [hm, List.range_succ_eq_map, List.map_cons]
      unfold batchLoop batchVotes
      rw [if_pos hw]
      rfl
  · rw [if_neg (fun h => hw h.2)]
    rw [not_not] at hw
    have hvot : ∀ b : Nat × Nat, batchVotes ext p X2 (y.map (Labels.searchsorted (Labels.unique y)))
        (Labels.unique y).length Q2 b = .ok (((Q2.rows.drop b.1).take (b.2 - b.1)).map (votes ext p X2 y)) := by
      intro b
      unfold batchVotes
      rw [if_neg (by simpa using hw), mapM_ok, List.forall₂_map_right_iff, List.forall₂_same]
      intro q hq
      have hq' : q ∈ Q2.rows := List.mem_of_mem_drop (List.mem_of_mem_take hq)
      exact rowVotes_ok hext hX hne F.k F.len (by rw [hQw q hq', hw])
    rw [ebind_of_ok (batchLoop_pure _ (fun b _ => hvot b) _)]
    rw [loop_rows Q2.rows (votes ext p X2 y) _ (fun q => by simp [votes]) _ (by omega), List.map_map]
    rfl

/-! ### The votes are shares -/

theorem sum_split {y : List α} {S : List Nat} (hS : ∀ i ∈ S, i < y.length) (w : Nat → K) :
    ((Labels.unique y).map fun c => ((S.filter fun i => decide (y[i]? = some c)).map w).sum).sum = (S.map w).sum := by
  induction S with
  | nil => simp
  | cons a S ih =>
    have ha := hS a (by simp)
    have hrec := ih (fun i hi => hS i (by simp [hi]))
    have hstep : ∀ c, (((a :: S).filter fun i => decide (y[i]? = some c)).map w).sum
        = (if y[a] = c then w a else 0) + ((S.filter fun i => decide (y[i]? = some c)).map w).sum := by
      intro c
      rw [List.filter_cons]
      by_cases h : y[a] = c
      · rw [if_pos (by simpa [List.getElem?_eq_getElem ha] using h), if_pos h, List.map_cons, List.sum_cons]
      · rw [if_neg (by simpa [List.getElem?_eq_getElem ha] using h), if_neg h, zero_add]
    simp only [hstep]
    rw [List.sum_map_add, hrec, List.map_cons, List.sum_cons]
    congr 1
    have hnd : (Labels.unique y).Nodup := (Labels.unique_sorted y).imp ne_of_lt
    have hm : y[a] ∈ Labels.unique y := Labels.mem_unique.mpr (List.getElem_mem ha)
    generalize Labels.unique y = l at hnd hm
    clear hstep hrec ih hS
    induction l with
    | nil => simp at hm
    | cons b l ih =>
      obtain ⟨h1, h2⟩ := List.nodup_cons.mp hnd
      rw [List.map_cons, List.sum_cons]
      by_cases h : y[a] = b
      · rw [if_pos h]
        have : (l.map fun c => if y[a] = c then w a else 0).sum = 0 := by
          apply List.sum_eq_zero
          intro x hx
          obtain ⟨c, hc, rfl⟩ := List.mem_map.mp hx
          rw [if_neg]
          rintro rfl
          exact h1 (h ▸ hc)
        rw [this, add_zero]
      · rw [if_neg h, zero_add]
        refine ih h2 ?_
        rcases List.mem_cons.mp hm with h3 | h3
        · exact absurd h3 h
        · exact h3

theorem weight_pos {weights : String} {eps : K} (heps : 0 < eps) (d : K) : 0 < weight weights eps d := by
  unfold weight
  split
  · exact one_pos
  · exact one_div_pos.mpr (add_pos_of_nonneg_of_pos (le_max_right _ _) heps)

theorem sum_pos_of {S : List Nat} (hS : S ≠ []) {w : Nat → K} (hw : ∀ i, 0 < w i) : 0 < (S.map w).sum := by
  cases S with
  | nil => exact absurd rfl hS
  | cons a S =>
    rw [List.map_cons, List.sum_cons]
    refine add_pos_of_pos_of_nonneg (hw a) (List.sum_nonneg ?_)
    intro x hx
    obtain ⟨i, -, rfl⟩ := List.mem_map.mp hx
    exact (hw i).le

/-- One row of the result. -/
theorem normRow_votes {ext : KnnExt K} {p : KnnParams K} {X : Arr2 K} {y : List α} {q : List K} (heps : 0 < p.eps)
    {k : Nat} (hk : 0 < k) (hN : Nearest (dist ext p X q) y.length k (neighbours ext p X q)) :
    normRow (votes ext p X y q) = (Labels.unique y).map
      (share (fun i => weight p.weights p.eps (dist ext p X q i)) y (neighbours ext p X q)) := by
  have hne : neighbours ext p X q ≠ [] := by
    intro h
    have := hN.length
    rw [h] at this
    simp at this
    omega
  have hsum : (votes ext p X y q).sum
      = ((neighbours ext p X q).map fun i => weight p.weights p.eps (dist ext p X q i)).sum :=
    sum_split hN.range _
  have hpos := sum_pos_of hne (w := fun i => weight p.weights p.eps (dist ext p X q i)) (fun _ => weight_pos heps _)
  unfold normRow
  rw [hsum, if_neg hpos.ne']
  unfold votes
  rw [List.map_map]
  rfl

theorem fitted_ne {p : KnnParams K} {X : ArrIn K} {y : List α} {X2 : Arr2 K} {st : KnnState K α} (F : Fitted p X y X2 st) :
    X2.rows ≠ [] := by
  rintro h0
  apply F.size
  rw [h0]
  simp

theorem unique_isClasses (y : List α) : IsClasses y (Labels.unique y) := ⟨Labels.unique_sorted y, fun _ => Labels.mem_unique⟩

/-- **C50 (what the probabilities are).**  After a successful fit, whatever was fitted before: for each query there
are `min k n` training rows, none farther away than a row left out, and the probability of a class is the share of
their votes that go to it, one vote each or votes that decrease with the distance. -/
theorem C50_votes (ext : KnnExt K) (hext : IsArgpartition ext.argpartition) (p : KnnParams K) (hb : 0 < p.batchSize)
    (heps : 0 < p.eps) (st st' : KnnState K α) (X : ArrIn K) (X2 : Arr2 K) (hX : ensure2d X = .ok X2) (hXw : X2.Wf)
    (y : List α) (r : Nat × Nat × Nat) (hfit : fit p st X y = (st', .ok r))
    (Q : ArrIn K) (Q2 : Arr2 K) (hQ : ensure2d Q = .ok Q2) (hQw : Q2.Wf) (P : List (List K))
    (h : predictProba ext p st' Q = .ok P) :
    ∃ classes, st'.classes = some classes ∧ IsClasses y classes ∧ P.length = Q2.rows.length ∧
      ∀ (i : Nat) q, Q2.rows[i]? = some q → ∃ S,
        Nearest (fun j => distance ext.sqrt p.eps p.metric q (X2.rows.getD j [])) y.length
          (min p.k y.length).toNat S ∧
        P[i]? = some (classes.map (share
          (fun j => weight p.weights p.eps (distance ext.sqrt p.eps p.metric q (X2.rows.getD j []))) y S)) := by
  obtain ⟨X3, F, -⟩ := fit_ok.mp hfit
  have hx := F.x
  rw [hX] at hx
  obtain rfl := Except.ok.inj hx
  rw [predictProba_eq hext F hXw hb hQ hQw] at h
  by_cases hw : Q2.rows ≠ [] ∧ Q2.width ≠ X2.width
  · rw [if_pos hw] at h; simp at h
  rw [if_neg hw] at h
  obtain rfl := Except.ok.inj h
  refine ⟨_, F.classes, unique_isClasses y, by simp, fun i q hq => ?_⟩
  have hqm := List.mem_of_getElem? hq
  have hwid : Q2.width = X2.width := by
    by_contra hc
    exact hw ⟨List.ne_nil_of_mem hqm, hc⟩
  have hN := neighbours_nearest hext hXw (fitted_ne F) F.k (q := q) (by rw [hQw q hqm, hwid])
  rw [F.len] at hN
  refine ⟨neighbours ext p X2 q, hN, ?_⟩
  rw [List.getElem?_map, hq, Option.map_some, normRow_votes heps ?_ hN]
  · rfl
  · have h1 := F.k
    have h2 := F.len
    have h3 := List.length_pos_of_ne_nil (fitted_ne F)
    omega

/-- Shares are a distribution. -/
theorem share_dist {y : List α} {S : List Nat} (hS : ∀ i ∈ S, i < y.length) (hne : S ≠ []) {w : Nat → K}
    (hw : ∀ i, 0 < w i) {classes : List α} (hc : IsClasses y classes) :
    (∀ x ∈ classes.map (share w y S), 0 ≤ x) ∧ (classes.map (share w y S)).sum = 1 := by
  have hpos := sum_pos_of hne hw
  have heq : classes = Labels.unique y := by
    have h1 := hc.1
    have h2 := Labels.unique_sorted y
    refine List.Perm.eq_of_pairwise (le := fun a b => a < b) ?_ h1 h2 ?_
    · intro a b _ _ hab hba
      exact absurd (lt_trans hab hba) (lt_irrefl _)
    · rw [List.perm_ext_iff_of_nodup (h1.imp ne_of_lt) (h2.imp ne_of_lt)]
      intro a
      rw [hc.2, Labels.mem_unique]
  constructor
  · intro x hx
    obtain ⟨c, -, rfl⟩ := List.mem_map.mp hx
    refine div_nonneg (List.sum_nonneg ?_) hpos.le
    intro z hz
    obtain ⟨i, -, rfl⟩ := List.mem_map.mp hz
    exact (hw i).le
  · rw [heq]
    unfold share
    have := sum_split hS w
    simp only [div_eq_mul_inv]
    rw [List.sum_map_mul_right, this, mul_inv_cancel₀ hpos.ne']

/-- **C50 (distributions).**  After a successful fit, every row of `predict_proba` is non-negative and sums to one. -/
theorem C50_distribution (ext : KnnExt K) (hext : IsArgpartition ext.argpartition) (p : KnnParams K)
    (hb : 0 < p.batchSize) (heps : 0 < p.eps) (st st' : KnnState K α) (X : ArrIn K) (X2 : Arr2 K)
    (hX : ensure2d X = .ok X2) (hXw : X2.Wf) (y : List α) (r : Nat × Nat × Nat) (hfit : fit p st X y = (st', .ok r))
    (Q : ArrIn K) (Q2 : Arr2 K) (hQ : ensure2d Q = .ok Q2) (hQw : Q2.Wf) (P : List (List K))
    (h : predictProba ext p st' Q = .ok P) :
    ∀ row ∈ P, (∀ x ∈ row, 0 ≤ x) ∧ row.sum = 1 := by
  obtain ⟨classes, hcl, hc, hlen, hrow⟩ :=
    C50_votes ext hext p hb heps st st' X X2 hX hXw y r hfit Q Q2 hQ hQw P h
  intro row hr
  obtain ⟨i, hi, rfl⟩ := List.mem_iff_getElem.mp hr
  obtain ⟨S, hS, hP⟩ := hrow i Q2.rows[i] (List.getElem?_eq_getElem (by omega))
  rw [List.getElem?_eq_getElem hi] at hP
  rw [Option.some.inj hP]
  refine share_dist hS.range ?_ (fun j => weight_pos heps _) hc
  intro h0
  have h1 := hS.length
  rw [h0] at h1
  obtain ⟨X3, F, -⟩ := fit_ok.mp hfit
  have h2 := F.k
  have h3 := F.len
  have h4 := List.length_pos_of_ne_nil (fitted_ne F)
  simp only [List.length_nil] at h1
  omega

/-- **C50 (when it returns).**  After a successful fit, `predict_proba` fails only when there are queries with another
number of features than the training rows. -/
theorem C50_returns (ext : KnnExt K) (hext : IsArgpartition ext.argpartition) (p : KnnParams K)
    (hb : 0 < p.batchSize) (st st' : KnnState K α) (X : ArrIn K) (X2 : Arr2 K)
    (hX : ensure2d X = .ok X2) (hXw : X2.Wf) (y : List α) (r : Nat × Nat × Nat) (hfit : fit p st X y = (st', .ok r))
    (Q : ArrIn K) (Q2 : Arr2 K) (hQ : ensure2d Q = .ok Q2) (hQw : Q2.Wf) :
    (∃ P, predictProba ext p st' Q = .ok P) ↔ (Q2.rows = [] ∨ Q2.width = X2.width) := by
  obtain ⟨X3, F, -⟩ := fit_ok.mp hfit
  have hx := F.x
  rw [hX] at hx
  obtain rfl := Except.ok.inj hx
  rw [predictProba_eq hext F hXw hb hQ hQw]
  by_cases hw : Q2.rows ≠ [] ∧ Q2.width ≠ X2.width
  · rw [if_pos hw]
    constructor
    · rintro ⟨P, hP⟩; simp at hP
    · rintro (h | h)
      · exact absurd h hw.1
      · exact absurd h hw.2
  · rw [if_neg hw]
    refine ⟨fun _ => ?_, fun _ => ⟨_, rfl⟩⟩
    by_contra hc
    push Not at hc
    exact hw hc

theorem argmax_firstMax : ∀ {row : List K}, row ≠ [] → FirstMax row (argmax row)
  | [], h => absurd rfl h
  | [a], _ => by
    refine ⟨a, rfl, ?_, ?_⟩
    · intro j x hj
      cases j with
      | zero => simp [argmax] at hj; exact hj ▸ le_refl _
      | succ j => simp at hj
    · intro j x hj hlt
      simp [argmax] at hlt
  | a :: b :: rest, _ => by
    obtain ⟨m, h1, h2, h3⟩ := argmax_firstMax (row := b :: rest) (by simp)
    have hget : (b :: rest).getD (argmax (b :: rest)) 0 = m := by
      rw [List.getD_eq_getElem?_getD, h1]
      rfl
    unfold argmax
    simp only
    rw [hget]
    by_cases h : m ≤ a
    · rw [if_pos h]
      refine ⟨a, rfl, ?_, ?_⟩
      · intro j x hj
        cases j with
        | zero => simp at hj; exact hj ▸ le_refl _
        | succ j =>
          rw [List.getElem?_cons_succ] at hj
          exact le_trans (h2 j x hj) h
      · intro j x hj hlt
        omega
    · rw [if_neg h]
      refine ⟨m, by rw [List.getElem?_cons_succ]; exact h1, ?_, ?_⟩
      · intro j x hj
        cases j with
        | zero => simp at hj; exact hj ▸ le_of_not_ge h
        | succ j =>
          rw [List.getElem?_cons_succ] at hj
          exact h2 j x hj
      · intro j x hj hlt
        cases j with
        | zero => simp at hj; exact hj ▸ lt_of_not_ge h
        | succ j =>
          rw [List.getElem?_cons_succ] at hj
          exact h3 j x hj (by omega)

/-- **C50 (predictions).**  After a successful fit, `predict` returns whenever `predict_proba` does; each prediction
is a training label, namely the smallest class of the largest probability. -/
theorem C50_predict (ext : KnnExt K) (hext : IsArgpartition ext.argpartition) (p : KnnParams K)
    (hb : 0 < p.batchSize) (st st' : KnnState K α) (X : ArrIn K) (X2 : Arr2 K)
    (hX : ensure2d X = .ok X2) (hXw : X2.Wf) (y : List α) (r : Nat × Nat × Nat) (hfit : fit p st X y = (st', .ok r))
    (Q : ArrIn K) (Q2 : Arr2 K) (hQ : ensure2d Q = .ok Q2) (hQw : Q2.Wf) (P : List (List K))
    (h : predictProba ext p st' Q = .ok P) :
    ∃ pred classes, predict ext p st' Q = .ok pred ∧ IsClasses y classes ∧ pred.length = P.length ∧
      ∀ (i : Nat) (l : α), pred[i]? = some l → l ∈ y ∧
        ∃ row c, P[i]? = some row ∧ FirstMax row c ∧ classes[c]? = some l := by
  obtain ⟨X3, F, -⟩ := fit_ok.mp hfit
  have hx := F.x
  rw [hX] at hx
  obtain rfl := Except.ok.inj hx
  have hP := h
  rw [predictProba_eq hext F hXw hb hQ hQw] at hP
  by_cases hw : Q2.rows ≠ [] ∧ Q2.width ≠ X2.width
  · rw [if_pos hw] at hP; simp at hP
  rw [if_neg hw] at hP
  have hPl : ∀ row ∈ P, row.length = (Labels.unique y).length := by
    intro row hr
    rw [← Except.ok.inj hP] at hr
    obtain ⟨q, -, rfl⟩ := List.mem_map.mp hr
    simp [normRow, votes]
  have hune : 0 < (Labels.unique y).length := by
    have h3 := F.len
    have h4 := List.length_pos_of_ne_nil (fitted_ne F)
    have : y[0]'(by omega) ∈ Labels.unique y := Labels.mem_unique.mpr (List.getElem_mem _)
    exact List.length_pos_of_mem this
  have hdec : ∀ row ∈ P, ∃ l, (match (Labels.unique y)[argmax row]? with
      | some c => Except.ok c | none => .error .indexError : Except PyErr α) = .ok l := by
    intro row hr
    have hne : row ≠ [] := List.ne_nil_of_length_pos (by rw [hPl row hr]; exact hune)
    obtain ⟨m, h1, -⟩ := argmax_firstMax hne
    have hlt := (List.getElem?_eq_some_iff.mp h1).1
    rw [hPl row hr] at hlt
    rw [List.getElem?_eq_getElem hlt]
    exact ⟨_, rfl⟩
  obtain ⟨pred, hpred⟩ := mapM_total hdec
  refine ⟨pred, Labels.unique y, ?_, unique_isClasses y, ?_, ?_⟩
  · unfold predict
    rw [ebind_of_ok h, F.classes]
    exact hpred
  · exact (mapM_ok.mp hpred).length_eq.symm
  · intro i l hl
    obtain ⟨hi, hl⟩ := List.getElem?_eq_some_iff.mp hl
    have hf := mapM_ok.mp hpred
    have hi' : i < P.length := by rw [hf.length_eq]; exact hi
    have := (List.forall₂_iff_get.mp hf).2 i hi' hi
    simp only [List.get_eq_getElem] at this
    rw [hl] at this
    cases hc : (Labels.unique y)[argmax P[i]]? with
    | none => rw [hc] at this; simp at this
    | some c =>
      rw [hc] at this
      obtain rfl := Except.ok.inj this
      have hne : P[i] ≠ [] := List.ne_nil_of_length_pos (by rw [hPl _ (List.getElem_mem hi')]; exact hune)
      exact ⟨Labels.mem_unique.mp (List.mem_of_getElem? hc), P[i], argmax P[i], List.getElem?_eq_getElem hi',
        argmax_firstMax hne, hc⟩

/-- **C50 (batches).**  The probabilities of a query do not depend on the other queries in the call nor on the
batch size. -/
theorem C50_batch (ext : KnnExt K) (hext : IsArgpartition ext.argpartition) (p : KnnParams K) (b b1 b2 : Int)
    (hb : 0 < b) (hb1 : 0 < b1) (hb2 : 0 < b2) (st st' : KnnState K α) (X : ArrIn K) (X2 : Arr2 K)
    (hX : ensure2d X = .ok X2) (hXw : X2.Wf) (y : List α) (r : Nat × Nat × Nat) (hfit : fit p st X y = (st', .ok r))
    (w : Nat) (A B : List (List K)) (hA : ∀ q ∈ A, q.length = w) (hB : ∀ q ∈ B, q.length = w) (P : List (List K)) :
    predictProba ext { p with batchSize := b } st' (.mat ⟨w, A ++ B⟩) = .ok P ↔
      ∃ PA PB, predictProba ext { p with batchSize := b1 } st' (.mat ⟨w, A⟩) = .ok PA ∧
        predictProba ext { p with batchSize := b2 } st' (.mat ⟨w, B⟩) = .ok PB ∧ P = PA ++ PB := by
  obtain ⟨X3, F, -⟩ := fit_ok.mp hfit
  have hx := F.x
  rw [hX] at hx
  obtain rfl := Except.ok.inj hx
  have F' : ∀ b, Fitted { p with batchSize := b } X y X2 st' := fun b =>
    ⟨F.x, F.size, F.len, F.k, F.metric, F.weights, F.classes, F.train⟩
  have hv : ∀ b q, votes ext { p with batchSize := b } X2 y q = votes ext p X2 y q := fun _ _ => rfl
  rw [predictProba_eq hext (F' b) hXw hb (Q := .mat ⟨w, A ++ B⟩) rfl (by
      intro q hq
      rcases List.mem_append.mp hq with h | h
      · exact hA q h
      · exact hB q h),
    predictProba_eq hext (F' b1) hXw hb1 (Q := .mat ⟨w, A⟩) rfl hA,
    predictProba_eq hext (F' b2) hXw hb2 (Q := .mat ⟨w, B⟩) rfl hB]
  simp only [hv]
  by_cases hw : w = X2.width
  · rw [if_neg (fun h => h.2 hw), if_neg (fun h => h.2 hw), if_neg (fun h => h.2 hw), List.map_append]
    constructor
    · intro h
      exact ⟨_, _, rfl, rfl, (Except.ok.inj h).symm⟩
    · rintro ⟨PA, PB, h1, h2, rfl⟩
      rw [Except.ok.inj h1, Except.ok.inj h2]
  · by_cases h1 : A = []
    · subst h1
      rw [List.nil_append, if_neg (c := [] ≠ [] ∧ _) (fun h => h.1 rfl)]
      constructor
      · intro h
        exact ⟨[], P, rfl, h, rfl⟩
      · rintro ⟨PA, PB, h1, h2, rfl⟩
        rw [h2, ← Except.ok.inj h1]
        rfl
    · rw [if_pos ⟨by simp [h1], hw⟩, if_pos ⟨h1, hw⟩]
      simp

/-- A failing fit on a new classifier leaves it unfitted. -/
theorem fit_error_train {p : KnnParams K} {st : KnnState K α} {X : ArrIn K} {y : List α} {e : PyErr}
    (h : (fit p st X y).2 = .error e) : (fit p st X y).1.train = st.train := by
  unfold fit at h ⊢
  cases hX : ensure2d X with
  | error e => rfl
  | ok X2 =>
    rw [hX] at h
    simp only at h ⊢
    by_cases h1 : X2.rows.length * X2.width = 0
    · rw [if_pos h1]
    rw [if_neg h1] at h ⊢
    by_cases h2 : X2.rows.length ≠ (Labels.encodeLabels y).1.length
    · rw [if_pos h2]
    rw [if_neg h2] at h ⊢
    by_cases h3 : p.k ≤ 0
    · rw [if_pos h3]
    rw [if_neg h3] at h ⊢
    by_cases h4 : p.metric ≠ "euclidean" ∧ p.metric ≠ "cosine"
    · rw [if_pos h4]
    rw [if_neg h4] at h ⊢
    by_cases h5 : p.weights ≠ "uniform" ∧ p.weights ≠ "distance"
    · rw [if_pos h5]
    rw [if_neg h5] at h
    simp at h

/-- A history of `fit` calls, failed or not. -/
def fits (p : KnnParams K) (st : KnnState K α) : List (ArrIn K × List α) → KnnState K α
  | [] => st
  | c :: cs => fits p (fit p st c.1 c.2).1 cs

/-- **C89, partial.**  Whatever `fit` calls came before, failed or not: after a successful one the classifier is as
if it had been new.  If none succeeded, `predict_proba` raises.  Missing: a failed call does not leave a fitted
classifier as it was, see `C89_failed_fit_violated`. -/
theorem C89_history_partial (ext : KnnExt K) (p : KnnParams K) (before : List (ArrIn K × List α)) :
    (∀ X y st' r, fit p (fits p .fresh before) X y = (st', .ok r) → fit p .fresh X y = (st', .ok r)) ∧
    ((∀ c ∈ before, ∀ st : KnnState K α, ∃ e, (fit p st c.1 c.2).2 = .error e) → ∀ Q Q2, ensure2d Q = .ok Q2 →
      predictProba ext p (fits p .fresh before) Q = .error .runtimeError) := by
  constructor
  · intro X y st' r h
    exact fit_ok.mpr (fit_ok.mp h)
  · intro hall Q Q2 hQ
    have key : ∀ (cs : List (ArrIn K × List α)) (st : KnnState K α), st.train = none →
        (∀ c ∈ cs, ∀ st : KnnState K α, ∃ e, (fit p st c.1 c.2).2 = .error e) → (fits p st cs).train = none := by
      intro cs
      induction cs with
      | nil => intro st h _; exact h
      | cons c cs ih =>
        intro st h hc
        obtain ⟨e, he⟩ := hc c (by simp) st
        exact ih _ (by rw [fit_error_train he]; exact h) (fun d hd => hc d (by simp [hd]))
    have := key before .fresh rfl hall
    unfold predictProba
    rw [ebind_of_ok hQ, this]

end

/-! ### Examples -/

/-- A partition by sorting. -/
def sortPart (a : List Rat) (_ : Nat) : List Nat :=
  (List.range a.length).insertionSort (fun i j => a.getD i 0 ≤ a.getD j 0)

theorem sortPart_isArgpartition : IsArgpartition sortPart := by
  intro a kth _
  refine ⟨List.perm_insertionSort _ _, fun i hi j hj => ?_⟩
  have tot : Std.Total (fun i j : Nat => a.getD i 0 ≤ a.getD j 0) := ⟨fun i j => le_total _ _⟩
  have tr : IsTrans Nat (fun i j : Nat => a.getD i 0 ≤ a.getD j 0) := ⟨fun i j k h1 h2 => le_trans h1 h2⟩
  have := List.pairwise_insertionSort (fun i j : Nat => a.getD i 0 ≤ a.getD j 0) (List.range a.length)
  unfold sortPart at hi hj
  rw [← List.take_append_drop (kth + 1) (List.insertionSort _ _), List.pairwise_append] at this
  exact this.2.2 i hi j hj

/-- Numpy for the examples. -/
def demoExt : KnnExt Rat := ⟨fun x => x, sortPart⟩

/-- Three training rows with labels 10, 20, 20. -/
def demoX : ArrIn Rat := .vec [0, 1, 2]

/-- Non-vacuity: two neighbours with equal votes, and with votes by distance; queries 0 and 3. -/
example : (predictProba demoExt ⟨2, "euclidean", "uniform", 1, 1⟩
      (fit ⟨2, "euclidean", "uniform", 1, 1⟩ .fresh demoX [10, 20, 20]).1 (.vec [0, 3]) = .ok [[1 / 2, 1 / 2], [0, 1]]) ∧
    (predict demoExt ⟨2, "euclidean", "uniform", 1, 1⟩
      (fit ⟨2, "euclidean", "uniform", 1, 1⟩ .fresh demoX [10, 20, 20]).1 (.vec [0, 3]) = .ok [10, (20 : Int)]) ∧
    (predictProba demoExt ⟨2, "euclidean", "distance", 7, 1⟩
      (fit ⟨2, "euclidean", "distance", 7, 1⟩ .fresh demoX [(10 : Int), 20, 20]).1 (.vec [0, 3])
        = .ok [[2 / 3, 1 / 3], [0, 1]]) := by decide +kernel

/-- The batch size must be positive: a negative one is accepted and gives rows of zeros. -/
theorem C50_needs_positive_batch :
    (fit ⟨2, "euclidean", "uniform", -1, 1⟩ .fresh demoX [(10 : Int), 20, 20]).2 = .ok (3, 1, 2) ∧
    predictProba demoExt ⟨2, "euclidean", "uniform", -1, 1⟩
      (fit ⟨2, "euclidean", "uniform", -1, 1⟩ .fresh demoX [(10 : Int), 20, 20]).1 (.vec [0, 3]) = .ok [[0, 0], [0, 0]] := by
  decide +kernel

/-- **C89 is violated.**  A fitted classifier predicts 20; a second `fit` with too few labels raises, and afterwards
the classifier predicts 99, a label of no accepted training set. -/
theorem C89_failed_fit_violated :
    let p : KnnParams Rat := ⟨1, "euclidean", "uniform", 8, 1⟩
    let st := (fit p .fresh demoX [(10 : Int), 20, 20]).1
    (fit p .fresh demoX [(10 : Int), 20, 20]).2 = .ok (3, 1, 2) ∧
    predict demoExt p st (.vec [2]) = .ok [20] ∧
    (fit p st demoX [98, 99]).2 = .error .validation ∧
    predict demoExt p (fit p st demoX [98, 99]).1 (.vec [2]) = .ok [99] := by
  decide +kernel

end ModSSC.Supervised
