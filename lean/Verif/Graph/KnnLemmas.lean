import Verif.Graph.KnnModel
import Verif.Graph.KnnSpec
import Mathlib.Data.List.GetD
import Mathlib.Data.List.Nodup
import Mathlib.Data.List.Sort
import Mathlib.Algebra.Order.BigOperators.Group.List
import Mathlib.Tactic.Linarith
import Mathlib.Tactic.Ring
import Mathlib.Tactic.FieldSimp

/-!
# Neighbour graphs: lemmas
-/

namespace ModSSC.Graph
open ModSSC Spec

/-- Contract of the numpy functions: the square root of non-negative numbers; `argpartition` is a
permutation whose first `kth + 1` positions hold values not above the others; `argsort` (not
necessarily stable) is a permutation sorted by value. -/
structure NumpyExt.Lawful {K : Type} [Field K] [LinearOrder K] (ext : NumpyExt K) : Prop where
  sqrt : ∀ x, 0 ≤ x → 0 ≤ ext.sqrt x ∧ ext.sqrt x * ext.sqrt x = x
  part_perm : ∀ row kth, kth < row.length →
    (ext.argpartition row kth).Perm (List.range row.length)
  part_le : ∀ row kth, kth < row.length → ∀ a ∈ (ext.argpartition row kth).take (kth + 1),
    ∀ b ∈ (ext.argpartition row kth).drop (kth + 1), row.getD a ⊤ ≤ row.getD b ⊤
  sort_perm : ∀ ds, (ext.argsort ds).Perm (List.range ds.length)
  sort_le : ∀ ds, (ext.argsort ds).Pairwise (fun a b => ds.getD a ⊤ ≤ ds.getD b ⊤)

variable {K : Type} [Field K] [LinearOrder K]

/-- A lawful set of numpy functions built on insertion sort. -/
def stableExt (sqrt : K → K) : NumpyExt K :=
  let sortBy := fun ds : List (WithTop K) =>
    (List.range ds.length).insertionSort (fun a b => ds.getD a ⊤ ≤ ds.getD b ⊤)
  ⟨sqrt, fun row _ => sortBy row, sortBy⟩

theorem stableExt_lawful {sqrt : K → K}
    (h : ∀ x, 0 ≤ x → 0 ≤ sqrt x ∧ sqrt x * sqrt x = x) : (stableExt sqrt).Lawful := by
  have hs : ∀ ds : List (WithTop K), ((List.range ds.length).insertionSort
      (fun a b => ds.getD a ⊤ ≤ ds.getD b ⊤)).Pairwise (fun a b => ds.getD a ⊤ ≤ ds.getD b ⊤) := by
    intro ds
    haveI : Std.Total (fun a b : Nat => ds.getD a ⊤ ≤ ds.getD b ⊤) := ⟨fun a b => le_total _ _⟩
    haveI : IsTrans Nat (fun a b : Nat => ds.getD a ⊤ ≤ ds.getD b ⊤) :=
      ⟨fun a b c h1 h2 => le_trans h1 h2⟩
    exact List.pairwise_insertionSort _ _
  refine ⟨h, fun row _ _ => List.perm_insertionSort _ _, ?_, fun _ => List.perm_insertionSort _ _, hs⟩
  intro row kth _ a ha b hb
  have := hs row
  rw [← List.take_append_drop (kth + 1) (List.insertionSort _ _), List.pairwise_append] at this
  exact this.2.2 a ha b hb

theorem dotp_eq (x y : List K) : dotp x y = inner x y := by
  unfold dotp inner
  induction x generalizing y with
  | nil => simp
  | cons a x ih => cases y <;> simp_all

theorem dotp_cons (a b : K) (x y : List K) : dotp (a :: x) (b :: y) = a * b + dotp x y := by
  simp [dotp]

theorem dotp_scale (x y : List K) (a b : K) :
    dotp (x.map (· / a)) (y.map (· / b)) = dotp x y / (a * b) := by
  induction x generalizing y with
  | nil => simp [dotp]
  | cons u x ih =>
    cases y with
    | nil => simp [dotp]
    | cons v y =>
      simp only [List.map_cons, dotp_cons, ih]
      rw [add_div, div_mul_div_comm]

theorem sq_identity {x y : List K} (h : x.length = y.length) :
    dotp x x + dotp y y - 2 * dotp x y = sqDist x y := by
  induction x generalizing y with
  | nil =>
    cases y with
    | nil => simp [dotp, sqDist]
    | cons _ _ => simp at h
  | cons a x ih =>
    cases y with
    | nil => simp at h
    | cons b y =>
      have := ih (y := y) (by simpa using h)
      simp only [dotp_cons]
      have e : sqDist (a :: x) (b :: y) = (a - b) * (a - b) + sqDist x y := by simp [sqDist]
      rw [e, ← this]; ring

variable [IsStrictOrderedRing K]

theorem sqDist_nonneg (x y : List K) : 0 ≤ sqDist x y := by
  unfold sqDist
  apply List.sum_nonneg
  intro a ha
  obtain ⟨p, -, rfl⟩ := List.mem_map.mp ha
  exact mul_self_nonneg _

theorem inner_self_nonneg (x : List K) : 0 ≤ dotp x x := by
  induction x with
  | nil => simp [dotp]
  | cons a x ih => rw [dotp_cons]; have := mul_self_nonneg a; linarith

/-- The distance of a metric, in textbook form. -/
def Dist (eps : K) (m : Metric) (x y : List K) (d : K) : Prop :=
  match m with
  | .cosine => IsCosine eps x y d
  | .euclidean => IsEuclidean x y d

/-- The finite distance the code reports. -/
def rep (ext : NumpyExt K) (eps : K) (m : Metric) (x y : List K) : K :=
  match m with
  | .cosine => rankDist ext eps m x y
  | .euclidean => ext.sqrt (rankDist ext eps m x y)

theorem reported_coe (ext : NumpyExt K) (eps : K) (m : Metric) (x y : List K) :
    reported ext m ((rankDist ext eps m x y : K) : WithTop K) = ((rep ext eps m x y : K) : WithTop K) := by
  cases m <;> rfl

theorem sq_unique {a b : K} (ha : 0 ≤ a) (hb : 0 ≤ b) (h : a * a = b * b) : a = b := by
  rcases mul_self_eq_mul_self_iff.mp h with h | h
  · exact h
  · have : a = 0 := by linarith
    rw [this] at h ⊢; linarith

theorem dist_iff {ext : NumpyExt K} (hl : ext.Lawful) {eps : K} (m : Metric) {x y : List K}
    (h : x.length = y.length) (d : K) : Dist eps m x y d ↔ d = rep ext eps m x y := by
  cases m with
  | cosine =>
    obtain ⟨a1, a2⟩ := hl.sqrt _ (inner_self_nonneg x)
    obtain ⟨b1, b2⟩ := hl.sqrt _ (inner_self_nonneg y)
    have e : rep ext eps .cosine x y =
        1 - inner x y / (max (ext.sqrt (dotp x x)) eps * max (ext.sqrt (dotp y y)) eps) := by
      simp only [rep, rankDist, l2Normalize]
      rw [dotp_scale, dotp_eq x y]
    constructor
    · rintro ⟨a, b, ⟨ha0, ha⟩, ⟨hb0, hb⟩, rfl⟩
      rw [e]
      have e1 : a = ext.sqrt (dotp x x) := sq_unique ha0 a1 (by rw [ha, a2, dotp_eq])
      have e2 : b = ext.sqrt (dotp y y) := sq_unique hb0 b1 (by rw [hb, b2, dotp_eq])
      rw [e1, e2]
    · rintro rfl
      exact ⟨ext.sqrt (dotp x x), ext.sqrt (dotp y y), ⟨a1, by rw [a2, dotp_eq]⟩,
        ⟨b1, by rw [b2, dotp_eq]⟩, e⟩
  | euclidean =>
    have e : rankDist ext eps .euclidean x y = sqDist x y := by
      simp only [rankDist]
      rw [sq_identity h, max_eq_left (sqDist_nonneg x y)]
    obtain ⟨a1, a2⟩ := hl.sqrt _ (sqDist_nonneg x y)
    constructor
    · rintro ⟨h0, h1⟩
      exact sq_unique h0 (by rw [rep, e]; exact a1) (by rw [rep, e, a2, h1])
    · rintro rfl
      exact ⟨by rw [rep, e]; exact a1, by rw [rep, e, a2]⟩

theorem sqrt_le_iff {ext : NumpyExt K} (hl : ext.Lawful) {a b : K} (ha : 0 ≤ a) (hb : 0 ≤ b) :
    ext.sqrt a ≤ ext.sqrt b ↔ a ≤ b := by
  obtain ⟨a1, a2⟩ := hl.sqrt a ha
  obtain ⟨b1, b2⟩ := hl.sqrt b hb
  rw [mul_self_le_mul_self_iff a1 b1, a2, b2]

theorem rep_le_iff {ext : NumpyExt K} (hl : ext.Lawful) (eps : K) (m : Metric) (x y x' y' : List K) :
    rep ext eps m x y ≤ rep ext eps m x' y' ↔
      rankDist ext eps m x y ≤ rankDist ext eps m x' y' := by
  cases m with
  | cosine => rfl
  | euclidean =>
    exact sqrt_le_iff hl (by simp [rankDist]) (by simp [rankDist])

theorem finite?_coe (x : K) : finite? (x : WithTop K) = some x := rfl

theorem distRow_get (ext : NumpyExt K) (eps : K) (m : Metric) (s : Bool) (X : List (List K)) (i j : Nat)
    (hj : j < X.length) : (distRow ext eps m s X i).getD j ⊤ =
      if !s && decide (j = i) then ⊤
      else ((rankDist ext eps m (X.getD i []) (X.getD j []) : K) : WithTop K) := by
  unfold distRow
  rw [List.getD_eq_getElem _ _ (by simpa using hj)]
  simp

theorem distRow_length (ext : NumpyExt K) (eps : K) (m : Metric) (s : Bool) (X : List (List K)) (i : Nat) :
    (distRow ext eps m s X i).length = X.length := by simp [distRow]

theorem map_getD_range {α : Type} (l : List α) (d : α) :
    (List.range l.length).map (fun o => l.getD o d) = l := by
  apply List.ext_getElem (by simp)
  intro i h1 h2
  simp only [List.getElem_map, List.getElem_range]
  rw [List.getD_eq_getElem _ _ h2]

theorem filterMap_map_of {α β : Type} {l : List α} {f : α → Option β} {g : α → β}
    (h : ∀ a ∈ l, f a = some (g a)) : l.filterMap f = l.map g := by
  induction l with
  | nil => rfl
  | cons a l ih =>
    rw [List.filterMap_cons_some (h a (by simp)), ih (fun b hb => h b (List.mem_cons_of_mem _ hb)),
      List.map_cons]

/-- One row of the kNN computation. -/
theorem knnRow_eq {ext : NumpyExt K} (hl : ext.Lawful) (eps : K) (m : Metric) (s : Bool)
    (X : List (List K)) (k i : Nat) (hk : 0 < k) (hkn : k ≤ if s then X.length else X.length - 1)
    (hi : i < X.length) :
    ∃ js : List Nat, knnRow ext eps m s X k i
        = js.map (fun j => (i, j, rep ext eps m (X.getD i []) (X.getD j []))) ∧
      js.length = k ∧ js.Nodup ∧ (∀ j ∈ js, j < X.length ∧ (s = true ∨ j ≠ i)) ∧
      js.Pairwise (fun a b => rep ext eps m (X.getD i []) (X.getD a [])
        ≤ rep ext eps m (X.getD i []) (X.getD b [])) ∧
      ∀ j, j < X.length → (s = true ∨ j ≠ i) → j ∉ js → ∀ a ∈ js,
        rep ext eps m (X.getD i []) (X.getD a []) ≤ rep ext eps m (X.getD i []) (X.getD j []) := by
  have hkn' : k ≤ X.length := by cases s <;> simp at hkn <;> omega
  set row := distRow ext eps m s X i with hrow
  have hlen : row.length = X.length := distRow_length ..
  have hperm := hl.part_perm row (k - 1) (by omega)
  have hle := hl.part_le row (k - 1) (by omega)
  have hk1 : k - 1 + 1 = k := by omega
  rw [hk1] at hle
  rw [hlen] at hperm
  set p := ext.argpartition row (k - 1) with hp
  have hpl : p.length = X.length := by rw [hperm.length_eq]; simp
  have hpn : p.Nodup := hperm.nodup_iff.mpr List.nodup_range
  set idx := p.take k with hidx
  have hil : idx.length = k := by simp [hidx]; omega
  have hin : idx.Nodup := hpn.sublist (List.take_sublist _ _)
  have hlt : ∀ j ∈ p, j < X.length := fun j hj => by simpa using hperm.mem_iff.mp hj
  have hilt : ∀ j ∈ idx, j < X.length := fun j hj => hlt j (List.mem_of_mem_take hj)
  -- entries
  have hget : ∀ j, j < X.length → (s = true ∨ j ≠ i) → row.getD j ⊤ =
      ((rankDist ext eps m (X.getD i []) (X.getD j []) : K) : WithTop K) := by
    intro j hj hs
    rw [hrow, distRow_get _ _ _ _ _ _ _ hj, if_neg]
    rcases hs with hs | hs
    · simp [hs]
    · simp [hs]
  have hself : ∀ j ∈ idx, s = true ∨ j ≠ i := by
    intro j hj
    by_cases hs : s = true
    · exact .inl hs
    right
    rintro rfl
    have hs' : s = false := by simpa using hs
    rw [hs'] at hkn
    simp at hkn
    -- an element outside the selection
    have hd : 0 < (p.drop k).length := by simp; omega
    obtain ⟨b, hb⟩ := List.exists_mem_of_length_pos hd
    have hbj : b ≠ j := by
      rintro rfl
      have : (p.take k ++ p.drop k).Nodup := by rw [List.take_append_drop]; exact hpn
      exact (List.nodup_append.mp this).2.2 b hj b hb rfl
    have h1 := hle j hj b hb
    rw [hget b (hlt b (List.mem_of_mem_drop hb)) (.inr hbj), hrow, distRow_get _ _ _ _ _ _ _ hi,
      if_pos (by simp [hs']), top_le_iff] at h1
    exact WithTop.coe_ne_top h1
  set dsel := idx.map (fun j => reported ext m (row.getD j ⊤)) with hdsel
  have hdl : dsel.length = k := by simp [hdsel, hil]
  have hsp := hl.sort_perm dsel
  have hsl := hl.sort_le dsel
  rw [hdl] at hsp
  set order := ext.argsort dsel with horder
  have holt : ∀ o ∈ order, o < k := fun o ho => by simpa using hsp.mem_iff.mp ho
  have hdget : ∀ o, (ho : o < k) → dsel.getD o ⊤ =
      ((rep ext eps m (X.getD i []) (X.getD (idx.getD o 0) []) : K) : WithTop K) := by
    intro o ho
    rw [List.getD_eq_getElem _ _ (by omega), List.getD_eq_getElem idx _ (by omega)]
    simp only [hdsel, List.getElem_map]
    have hm : idx[o] ∈ idx := List.getElem_mem _
    rw [hget _ (hilt _ hm) (hself _ hm), reported_coe]
  refine ⟨order.map (fun o => idx.getD o 0), ?_, ?_, ?_, ?_, ?_, ?_⟩
  · unfold knnRow
    simp only [← hrow, ← hp, ← hidx, ← hdsel, ← horder]
    rw [filterMap_map_of (g := fun o => (idx.getD o 0,
      rep ext eps m (X.getD i []) (X.getD (idx.getD o 0) [])))]
    · rw [List.filter_eq_self.mpr]
      · simp
      · intro q hq
        obtain ⟨o, ho, rfl⟩ := List.mem_map.mp hq
        have ho' := holt o ho
        have hm : idx.getD o 0 ∈ idx := by
          rw [List.getD_eq_getElem _ _ (by omega)]; exact List.getElem_mem _
        rcases hself _ hm with h | h
        · simp [h]
        · have h' : ¬ i = idx.getD o 0 := fun h'' => h h''.symm
          simp only [Bool.or_eq_true, decide_eq_true_eq]
          exact .inr h'
    · intro o ho
      have ho' := holt o ho
      have h1 : idx[o]? = some (idx.getD o 0) := by
        rw [List.getD_eq_getElem _ _ (by omega)]; simp
      have h2 : dsel[o]? = some (dsel.getD o ⊤) := by
        rw [List.getD_eq_getElem _ _ (by omega)]; simp
      rw [h1, h2, hdget o ho']
      simp [finite?_coe]
  · simp [hsp.length_eq]
  · have : (order.map (fun o => idx.getD o 0)).Perm idx := by
      have := hsp.map (fun o => idx.getD o 0)
      rw [← hil, map_getD_range] at this
      exact this
    exact this.nodup_iff.mpr hin
  · intro j hj
    obtain ⟨o, ho, rfl⟩ := List.mem_map.mp hj
    have ho' := holt o ho
    have hm : idx.getD o 0 ∈ idx := by
      rw [List.getD_eq_getElem _ _ (by omega)]; exact List.getElem_mem _
    exact ⟨hilt _ hm, hself _ hm⟩
  · rw [List.pairwise_map]
    refine List.Pairwise.imp_of_mem ?_ hsl
    intro a b ha hb hab
    rw [hdget a (holt a ha), hdget b (holt b hb)] at hab
    exact WithTop.coe_le_coe.mp hab
  · have hmem : ∀ j, j ∈ order.map (fun o => idx.getD o 0) ↔ j ∈ idx := by
      have := hsp.map (fun o => idx.getD o 0)
      rw [← hil, map_getD_range] at this
      exact fun j => this.mem_iff
    intro j hj hs hnot a ha
    rw [hmem] at hnot ha
    have hjd : j ∈ p.drop k := by
      have : j ∈ p := hperm.mem_iff.mpr (by simpa using hj)
      rw [← List.take_append_drop k p] at this
      exact (List.mem_append.mp this).resolve_left hnot
    have := hle a ha j hjd
    rw [hget _ (hilt _ ha) (hself _ ha), hget _ hj hs] at this
    exact (rep_le_iff hl ..).mpr (WithTop.coe_le_coe.mp this)

/-! ## Chunks -/

theorem range_shift (a b : Nat) (h : a ≤ b) :
    List.range b = List.range a ++ (List.range (b - a)).map (fun t => a + t) := by
  conv_lhs => rw [show b = a + (b - a) by omega]
  rw [List.range_add]

omit [Field K] [LinearOrder K] [IsStrictOrderedRing K] in
theorem chunks_flatMap {ε : Type} (row : Nat → List ε) (n c : Nat) (hc : 0 < c) :
    (chunks n c).flatMap (chunkRows row) = (List.range n).flatMap row := by
  have key : ∀ m, (((List.range m).map (fun t => (t * c, min n (t * c + c)))).flatMap (chunkRows row))
      = (List.range (min n (m * c))).flatMap row := by
    intro m
    induction m with
    | zero => simp
    | succ m ih =>
      rw [List.range_succ, List.map_append, List.flatMap_append, ih]
      simp only [List.map_cons, List.map_nil, List.flatMap_cons, List.flatMap_nil, List.append_nil]
      rw [show (m + 1) * c = m * c + c by ring]
      generalize m * c = q
      unfold chunkRows
      by_cases h : q ≤ n
      · rw [Nat.min_eq_right h, range_shift q (min n (q + c)) (by omega), List.flatMap_append]
      · have h1 : min n (q + c) = n := by omega
        have h2 : min n q = n := by omega
        simp [h1, h2, show n - q = 0 by omega]
  unfold chunks
  rw [key]
  have : n ≤ ((n + c - 1) / c) * c := by
    have h1 := Nat.div_add_mod (n + c - 1) c
    have h2 := Nat.mod_lt (n + c - 1) hc
    rw [Nat.mul_comm] at h1
    generalize (n + c - 1) / c * c = q at *
    omega
  rw [Nat.min_eq_left this]

theorem flatMap_filter {β : Type} (f : Nat → List (Nat × β)) (hf : ∀ i, ∀ e ∈ f i, e.1 = i) (n i : Nat) :
    ((List.range n).flatMap f).filter (fun e => decide (e.1 = i)) = if i < n then f i else [] := by
  induction n with
  | zero => simp
  | succ n ih =>
    rw [List.range_succ, List.flatMap_append, List.filter_append, ih]
    simp only [List.flatMap_cons, List.flatMap_nil, List.append_nil]
    by_cases hin : i = n
    · subst hin
      rw [if_neg (by omega), if_pos (by omega), List.nil_append, List.filter_eq_self]
      intro e he
      simp [hf _ e he]
    · have : (f n).filter (fun e => decide (e.1 = i)) = [] := by
        rw [List.filter_eq_nil_iff]
        intro e he
        simp [hf _ e he]; omega
      rw [this, List.append_nil]
      by_cases h : i < n
      · rw [if_pos h, if_pos (by omega)]
      · rw [if_neg h, if_neg (by omega)]

end ModSSC.Graph
