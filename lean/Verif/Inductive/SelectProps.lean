import Verif.Inductive.SelectModel
import Verif.Inductive.SelectSpec
import Verif.Evaluation.Props
import Verif.ExceptLemmas
import Verif.ListLemmas
import Verif.Labels.Props
import Mathlib.Data.List.GetD

/-!
# C56: pseudo-labels come only from the most confident predictions
-/

namespace ModSSC.Inductive
open ModSSC Spec

theorem rowMax_spec : ∀ {r : List Rat}, r ≠ [] → IsLargest r (rowMax r)
  | [], h => absurd rfl h
  | [a], _ => by simp [IsLargest, rowMax]
  | a :: b :: rest, _ => by
    obtain ⟨h1, h2⟩ := rowMax_spec (r := b :: rest) (by simp)
    simp only [rowMax]
    constructor
    · rcases max_choice a (rowMax (b :: rest)) with h | h <;> rw [h]
      · exact List.mem_cons_self ..
      · exact List.mem_cons_of_mem _ h1
    · intro x hx
      rcases List.mem_cons.mp hx with rfl | hx
      · exact le_max_left _ _
      · exact le_trans (h2 x hx) (le_max_right _ _)

theorem isMax_unique {r : List Rat} {v w : Rat} (h : IsLargest r v) (h' : IsLargest r w) : v = w :=
  le_antisymm (h'.2 v h.1) (h.2 w h'.1)

theorem argmax_isFirstMax {r : List Rat} (h : r ≠ []) : IsFirstMax r (Evaluation.argmax r) := by
  obtain ⟨h1, h2⟩ := Evaluation.argmax_spec h
  have hlt := Evaluation.argmax_lt h
  refine ⟨r.getD (Evaluation.argmax r) 0, ?_, h1, fun j x hj hx => ?_⟩
  · rw [List.getD_eq_getElem _ _ hlt, List.getElem?_eq_getElem hlt]
  · have := h2 j hj
    rwa [List.getD_eq_getElem?_getD, hx] at this

/-- What both `top` implementations guarantee for a nonnegative `k`. -/
def IsTop (top : Top) : Prop :=
  ∀ (k : Nat) (ks : List Rat), ∃ l, top k ks = .ok l ∧ l.Nodup ∧ l.length = min k ks.length ∧
    (∀ i ∈ l, i < ks.length) ∧ ∀ j, j < ks.length → j ∉ l → ∀ i ∈ l, ks.getD j 0 ≤ ks.getD i 0

theorem npTop_isTop {argsort : List Rat → List Nat} (h : IsArgsortQ argsort) : IsTop (npTop argsort) := by
  intro k ks
  obtain ⟨hp, hs⟩ := h ks
  have hpt : pyTake (k : Int) (argsort ks).reverse = (argsort ks).reverse.take k := by
    unfold pyTake; rw [if_pos (by omega)]; rfl
  refine ⟨_, by unfold npTop; rw [hpt], ?_, ?_, ?_, ?_⟩
  · refine List.Sublist.nodup (List.take_sublist _ _) ?_
    rw [List.nodup_reverse]
    exact hp.nodup_iff.mpr List.nodup_range
  · rw [List.length_take, List.length_reverse, hp.length_eq, List.length_range]
  · intro i hi
    have := List.mem_of_mem_take hi
    rw [List.mem_reverse] at this
    exact List.mem_range.mp (hp.mem_iff.mp this)
  · intro j hj hnj i hi
    have hjm : j ∈ (argsort ks).reverse := List.mem_reverse.mpr (hp.mem_iff.mpr (List.mem_range.mpr hj))
    have hjd : j ∈ (argsort ks).reverse.drop k := by
      rw [← List.take_append_drop k (argsort ks).reverse] at hjm
      exact (List.mem_append.mp hjm).resolve_left hnj
    have hs' : ((argsort ks).reverse).Pairwise (fun i j => ks.getD j 0 ≤ ks.getD i 0) :=
      List.pairwise_reverse.mpr hs
    rw [← List.take_append_drop k (argsort ks).reverse] at hs'
    exact (List.pairwise_append.mp hs').2.2 i hi j hjd

theorem torchTop_isTop {topk : Nat → List Rat → List Nat} (h : IsTopk topk) : IsTop (torchTop topk) := by
  intro k ks
  obtain ⟨h1, h2, h3, h4⟩ := h (min k ks.length) ks (Nat.min_le_right _ _)
  refine ⟨_, by unfold torchTop; rw [if_neg (by omega), Int.toNat_natCast], h1, h2, h3, h4⟩

/-- Taking the top of a list of eligible samples is a top selection. -/
theorem top_of_list {top : Top} (htop : IsTop top) {el : List Nat} (hnd : el.Nodup) (conf : Nat → Rat)
    (k : Nat) : ∃ order, top k (el.map conf) = .ok order ∧
      IsTopSelection (· ∈ el) conf (some k) (order.map fun p => el.getD p 0) := by
  obtain ⟨l, hl, h1, h2, h3, h4⟩ := htop k (el.map conf)
  rw [List.length_map] at h2 h3 h4
  have hget : ∀ p, p < el.length → el.getD p 0 ∈ el := by
    intro p hp
    rw [List.getD_eq_getElem _ _ hp]
    exact List.getElem_mem hp
  have hinj : ∀ p q, p < el.length → q < el.length → el.getD p 0 = el.getD q 0 → p = q := by
    intro p q hp hq h
    rw [List.getD_eq_getElem _ _ hp, List.getD_eq_getElem _ _ hq] at h
    exact (List.Nodup.getElem_inj_iff hnd).mp h
  have hkey : ∀ p, p < el.length → (el.map conf).getD p 0 = conf (el.getD p 0) := by
    intro p hp
    rw [List.getD_eq_getElem _ _ (by simpa using hp), List.getD_eq_getElem _ _ hp, List.getElem_map]
  refine ⟨l, hl, ?_, ?_, ?_, ?_, ?_⟩
  · refine (List.nodup_map_iff_inj_on h1).mpr fun p hp q hq h => hinj p q (h3 p hp) (h3 q hq) h
  · intro i hi
    obtain ⟨p, hp, rfl⟩ := List.mem_map.mp hi
    exact hget p (h3 p hp)
  · intro h; exact absurd h (by simp)
  · intro m hm
    obtain rfl := Option.some.inj hm
    rw [List.length_map, h2]
    exact Nat.min_le_left _ _
  · intro m hm j hj hnj
    obtain rfl := Option.some.inj hm
    obtain ⟨p, hp, rfl⟩ := List.getElem_of_mem hj
    have hpl : p ∉ l := by
      intro h
      exact hnj (List.mem_map.mpr ⟨p, h, List.getD_eq_getElem _ _ hp⟩)
    constructor
    · rw [List.length_map, h2]
      have : l.length < el.length := by
        by_contra hge
        have hsub : l.Subperm (List.range el.length) :=
          List.subperm_of_subset h1 (fun i hi => List.mem_range.mpr (h3 i hi))
        have hperm : l.Perm (List.range el.length) :=
          hsub.perm_of_length_le (by rw [List.length_range]; omega)
        exact hpl (hperm.mem_iff.mpr (List.mem_range.mpr hp))
      omega
    · intro i hi
      obtain ⟨q, hq, rfl⟩ := List.mem_map.mp hi
      have := h4 p hp hpl q hq
      rw [hkey p hp, hkey q (h3 q hq), List.getD_eq_getElem _ _ hp] at this
      exact this

theorem topSel_congr {e e' : Nat → Prop} {conf conf' : Nat → Rat} {limit : Option Nat} {idx : List Nat}
    (he : ∀ i, e i ↔ e' i) (hc : ∀ i, e' i → conf i = conf' i) (h : IsTopSelection e conf limit idx) :
    IsTopSelection e' conf' limit idx := by
  refine ⟨h.nodup, fun i hi => (he i).mp (h.sound i hi), fun hl i hi => h.all hl i ((he i).mpr hi), h.bound,
    fun m hm j hj hnj => ?_⟩
  obtain ⟨h1, h2⟩ := h.best m hm j ((he j).mpr hj) hnj
  refine ⟨h1, fun i hi => ?_⟩
  rw [← hc j hj, ← hc i ((he i).mp (h.sound i hi))]
  exact h2 i hi

theorem topSel_full {e : Nat → Prop} {conf : Nat → Rat} {limit : Option Nat} {idx : List Nat}
    (hnd : idx.Nodup) (h : ∀ i, e i ↔ i ∈ idx) (hl : ∀ m, limit = some m → idx.length ≤ m) :
    IsTopSelection e conf limit idx :=
  ⟨hnd, fun i hi => (h i).mpr hi, fun _ i hi => (h i).mp hi, hl,
    fun _ _ j hj hnj => absurd ((h j).mp hj) hnj⟩

theorem filter_map_getD (conf : List Rat) (p : Rat → Bool) :
    conf.filter p = ((List.range conf.length).filter fun i => p (conf.getD i 0)).map fun i => conf.getD i 0 := by
  have : conf = (List.range conf.length).map fun i => conf.getD i 0 := by
    apply List.ext_getElem (by simp)
    intro i h1 h2
    rw [List.getElem_map, List.getElem_range, List.getD_eq_getElem _ _ h1]
  conv_lhs => rw [this]
  rw [List.filter_map]
  rfl

theorem meets_iff {threshold : Option Rat} {c : Rat} : meets threshold c = true ↔ ∀ t, threshold = some t → t ≤ c := by
  cases threshold with
  | none => simp [meets]
  | some t => simp [meets]

/-- **C56 (`select_confident`, numpy and torch).**  On any score matrix with at least one class, any
threshold and any `max_new ≥ 0`, the result is a selection of the most confident samples among those
whose largest score reaches the threshold. -/
theorem C56_confident {top : Top} (htop : IsTop top) (s : Scores) (hs : s.Rect) (hc : 0 < s.cols)
    (threshold : Option Rat) (maxNew : Option Nat) :
    ∃ idx, selectConfident top s threshold (maxNew.map fun (m : Nat) => (m : Int)) = .ok idx ∧
      ∃ conf : Nat → Rat, (∀ (i : Nat) (row : List Rat), s.rows[i]? = some row → IsLargest row (conf i)) ∧
        IsTopSelection (fun i => i < s.rows.length ∧ ∀ t, threshold = some t → t ≤ conf i) conf maxNew idx := by
  unfold selectConfident confidences
  rw [if_neg (by omega)]
  simp only [bind, Except.bind, List.length_map]
  set conf := s.rows.map rowMax with hconf
  set el := (List.range s.rows.length).filter fun i => meets threshold (conf.getD i 0) with hel
  have hlen : conf.length = s.rows.length := by simp [hconf]
  have hnd : el.Nodup := List.Nodup.filter _ List.nodup_range
  have hmem : ∀ i, (i < s.rows.length ∧ ∀ t, threshold = some t → t ≤ conf.getD i 0) ↔ i ∈ el := by
    intro i
    rw [hel, List.mem_filter, List.mem_range, meets_iff]
  have hrow : ∀ (i : Nat) (row : List Rat), s.rows[i]? = some row → IsLargest row (conf.getD i 0) := by
    intro i row h
    have hne : row ≠ [] := by
      have := hs row (List.mem_of_getElem? h)
      intro h0; rw [h0] at this; simp at this; omega
    have : conf.getD i 0 = rowMax row := by
      rw [hconf, List.getD_eq_getElem?_getD, List.getElem?_map, h]; rfl
    rw [this]
    exact rowMax_spec hne
  cases maxNew with
  | none =>
    exact ⟨el, rfl, fun i => conf.getD i 0, hrow, topSel_full hnd hmem (by simp)⟩
  | some m =>
    simp only [Option.map_some]
    by_cases hlt : (m : Int) < el.length
    · rw [if_pos hlt]
      have hk : conf.filter (meets threshold) = el.map fun i => conf.getD i 0 := by
        rw [filter_map_getD, hlen]
      obtain ⟨order, ho, hsel⟩ := top_of_list htop hnd (fun i => conf.getD i 0) m
      rw [hk, ho]
      exact ⟨_, rfl, fun i => conf.getD i 0, hrow, topSel_congr (fun i => (hmem i).symm) (fun _ _ => rfl) hsel⟩
    · rw [if_neg hlt]
      refine ⟨el, rfl, fun i => conf.getD i 0, hrow, topSel_full hnd hmem ?_⟩
      intro m' hm'
      obtain rfl := Option.some.inj hm'
      omega

theorem topOfClass_ok {top : Top} (htop : IsTop top) (s : Scores) (pred : List Nat) (k : Nat)
    (threshold : Option Rat) (c : Nat) :
    ∃ l, topOfClass top s pred k threshold c = .ok l ∧
      IsTopSelection (fun i => i < pred.length ∧ pred.getD i 0 = c ∧ ∀ t, threshold = some t → t ≤ scoreAt s i c)
        (fun i => scoreAt s i c) (some k) l := by
  unfold topOfClass
  simp only
  set el := ((List.range pred.length).filter fun i => decide (pred.getD i 0 = c)).filter
    fun i => meets threshold (scoreAt s i c) with hel
  have hmem : ∀ i, i ∈ el ↔ (i < pred.length ∧ pred.getD i 0 = c ∧ ∀ t, threshold = some t → t ≤ scoreAt s i c) := by
    intro i
    rw [hel, List.mem_filter, List.mem_filter, List.mem_range, meets_iff, decide_eq_true_eq, and_assoc]
  have hnd : el.Nodup := List.Nodup.filter _ (List.Nodup.filter _ List.nodup_range)
  by_cases h : el = []
  · rw [if_pos h]
    refine ⟨[], rfl, topSel_full List.nodup_nil (fun i => ?_) (fun m _ => Nat.zero_le _)⟩
    rw [← hmem, h]
  · rw [if_neg h]
    obtain ⟨order, ho, hsel⟩ := top_of_list htop hnd (fun i => scoreAt s i c) k
    rw [ho]
    exact ⟨_, rfl, topSel_congr hmem (fun _ _ => rfl) hsel⟩

/-- **C56 (`select_top_per_class`, numpy and torch).**  On any score matrix with at least one class, any
threshold and `k_per_class ≥ 0`, the result is in increasing order, and for each class the selected
samples predicted as that class are its `k_per_class` best ones among those reaching the threshold. -/
theorem C56_per_class {top : Top} (htop : IsTop top) (s : Scores) (hs : s.Rect) (hc : 0 < s.cols)
    (threshold : Option Rat) (k : Nat) :
    ∃ idx, selectTopPerClass top s k threshold = .ok idx ∧ idx.Pairwise (· < ·) ∧
      (∀ i ∈ idx, i < s.rows.length) ∧
      ∀ c, c < s.cols → ∃ sel : List Nat,
        (∀ i, i ∈ sel ↔ i ∈ idx ∧ ∃ row, s.rows[i]? = some row ∧ IsFirstMax row c) ∧
        IsTopSelection
          (fun i => ∃ row v, s.rows[i]? = some row ∧ IsFirstMax row c ∧ row[c]? = some v ∧
            ∀ t, threshold = some t → t ≤ v)
          (fun i => scoreAt s i c) (some k) sel := by
  set pred := s.rows.map Evaluation.argmax with hpred
  have hall := fun c => topOfClass_ok htop s pred k threshold c
  choose f hf1 hf2 using hall
  have hmapM : (List.range s.cols).mapM (topOfClass top s pred k threshold) = .ok ((List.range s.cols).map f) := by
    rw [mapM_ok]
    rw [List.forall₂_map_right_iff]
    exact List.forall₂_same.mpr fun c _ => hf1 c
  have hok : selectTopPerClass top s k threshold = .ok (npSort ((List.range s.cols).map f).flatten.dedup) := by
    unfold selectTopPerClass
    rw [if_neg (by omega)]
    simp only [← hpred]
    rw [hmapM]
    rfl
  have hlenp : pred.length = s.rows.length := by simp [hpred]
  have hmem : ∀ i, i ∈ npSort ((List.range s.cols).map f).flatten.dedup ↔ ∃ c, c < s.cols ∧ i ∈ f c := by
    intro i
    rw [mem_npSort, List.mem_dedup, List.mem_flatten]
    constructor
    · rintro ⟨l, hl, hi⟩
      obtain ⟨c, hc, rfl⟩ := List.mem_map.mp hl
      exact ⟨c, List.mem_range.mp hc, hi⟩
    · rintro ⟨c, hc, hi⟩
      exact ⟨_, List.mem_map.mpr ⟨c, List.mem_range.mpr hc, rfl⟩, hi⟩
  have hfirst : ∀ (i c : Nat) (row : List Rat), s.rows[i]? = some row → (pred.getD i 0 = c ↔ IsFirstMax row c) := by
    intro i c row h
    have hne : row ≠ [] := by
      have := hs row (List.mem_of_getElem? h)
      intro h0; rw [h0] at this; simp at this; omega
    have hp : pred.getD i 0 = Evaluation.argmax row := by
      rw [hpred, List.getD_eq_getElem?_getD, List.getElem?_map, h]; rfl
    rw [hp]
    constructor
    · rintro rfl; exact argmax_isFirstMax hne
    · intro hf
      obtain ⟨v, h1, h2, h3⟩ := hf
      obtain ⟨v', h1', h2', h3'⟩ := argmax_isFirstMax hne
      rcases Nat.lt_trichotomy (Evaluation.argmax row) c with hlt | heq | hlt
      · have ha := h3 _ _ hlt h1'
        have hb := h2' v (List.mem_of_getElem? h1)
        exact absurd ha (not_lt.mpr hb)
      · exact heq
      · have ha := h3' _ _ hlt h1
        have hb := h2 v' (List.mem_of_getElem? h1')
        exact absurd ha (not_lt.mpr hb)
  refine ⟨_, hok, npSort_strict (List.nodup_dedup _), ?_, ?_⟩
  · intro i hi
    obtain ⟨c, -, hi⟩ := (hmem i).mp hi
    have := ((hf2 c).sound i hi).1
    omega
  · intro c hcc
    have hel : ∀ i, (i < pred.length ∧ pred.getD i 0 = c ∧ ∀ t, threshold = some t → t ≤ scoreAt s i c) ↔
        ∃ row v, s.rows[i]? = some row ∧ IsFirstMax row c ∧ row[c]? = some v ∧ ∀ t, threshold = some t → t ≤ v := by
      intro i
      constructor
      · rintro ⟨h1, h2, h3⟩
        have hi : i < s.rows.length := by omega
        have hr := List.getElem?_eq_getElem hi
        have hcr : c < (s.rows[i]).length := by rw [hs _ (List.getElem_mem hi)]; exact hcc
        refine ⟨s.rows[i], s.rows[i][c], hr, (hfirst i c _ hr).mp h2, List.getElem?_eq_getElem hcr, ?_⟩
        have : scoreAt s i c = s.rows[i][c] := by
          unfold scoreAt
          rw [List.getD_eq_getElem _ _ hi, List.getD_eq_getElem _ _ hcr]
        rw [← this]; exact h3
      · rintro ⟨row, v, h1, h2, h3, h4⟩
        have hi : i < s.rows.length := (List.getElem?_eq_some_iff.mp h1).1
        refine ⟨by omega, (hfirst i c _ h1).mpr h2, ?_⟩
        have : scoreAt s i c = v := by
          unfold scoreAt
          rw [List.getD_eq_getElem?_getD (l := s.rows), h1]
          simp only [Option.getD_some]
          rw [List.getD_eq_getElem?_getD, h3]
          rfl
        rw [this]; exact h4
    refine ⟨f c, fun i => ?_, topSel_congr hel (fun _ _ => rfl) (hf2 c)⟩
    constructor
    · intro hi
      refine ⟨(hmem i).mpr ⟨c, hcc, hi⟩, ?_⟩
      obtain ⟨row, v, h1, h2, -, -⟩ := (hel i).mp ((hf2 c).sound i hi)
      exact ⟨row, h1, h2⟩
    · rintro ⟨hi, row, h1, h2⟩
      obtain ⟨c', hc', hi'⟩ := (hmem i).mp hi
      have h3 := ((hf2 c').sound i hi').2.1
      have h4 := (hfirst i c row h1).mpr h2
      have : c' = c := h3.symm.trans h4
      rw [← this]; exact hi'

/-! ### concrete cases -/

/-- Positions by key, insertion sort: a concrete argsort. -/
def demoArgsort (ks : List Rat) : List Nat :=
  (List.range ks.length).insertionSort (fun i j => ks.getD i 0 ≤ ks.getD j 0)

theorem demoArgsort_ok : IsArgsortQ demoArgsort := by
  intro ks
  refine ⟨List.perm_insertionSort _ _, ?_⟩
  have : Std.Total (fun i j : Nat => ks.getD i 0 ≤ ks.getD j 0) := ⟨fun i j => le_total _ _⟩
  have : IsTrans Nat (fun i j : Nat => ks.getD i 0 ≤ ks.getD j 0) := ⟨fun i j k => le_trans⟩
  exact List.pairwise_insertionSort _ _

example : selectConfident (npTop demoArgsort) ⟨2, [[1/2, 1/2], [9/10, 1/10], [1/5, 4/5], [0, 1]]⟩ (some (3/4)) (some 2)
    = .ok [3, 1] := by decide +kernel

example : selectTopPerClass (npTop demoArgsort) ⟨2, [[1/2, 1/2], [9/10, 1/10], [1/5, 4/5], [0, 1]]⟩ 1 none
    = .ok [1, 3] := by decide +kernel

end ModSSC.Inductive
