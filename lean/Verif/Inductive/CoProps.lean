import Verif.Inductive.CoModel
import Verif.Inductive.CoSpec
import Verif.Inductive.LoopProps

/-!
# C58: co-training keeps the views aligned and hands over every sample at most once
-/

namespace ModSSC.Inductive
open ModSSC Spec DataLoader
open scoped List

variable {M α : Type}

theorem entriesAt_map {β γ : Type} (f : β → γ) (l : List β) (idx : List Nat) :
    entriesAt (l.map f) idx = (entriesAt l idx).map f := by
  unfold entriesAt
  rw [List.map_filterMap]
  simp

theorem without_map {β γ : Type} (f : β → γ) (l : List β) (idx : List Nat) :
    without (l.map f) idx = (without l idx).map f := by
  unfold without
  rw [List.map_filterMap, List.length_map]
  simp

theorem selectTopPerClass_picks {C : Clf M α} (hC : C.Shapes) {top : Top} (htop : IsTop top) {m : M}
    {pool : List α} {sc : Scores} (hsc : C.scores m pool = .ok sc) {threshold : Option Rat} {k : Nat}
    {idx : List Nat} (h : selectTopPerClass top sc k threshold = .ok idx) :
    IsTopPerClass sc k threshold idx := by
  obtain ⟨idx', h1, h2, h3, h4⟩ := C56_per_class htop sc (hC.rect m pool sc hsc) (hC.cols m pool sc hsc)
    threshold k
  rw [h] at h1
  simp only [Except.ok.injEq] at h1
  subst h1
  exact ⟨h2, h3, h4⟩

theorem handOver_ok {C : Clf M α} {m : M} {u : List α} {idx : List Nat} {u' X' : List α} {y' : List Int}
    {r : List α × List Int} (hu : ∀ i ∈ idx, i < u.length) (hu' : ∀ i ∈ idx, i < u'.length)
    (h : handOver C m u idx u' X' y' = .ok r) :
    ∃ labels, LabelsAt C m u idx labels ∧ r.1 = X' ++ entriesAt u' idx ∧ r.2 = y' ++ labels := by
  unfold handOver at h
  unfold LabelsAt
  by_cases he : idx = []
  · subst he
    rw [if_pos rfl] at h
    simp only [Except.ok.injEq] at h
    subst h
    refine ⟨[], by rw [if_pos rfl], ?_, ?_⟩
    · simp [entriesAt]
    · simp
  · rw [if_neg he, takeIdx_eq hu, takeIdx_eq hu'] at h
    simp only [bind, Except.bind] at h
    cases hp : C.predict m (entriesAt u idx) with
    | error e => rw [hp] at h; simp at h
    | ok labels =>
      rw [hp] at h
      simp only [Except.ok.injEq] at h
      subst h
      exact ⟨labels, by rw [if_neg he], rfl, rfl⟩

theorem labelsAt_length {C : Clf M α} (hC : C.Shapes) {m : M} {X : List α} {idx : List Nat} {labels : List Int}
    (hr : ∀ i ∈ idx, i < X.length) (h : LabelsAt C m X idx labels) : labels.length = idx.length := by
  unfold LabelsAt at h
  by_cases he : idx = []
  · rw [if_pos he] at h; rw [h, he]; rfl
  · rw [if_neg he] at h
    rw [hC.labels _ _ _ h, entriesAt_length hr]

theorem pairwise_lt_nodup {idx : List Nat} (h : idx.Pairwise (· < ·)) : idx.Nodup :=
  h.imp fun h => Nat.ne_of_lt h

theorem without_sublist {β : Type} (l : List β) (a b : List Nat) : without l (a ++ b) <+ without l b := by
  unfold without
  refine List.Sublist.filterMap _ ?_
  have : (List.range l.length).filter (fun i => decide (i ∉ a ++ b))
      = ((List.range l.length).filter (fun i => decide (i ∉ b))).filter (fun i => decide (i ∉ a)) := by
    rw [List.filter_filter]
    refine List.filter_congr fun i _ => ?_
    simp
  rw [this]
  exact List.filter_sublist

theorem without_congr {β : Type} (l : List β) {a b : List Nat} (h : ∀ i, i ∈ a ↔ i ∈ b) :
    without l a = without l b := by
  unfold without
  congr 1
  refine List.filter_congr fun i _ => ?_
  simp only [h i]

theorem without_nil {β : Type} (l : List β) : without l [] = l := by
  have := perm_without (X := l) (idx := []) List.nodup_nil (by simp)
  unfold without
  have h1 : (List.range l.length).filter (fun i => decide (i ∉ ([] : List Nat))) = List.range l.length := by
    rw [List.filter_eq_self]; simp
  rw [h1]
  apply List.ext_getElem?
  intro i
  have : ∀ (n : Nat), n ≤ l.length → ((List.range n).filterMap fun i => l[i]?) = l.take n := by
    intro n
    induction n with
    | zero => simp
    | succ n ih =>
      intro hn
      rw [List.range_succ, List.filterMap_append, ih (by omega), List.take_succ_eq_append_getElem (by omega)]
      simp [List.getElem?_eq_getElem (show n < l.length by omega)]
  rw [this l.length le_rfl, List.take_length]

theorem coStep_conserves {C : Clf M α} (hC : C.Shapes) {k : Nat} {threshold : Option Rat} {s s' : Pair α}
    (h1 : s.X1.length = s.y1.length) (h2 : s.X2.length = s.y2.length) (h : CoStep C k threshold s s') :
    CoConserves s s' ∧ s'.pool.length < s.pool.length := by
  obtain ⟨m1, m2, sc1, sc2, idx1, idx2, l1, l2, -, -, hs1, hs2, ⟨p1, q1, -⟩, ⟨p2, q2, -⟩, hne, hl1, hl2, e1, e2,
    e3, e4, e5⟩ := h
  have n1 := pairwise_lt_nodup p1
  have n2 := pairwise_lt_nodup p2
  rw [hC.rows _ _ _ hs1, List.length_map] at q1
  rw [hC.rows _ _ _ hs2, List.length_map] at q2
  have hperm1 := perm_without n1 q1
  have hperm2 := perm_without n2 q2
  set idx1' := idx1.filter (fun i => decide (i ∉ idx2)) with hidx1'
  have hsub1 : idx1' <+ idx1 := List.filter_sublist
  have hnd : (idx2 ++ idx1').Nodup := by
    refine List.nodup_append.mpr ⟨n2, hsub1.nodup n1, ?_⟩
    intro a ha b hb hab
    subst hab
    have := (List.mem_filter.mp hb).2
    simp only [decide_eq_true_eq] at this
    exact this ha
  have hwo : without s.pool (idx1 ++ idx2) = without s.pool (idx2 ++ idx1') := by
    refine without_congr _ fun i => ?_
    simp only [List.mem_append, hidx1', List.mem_filter, decide_eq_true_eq]
    tauto
  have hp := perm_without (X := s.pool) hnd (fun i hi => (List.mem_append.mp hi).elim (q2 i)
    fun h => q1 i (hsub1.subset h))
  have hent : entriesAt s.pool (idx2 ++ idx1') = entriesAt s.pool idx2 ++ entriesAt s.pool idx1' := by
    unfold entriesAt; rw [List.filterMap_append]
  have hent1 : entriesAt s.pool idx1' <+ entriesAt s.pool idx1 := List.Sublist.filterMap _ hsub1
  have hl1' := labelsAt_length hC (by intro i hi; rw [List.length_map]; exact q1 i hi) hl1
  have hl2' := labelsAt_length hC (by intro i hi; rw [List.length_map]; exact q2 i hi) hl2
  refine ⟨⟨?_, ?_, ?_, ?_, ?_, entriesAt s.pool idx2, entriesAt s.pool idx1, e1, e3, ?_, ?_, ?_⟩, ?_⟩
  · rw [e5]
    have := without_sublist s.pool (idx1 ++ idx2) []
    rw [List.append_nil, without_nil] at this
    exact this
  · rw [e2]; exact List.prefix_append _ _
  · rw [e4]; exact List.prefix_append _ _
  · rw [e1, e2, List.length_append, List.length_append, List.length_map, entriesAt_length q2, hl2', h1]
  · rw [e3, e4, List.length_append, List.length_append, List.length_map, entriesAt_length q1, hl1', h2]
  · rw [e5]
    exact ((without_sublist s.pool idx1 idx2).append_left _).subperm.trans hperm2.subperm
  · rw [e5, without_congr s.pool (a := idx1 ++ idx2) (b := idx2 ++ idx1) (by simp [or_comm])]
    exact ((without_sublist s.pool idx2 idx1).append_left _).subperm.trans hperm1.subperm
  · rw [e5, hwo]
    refine hp.symm.subperm.trans ?_
    rw [hent]
    exact ((hent1.append_left _).append_right _).subperm
  · rw [e5, hwo]
    have hlen := hp.length_eq
    rw [List.length_append, entriesAt_length (fun i hi => (List.mem_append.mp hi).elim (q2 i)
      fun h => q1 i (hsub1.subset h))] at hlen
    have : 0 < (idx2 ++ idx1').length := by
      rw [List.length_pos_iff]
      intro h0
      rw [List.append_eq_nil_iff] at h0
      have h3 : idx1' = idx1 := by
        rw [hidx1', h0.1]; simp
      exact hne ⟨h3 ▸ h0.2, h0.1⟩
    omega

theorem coConserves_trans {a b c : Pair α} (h : CoConserves a b) (h' : CoConserves b c) : CoConserves a c := by
  obtain ⟨p1, p2, p3, p4, p5, n1, n2, p6, p7, p8, p9, p10⟩ := h
  obtain ⟨q1, q2, q3, q4, q5, k1, k2, q6, q7, q8, q9, q10⟩ := h'
  refine ⟨q1.trans p1, p2.trans q2, p3.trans q3, q4, q5, n1 ++ k1, n2 ++ k2, ?_, ?_, ?_, ?_, ?_⟩
  · rw [q6, p6, List.map_append, List.append_assoc]
  · rw [q7, p7, List.map_append, List.append_assoc]
  · rw [List.append_assoc]
    exact ((List.subperm_append_left n1).mpr q8).trans p8
  · rw [List.append_assoc]
    exact ((List.subperm_append_left n2).mpr q9).trans p9
  · refine p10.trans (((List.subperm_append_left (n1 ++ n2)).mpr q10).trans ?_)
    refine List.Perm.subperm ?_
    simp only [List.append_assoc]
    refine List.Perm.append_left _ ?_
    rw [← List.append_assoc, ← List.append_assoc k1]
    exact List.perm_append_comm.append_right _

theorem coConserves_refl {s : Pair α} (h1 : s.X1.length = s.y1.length) (h2 : s.X2.length = s.y2.length) :
    CoConserves s s :=
  ⟨List.Sublist.refl _, List.prefix_rfl, List.prefix_rfl, h1, h2, [], [], by simp, by simp,
    List.Subperm.refl _, List.Subperm.refl _, List.Subperm.refl _⟩

theorem coSteps_conserve {C : Clf M α} (hC : C.Shapes) {k : Nat} {threshold : Option Rat} {n : Nat} {s s' : Pair α}
    (h : Steps (CoStep C k threshold) n s s') :
    s.X1.length = s.y1.length → s.X2.length = s.y2.length →
    CoConserves s s' ∧ n + s'.pool.length ≤ s.pool.length := by
  induction h with
  | zero s => intro h1 h2; exact ⟨coConserves_refl h1 h2, by simp⟩
  | succ hs _ ih =>
    intro h1 h2
    obtain ⟨c, hl⟩ := coStep_conserves hC h1 h2 hs
    obtain ⟨c', hl'⟩ := ih c.2.2.2.1 c.2.2.2.2.1
    exact ⟨coConserves_trans c c', by omega⟩

/-- The loop variables hold the two views of the pool. -/
def Holds (c : CoState α) (s : Pair α) : Prop :=
  c = ⟨s.X1, s.y1, s.X2, s.y2, s.pool.map (·.1), s.pool.map (·.2)⟩

theorem coLoop_spec (C : Clf M α) (hC : C.Shapes) {top : Top} (htop : IsTop top) (maxIter : Int) (k : Nat)
    (threshold : Option Rat) : ∀ (fuel : Nat) (m1 m2 : M) (c : CoState α) (s : Pair α) (t : Nat) (r : CoResult M α),
      Holds c s → coLoop C top ⟨maxIter, k, threshold⟩ fuel m1 m2 c t = .ok r →
      ∃ (n : Nat) (s' : Pair α), Steps (CoStep C k threshold) n s s' ∧ Holds r.last s' ∧ n ≤ fuel ∧
        r.rounds = t + n ∧
        (n = fuel ∨ s'.pool = [] ∨ ∃ m1 m2 sc1 sc2, (∃ m0, C.fit m0 s'.X1 s'.y1 = .ok m1) ∧
          (∃ m0, C.fit m0 s'.X2 s'.y2 = .ok m2) ∧ C.scores m1 (s'.pool.map (·.1)) = .ok sc1 ∧
          C.scores m2 (s'.pool.map (·.2)) = .ok sc2 ∧ IsTopPerClass sc1 k threshold [] ∧
          IsTopPerClass sc2 k threshold []) := by
  intro fuel
  induction fuel with
  | zero =>
    intro m1 m2 c s t r hc h
    simp only [coLoop, Except.ok.injEq] at h
    subst h
    exact ⟨0, s, .zero _, hc, le_rfl, rfl, .inl rfl⟩
  | succ fuel ih =>
    intro m1 m2 c s t r hc h
    subst hc
    simp only [coLoop] at h
    rw [ebind_ok] at h
    obtain ⟨m1', hm1, h⟩ := h
    rw [ebind_ok] at h
    obtain ⟨m2', hm2, h⟩ := h
    by_cases hp : s.pool.map (·.1) = []
    · rw [if_pos hp] at h
      simp only [Except.ok.injEq] at h
      subst h
      exact ⟨0, s, .zero _, rfl, Nat.zero_le _, rfl, .inr (.inl (List.map_eq_nil_iff.mp hp))⟩
    · rw [if_neg hp, ebind_ok] at h
      obtain ⟨sc1, hs1, h⟩ := h
      rw [ebind_ok] at h
      obtain ⟨sc2, hs2, h⟩ := h
      rw [ebind_ok] at h
      obtain ⟨idx1, hi1, h⟩ := h
      rw [ebind_ok] at h
      obtain ⟨idx2, hi2, h⟩ := h
      have t1 := selectTopPerClass_picks hC htop hs1 hi1
      have t2 := selectTopPerClass_picks hC htop hs2 hi2
      by_cases he : idx1 = [] ∧ idx2 = []
      · rw [if_pos he] at h
        simp only [Except.ok.injEq] at h
        subst h
        refine ⟨0, s, .zero _, rfl, Nat.zero_le _, rfl, .inr (.inr ⟨m1', m2', sc1, sc2, ⟨m1, hm1⟩, ⟨m2, hm2⟩, hs1,
          hs2, he.1 ▸ t1, he.2 ▸ t2⟩)⟩
      · rw [if_neg he, ebind_ok] at h
        obtain ⟨two, htwo, h⟩ := h
        rw [ebind_ok] at h
        obtain ⟨one, hone, h⟩ := h
        rw [ebind_ok] at h
        obtain ⟨u1, hu1, h⟩ := h
        rw [ebind_ok] at h
        obtain ⟨u2, hu2, h⟩ := h
        have q1 := t1.2.1
        have q2 := t2.2.1
        rw [hC.rows _ _ _ hs1, List.length_map] at q1
        rw [hC.rows _ _ _ hs2, List.length_map] at q2
        obtain ⟨l1, hl1, b1, b2⟩ := handOver_ok (by rw [List.length_map]; exact q1)
          (by rw [List.length_map]; exact q1) htwo
        obtain ⟨l2, hl2, b3, b4⟩ := handOver_ok (by rw [List.length_map]; exact q2)
          (by rw [List.length_map]; exact q2) hone
        have hk := boolIndex_keep (s.pool.map (·.1)) (idx1 ++ idx2)
        have hk' := boolIndex_keep (s.pool.map (·.2)) (idx1 ++ idx2)
        have hlen : (s.pool.map (·.1)).length = (s.pool.map (·.2)).length := by simp
        rw [hk] at hu1
        rw [hlen, hk'] at hu2
        simp only [Except.ok.injEq, without_map] at hu1 hu2
        simp only [entriesAt_map] at b1 b3
        have hstep : CoStep C k threshold s ⟨one.1, one.2, two.1, two.2, without s.pool (idx1 ++ idx2)⟩ :=
          ⟨m1', m2', sc1, sc2, idx1, idx2, l1, l2, ⟨m1, hm1⟩, ⟨m2, hm2⟩, hs1, hs2, t1, t2, he, hl1, hl2, b3, b4,
            b1, b2, rfl⟩
        obtain ⟨n, s', r1, r2, r3, r4, r5⟩ := ih m1' m2' _
          ⟨one.1, one.2, two.1, two.2, without s.pool (idx1 ++ idx2)⟩ _ r
          (by unfold Holds; rw [← hu1, ← hu2]) h
        refine ⟨n + 1, s', .succ hstep r1, r2, by omega, by omega, ?_⟩
        rcases r5 with r5 | r5
        · exact .inl (by omega)
        · exact .inr r5

/-- **C58.**  For every classifier, pair of views and parameters: if co-training returns, it used two
existing views of equal lengths and ran at most `max_iter` rounds and at most one per pooled sample; in
each round both pools were the two views of the same list of samples; each classifier's picks went,
labeled, to the other and left both pools; no sample was handed twice to the same classifier or lost, and
given labels were kept. -/
theorem C58_co_training (C : Clf M α) (hC : C.Shapes) (top : Top) (htop : IsTop top) (maxIter : Int) (k : Nat)
    (threshold : Option Rat) (m : M) (keys : Option (List String))
    (views : Option (List (String × (List α × List α)))) (y : List Int) (r : CoResult M α)
    (h : coFit C top ⟨maxIter, k, threshold⟩ m keys views y = .ok r) :
    ∃ vs k1 k2 v1 v2, views = some vs ∧ viewKeys keys vs = [k1, k2] ∧ vs.lookup k1 = some v1 ∧
      vs.lookup k2 = some v2 ∧ v1.2.length = v2.2.length ∧
    ∃ s' : Pair α, r.last = ⟨s'.X1, s'.y1, s'.X2, s'.y2, s'.pool.map (·.1), s'.pool.map (·.2)⟩ ∧
      Steps (CoStep C k threshold) r.rounds ⟨v1.1, y, v2.1, y, v1.2.zip v2.2⟩ s' ∧
      r.rounds ≤ maxIter.toNat ∧ r.rounds + s'.pool.length ≤ v1.2.length ∧
      CoConserves ⟨v1.1, y, v2.1, y, v1.2.zip v2.2⟩ s' ∧
      (∃ m0, C.fit m0 s'.X1 s'.y1 = .ok r.m1) ∧ (∃ m0, C.fit m0 s'.X2 s'.y2 = .ok r.m2) ∧
      (r.rounds = maxIter.toNat ∨ s'.pool = [] ∨ ∃ m1 m2 sc1 sc2, (∃ m0, C.fit m0 s'.X1 s'.y1 = .ok m1) ∧
          (∃ m0, C.fit m0 s'.X2 s'.y2 = .ok m2) ∧ C.scores m1 (s'.pool.map (·.1)) = .ok sc1 ∧
          C.scores m2 (s'.pool.map (·.2)) = .ok sc2 ∧ IsTopPerClass sc1 k threshold [] ∧
          IsTopPerClass sc2 k threshold []) := by
  unfold coFit at h
  cases views with
  | none => simp at h
  | some vs =>
    simp only at h
    by_cases hy : y = []
    · rw [if_pos hy] at h; simp at h
    rw [if_neg hy] at h
    split at h
    · rename_i k1 k2 hk
      split at h
      · rename_i v1 v2 hv1 hv2
        by_cases hl : v1.1.length ≠ y.length ∨ v2.1.length ≠ y.length
        · rw [if_pos hl] at h; simp at h
        rw [if_neg hl] at h
        by_cases hu : v1.2.length ≠ v2.2.length
        · rw [if_pos hu] at h; simp at h
        rw [if_neg hu, ebind_ok] at h
        obtain ⟨r0, hr0, h⟩ := h
        rw [ebind_ok] at h
        obtain ⟨m1, hm1, h⟩ := h
        rw [ebind_ok] at h
        obtain ⟨m2, hm2, h⟩ := h
        simp only [Except.ok.injEq] at h
        subst h
        have hl1 : v1.1.length = y.length := by omega
        have hl2 : v2.1.length = y.length := by omega
        have hu' : v1.2.length = v2.2.length := by omega
        obtain ⟨n, s', a1, a2, a3, a4, a5⟩ := coLoop_spec C hC htop maxIter k threshold _ m m _
          ⟨v1.1, y, v2.1, y, v1.2.zip v2.2⟩ 0 r0
          (by
            unfold Holds
            congr 1
            · exact (List.map_fst_zip (by omega)).symm
            · exact (List.map_snd_zip (by omega)).symm) hr0
        obtain ⟨c1, c2⟩ := coSteps_conserve hC a1 hl1 hl2
        have hn : r0.rounds = n := by omega
        have a3 : n ≤ maxIter.toNat := a3
        have a5 : n = maxIter.toNat ∨ _ := a5
        simp only [List.length_zip] at c2
        refine ⟨vs, k1, k2, v1, v2, rfl, hk, hv1, hv2, hu', s', a2, ?_, ?_, ?_, c1, ?_, ?_, ?_⟩
        · show Steps _ r0.rounds _ _
          rw [hn]; exact a1
        · show r0.rounds ≤ _
          omega
        · show r0.rounds + _ ≤ _
          omega
        · have e : r0.last.X1 = s'.X1 ∧ r0.last.y1 = s'.y1 := by rw [a2]; exact ⟨rfl, rfl⟩
          rw [← e.1, ← e.2]
          exact ⟨_, hm1⟩
        · have e : r0.last.X2 = s'.X2 ∧ r0.last.y2 = s'.y2 := by rw [a2]; exact ⟨rfl, rfl⟩
          rw [← e.1, ← e.2]
          exact ⟨_, hm2⟩
        · rcases a5 with a5 | a5
          · exact .inl (by show r0.rounds = _; omega)
          · exact .inr a5
      · simp at h
    · simp at h

/-- Two views, four pooled samples: the first classifier picks samples 9 and 1 in its view, the second
8 and 2 in its own. -/
example : (coFit demoClf (npTop demoArgsort) ⟨1, 1, some (3/4)⟩ 0 none
    (some [("b", ([0, 10], [5, 8, 2, 6])), ("a", ([1, 9], [9, 6, 1, 5]))]) [3, 7]).map
      (fun r => [r.last.X1, r.last.y1, r.last.X2, r.last.y2, r.last.u1, r.last.u2])
    = .ok [[1, 9, 6, 1], [3, 7, 7, 3], [0, 10, 5, 2], [3, 7, 7, 3], [5], [6]] := by decide +kernel

end ModSSC.Inductive
