import Verif.Inductive.LoopModel
import Verif.Inductive.LoopSpec
import Verif.Inductive.SelectProps

/-!
# C55: pseudo-labeling and self-training conserve samples
-/

namespace ModSSC.Inductive
open ModSSC Spec DataLoader

variable {M α : Type}

/-! ### array indexing -/

theorem takeIdx_eq {X : List α} {idx : List Nat} (h : ∀ i ∈ idx, i < X.length) :
    takeIdx X idx = .ok (entriesAt X idx) := by
  unfold takeIdx entriesAt
  rw [mapM_ok]
  induction idx with
  | nil => exact .nil
  | cons i idx ih =>
    have hi := h i (by simp)
    rw [List.filterMap_cons, List.getElem?_eq_getElem hi]
    refine .cons ?_ (ih fun j hj => h j (by simp [hj]))
    rw [List.getElem?_eq_getElem hi]

theorem entriesAt_length {X : List α} {idx : List Nat} (h : ∀ i ∈ idx, i < X.length) :
    (entriesAt X idx).length = idx.length := by
  unfold entriesAt
  induction idx with
  | nil => rfl
  | cons i idx ih =>
    rw [List.filterMap_cons, List.getElem?_eq_getElem (h i (by simp))]
    simp [ih fun j hj => h j (by simp [hj])]

theorem boolIndex_keep (X : List α) (idx : List Nat) :
    boolIndex X (keepMask X.length idx) = .ok (without X idx) := by
  unfold boolIndex keepMask without
  rw [if_pos (by simp)]
  congr 1
  rw [List.filterMap_filter]
  have key : ∀ (n : Nat), n ≤ X.length →
      ((X.take n).zip ((List.range n).map fun i => decide (i ∉ idx))).filterMap
        (fun p => if p.2 then some p.1 else none)
      = (List.range n).filterMap (fun x => if decide (x ∉ idx) = true then X[x]? else none) := by
    intro n
    induction n with
    | zero => simp
    | succ n ih =>
      intro hn
      rw [List.take_succ_eq_append_getElem (by omega), List.range_succ, List.map_append, List.filterMap_append,
        List.zip_append (by simp; omega), List.filterMap_append, ih (by omega)]
      congr 1
      simp only [List.map_cons, List.map_nil, List.zip_cons_cons, List.zip_nil_left, List.filterMap_cons,
        List.filterMap_nil]
      rw [List.getElem?_eq_getElem (show n < X.length by omega)]
  have := key X.length le_rfl
  rw [List.take_length] at this
  exact this

theorem perm_without {X : List α} {idx : List Nat} (hnd : idx.Nodup) (h : ∀ i ∈ idx, i < X.length) :
    (entriesAt X idx ++ without X idx).Perm X := by
  have hp : (idx ++ (List.range X.length).filter (fun i => i ∉ idx)).Perm (List.range X.length) := by
    have h1 := List.filter_append_perm (fun i => decide (i ∈ idx)) (List.range X.length)
    refine List.Perm.trans ?_ h1
    refine List.Perm.append ?_ ?_
    · rw [List.perm_ext_iff_of_nodup hnd (List.Nodup.filter _ List.nodup_range)]
      intro i
      simp only [List.mem_filter, List.mem_range, decide_eq_true_eq]
      exact ⟨fun hi => ⟨h i hi, hi⟩, fun hi => hi.2⟩
    · refine List.Perm.of_eq (List.filter_congr fun i _ => ?_)
      simp
  have h2 := List.Perm.filterMap (fun i => X[i]?) hp
  rw [List.filterMap_append] at h2
  refine h2.trans (List.Perm.of_eq ?_)
  have : ∀ (n : Nat), n ≤ X.length → ((List.range n).filterMap fun i => X[i]?) = X.take n := by
    intro n
    induction n with
    | zero => simp
    | succ n ih =>
      intro hn
      rw [List.range_succ, List.filterMap_append, ih (by omega), List.take_succ_eq_append_getElem (by omega)]
      simp [List.getElem?_eq_getElem (show n < X.length by omega)]
  rw [this X.length le_rfl, List.take_length]

/-! ### conservation -/

theorem moves_conserves {s s' : Round α} {idx : List Nat} {labels : List Int} (h : Moves s s' idx labels)
    (ha : s.X.length = s.y.length) : Conserves s s' where
  same := by
    rw [h.X, h.pool, List.append_assoc]
    exact List.Perm.append_left _ (perm_without h.nodup h.range)
  prefixX := by rw [h.X]; exact List.prefix_append _ _
  prefixY := by rw [h.y]; exact List.prefix_append _ _
  aligned := by
    rw [h.X, h.y, List.length_append, List.length_append, entriesAt_length h.range, h.count, ha]

theorem conserves_refl {s : Round α} (ha : s.X.length = s.y.length) : Conserves s s :=
  ⟨List.Perm.refl _, List.prefix_rfl, List.prefix_rfl, ha⟩

theorem conserves_trans {a b c : Round α} (h1 : Conserves a b) (h2 : Conserves b c) : Conserves a c :=
  ⟨h2.same.trans h1.same, h1.prefixX.trans h2.prefixX, h1.prefixY.trans h2.prefixY, h2.aligned⟩

theorem steps_conserves {γ : Type} {R : Round α × γ → Round α × γ → Prop}
    (hR : ∀ a b, R a b → ∃ idx labels, Moves a.1 b.1 idx labels) {n : Nat} {a b : Round α × γ}
    (h : Steps R n a b) (ha : a.1.X.length = a.1.y.length) : Conserves a.1 b.1 := by
  induction h with
  | zero s => exact conserves_refl ha
  | succ h1 _ ih =>
    obtain ⟨idx, labels, hm⟩ := hR _ _ h1
    have hc := moves_conserves hm ha
    exact conserves_trans hc (ih hc.aligned)

/-! ### the generic loop -/

/-- A round of the generic loop, with the group ids of the pool: some model fitted on the training set
chose the positions and labels. -/
def LoopStep (C : Clf M α) (Q : M → Round α → Option (List Int) → List Nat → List Int → Prop)
    (a b : Round α × Option (List Int)) : Prop :=
  ∃ m idx labels, FittedOn C a.1 m ∧ Q m a.1 a.2 idx labels ∧ Moves a.1 b.1 idx labels ∧
    b.2 = a.2.map fun g => without g idx

theorem loop_spec (C : Clf M α)
    {choose : M → Round α → Option (List Int) → Except PyErr (Option (List Nat × List Int))}
    {Q : M → Round α → Option (List Int) → List Nat → List Int → Prop}
    (hch : ∀ m s g idx labels, choose m s g = .ok (some (idx, labels)) →
      (∀ gs, g = some gs → gs.length = s.pool.length) →
      idx.Nodup ∧ (∀ i ∈ idx, i < s.pool.length) ∧ labels.length = idx.length ∧ Q m s g idx labels) :
    ∀ (fuel : Nat) (m : M) (s : Round α) (g : Option (List Int)) (calls : List (List α × List Int)) (t : Nat)
      (r : Result M α), (∀ gs, g = some gs → gs.length = s.pool.length) →
      selfLabelLoop C choose fuel m s g calls t = .ok r →
      ∃ (n : Nat) (gl : Option (List Int)), Steps (LoopStep C Q) n (s, g) (r.last, gl) ∧
        (∀ gs, gl = some gs → gs.length = r.last.pool.length) ∧
        n ≤ fuel ∧ r.rounds = t + n ∧ r.calls.length ≤ calls.length + fuel ∧
        (∀ c ∈ r.calls, c ∈ calls ∨ ∃ k s' g', Steps (LoopStep C Q) k (s, g) (s', g') ∧ c = (s'.X, s'.y)) ∧
        (n = fuel ∨ r.last.pool = [] ∨ ∃ m', FittedOn C r.last m' ∧ choose m' r.last gl = .ok none) := by
  intro fuel
  induction fuel with
  | zero =>
    intro m s g calls t r hg h
    simp only [selfLabelLoop, Except.ok.injEq] at h
    subst h
    exact ⟨0, g, .zero _, hg, le_rfl, rfl, le_rfl, fun c hc => .inl hc, .inl rfl⟩
  | succ fuel ih =>
    intro m s g calls t r hg h
    simp only [selfLabelLoop] at h
    rw [ebind_ok] at h
    obtain ⟨m1, hm1, h⟩ := h
    have hfit : FittedOn C s m1 := ⟨m, hm1⟩
    have hcall : ∀ c ∈ calls ++ [(s.X, s.y)], c ∈ calls ∨
        ∃ k s' g', Steps (LoopStep C Q) k (s, g) (s', g') ∧ c = (s'.X, s'.y) := by
      intro c hc
      rcases List.mem_append.mp hc with hc | hc
      · exact .inl hc
      · exact .inr ⟨0, s, g, .zero _, by simpa using hc⟩
    by_cases hp : s.pool = []
    · rw [if_pos hp] at h
      simp only [Except.ok.injEq] at h
      subst h
      exact ⟨0, g, .zero _, hg, Nat.zero_le _, rfl, by simp, hcall, .inr (.inl hp)⟩
    · rw [if_neg hp, ebind_ok] at h
      obtain ⟨picked, hpick, h⟩ := h
      cases picked with
      | none =>
        simp only [Except.ok.injEq] at h
        subst h
        exact ⟨0, g, .zero _, hg, Nat.zero_le _, rfl, by simp, hcall, .inr (.inr ⟨m1, hfit, hpick⟩)⟩
      | some pl =>
        obtain ⟨idx, labels⟩ := pl
        obtain ⟨c1, c2, c3, c4⟩ := hch m1 s g idx labels hpick hg
        simp only [takeIdx_eq c2, boolIndex_keep] at h
        simp only [bind, Except.bind] at h
        have hgr : keepGroups g (keepMask s.pool.length idx) = .ok (g.map fun gs => without gs idx) := by
          cases g with
          | none => rfl
          | some gs =>
            have := hg gs rfl
            simp only [keepGroups]
            rw [← this, boolIndex_keep]
            rfl
        rw [hgr] at h
        simp only at h
        have hmoves : Moves s ⟨s.X ++ entriesAt s.pool idx, s.y ++ labels, without s.pool idx⟩ idx labels :=
          ⟨c1, c2, c3, rfl, rfl, rfl⟩
        have hstep : LoopStep C Q (s, g) (⟨s.X ++ entriesAt s.pool idx, s.y ++ labels, without s.pool idx⟩,
            g.map fun gs => without gs idx) := ⟨m1, idx, labels, hfit, c4, hmoves, rfl⟩
        have hlen : ∀ {β γ : Type} (l : List β) (l' : List γ), l.length = l'.length →
            (without l idx).length = (without l' idx).length := by
          intro β γ l l' hl
          have aux : ∀ {δ : Type} (q : List δ), (without q idx).length
              = ((List.range q.length).filter (fun i => i ∉ idx)).length := by
            intro δ q
            unfold without
            have := entriesAt_length (X := q) (idx := (List.range q.length).filter (fun i => i ∉ idx))
              (fun i hi => List.mem_range.mp (List.mem_of_mem_filter hi))
            exact this
          rw [aux, aux, hl]
        have hg' : ∀ gs, (g.map fun gs => without gs idx) = some gs →
            gs.length = (without s.pool idx).length := by
          intro gs hgs
          cases g with
          | none => simp at hgs
          | some g0 =>
            simp only [Option.map_some, Option.some.injEq] at hgs
            subst hgs
            exact hlen _ _ (hg g0 rfl)
        obtain ⟨n, gl, r1, r2, r3, r4, r5, r6, r7⟩ := ih m1 _ _ _ _ r hg' h
        refine ⟨n + 1, gl, .succ hstep r1, r2, by omega, by omega, ?_, ?_, ?_⟩
        · simp only [List.length_append, List.length_cons, List.length_nil] at r5
          omega
        · intro c hc
          rcases r6 c hc with hc | ⟨k, s', g', hs', rfl⟩
          · exact hcall c hc
          · exact .inr ⟨k + 1, s', g', .succ hstep hs', rfl⟩
        · rcases r7 with r7 | r7
          · exact .inl (by omega)
          · exact .inr r7

/-! ### pseudo-labeling -/

theorem checkLabeled_ok {X : List α} {y : List Int} (h : checkLabeled X y = .ok ()) :
    X.length = y.length ∧ y ≠ [] := by
  unfold checkLabeled at h
  by_cases h1 : X.length ≠ y.length
  · rw [if_pos h1] at h; simp at h
  · rw [if_neg h1] at h
    by_cases h2 : y = []
    · rw [if_pos h2] at h; simp at h
    · exact ⟨not_not.mp h1, h2⟩

theorem selectConfident_picks {C : Clf M α} (hC : C.Shapes) {top : Top} (htop : IsTop top) {m : M}
    {pool : List α} {sc : Scores} (hsc : C.scores m pool = .ok sc) {threshold : Rat} {maxNew : Option Nat}
    {idx : List Nat}
    (h : selectConfident top sc (some threshold) (maxNew.map fun (k : Nat) => (k : Int)) = .ok idx) :
    PicksConfident C threshold maxNew m pool idx := by
  obtain ⟨idx', h1, conf, h2, h3⟩ := C56_confident htop sc (hC.rect m pool sc hsc) (hC.cols m pool sc hsc)
    (some threshold) maxNew
  rw [h] at h1
  simp only [Except.ok.injEq] at h1
  subst h1
  refine ⟨sc, conf, hsc, h2, ?_⟩
  rw [hC.rows m pool sc hsc] at h3
  refine topSel_congr (fun i => ?_) (fun _ _ => rfl) h3
  simp

/-- What a pseudo-labeling round does: the picked samples get the labels the current model predicts. -/
def PLStep (C : Clf M α) (threshold : Rat) (maxNew : Option Nat) (minNew : Int) (s s' : Round α) : Prop :=
  ∃ m idx labels, FittedOn C s m ∧ PicksConfident C threshold maxNew m s.pool idx ∧ minNew ≤ idx.length ∧
    C.predict m (entriesAt s.pool idx) = .ok labels ∧ Moves s s' idx labels

theorem steps_map {σ τ : Type} {R : σ → σ → Prop} {R' : τ → τ → Prop} (f : σ → τ)
    (h : ∀ a b, R a b → R' (f a) (f b)) {n : Nat} {a b : σ} (hs : Steps R n a b) : Steps R' n (f a) (f b) := by
  induction hs with
  | zero s => exact .zero _
  | succ h1 _ ih => exact .succ (h _ _ h1) ih

/-- **C55 (pseudo-labeling).**  For every classifier, data set and parameters: if `fit` returns, it ran
at most `max_iter` rounds; in each round a model fitted on the current training set gave its predicted
labels to its most confident pool samples above the threshold; no sample was lost, duplicated or labeled
twice and no given label was changed, at any call of the classifier's `fit`; the final model is fitted
on the last training set; and the loop stopped because of the round limit, an empty pool, or fewer than
`min_new_labels` confident samples. -/
theorem C55_pseudo_label (C : Clf M α) (hC : C.Shapes) (top : Top) (htop : IsTop top) (maxIter : Int)
    (threshold : Rat) (maxNew : Option Nat) (minNew : Int) (m : M) (X : List α) (y : List Int)
    (Xu : Option (List α)) (r : Result M α)
    (h : pseudoLabelFit C top ⟨maxIter, threshold, maxNew.map fun (k : Nat) => (k : Int), minNew⟩ m X y Xu = .ok r) :
    Steps (PLStep C threshold maxNew minNew) r.rounds ⟨X, y, Xu.getD []⟩ r.last ∧
    r.rounds ≤ maxIter.toNat ∧ r.calls.length ≤ maxIter.toNat + 1 ∧
    Conserves ⟨X, y, Xu.getD []⟩ r.last ∧
    (∀ c ∈ r.calls, ∃ pool, Conserves ⟨X, y, Xu.getD []⟩ ⟨c.1, c.2, pool⟩) ∧
    FittedOn C r.last r.model ∧
    (r.rounds = maxIter.toNat ∨ r.last.pool = [] ∨
      ∃ m' idx, FittedOn C r.last m' ∧ PicksConfident C threshold maxNew m' r.last.pool idx ∧ idx.length < minNew) := by
  unfold pseudoLabelFit at h
  rw [ebind_ok] at h
  obtain ⟨_, hchk, h⟩ := h
  obtain ⟨hal, -⟩ := checkLabeled_ok hchk
  by_cases hu : Xu.getD [] = []
  · rw [if_pos hu, ebind_ok] at h
    obtain ⟨m', hm', h⟩ := h
    simp only [Except.ok.injEq] at h
    subst h
    rw [hu]
    have hc := conserves_refl (s := (⟨X, y, []⟩ : Round α)) hal
    refine ⟨.zero _, Nat.zero_le _, by simp, hc, ?_, ⟨m, hm'⟩, .inr (.inl rfl)⟩
    intro c hcm
    simp only [List.mem_singleton] at hcm
    subst hcm
    exact ⟨[], hc⟩
  · rw [if_neg hu] at h
    unfold selfLabelFit at h
    rw [ebind_ok] at h
    obtain ⟨r0, hr0, h⟩ := h
    rw [ebind_ok] at h
    obtain ⟨m', hm', h⟩ := h
    simp only [Except.ok.injEq] at h
    subst h
    have hch : ∀ (m : M) (s : Round α) (g : Option (List Int)) (idx : List Nat) (labels : List Int),
        plChoose C top ⟨maxIter, threshold, maxNew.map fun (k : Nat) => (k : Int), minNew⟩ m s g
          = .ok (some (idx, labels)) → (∀ gs, g = some gs → gs.length = s.pool.length) →
        idx.Nodup ∧ (∀ i ∈ idx, i < s.pool.length) ∧ labels.length = idx.length ∧
          (PicksConfident C threshold maxNew m s.pool idx ∧ minNew ≤ idx.length ∧
            C.predict m (entriesAt s.pool idx) = .ok labels) := by
      intro m s g idx labels hc _
      unfold plChoose at hc
      rw [ebind_ok] at hc
      obtain ⟨sc, hsc, hc⟩ := hc
      rw [ebind_ok] at hc
      obtain ⟨idx', hidx, hc⟩ := hc
      have hp := selectConfident_picks hC htop hsc hidx
      by_cases hlt : (idx'.length : Int) < minNew
      · rw [if_pos hlt] at hc; simp at hc
      · rw [if_neg hlt, ebind_ok] at hc
        obtain ⟨new, hnew, hc⟩ := hc
        rw [ebind_ok] at hc
        obtain ⟨lab, hlab, hc⟩ := hc
        simp only [Except.ok.injEq, Option.some.injEq, Prod.mk.injEq] at hc
        obtain ⟨rfl, rfl⟩ := hc
        have hsel := hp
        obtain ⟨sc', conf, -, -, hsel⟩ := hsel
        have hrange : ∀ i ∈ idx', i < s.pool.length := fun i hi => (hsel.sound i hi).1
        rw [takeIdx_eq hrange] at hnew
        simp only [Except.ok.injEq] at hnew
        subst hnew
        refine ⟨hsel.nodup, hrange, ?_, hp, by omega, hlab⟩
        rw [hC.labels _ _ _ hlab, entriesAt_length hrange]
    obtain ⟨n, gl, s1, -, s3, s4, s5, s6, s7⟩ := loop_spec C hch _ _ _ _ _ _ _ (by simp) hr0
    have hmv : ∀ a b, LoopStep C (fun m s _ idx labels => PicksConfident C threshold maxNew m s.pool idx ∧
        minNew ≤ idx.length ∧ C.predict m (entriesAt s.pool idx) = .ok labels) a b →
        ∃ idx labels, Moves a.1 b.1 idx labels := by
      rintro a b ⟨m, idx, labels, -, -, hm, -⟩
      exact ⟨idx, labels, hm⟩
    have hcons := steps_conserves hmv s1 hal
    have s3 : n ≤ maxIter.toNat := s3
    have s5 : r0.calls.length ≤ ([] : List (List α × List Int)).length + maxIter.toNat := s5
    have s7 : n = maxIter.toNat ∨ _ := s7
    have hn : r0.rounds = n := by omega
    refine ⟨?_, ?_, ?_, hcons, ?_, ⟨_, hm'⟩, ?_⟩
    · show Steps _ r0.rounds _ r0.last
      rw [hn]
      refine steps_map (R' := PLStep C threshold maxNew minNew) (fun a : Round α × Option (List Int) => a.1) ?_ s1
      rintro a b ⟨m, idx, labels, h1, ⟨h2, h3, h4⟩, h5, -⟩
      exact ⟨m, idx, labels, h1, h2, h3, h4, h5⟩
    · show r0.rounds ≤ _
      omega
    · show (r0.calls ++ [(r0.last.X, r0.last.y)]).length ≤ _
      simp only [List.length_append, List.length_cons, List.length_nil] at s5 ⊢
      omega
    · intro c hc
      rcases List.mem_append.mp hc with hc | hc
      · rcases s6 c hc with hc | ⟨k, s', g', hs', rfl⟩
        · simp at hc
        · exact ⟨s'.pool, steps_conserves hmv hs' hal⟩
      · simp only [List.mem_singleton] at hc
        subst hc
        exact ⟨r0.last.pool, hcons⟩
    · rcases s7 with s7 | s7 | ⟨m1, hm1, s7⟩
      · exact .inl (by show r0.rounds = _; omega)
      · exact .inr (.inl s7)
      · refine .inr (.inr ?_)
        unfold plChoose at s7
        rw [ebind_ok] at s7
        obtain ⟨sc, hsc, hc⟩ := s7
        rw [ebind_ok] at hc
        obtain ⟨idx', hidx, hc⟩ := hc
        have hp := selectConfident_picks hC htop hsc hidx
        by_cases hlt : (idx'.length : Int) < minNew
        · exact ⟨m1, idx', hm1, hp, hlt⟩
        · rw [if_neg hlt, ebind_ok] at hc
          obtain ⟨new, hnew, hc⟩ := hc
          rw [ebind_ok] at hc
          obtain ⟨lab, hlab, hc⟩ := hc
          simp at hc

/-! ### self-training -/

theorem sum_counts (vs : List (Int × Rat)) {labels : List Int} (hnd : labels.Nodup) (h : ∀ v ∈ vs, v.1 ∈ labels) :
    (labels.map fun l => ((vs.countP fun v => decide (v.1 = l) : Nat) : Rat)).sum = vs.length := by
  have hp := (flatMap_filter_perm (fun v : Int × Rat => v.1) labels vs hnd h).length_eq
  rw [List.length_flatMap] at hp
  rw [← hp]
  clear hp h hnd
  induction labels with
  | nil => simp
  | cons a l ih =>
    rw [List.map_cons, List.sum_cons, ih, List.map_cons, List.sum_cons, Nat.cast_add, List.countP_eq_length_filter]

theorem winner_iff {P : STSpec} (h1 : 1 ≤ P.minCount) (vs : List (Int × Rat)) (l : Int) (c : Rat) :
    groupWinner P vs = some (l, c) ↔
      Wins vs P.minCount P.minFraction (P.groupThreshold.or P.threshold) l c := by
  by_cases hlen : (vs.length : Int) < P.minCount
  · constructor
    · intro h
      unfold groupWinner at h
      rw [if_pos hlen] at h
      simp at h
    · intro h
      have := h.enough
      omega
  have hpos : 0 < vs.length := by omega
  set labels := npUnique (vs.map (·.1)) with hlabels
  set counts := labels.map fun l => ((vs.countP fun v => decide (v.1 = l) : Nat) : Rat) with hcounts
  have hmem : ∀ v ∈ vs, v.1 ∈ labels := fun v hv => mem_npUnique.mpr (List.mem_map_of_mem hv)
  have hnd : labels.Nodup := nodup_npUnique _
  have hsorted : labels.Pairwise (· < ·) := by
    have h0 : labels.Pairwise (· ≤ ·) := npUnique_sorted _
    have := List.Pairwise.and h0 hnd
    exact this.imp (by intro a b h; omega)
  have hne : counts ≠ [] := by
    obtain ⟨v, hv⟩ := List.exists_mem_of_length_pos hpos
    intro h0
    rw [hcounts, List.map_eq_nil_iff] at h0
    have := hmem v hv
    rw [h0] at this
    simp at this
  have hclen : counts.length = labels.length := by simp [hcounts]
  have hlt := Evaluation.argmax_lt hne
  obtain ⟨hmax, hfirst⟩ := Evaluation.argmax_spec hne
  set pos := Evaluation.argmax counts with hposdef
  have hpl : pos < labels.length := by omega
  have hcount : ∀ (q : Nat) (hq : q < labels.length), counts.getD q 0 = (votesFor vs labels[q] : Rat) := by
    intro q hq
    rw [hcounts, List.getD_eq_getElem _ _ (by simpa using hq), List.getElem_map]
    rfl
  have hmajor : labels.getD pos 0 = labels[pos] := List.getD_eq_getElem _ _ hpl
  have hnot : ∀ l', l' ∉ labels → votesFor vs l' = 0 := by
    intro l' hl'
    unfold votesFor
    rw [List.countP_eq_zero]
    intro v hv
    simp only [decide_eq_true_eq]
    intro e
    exact hl' (e ▸ hmem v hv)
  have hle : ∀ l', votesFor vs l' ≤ votesFor vs labels[pos] := by
    intro l'
    by_cases hl' : l' ∈ labels
    · obtain ⟨q, hq, rfl⟩ := List.getElem_of_mem hl'
      have := hmax (counts.getD q 0) (by
        rw [List.getD_eq_getElem _ _ (by omega)]; exact List.getElem_mem _)
      rw [hcount q hq, hcount pos hpl] at this
      exact_mod_cast this
    · rw [hnot l' hl']; exact Nat.zero_le _
  have hvpos : 0 < votesFor vs labels[pos] := by
    obtain ⟨v, hv⟩ := List.exists_mem_of_length_pos hpos
    refine lt_of_lt_of_le ?_ (hle v.1)
    unfold votesFor
    rw [List.countP_pos_iff]
    exact ⟨v, hv, by simp⟩
  have hfirst' : ∀ l', votesFor vs l' = votesFor vs labels[pos] → labels[pos] ≤ l' := by
    intro l' he
    have hl' : l' ∈ labels := by
      by_contra hc
      rw [hnot l' hc] at he
      omega
    obtain ⟨q, hq, rfl⟩ := List.getElem_of_mem hl'
    by_contra hlt'
    have hqp : q < pos := by
      by_contra hge
      rcases Nat.lt_or_ge pos q with h | h
      · have := List.pairwise_iff_getElem.mp hsorted pos q hpl hq h
        omega
      · have : q = pos := by omega
        subst this
        omega
    have := hfirst q hqp
    rw [hcount q hq, hcount pos hpl] at this
    have : votesFor vs labels[q] < votesFor vs labels[pos] := by exact_mod_cast this
    omega
  have hsum : counts.sum = vs.length := sum_counts vs hnd hmem
  have hvl : (0 : Rat) < vs.length := by exact_mod_cast hpos
  have hshare : ¬ (counts.getD pos 0 / counts.sum < P.minFraction) ↔
      P.minFraction * vs.length ≤ votesFor vs labels[pos] := by
    rw [hsum, hcount pos hpl, not_lt, le_div_iff₀ hvl]
  set cs := (vs.filter fun v => decide (v.1 = labels[pos])).map (·.2) with hcs
  have hcslen : cs.length = votesFor vs labels[pos] := by
    rw [hcs, List.length_map]; unfold votesFor; rw [List.countP_eq_length_filter]
  have hcspos : (0 : Rat) < cs.length := by rw [hcslen]; exact_mod_cast hvpos
  have hval : groupWinner P vs = if counts.getD pos 0 / counts.sum < P.minFraction then none
      else if (P.groupThreshold.or P.threshold).any (fun t => decide (cs.sum / cs.length < t)) then none
      else some (labels[pos], cs.sum / cs.length) := by
    unfold groupWinner
    rw [if_neg hlen]
    simp only [← hlabels, ← hcounts, ← hposdef, hmajor, ← hcs]
  have hconf : ∀ c : Rat, (P.groupThreshold.or P.threshold).any (fun t => decide (c < t)) = false ↔
      ∀ t, P.groupThreshold.or P.threshold = some t → t ≤ c := by
    intro c
    cases P.groupThreshold.or P.threshold with
    | none => simp
    | some t => simp
  rw [hval]
  constructor
  · intro h
    by_cases hs : counts.getD pos 0 / counts.sum < P.minFraction
    · rw [if_pos hs] at h; simp at h
    rw [if_neg hs] at h
    by_cases hc : (P.groupThreshold.or P.threshold).any (fun t => decide (cs.sum / cs.length < t)) = true
    · rw [if_pos hc] at h; simp at h
    rw [if_neg hc] at h
    simp only [Option.some.injEq, Prod.mk.injEq] at h
    obtain ⟨rfl, rfl⟩ := h
    refine ⟨by omega, hvpos, hle, hfirst', hshare.mp hs, ?_, (hconf _).mp (by simpa using hc)⟩
    rw [← hcslen, div_mul_cancel₀ _ (ne_of_gt hcspos)]
  · intro h
    have hl : l = labels[pos] := by
      have e : votesFor vs l = votesFor vs labels[pos] := le_antisymm (hle l) (h.most _)
      have := h.first labels[pos] e.symm
      have := hfirst' l e
      omega
    subst hl
    have hc : c = cs.sum / cs.length := by
      rw [eq_div_iff (ne_of_gt hcspos), hcslen]
      exact h.mean
    subst hc
    rw [if_neg (hshare.mpr h.share), if_neg]
    rw [(hconf _).mpr h.confident]
    simp

theorem fold_groups (P : STSpec) (groupL : Option (List Int)) (y g pred : List Int) (conf : List Rat)
    (direct : Nat → Bool) :
    ∀ (gids : List Int) (cands : List Cand), gids.Nodup → (cands.map (·.1)).Nodup →
      (∀ i ∈ cands.map (·.1), direct i = true ∨ g.getD i 0 ∉ gids) →
      (∀ i, i < g.length → direct i = true → i ∈ cands.map (·.1)) →
      ((gids.foldl (addGroup P groupL y g pred conf direct) cands).map (·.1)).Nodup ∧
      ∀ i w, (i, w) ∈ gids.foldl (addGroup P groupL y g pred conf direct) cands ↔ (i, w) ∈ cands ∨
        (i < g.length ∧ direct i = false ∧ g.getD i 0 ∈ gids ∧
          groupWinner P (groupVotes groupL y g pred conf direct (g.getD i 0)) = some w) := by
  intro gids
  induction gids with
  | nil => intro cands _ h2 _ _; exact ⟨h2, fun i w => by simp⟩
  | cons gid gids ih =>
    intro cands h1 h2 h3 h4
    have hgid : gid ∉ gids := (List.nodup_cons.mp h1).1
    rw [List.foldl_cons]
    cases hw : groupWinner P (groupVotes groupL y g pred conf direct gid) with
    | none =>
      have hadd : addGroup P groupL y g pred conf direct cands gid = cands := by
        unfold addGroup; rw [hw]
      rw [hadd]
      obtain ⟨r1, r2⟩ := ih cands (List.nodup_cons.mp h1).2 h2
        (fun i hi => (h3 i hi).imp id fun h hc => h (List.mem_cons_of_mem _ hc)) h4
      refine ⟨r1, fun i w => (r2 i w).trans ⟨?_, ?_⟩⟩
      · rintro (h | ⟨a1, a2, a3, a4⟩)
        · exact .inl h
        · exact .inr ⟨a1, a2, List.mem_cons_of_mem _ a3, a4⟩
      · rintro (h | ⟨a1, a2, a3, a4⟩)
        · exact .inl h
        · rcases List.mem_cons.mp a3 with e | e
          · rw [e, hw] at a4; simp at a4
          · exact .inr ⟨a1, a2, e, a4⟩
    | some w0 =>
      set groupIdx := (List.range g.length).filter fun i => decide (g.getD i 0 = gid) with hgi
      set new := groupIdx.filter fun i => decide (i ∉ cands.map (·.1)) with hnew
      have hadd : addGroup P groupL y g pred conf direct cands gid = cands ++ new.map fun i => (i, w0) := by
        unfold addGroup; rw [hw]
      have hkeys : (cands ++ new.map fun i => (i, w0)).map (·.1) = cands.map (·.1) ++ new := by
        rw [List.map_append, List.map_map]
        congr 1
        exact List.map_id _
      have hmemnew : ∀ i, i ∈ new ↔ i < g.length ∧ direct i = false ∧ g.getD i 0 = gid := by
        intro i
        rw [hnew, hgi, List.mem_filter, List.mem_filter, List.mem_range]
        simp only [decide_eq_true_eq]
        constructor
        · rintro ⟨⟨a1, a2⟩, a3⟩
          refine ⟨a1, ?_, a2⟩
          by_contra hd
          exact a3 (h4 i a1 (by simpa using hd))
        · rintro ⟨a1, a2, a3⟩
          refine ⟨⟨a1, a3⟩, fun hc => ?_⟩
          rcases h3 i hc with h | h
          · rw [a2] at h; simp at h
          · exact h (by rw [a3]; exact List.mem_cons_self ..)
      rw [hadd]
      obtain ⟨r1, r2⟩ := ih (cands ++ new.map fun i => (i, w0)) (List.nodup_cons.mp h1).2
        (by
          rw [hkeys]
          refine List.nodup_append.mpr ⟨h2, List.Nodup.filter _ (List.Nodup.filter _ List.nodup_range), ?_⟩
          intro a ha b hb hab
          subst hab
          have := (List.mem_filter.mp hb).2
          simp only [decide_eq_true_eq] at this
          exact this ha)
        (by
          intro i hi
          rw [hkeys] at hi
          rcases List.mem_append.mp hi with hi | hi
          · exact (h3 i hi).imp id fun h hc => h (List.mem_cons_of_mem _ hc)
          · right
            rw [((hmemnew i).mp hi).2.2]
            exact hgid)
        (by
          intro i hi hd
          rw [hkeys]
          exact List.mem_append_left _ (h4 i hi hd))
      refine ⟨r1, fun i w => (r2 i w).trans ⟨?_, ?_⟩⟩
      · rintro (h | ⟨a1, a2, a3, a4⟩)
        · rcases List.mem_append.mp h with h | h
          · exact .inl h
          · obtain ⟨j, hj, e⟩ := List.mem_map.mp h
            simp only [Prod.mk.injEq] at e
            obtain ⟨rfl, rfl⟩ := e
            obtain ⟨b1, b2, b3⟩ := (hmemnew j).mp hj
            exact .inr ⟨b1, b2, by rw [b3]; exact List.mem_cons_self .., by rw [b3, hw]⟩
        · exact .inr ⟨a1, a2, List.mem_cons_of_mem _ a3, a4⟩
      · rintro (h | ⟨a1, a2, a3, a4⟩)
        · exact .inl (List.mem_append_left _ h)
        · rcases List.mem_cons.mp a3 with e | e
          · rw [e, hw] at a4
            simp only [Option.some.injEq] at a4
            subst a4
            exact .inl (List.mem_append_right _ (List.mem_map.mpr ⟨i, (hmemnew i).mpr ⟨a1, a2, e⟩, rfl⟩))
          · exact .inr ⟨a1, a2, e, a4⟩

theorem topSel_sorted {items : List Cand} (hnd : (items.map (·.1)).Nodup)
    (hs : items.Pairwise fun a b => b.2.2 ≤ a.2.2) {e : Nat → Prop} (he : ∀ i, e i ↔ i ∈ items.map (·.1))
    {conf : Nat → Rat} (hc : ∀ x ∈ items, conf x.1 = x.2.2) (m : Nat) :
    IsTopSelection e conf (some m) ((items.take m).map (·.1)) := by
  have hsplit := List.take_append_drop m items
  refine ⟨?_, ?_, by simp, ?_, ?_⟩
  · exact List.Sublist.nodup (List.Sublist.map _ (List.take_sublist m items)) hnd
  · intro i hi
    obtain ⟨x, hx, rfl⟩ := List.mem_map.mp hi
    exact (he _).mpr (List.mem_map_of_mem (List.mem_of_mem_take hx))
  · intro m' hm'
    obtain rfl := Option.some.inj hm'
    rw [List.length_map, List.length_take]
    exact Nat.min_le_left _ _
  · intro m' hm' j hj hnj
    obtain rfl := Option.some.inj hm'
    obtain ⟨x, hx, rfl⟩ := List.mem_map.mp ((he j).mp hj)
    have hxd : x ∈ items.drop m := by
      rw [← hsplit] at hx
      exact (List.mem_append.mp hx).resolve_left fun h => hnj (List.mem_map_of_mem h)
    constructor
    · rw [List.length_map, List.length_take]
      have := List.length_pos_of_mem hxd
      rw [List.length_drop] at this
      omega
    · intro i hi
      obtain ⟨z, hz, rfl⟩ := List.mem_map.mp hi
      rw [← hsplit] at hs
      have := (List.pairwise_append.mp hs).2.2 z hz x hxd
      rw [hc x hx, hc z (List.mem_of_mem_take hz)]
      exact this

theorem filter_getElem?_eq (g : List Int) (gid : Int) :
    ((List.range g.length).filter fun i => decide (g.getD i 0 = gid))
      = (List.range g.length).filter fun i => decide (g[i]? = some gid) := by
  refine List.filter_congr fun i hi => ?_
  have := List.mem_range.mp hi
  rw [List.getD_eq_getElem _ _ this, List.getElem?_eq_getElem this]
  simp

theorem groupVotes_eq (groupL : Option (List Int)) (y g pred : List Int) (conf : List Rat) (direct : Nat → Bool)
    (gid : Int) : groupVotes groupL y g pred conf direct gid
      = votes groupL y g pred (fun i => conf.getD i 0) direct gid := by
  unfold groupVotes votes
  simp only [filter_getElem?_eq]
  have : ((List.range g.length).filter fun i => decide (g[i]? = some gid)).filter direct
      = (List.range g.length).filter fun i => decide (g[i]? = some gid) && direct i := by
    rw [List.filter_filter]
    congr 1
    funext i
    rw [Bool.and_comm]
  rw [this]
  cases groupL <;> rfl

theorem meets_reaches (t : Option Rat) (c : Rat) : meets t c = reaches t c := by
  cases t <;> rfl

theorem pyTake_min (items : List Cand) (m : Nat) :
    (if (m : Int) < items.length then (.ok (pyTake (m : Int) items) : Except PyErr (List Cand)) else .ok items)
      = .ok (items.take m) := by
  by_cases h : (m : Int) < items.length
  · rw [if_pos h]
    unfold pyTake
    rw [if_pos (by omega)]
    rfl
  · rw [if_neg h, List.take_of_length_le (by omega)]

theorem selectCandidates_spec {P : STSpec} (h1 : 1 ≤ P.minCount) {maxNew : Option Nat}
    (hmax : P.maxNew = maxNew.map fun (k : Nat) => (k : Int)) {sc : Scores} (hs : sc.Rect) (hc : 0 < sc.cols)
    {pred : List Int} (hp : pred.length = sc.rows.length) {groupU groupL : Option (List Int)} {y : List Int}
    (hg : ∀ g, groupU = some g → g.length = sc.rows.length) {items : List Cand}
    (h : selectCandidates P sc pred groupU groupL y = .ok items) :
    ∃ (conf : Nat → Rat) (cand : Nat → Option (Int × Rat)),
      (∀ (i : Nat) (row : List Rat), sc.rows[i]? = some row → IsLargest row (conf i)) ∧
      (∀ i l c, cand i = some (l, c) ↔ Candidate P groupL groupU y pred conf sc.rows.length i l c) ∧
      IsTopSelection (fun i => (cand i).isSome) (fun i => ((cand i).map (·.2)).getD 0) maxNew (items.map (·.1)) ∧
      (∀ x ∈ items, cand x.1 = some x.2) := by
  unfold selectCandidates confidences at h
  rw [if_neg (by omega)] at h
  simp only [bind, Except.bind] at h
  set conf := sc.rows.map rowMax with hconf
  have hlen : conf.length = sc.rows.length := by simp [hconf]
  set direct : Nat → Bool := fun i => meets P.threshold (conf.getD i 0) with hdirect
  set start : List Cand := ((List.range conf.length).filter direct).map
    (fun i => (i, (pred.getD i 0, conf.getD i 0))) with hstart
  have hskeys : start.map (·.1) = (List.range conf.length).filter direct := by
    rw [hstart, List.map_map]
    exact List.map_id _
  have hsmem : ∀ i (w : Int × Rat), (i, w) ∈ start ↔
      i < sc.rows.length ∧ direct i = true ∧ w = (pred.getD i 0, conf.getD i 0) := by
    intro i w
    rw [hstart, List.mem_map]
    constructor
    · rintro ⟨j, hj, e⟩
      simp only [Prod.mk.injEq] at e
      obtain ⟨rfl, rfl⟩ := e
      have := List.mem_filter.mp hj
      exact ⟨by have := List.mem_range.mp this.1; omega, this.2, rfl⟩
    · rintro ⟨a1, a2, rfl⟩
      exact ⟨i, List.mem_filter.mpr ⟨List.mem_range.mpr (by omega), a2⟩, rfl⟩
  obtain ⟨cands, hcands, hnd, hmem⟩ : ∃ cands : List Cand,
      addGroups P groupL y groupU pred conf direct start = cands ∧ (cands.map (·.1)).Nodup ∧
      ∀ i l c, (i, (l, c)) ∈ cands ↔
        Candidate P groupL groupU y pred (fun j => conf.getD j 0) sc.rows.length i l c := by
    have hsnd : (start.map (·.1)).Nodup := by
      rw [hskeys]; exact List.Nodup.filter _ List.nodup_range
    have hdir : ∀ i, direct i = reaches P.threshold (conf.getD i 0) := fun i => meets_reaches _ _
    have hpred : ∀ i l, i < sc.rows.length → (pred[i]? = some l ↔ l = pred.getD i 0) := by
      intro i l hi
      rw [List.getD_eq_getElem _ _ (by omega), List.getElem?_eq_getElem (by omega), Option.some.injEq]
      exact eq_comm
    by_cases hcase : P.useGroup = true ∧ ∃ g, groupU = some g
    · obtain ⟨hu, g, rfl⟩ := hcase
      have hgl := hg g rfl
      have hst : addGroups P groupL y (some g) pred conf direct start
          = (npUnique g).foldl (addGroup P groupL y g pred conf direct) start := by
        unfold addGroups; rw [hu]
      rw [hst]
      obtain ⟨r1, r2⟩ := fold_groups P groupL y g pred conf direct (npUnique g) start (nodup_npUnique g) hsnd
        (by
          intro i hi
          rw [hskeys] at hi
          exact .inl (List.mem_filter.mp hi).2)
        (by
          intro i hi hd
          rw [hskeys]
          exact List.mem_filter.mpr ⟨List.mem_range.mpr (by omega), hd⟩)
      refine ⟨_, rfl, r1, fun i l c => (r2 i (l, c)).trans ?_⟩
      rw [hsmem]
      have hw : groupWinner P (groupVotes groupL y g pred conf direct (g.getD i 0)) = some (l, c) ↔
          Wins (votes groupL y g pred (fun j => conf.getD j 0) (fun j => reaches P.threshold (conf.getD j 0))
            (g.getD i 0)) P.minCount P.minFraction (P.groupThreshold.or P.threshold) l c := by
        rw [winner_iff h1, groupVotes_eq]
        rw [show direct = fun j => reaches P.threshold (conf.getD j 0) from funext hdir]
      rw [hw]
      unfold Candidate
      constructor
      · rintro (⟨a1, a2, a3⟩ | ⟨a1, a2, a3, a4⟩)
        · simp only [Prod.mk.injEq] at a3
          refine ⟨a1, .inl ⟨?_, (hpred i l a1).mpr a3.1, a3.2⟩⟩
          rw [← hdir]; exact a2
        · refine ⟨by omega, .inr ⟨?_, hu, g, g.getD i 0, rfl, ?_, a4⟩⟩
          · rw [← hdir, a2]; simp
          · rw [List.getD_eq_getElem _ _ a1, List.getElem?_eq_getElem a1]
      · rintro ⟨a1, ⟨a2, a3, a4⟩ | ⟨a2, -, g', gid, hg', a3, a4⟩⟩
        · refine .inl ⟨a1, ?_, ?_⟩
          · rw [hdir]; exact a2
          · rw [(hpred i l a1).mp a3, a4]
        · obtain rfl := Option.some.inj hg'
          have hgi : g.getD i 0 = gid := by
            rw [List.getElem?_eq_getElem (by omega)] at a3
            rw [List.getD_eq_getElem _ _ (by omega)]
            exact Option.some.inj a3
          refine .inr ⟨by omega, ?_, ?_, ?_⟩
          · rw [hdir]; simpa using a2
          · rw [hgi]
            exact mem_npUnique.mpr (List.mem_of_getElem? a3)
          · rw [hgi]; exact a4
    · have hst : addGroups P groupL y groupU pred conf direct start = start := by
        unfold addGroups
        cases hu : P.useGroup with
        | false => rfl
        | true =>
          cases groupU with
          | none => rfl
          | some g => exact absurd ⟨hu, g, rfl⟩ hcase
      refine ⟨start, hst, hsnd, fun i l c => (hsmem i (l, c)).trans ?_⟩
      unfold Candidate
      constructor
      · rintro ⟨a1, a2, a3⟩
        simp only [Prod.mk.injEq] at a3
        refine ⟨a1, .inl ⟨?_, (hpred i l a1).mpr a3.1, a3.2⟩⟩
        rw [← hdir]; exact a2
      · rintro ⟨a1, ⟨a2, a3, a4⟩ | ⟨a2, hu, g', gid, hg', a3, a4⟩⟩
        · refine ⟨a1, ?_, ?_⟩
          · rw [hdir]; exact a2
          · rw [(hpred i l a1).mp a3, a4]
        · exact absurd ⟨hu, g', hg'⟩ hcase
  rw [hcands] at h
  set sorted := cands.insertionSort fun a b => b.2.2 ≤ a.2.2 with hsorted
  have hperm : sorted.Perm cands := List.perm_insertionSort _ _
  have hsnd : (sorted.map (·.1)).Nodup := (hperm.map _).nodup_iff.mpr hnd
  have hpw : sorted.Pairwise fun a b => b.2.2 ≤ a.2.2 := by
    have : Std.Total (fun a b : Cand => b.2.2 ≤ a.2.2) := ⟨fun a b => le_total _ _⟩
    have : IsTrans Cand (fun a b : Cand => b.2.2 ≤ a.2.2) := ⟨fun a b c h1 h2 => le_trans h2 h1⟩
    exact List.pairwise_insertionSort _ _
  -- the candidate of a position
  let cand : Nat → Option (Int × Rat) := fun i => (sorted.find? fun x => decide (x.1 = i)).map (·.2)
  have hcand : ∀ i w, cand i = some w ↔ (i, w) ∈ sorted := by
    intro i w
    show (sorted.find? fun x => decide (x.1 = i)).map (·.2) = some w ↔ _
    constructor
    · intro hf
      obtain ⟨x, hx, rfl⟩ := Option.map_eq_some_iff.mp hf
      have e := List.find?_some hx
      simp only [decide_eq_true_eq] at e
      subst e
      exact List.mem_of_find?_eq_some hx
    · intro hm
      cases hf : sorted.find? fun x => decide (x.1 = i) with
      | none =>
        have := List.find?_eq_none.mp hf (i, w) hm
        simp at this
      | some x =>
        have e := List.find?_some hf
        simp only [decide_eq_true_eq] at e
        have hx := List.mem_of_find?_eq_some hf
        have := List.inj_on_of_nodup_map hsnd hx hm e
        rw [this]
        rfl
  have hel : ∀ i, (cand i).isSome ↔ i ∈ sorted.map (·.1) := by
    intro i
    rw [Option.isSome_iff_exists, List.mem_map]
    constructor
    · rintro ⟨w, hw⟩
      exact ⟨(i, w), (hcand i w).mp hw, rfl⟩
    · rintro ⟨x, hx, rfl⟩
      exact ⟨x.2, (hcand _ _).mpr hx⟩
  have hcf : ∀ x ∈ sorted, ((cand x.1).map (·.2)).getD 0 = x.2.2 := by
    intro x hx
    rw [(hcand x.1 x.2).mpr hx]
    rfl
  refine ⟨fun j => conf.getD j 0, cand, ?_, ?_, ?_⟩
  · intro i row hrow
    have hi : i < sc.rows.length := by
      by_contra hh
      rw [List.getElem?_eq_none (by omega)] at hrow
      simp at hrow
    rw [List.getElem?_eq_getElem hi, Option.some.injEq] at hrow
    show IsLargest row (conf.getD i 0)
    rw [List.getD_eq_getElem _ _ (by omega)]
    simp only [hconf, List.getElem_map, hrow]
    refine rowMax_spec ?_
    intro e
    have := hs row (hrow ▸ List.getElem_mem _)
    rw [e] at this
    simp at this
    omega
  · intro i l c
    rw [hcand, hperm.mem_iff, hmem]
  · cases maxNew with
    | none =>
      rw [hmax] at h
      simp only [Option.map_none, Except.ok.injEq] at h
      subst h
      refine ⟨⟨hsnd, fun i hi => (hel i).mpr hi, fun _ i hi => (hel i).mp hi, by simp, by simp⟩,
        fun x hx => (hcand _ _).mpr hx⟩
    | some mx =>
      rw [hmax] at h
      simp only [Option.map_some, pyTake_min, Except.ok.injEq] at h
      subst h
      refine ⟨topSel_sorted hsnd hpw hel hcf mx, fun x hx => (hcand _ _).mpr (List.mem_of_mem_take hx)⟩

/-- What a self-training round does: the picked samples get the labels of their candidates. -/
def STStep (C : Clf M α) (P : STSpec) (maxNew : Option Nat) (groupL : Option (List Int))
    (a b : Round α × Option (List Int)) : Prop :=
  ∃ m idx labels, FittedOn C a.1 m ∧ PicksCandidates C P maxNew groupL a.2 m a.1 idx labels ∧
    P.minNew ≤ idx.length ∧ Moves a.1 b.1 idx labels ∧ b.2 = a.2.map fun g => without g idx

theorem stChoose_spec (C : Clf M α) (hC : C.Shapes) {P : STSpec} (h1 : 1 ≤ P.minCount) {maxNew : Option Nat}
    (hmax : P.maxNew = maxNew.map fun (k : Nat) => (k : Int)) {groupL groups : Option (List Int)} {m : M}
    {s : Round α} {r : Option (List Nat × List Int)} (h : stChoose C P groupL m s groups = .ok r)
    (hg : ∀ gs, groups = some gs → gs.length = s.pool.length) :
    ∃ idx labels, PicksCandidates C P maxNew groupL groups m s idx labels ∧ (∀ i ∈ idx, i < s.pool.length) ∧
      idx.Nodup ∧ labels.length = idx.length ∧
      (if (idx.length : Int) < P.minNew then r = none else r = some (idx, labels)) := by
  unfold stChoose at h
  rw [ebind_ok] at h
  obtain ⟨sc, hsc, h⟩ := h
  rw [ebind_ok] at h
  obtain ⟨pred, hpred, h⟩ := h
  rw [ebind_ok] at h
  obtain ⟨items, hitems, h⟩ := h
  have hrows := hC.rows m s.pool sc hsc
  obtain ⟨conf, cand, c1, c2, c3, c4⟩ := selectCandidates_spec h1 hmax (hC.rect m _ _ hsc) (hC.cols m _ _ hsc)
    (by rw [hC.labels _ _ _ hpred, hrows]) (fun g e => by rw [hg g e, hrows]) hitems
  rw [hrows] at c2
  refine ⟨items.map (·.1), items.map (·.2.1), ⟨sc, pred, conf, cand, hsc, hpred, c1, c2, c3, ?_⟩, ?_, c3.nodup,
    by simp, ?_⟩
  · rw [List.map_map, List.map_map]
    refine List.map_congr_left fun x hx => ?_
    simp only [Function.comp, c4 x hx, Option.map_some]
  · intro i hi
    obtain ⟨w, hw⟩ := Option.isSome_iff_exists.mp (c3.sound i hi)
    exact ((c2 i w.1 w.2).mp hw).1
  · rw [List.length_map]
    by_cases hlt : (items.length : Int) < P.minNew
    · rw [if_pos hlt] at h ⊢
      simpa using h.symm
    · rw [if_neg hlt] at h ⊢
      simpa using h.symm

/-- **C55 (self-training).**  For every classifier, data set, grouping and parameters: if `fit` returns,
it ran at most `max_iter` rounds; in each round a model fitted on the current training set labelled the
most confident candidates, a candidate being a confident sample with its predicted label or an
unconfident one with the label that wins the vote of its group; no sample was lost, duplicated or
labeled twice and no given label was changed, at any call of the classifier's `fit`; the final model is
fitted on the last training set; and the loop stopped because of the round limit, an empty pool, or fewer
than `min_new_labels` candidates. -/
theorem C55_self_training (C : Clf M α) (hC : C.Shapes) (P : STSpec) (maxNew : Option Nat)
    (hmax : P.maxNew = maxNew.map fun (k : Nat) => (k : Int)) (m : M) (X : List α) (y : List Int)
    (Xu : Option (List α)) (groupU groupL : Option (List Int))
    (hg : ∀ gs, groupU = some gs → gs.length = (Xu.getD []).length) (r : Result M α)
    (h : selfTrainingFit C P m X y Xu groupU groupL = .ok r) :
    ∃ gl, Steps (STStep C P maxNew groupL) r.rounds (⟨X, y, Xu.getD []⟩, groupU) (r.last, gl) ∧
    r.rounds ≤ P.maxIter.toNat ∧ r.calls.length ≤ P.maxIter.toNat + 1 ∧
    Conserves ⟨X, y, Xu.getD []⟩ r.last ∧
    (∀ c ∈ r.calls, ∃ pool, Conserves ⟨X, y, Xu.getD []⟩ ⟨c.1, c.2, pool⟩) ∧
    FittedOn C r.last r.model ∧
    (r.rounds = P.maxIter.toNat ∨ r.last.pool = [] ∨
      ∃ m' idx labels, FittedOn C r.last m' ∧ PicksCandidates C P maxNew groupL gl m' r.last idx labels ∧
        idx.length < P.minNew) := by
  unfold selfTrainingFit at h
  by_cases hmc : P.minCount < 1
  · rw [if_pos hmc] at h; simp at h
  rw [if_neg hmc] at h
  by_cases hmf : ¬ (0 ≤ P.minFraction ∧ P.minFraction ≤ 1)
  · rw [if_pos hmf] at h; simp at h
  rw [if_neg hmf, ebind_ok] at h
  obtain ⟨_, hchk, h⟩ := h
  obtain ⟨hal, -⟩ := checkLabeled_ok hchk
  by_cases hu : Xu.getD [] = []
  · rw [if_pos hu, ebind_ok] at h
    obtain ⟨m', hm', h⟩ := h
    simp only [Except.ok.injEq] at h
    subst h
    rw [hu]
    have hc := conserves_refl (s := (⟨X, y, []⟩ : Round α)) hal
    refine ⟨groupU, .zero _, Nat.zero_le _, by simp, hc, ?_, ⟨m, hm'⟩, .inr (.inl rfl)⟩
    intro c hcm
    simp only [List.mem_singleton] at hcm
    subst hcm
    exact ⟨[], hc⟩
  · rw [if_neg hu] at h
    by_cases hgn : P.useGroup ∧ groupU = none
    · rw [if_pos hgn] at h; simp at h
    rw [if_neg hgn] at h
    unfold selfLabelFit at h
    rw [ebind_ok] at h
    obtain ⟨r0, hr0, h⟩ := h
    rw [ebind_ok] at h
    obtain ⟨m', hm', h⟩ := h
    simp only [Except.ok.injEq] at h
    subst h
    have h1 : 1 ≤ P.minCount := by omega
    have hch : ∀ (m : M) (s : Round α) (g : Option (List Int)) (idx : List Nat) (labels : List Int),
        stChoose C P groupL m s g = .ok (some (idx, labels)) → (∀ gs, g = some gs → gs.length = s.pool.length) →
        idx.Nodup ∧ (∀ i ∈ idx, i < s.pool.length) ∧ labels.length = idx.length ∧
          (PicksCandidates C P maxNew groupL g m s idx labels ∧ P.minNew ≤ idx.length) := by
      intro m s g idx labels hc hgl
      obtain ⟨idx', labels', p1, p2, p3, p4, p5⟩ := stChoose_spec C hC h1 hmax hc hgl
      by_cases hlt : (idx'.length : Int) < P.minNew
      · rw [if_pos hlt] at p5; simp at p5
      · rw [if_neg hlt] at p5
        simp only [Option.some.injEq, Prod.mk.injEq] at p5
        obtain ⟨rfl, rfl⟩ := p5
        exact ⟨p3, p2, p4, p1, by omega⟩
    obtain ⟨n, gl, s1, s2, s3, s4, s5, s6, s7⟩ := loop_spec C hch _ _ _ _ _ _ _ hg hr0
    have hmv : ∀ a b, LoopStep C (fun m s g idx labels => PicksCandidates C P maxNew groupL g m s idx labels ∧
        P.minNew ≤ idx.length) a b → ∃ idx labels, Moves a.1 b.1 idx labels := by
      rintro a b ⟨m, idx, labels, -, -, hm, -⟩
      exact ⟨idx, labels, hm⟩
    have hcons := steps_conserves hmv s1 hal
    have hn : r0.rounds = n := by omega
    refine ⟨gl, ?_, ?_, ?_, hcons, ?_, ⟨_, hm'⟩, ?_⟩
    · show Steps _ r0.rounds _ _
      rw [hn]
      refine steps_map (R' := STStep C P maxNew groupL) id ?_ s1
      rintro a b ⟨m, idx, labels, h1, ⟨h2, h3⟩, h4, h5⟩
      exact ⟨m, idx, labels, h1, h2, h3, h4, h5⟩
    · show r0.rounds ≤ _
      omega
    · show (r0.calls ++ [(r0.last.X, r0.last.y)]).length ≤ _
      simp only [List.length_append, List.length_cons, List.length_nil] at s5 ⊢
      omega
    · intro c hc
      rcases List.mem_append.mp hc with hc | hc
      · rcases s6 c hc with hc | ⟨k, s', g', hs', rfl⟩
        · simp at hc
        · exact ⟨s'.pool, steps_conserves hmv hs' hal⟩
      · simp only [List.mem_singleton] at hc
        subst hc
        exact ⟨r0.last.pool, hcons⟩
    · rcases s7 with s7 | s7 | ⟨m1, hm1, s7⟩
      · exact .inl (by show r0.rounds = _; omega)
      · exact .inr (.inl s7)
      · refine .inr (.inr ?_)
        obtain ⟨idx', labels', p1, p2, p3, p4, p5⟩ := stChoose_spec C hC h1 hmax s7 s2
        by_cases hlt : (idx'.length : Int) < P.minNew
        · exact ⟨m1, idx', labels', hm1, p1, hlt⟩
        · rw [if_neg hlt] at p5; simp at p5

/-! ### A concrete case -/

/-- A classifier on the numbers 0..10: class 7 is likely for large, class 3 for small numbers. -/
def demoClf : Clf Nat Int where
  fit m _ y := if y = [] then .error .valueError else .ok (m + 1)
  scores _ X := .ok ⟨2, X.map fun (x : Int) => [((10 - x : Int) : Rat) / 10, (x : Rat) / 10]⟩
  predict _ X := .ok (X.map fun (x : Int) => if 5 < x then 7 else 3)

theorem demoClf_shapes : demoClf.Shapes where
  rows := by
    intro m X s h
    simp only [demoClf, Except.ok.injEq] at h
    subst h
    simp
  rect := by
    intro m X s h
    simp only [demoClf, Except.ok.injEq] at h
    subst h
    intro r hr
    obtain ⟨x, -, rfl⟩ := List.mem_map.mp hr
    rfl
  cols := by
    intro m X s h
    simp only [demoClf, Except.ok.injEq] at h
    subst h
    exact Nat.succ_pos 1
  labels := by
    intro m X y h
    simp only [demoClf, Except.ok.injEq] at h
    subst h
    simp

/-- Two rounds of at most two labels: 9, 8 then 1, and 5 stays in the pool. -/
example : (pseudoLabelFit demoClf (npTop demoArgsort) ⟨10, 3/4, some 2, 1⟩ 0 [0, 10] [3, 7]
    (some [8, 1, 9, 5])).map (fun r => (r.last.X, r.last.y, r.last.pool, r.rounds, r.calls.length))
    = .ok ([0, 10, 9, 1, 8], [3, 7, 7, 3, 7], [5], 2, 4) := by decide +kernel

/-- With groups, the unconfident 5 gets the label of its group. -/
example : (selfTrainingFit demoClf ⟨10, some (3/4), none, 1, true, 2, 1, none⟩ 0 [0, 10] [3, 7]
    (some [8, 1, 9, 5]) (some [1, 2, 1, 1]) none).map
      (fun r => (r.last.X, r.last.y, r.last.pool, r.rounds, r.calls.length))
    = .ok ([0, 10, 1, 9, 5, 8], [3, 7, 3, 7, 7, 7], [], 1, 3) := by decide +kernel

end ModSSC.Inductive
