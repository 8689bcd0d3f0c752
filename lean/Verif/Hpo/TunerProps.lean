import Verif.Hpo.SpaceProps
import Verif.Hpo.MergeProps

/-!
# C23: the tuner reports the best trial, earliest on ties, and touches only `method.params`
-/

namespace ModSSC.Hpo
open ModSSC Spec

/-! ### Specification -/

/-- Place of a score on the extended number line; NaN is placed at the bad end of the direction. -/
def place (maximize : Bool) : Score → Int × Rat
  | .nan => (if maximize then -1 else 1, 0)
  | .ninf => (-1, 0)
  | .fin q => (0, q)
  | .pinf => (1, 0)

/-- Strictly smaller place. -/
def Below (a b : Int × Rat) : Prop := a.1 < b.1 ∨ (a.1 = b.1 ∧ a.2 < b.2)

/-- `a` is a strictly worse result than `b`. -/
def Worse (maximize : Bool) (a b : Score) : Prop :=
  if maximize then Below (place maximize a) (place maximize b)
  else Below (place maximize b) (place maximize a)

/-! ### The running comparison -/

theorem below_irrefl (a : Int × Rat) : ¬ Below a a := by
  rintro (h | ⟨_, h⟩)
  · omega
  · exact lt_irrefl _ h

theorem below_trans {a b c : Int × Rat} (h : Below a b) (h' : Below b c) : Below a c := by
  rcases h with h | ⟨h1, h2⟩ <;> rcases h' with h' | ⟨h1', h2'⟩
  · left; omega
  · left; omega
  · left; omega
  · right; exact ⟨by omega, h2.trans h2'⟩

theorem below_tri (a b : Int × Rat) : Below a b ∨ a = b ∨ Below b a := by
  rcases lt_trichotomy a.1 b.1 with h | h | h
  · exact Or.inl (Or.inl h)
  · rcases lt_trichotomy a.2 b.2 with h' | h' | h'
    · exact Or.inl (Or.inr ⟨h, h'⟩)
    · exact Or.inr (Or.inl (Prod.ext h h'))
    · exact Or.inr (Or.inr (Or.inr ⟨h.symm, h'⟩))
  · exact Or.inr (Or.inr (Or.inl h))

theorem worse_irrefl (m : Bool) (a : Score) : ¬ Worse m a a := by
  unfold Worse; split <;> exact below_irrefl _

theorem worse_trans {m : Bool} {a b c : Score} (h : Worse m a b) (h' : Worse m b c) : Worse m a c := by
  cases m with
  | true => exact below_trans (a := place true a) (b := place true b) h h'
  | false => exact below_trans (a := place false c) (b := place false b) h' h

/-- Worse or equal composed with worse. -/
theorem not_worse_trans {m : Bool} {a b c : Score} (h : ¬ Worse m b a) (h' : Worse m b c) : Worse m a c := by
  cases m with
  | true =>
    change Below (place true a) (place true c)
    change Below (place true b) (place true c) at h'
    rcases below_tri (place true a) (place true b) with h1 | h1 | h1
    · exact below_trans h1 h'
    · rw [h1]; exact h'
    · exact absurd h1 h
  | false =>
    change Below (place false c) (place false a)
    change Below (place false c) (place false b) at h'
    rcases below_tri (place false a) (place false b) with h1 | h1 | h1
    · exact absurd h1 h
    · rw [h1]; exact h'
    · exact below_trans h' h1

theorem not_worse_not {m : Bool} {a b c : Score} (h : ¬ Worse m a b) (h' : ¬ Worse m b c) : ¬ Worse m a c := by
  intro hc
  by_cases hba : Worse m b a
  · exact h' (worse_trans hba hc)
  · exact h' (not_worse_trans h hc)

theorem place_cmp (m : Bool) (s : Score) : place m (cmpScore m s) = place m s := by
  cases s <;> cases m <;> rfl

/-- Places of comparable scores decide the two Python comparisons. -/
theorem cmp_lt {m : Bool} (a b : Score) :
    (cmpScore m a).lt (cmpScore m b) = true ↔ Below (place m a) (place m b) := by
  cases a <;> cases b <;> cases m <;> simp [cmpScore, Score.lt, place, Below]

theorem cmp_eq {m : Bool} (a b : Score) :
    (cmpScore m a).eq (cmpScore m b) = true ↔ place m a = place m b := by
  cases a <;> cases b <;> cases m <;> simp [cmpScore, Score.eq, place]

theorem isBetter_iff {m : Bool} (a b : Score) (i bi : Nat) (h : bi < i) :
    isBetter (cmpScore m a) (some (cmpScore m b, bi)) m i = true ↔ Worse m b a := by
  unfold isBetter
  simp only
  by_cases he : (cmpScore m a).eq (cmpScore m b) = true
  · rw [if_pos he]
    have hp := (cmp_eq a b).mp he
    constructor
    · intro h'; have := of_decide_eq_true h'; omega
    · intro h'
      unfold Worse at h'
      rw [hp] at h'
      split at h' <;> exact absurd h' (below_irrefl _)
  · rw [if_neg he]
    cases m with
    | true => exact cmp_lt b a
    | false => exact cmp_lt a b

/-! ### The loop invariant -/

/-- One entry of the trial log. -/
abbrev Entry := Trial × List Score × Score

/-- `b` is the best of the entries: nothing is better, everything before it is strictly worse. -/
def IsBest (m : Bool) (entries : List Entry) (b : Best) : Prop :=
  ∃ i, ∃ h : i < entries.length, b.trial = entries[i].1 ∧ b.score = entries[i].2.2 ∧
    (∀ e ∈ entries, ¬ Worse m entries[i].2.2 e.2.2) ∧
    (∀ j, ∀ hj : j < i, Worse m (entries[j]'(by omega)).2.2 entries[i].2.2)

theorem isBest_step {m : Bool} {entries : List Entry} {b : Best} (hb : IsBest m entries b)
    (hcmp : b.cmp = cmpScore m b.score) (e : Entry)
    (hidx : ∀ x ∈ entries, x.1.index < e.1.index) :
    IsBest m (entries ++ [e])
      (if isBetter (cmpScore m e.2.2) (some (b.cmp, b.trial.index)) m e.1.index
        then { cmp := cmpScore m e.2.2, score := e.2.2, trial := e.1 } else b) := by
  obtain ⟨i, hi, h1, h2, h3, h4⟩ := hb
  have hlt : b.trial.index < e.1.index := by rw [h1]; exact hidx _ (List.getElem_mem hi)
  rw [hcmp]
  have hbet := isBetter_iff (m := m) e.2.2 b.score e.1.index b.trial.index hlt
  split
  · rename_i hw
    rw [hbet, h2] at hw
    refine ⟨entries.length, by simp, by simp, by simp, ?_, ?_⟩
    · intro x hx
      simp only [List.getElem_concat_length]
      rcases List.mem_append.mp hx with hx | hx
      · intro hc
        exact h3 x hx (worse_trans hw hc)
      · rw [List.mem_singleton.mp hx]
        exact worse_irrefl _ _
    · intro j hj
      simp only [List.getElem_concat_length]
      rw [List.getElem_append_left hj]
      exact not_worse_trans (h3 _ (List.getElem_mem hj)) hw
  · rename_i hw
    rw [hbet, h2] at hw
    refine ⟨i, by simp; omega, ?_, ?_, ?_, ?_⟩
    · rw [List.getElem_append_left hi]; exact h1
    · rw [List.getElem_append_left hi]; exact h2
    · intro x hx
      rw [List.getElem_append_left hi]
      rcases List.mem_append.mp hx with hx | hx
      · exact h3 x hx
      · rw [List.mem_singleton.mp hx]
        exact hw
    · intro j hj
      rw [List.getElem_append_left hi, List.getElem_append_left (by omega)]
      exact h4 j hj

theorem runTrials_spec {C : Type} {parse : List (String × PyVal) → Except PyErr C}
    {objective : C → Nat → Nat → Except PyErr Score} {repeats : Nat} {m : Bool}
    {base : List (String × PyVal)} : ∀ (trials : List Trial) (best : Option Best) (done : List Entry)
    (best' : Option Best) (log : List Entry),
    (done.map (fun e => e.1.index) ++ trials.map (·.index)).Pairwise (· < ·) →
    (∀ b, best = some b → IsBest m done b ∧ b.cmp = cmpScore m b.score) →
    (best = none → done = []) →
    runTrials parse objective repeats m base trials best = .ok (best', log) →
    log.map (·.1) = trials ∧
    (∀ e ∈ log, ∃ cfg, parse (deepMerge base e.1.patch) = .ok cfg ∧
      runRepeats (objective cfg e.1.index) repeats = .ok e.2.1 ∧ e.2.2 = meanScore e.2.1) ∧
    (∀ b, best' = some b → IsBest m (done ++ log) b ∧ b.cmp = cmpScore m b.score) ∧
    (best' = none → done ++ log = [])
  | [], best, done, best', log, _, hb, hn, h => by
    unfold runTrials at h
    simp only [Except.ok.injEq, Prod.mk.injEq] at h
    obtain ⟨rfl, rfl⟩ := h
    refine ⟨rfl, by simp, ?_, ?_⟩
    · intro b e; rw [List.append_nil]; exact hb b e
    · intro e; rw [List.append_nil]; exact hn e
  | t :: trials, best, done, best', log, hpw, hb, hn, h => by
    unfold runTrials at h
    simp only [ebind_ok] at h
    obtain ⟨cfg, hcfg, scores, hsc, r, hr, h⟩ := h
    simp only [Except.ok.injEq, Prod.mk.injEq] at h
    obtain ⟨rfl, rfl⟩ := h
    have hlast : ∀ x ∈ done, x.1.index < t.index := by
      intro x hx
      rw [List.pairwise_append] at hpw
      exact hpw.2.2 _ (List.mem_map.mpr ⟨x, hx, rfl⟩) _ (by simp)
    have hstep : ∀ b, (if isBetter (cmpScore m (meanScore scores))
          (best.map (fun b => (b.cmp, b.trial.index))) m t.index then
        some { cmp := cmpScore m (meanScore scores), score := meanScore scores, trial := t }
        else best) = some b →
        IsBest m (done ++ [(t, scores, meanScore scores)]) b ∧ b.cmp = cmpScore m b.score := by
      intro b hbe
      cases best with
      | none =>
        have hd := hn rfl
        subst hd
        have hb' : some (Best.mk (cmpScore m (meanScore scores)) (meanScore scores) t) = some b := by
          simpa [isBetter] using hbe
        obtain rfl := Option.some.inj hb'
        refine ⟨⟨0, by simp, rfl, rfl, ?_, by omega⟩, rfl⟩
        intro e he
        simp only [List.nil_append, List.mem_singleton] at he
        subst he
        exact worse_irrefl _ _
      | some b0 =>
        obtain ⟨hb0, hc0⟩ := hb b0 rfl
        have hs := isBest_step hb0 hc0 (t, scores, meanScore scores) hlast
        simp only [Option.map_some] at hbe
        dsimp only at hs
        split at hbe
        · rename_i hbt
          rw [if_pos hbt] at hs
          obtain rfl := Option.some.inj hbe
          exact ⟨hs, rfl⟩
        · rename_i hbt
          rw [if_neg hbt] at hs
          obtain rfl := Option.some.inj hbe
          exact ⟨hs, hc0⟩
    obtain ⟨i1, i2, i3, i4⟩ := runTrials_spec trials _ (done ++ [(t, scores, meanScore scores)]) r.1 r.2
      (by simpa using hpw) hstep
      (by
        intro hnone
        exfalso
        cases best with
        | none => simp [isBetter] at hnone
        | some b0 => split at hnone <;> exact absurd hnone (by simp))
      hr
    refine ⟨by simp [i1], ?_, ?_, ?_⟩
    · intro e he
      rcases List.mem_cons.mp he with rfl | he
      · exact ⟨cfg, hcfg, hsc, rfl⟩
      · exact i2 e he
    · intro b e
      have := i3 b e
      simpa using this
    · intro e
      have := i4 e
      simp at this

theorem searchTrials_index {σ : Type} {D : Draw σ} (hD : D.Lawful) {kind : Kind σ}
    {space : List (String × PyVal)} (hv : Valid (.dict space)) {trials : List Trial}
    (h : searchTrials D kind space = .ok trials) :
    trials.map (·.index) = List.range trials.length ∧ trials ≠ [] ∧
    ∀ t ∈ trials,
      (∀ p nd, LeafAt (.dict space) p nd → ∃ v, Allowed nd v ∧ getPath (.dict t.patch) p = some v) ∧
      (∀ q v, getPath (.dict t.patch) q = some v →
        ∃ p nd, LeafAt (.dict space) p nd ∧ (q <+: p ∨ p <+: q)) := by
  unfold searchTrials at h
  simp only [ebind_ok] at h
  obtain ⟨_, _, leaves, hl, h⟩ := h
  cases kind with
  | grid =>
    obtain ⟨a1, a2, a3⟩ := C21_grid_complete space hv leaves hl trials h
    refine ⟨a1, ?_, ?_⟩
    · -- every leaf has at least one option
      obtain ⟨_, f1, f2, f3⟩ := fromDict_spec hv hl
      have : ∃ choice : List String → PyVal, ∀ p nd vs, LeafAt (.dict space) p nd → Options nd vs →
          choice p ∈ vs := by
        classical
        have hpt : ∀ p, ∃ v, ∀ nd vs, LeafAt (.dict space) p nd → Options nd vs → v ∈ vs := by
          intro p
          by_cases hex : ∃ nd vs, LeafAt (.dict space) p nd ∧ Options nd vs
          · obtain ⟨nd, vs, hLA, hO⟩ := hex
            obtain ⟨leaf, hlm, hp, hL⟩ := f2 p nd hLA
            have hval := (leafOf_options hL vs).mpr hO
            have hne : vs ≠ [] := by
              cases hO with
              | list =>
                exact hL.1
              | choice d _ h1 h2 =>
                rintro rfl
                obtain ⟨spec, values, hdv, hs, hvd, _⟩ := distLeaf_pieces hL
                rw [h2] at hdv
                simp only [distValues, Except.ok.injEq] at hdv
                rw [hs, h1, ← hdv] at hvd
                simp [validateDistribution, PyVal.toStr] at hvd
            obtain ⟨x, hx⟩ := List.exists_mem_of_ne_nil vs hne
            refine ⟨x, ?_⟩
            intro nd' vs' hLA' hO'
            obtain rfl := leafAt_unique hLA hLA'
            have hval' := (leafOf_options hL vs').mpr hO'
            rw [hval] at hval'
            rwa [← Option.some.inj hval']
          · exact ⟨.none, fun nd vs h1 h2 => absurd ⟨nd, vs, h1, h2⟩ hex⟩
        choose c hc using hpt
        exact ⟨c, fun p => hc p⟩
      obtain ⟨c, hc⟩ := this
      obtain ⟨t, ht, _⟩ := a3 c hc
      exact List.ne_nil_of_mem ht
    · intro t ht
      refine ⟨?_, fun q v hq => C21_grid_only_leaves space hv leaves hl trials h t ht q v hq⟩
      intro p nd hp
      obtain ⟨vs, v, hO, hm, hg⟩ := a2 t ht p nd hp
      exact ⟨v, .option _ _ _ hO hm, hg⟩
  | random s n =>
    have hn : 0 < n := by
      by_contra hc
      dsimp only at h
      rw [C64_random_rejects D leaves s n (by omega)] at h
      exact absurd h (by simp)
    obtain ⟨ts, e, a1, a2⟩ := C64_random_inside D hD space hv leaves hl s n hn
    dsimp only at h
    rw [e] at h
    obtain rfl := Except.ok.inj h
    have hlen : ts.length = n.toNat := by
      have := congrArg List.length a1
      simpa using this
    refine ⟨by rw [a1, hlen], ?_, a2⟩
    intro h0
    rw [h0] at hlen
    simp at hlen
    omega

/-- **C23.** What the tuner returns: the log has one entry per trial in order, each with the mean of
its repeats; the returned trial is one of them, no trial did better, and every earlier trial did
strictly worse (so among equals it is the earliest).  NaN counts as worst. -/
theorem C23_best_trial {σ C : Type} (D : Draw σ) (hD : D.Lawful) (kind : Kind σ)
    (space : List (String × PyVal)) (hv : Valid (.dict space))
    (parse : List (String × PyVal) → Except PyErr C)
    (objective : C → Nat → Nat → Except PyErr Score) (repeats : Nat) (maximize : Bool)
    (base : List (String × PyVal)) (best : Best) (log : List Entry)
    (h : runHpo D kind space parse objective repeats maximize base = .ok (best, log)) :
    searchTrials D kind space = .ok (log.map (·.1)) ∧
    (∀ e ∈ log, ∃ cfg, parse (deepMerge base e.1.patch) = .ok cfg ∧
      runRepeats (objective cfg e.1.index) repeats = .ok e.2.1 ∧ e.2.2 = meanScore e.2.1) ∧
    ∃ i, ∃ hi : i < log.length, best.trial = log[i].1 ∧ best.score = log[i].2.2 ∧
      (∀ e ∈ log, ¬ Worse maximize log[i].2.2 e.2.2) ∧
      (∀ j, ∀ hj : j < i, Worse maximize (log[j]'(by omega)).2.2 log[i].2.2) := by
  unfold runHpo at h
  simp only [ebind_ok] at h
  obtain ⟨trials, ht, r, hr, h⟩ := h
  have hidx := (searchTrials_index hD hv ht).1
  split at h
  · exact absurd h (by simp)
  · rename_i b hb
    simp only [Except.ok.injEq, Prod.mk.injEq] at h
    obtain ⟨rfl, rfl⟩ := h
    obtain ⟨i1, i2, i3, _⟩ := runTrials_spec trials none [] r.1 r.2
      (by rw [List.map_nil, List.nil_append, hidx]; exact List.pairwise_lt_range) (by simp) (by simp) hr
    refine ⟨by rw [i1]; exact ht, i2, ?_⟩
    have := (i3 b hb).1
    simpa [IsBest] using this

theorem runRepeats_total {objective : Nat → Except PyErr Score} (h : ∀ r, ∃ s, objective r = .ok s) :
    ∀ n, ∃ l, runRepeats objective n = .ok l
  | 0 => ⟨[], rfl⟩
  | n + 1 => by
    obtain ⟨l, hl⟩ := runRepeats_total h n
    obtain ⟨s, hs⟩ := h n
    exact ⟨l ++ [s], by unfold runRepeats; rw [ebind_of_ok hl, ebind_of_ok hs]⟩

/-- **C23.** The tuner always returns a trial once the space is accepted: it fails only if a trial's
configuration is rejected or an evaluation fails. -/
theorem C23_always_returns {σ C : Type} (D : Draw σ) (hD : D.Lawful) (kind : Kind σ)
    (space : List (String × PyVal)) (hv : Valid (.dict space)) (trials : List Trial)
    (ht : searchTrials D kind space = .ok trials)
    (parse : List (String × PyVal) → Except PyErr C)
    (objective : C → Nat → Nat → Except PyErr Score) (repeats : Nat) (maximize : Bool)
    (base : List (String × PyVal)) (hparse : ∀ t ∈ trials, ∃ c, parse (deepMerge base t.patch) = .ok c)
    (hobj : ∀ c i r, ∃ s, objective c i r = .ok s) :
    ∃ best log, runHpo D kind space parse objective repeats maximize base = .ok (best, log) := by
  obtain ⟨hidx, hne, _⟩ := searchTrials_index hD hv ht
  have hrun : ∀ (ts : List Trial) (b : Option Best), (∀ t ∈ ts, t ∈ trials) →
      ∃ r, runTrials parse objective repeats maximize base ts b = .ok r := by
    intro ts
    induction ts with
    | nil => intro b _; exact ⟨_, rfl⟩
    | cons t ts ih =>
      intro b hsub
      obtain ⟨c, hc⟩ := hparse t (hsub t (by simp))
      obtain ⟨l, hl⟩ := runRepeats_total (hobj c t.index) repeats
      obtain ⟨r, hr⟩ := ih (if isBetter (cmpScore maximize (meanScore l))
          (b.map (fun b => (b.cmp, b.trial.index))) maximize t.index then
        some { cmp := cmpScore maximize (meanScore l), score := meanScore l, trial := t }
        else b) (fun t' h' => hsub t' (by simp [h']))
      refine ⟨(r.1, (t, l, meanScore l) :: r.2), ?_⟩
      unfold runTrials
      rw [ebind_of_ok hc, ebind_of_ok hl]
      simp only
      rw [hr]
      rfl
  obtain ⟨r, hr⟩ := hrun trials none (fun _ h => h)
  obtain ⟨i1, _, _, i4⟩ := runTrials_spec trials none [] r.1 r.2
    (by rw [List.map_nil, List.nil_append, hidx]; exact List.pairwise_lt_range) (by simp) (by simp) hr
  have hsome : r.1 ≠ none := by
    intro hnone
    have := i4 hnone
    rw [List.nil_append] at this
    rw [this] at i1
    exact hne (by simpa using i1.symm)
  obtain ⟨b, hb⟩ := Option.ne_none_iff_exists'.mp hsome
  refine ⟨b, r.2, ?_⟩
  unfold runHpo
  rw [ebind_of_ok ht, ebind_of_ok hr]
  simp only [hb]

/-! ### Only `method.params` is touched -/

theorem checkPath_ok {path : List String} (h : checkPath path = .ok ()) :
    ["method", "params"] <+: path ∧ 3 ≤ path.length := by
  unfold checkPath at h
  split at h
  · exact absurd h (by simp)
  · rename_i hc
    simp only [not_or, not_lt, Classical.not_not] at hc
    refine ⟨?_, hc.1⟩
    match path, hc with
    | [], hc => simp at hc
    | [_], hc => simp at hc
    | a :: b :: rest, hc =>
      simp at hc
      obtain ⟨_, rfl, rfl⟩ := hc
      exact ⟨rest, rfl⟩

mutual
theorem validateTargets_spec : ∀ (node : PyVal) (path : List String), validateTargets node path = .ok () →
    ∀ p nd, LeafAt node p nd → checkPath (path ++ p) = .ok ()
  | .list l, path, h, p, nd, hp => by
    unfold validateTargets at h
    split at h
    · exact absurd h (by simp)
    · cases hp; simpa using h
  | .dict d, path, h, p, nd, hp => by
    unfold validateTargets at h
    split at h
    · exact absurd h (by simp)
    · split at h
      · rename_i hd
        cases hp with
        | dist => simpa using h
        | child _ _ _ _ _ hnd => exact absurd (Assoc.has_iff.mp hd) hnd
      · rename_i hd
        cases hp with
        | dist _ hc => exact absurd (Assoc.has_iff.mpr hc) hd
        | child _ k v p _ _ hg hl =>
          exact validateTargetEntries_spec d path h k v p nd (Assoc.mem_of_get hg) hl
  | .none, _, h, _, _, _ => by simp [validateTargets] at h
  | .bool _, _, h, _, _, _ => by simp [validateTargets] at h
  | .int _, _, h, _, _, _ => by simp [validateTargets] at h
  | .flt _, _, h, _, _, _ => by simp [validateTargets] at h
  | .str _, _, h, _, _, _ => by simp [validateTargets] at h

theorem validateTargetEntries_spec : ∀ (d : List (String × PyVal)) (path : List String),
    validateTargetEntries d path = .ok () →
    ∀ k v p nd, (k, v) ∈ d → LeafAt v p nd → checkPath (path ++ (k :: p)) = .ok ()
  | [], _, _, k, v, p, nd, hm, _ => absurd hm (by simp)
  | (k0, v0) :: d, path, h, k, v, p, nd, hm, hl => by
    unfold validateTargetEntries at h
    split at h
    · exact absurd h (by simp)
    · rw [ebind_ok] at h
      obtain ⟨_, h1, h2⟩ := h
      rcases List.mem_cons.mp hm with he | hm
      · obtain ⟨rfl, rfl⟩ := Prod.mk.inj he
        have := validateTargets_spec v (path ++ [k]) h1 p nd hl
        simpa using this
      · exact validateTargetEntries_spec d path h2 k v p nd hm hl
end

theorem validDict_set {d : List (String × PyVal)} {k : String} {v : PyVal} (hd : ValidDict d)
    (hv : Valid v) : ValidDict (Assoc.set d k v) := by
  unfold Assoc.set
  split
  · rename_i h
    clear h
    induction d with
    | nil => simp [ValidDict]
    | cons p d ih =>
      obtain ⟨k0, v0⟩ := p
      unfold ValidDict at hd
      rw [List.map_cons]
      dsimp only
      split
      · exact ⟨hv, ih hd.2⟩
      · exact ⟨hd.1, ih hd.2⟩
  · rename_i h
    clear h
    induction d with
    | nil => exact ⟨hv, trivial⟩
    | cons p d ih =>
      obtain ⟨k0, v0⟩ := p
      unfold ValidDict at hd
      exact ⟨hd.1, ih hd.2⟩

theorem assign_valid : ∀ (p : List String) (d d' : List (String × PyVal)) (v : PyVal),
    Valid (.dict d) → Valid v → assign d p v = .ok d' → Valid (.dict d')
  | [], _, _, _, _, _, h => by simp [assign] at h
  | [k], d, d', v, hd, hv, h => by
    simp only [assign, Except.ok.injEq] at h
    subst h
    unfold Valid at hd ⊢
    exact ⟨Assoc.nodup_keys_set hd.1 k v, validDict_set hd.2 hv⟩
  | k :: k' :: ks, d, d', v, hd, hv, h => by
    unfold assign at h
    have hd' := hd
    unfold Valid at hd'
    split at h
    · rw [ebind_ok] at h
      obtain ⟨s, hs, h⟩ := h
      obtain rfl := Except.ok.inj h
      have := assign_valid (k' :: ks) [] s v (by simp [Valid, ValidDict, Assoc.keys]) hv hs
      unfold Valid
      exact ⟨Assoc.nodup_keys_set hd'.1 k _, validDict_set hd'.2 this⟩
    · rename_i s0 hg
      rw [ebind_ok] at h
      obtain ⟨s, hs, h⟩ := h
      obtain rfl := Except.ok.inj h
      have := assign_valid (k' :: ks) s0 s v (valid_get hd'.2 hg) hv hs
      unfold Valid
      exact ⟨Assoc.nodup_keys_set hd'.1 k _, validDict_set hd'.2 this⟩
    · exact absurd h (by simp)

theorem validList_mem {l : List PyVal} (h : ValidList l) {v : PyVal} (hv : v ∈ l) : Valid v := by
  induction l with
  | nil => simp at hv
  | cons a l ih =>
    unfold ValidList at h
    rcases List.mem_cons.mp hv with rfl | hv
    · exact h.1
    · exact ih h.2 hv

theorem leafAt_valid {s : PyVal} {p : List String} {nd : PyVal} (h : LeafAt s p nd) (hv : Valid s) :
    Valid nd := by
  induction h with
  | list => exact hv
  | dist => exact hv
  | child d k v p nd _ hg _ ih =>
    unfold Valid at hv
    exact ih (valid_get hv.2 hg)

theorem options_valid {nd : PyVal} {vs : List PyVal} (h : Options nd vs) (hv : Valid nd) : ValidList vs := by
  cases h with
  | list => simpa [Valid] using hv
  | choice d _ _ h2 =>
    unfold Valid at hv
    have := valid_get hv.2 h2
    simpa [Valid] using this

theorem allowed_valid {nd v : PyVal} (h : Allowed nd v) (hv : Valid nd) : Valid v := by
  cases h with
  | option _ vs _ hO hm => exact validList_mem (options_valid hO hv) hm
  | interval => simp [Valid]
  | integer => simp [Valid]

theorem assignAll_valid : ∀ (items : List (List String × PyVal)) (d d' : List (String × PyVal)),
    Valid (.dict d) → (∀ it ∈ items, Valid it.2) → assignAll d items = .ok d' → Valid (.dict d')
  | [], d, d', hd, _, h => by
    simp only [assignAll, Except.ok.injEq] at h
    subst h; exact hd
  | (p, v) :: items, d, d', hd, hv, h => by
    unfold assignAll at h
    rw [ebind_ok] at h
    obtain ⟨d1, h1, h⟩ := h
    exact assignAll_valid items d1 d' (assign_valid p d d1 v hd (hv (p, v) (by simp)) h1)
      (fun it hit => hv it (by simp [hit])) h

theorem drawPatch_valid {σ : Type} {D : Draw σ} (hD : D.Lawful) {space : PyVal} (hs : Valid space) :
    ∀ (leaves : List Leaf) (d d' : List (String × PyVal)) (s s' : σ), Valid (.dict d) →
    (∀ leaf ∈ leaves, ∃ nd, LeafAt space leaf.path nd ∧ LeafOf leaf nd) →
    drawPatch D d leaves s = .ok (d', s') → Valid (.dict d')
  | [], d, d', s, s', hd, _, h => by
    simp only [drawPatch, Except.ok.injEq, Prod.mk.injEq] at h
    rw [← h.1]; exact hd
  | leaf :: leaves, d, d', s, s', hd, hl, h => by
    unfold drawPatch at h
    simp only [ebind_ok] at h
    obtain ⟨r, hr, d1, h1, h⟩ := h
    obtain ⟨nd, hLA, hL⟩ := hl leaf (by simp)
    obtain ⟨v, s1, e, hA⟩ := drawLeaf_spec hD hL s
    rw [e] at hr
    obtain rfl := Except.ok.inj hr
    exact drawPatch_valid hD hs leaves d1 d' _ s'
      (assign_valid _ d d1 v hd (allowed_valid hA (leafAt_valid hLA hs)) h1)
      (fun l hm => hl l (by simp [hm])) h

theorem randomLoop_valid {σ : Type} {D : Draw σ} (hD : D.Lawful) {space : PyVal} (hs : Valid space)
    {leaves : List Leaf} (hl : ∀ leaf ∈ leaves, ∃ nd, LeafAt space leaf.path nd ∧ LeafOf leaf nd) :
    ∀ (n i : Nat) (s : σ) (trials : List Trial), randomLoop D leaves i n s = .ok trials →
    ∀ t ∈ trials, Valid (.dict t.patch)
  | 0, i, s, trials, h, t, ht => by
    simp only [randomLoop, Except.ok.injEq] at h
    subst h; simp at ht
  | n + 1, i, s, trials, h, t, ht => by
    unfold randomLoop at h
    simp only [ebind_ok] at h
    obtain ⟨r, hr, rest, hrest, h⟩ := h
    obtain rfl := Except.ok.inj h
    rcases List.mem_cons.mp ht with rfl | ht
    · exact drawPatch_valid hD hs leaves [] r.1 s r.2 (by simp [Valid, ValidDict, Assoc.keys]) hl hr
    · exact randomLoop_valid hD hs hl n (i + 1) r.2 rest hrest t ht

theorem iterGrid_valid {space : PyVal} (hs : Valid space) {leaves : List Leaf}
    (hl : ∀ leaf ∈ leaves, ∃ nd, LeafAt space leaf.path nd ∧ LeafOf leaf nd) {trials : List Trial}
    (h : iterGrid leaves = .ok trials) : ∀ t ∈ trials, Valid (.dict t.patch) := by
  unfold iterGrid at h
  rw [ebind_ok] at h
  obtain ⟨grids, hg, h⟩ := h
  have hz := zipIdx_forall₂ (mapM_ok.mp h)
  intro t ht
  obtain ⟨i, hi, rfl⟩ := List.getElem_of_mem ht
  have hi' : i < (product grids).length := by omega
  have ht' := hz.2 i hi' hi
  unfold mkTrial at ht'
  rw [ebind_ok] at ht'
  obtain ⟨patch, hp, he⟩ := ht'
  rw [← Except.ok.inj he]
  refine assignAll_valid _ [] patch (by simp [Valid, ValidDict, Assoc.keys]) ?_ hp
  intro it hit
  have hm := (List.of_mem_zip (a := it.1) (b := it.2) hit).2
  obtain ⟨j, hj, hje⟩ := List.getElem_of_mem hm
  have hc := List.forall₂_iff_get.mp (mem_product.mp (List.getElem_mem hi'))
  dsimp only at hj hje
  have hjg : j < grids.length := by rw [← hc.1]; exact hj
  have hmem := hc.2 j hj hjg
  have hf := List.forall₂_iff_get.mp (mapM_ok.mp hg)
  have hjl : j < leaves.length := by rw [hf.1]; exact hjg
  have hleaf := hf.2 j hjl hjg
  obtain ⟨nd, hLA, hL⟩ := hl leaves[j] (List.getElem_mem _)
  have hval : leaves[j].values = some grids[j] := by
    simp only [List.get_eq_getElem, leafGrid] at hleaf
    split at hleaf
    · exact absurd hleaf (by simp)
    · rename_i vs hvs
      rw [hvs, Except.ok.inj hleaf]
  have hvl := options_valid ((leafOf_options hL _).mp hval) (leafAt_valid hLA hs)
  rw [← hje]
  exact validList_mem hvl (by simpa using hmem)

theorem searchTrials_valid {σ : Type} {D : Draw σ} (hD : D.Lawful) {kind : Kind σ}
    {space : List (String × PyVal)} (hv : Valid (.dict space)) {trials : List Trial}
    (h : searchTrials D kind space = .ok trials) : ∀ t ∈ trials, Valid (.dict t.patch) := by
  unfold searchTrials at h
  simp only [ebind_ok] at h
  obtain ⟨_, _, leaves, hl, h⟩ := h
  obtain ⟨_, f1, _, _⟩ := fromDict_spec hv hl
  cases kind with
  | grid => exact iterGrid_valid hv (fun l hm => (f1 l hm).2) h
  | random s n =>
    unfold iterRandom at h
    dsimp only at h
    split at h
    · exact absurd h (by simp)
    · exact randomLoop_valid hD hv (fun l hm => (f1 l hm).2) _ _ _ _ h

/-- **C23.** The tuner only ever changes `method.params.*`: in the configuration of every trial each
entry outside `method.params` is what the base configuration has. -/
theorem C23_only_method_params {σ : Type} (D : Draw σ) (hD : D.Lawful) (kind : Kind σ)
    (space : List (String × PyVal)) (hv : Valid (.dict space)) (trials : List Trial)
    (ht : searchTrials D kind space = .ok trials) (t : Trial) (htm : t ∈ trials)
    (base : List (String × PyVal)) (q : List String) (hq : Apart ["method", "params"] q) :
    getPath (.dict (deepMerge base t.patch)) q = getPath (.dict base) q := by
  have hvalid := searchTrials_valid hD hv ht t htm
  obtain ⟨_, _, h3⟩ := searchTrials_index hD hv ht
  obtain ⟨a1, a2⟩ := h3 t htm
  have htarget : ∀ p nd, LeafAt (.dict space) p nd → ["method", "params"] <+: p := by
    unfold searchTrials at ht
    simp only [ebind_ok] at ht
    obtain ⟨_, hvt, _⟩ := ht
    intro p nd hp
    have := validateTargets_spec _ _ hvt p nd hp
    rw [List.nil_append] at this
    exact (checkPath_ok this).1
  apply C22_base_kept q base t.patch hvalid
  · cases hg : getPath (.dict t.patch) q with
    | none => rfl
    | some v =>
      exfalso
      obtain ⟨p, nd, hp, hc⟩ := a2 q v hg
      have hmp := htarget p nd hp
      rcases hc with hc | hc
      · rcases List.prefix_or_prefix_of_prefix hmp hc with h | h
        · exact hq.1 h
        · exact hq.2 h
      · exact hq.1 (hmp.trans hc)
  · intro r hr v hrv
    obtain ⟨p, nd, hp, hc⟩ := a2 r v hrv
    have hmp := htarget p nd hp
    by_cases hpr : p <+: r
    · exact absurd ((hmp.trans hpr).trans hr) hq.1
    · rcases hc with hc | hc
      · obtain ⟨s, rfl⟩ := hc
        obtain ⟨w, _, hw⟩ := a1 _ nd hp
        rw [getPath_append, hrv] at hw
        cases s with
        | nil => exact absurd (by simp) hpr
        | cons k s =>
          by_contra hnd
          simp only [Option.bind_some] at hw
          rw [getPath_not_dict hnd] at hw
          exact absurd hw (by simp)
      · exact absurd hc hpr

/-- **C23.** A space with a leaf outside `method.params.*` is rejected. -/
theorem C23_other_targets_rejected {σ : Type} (D : Draw σ) (kind : Kind σ)
    (space : List (String × PyVal)) (p : List String) (nd : PyVal) (hp : LeafAt (.dict space) p nd)
    (hbad : ¬ (["method", "params"] <+: p ∧ 3 ≤ p.length)) :
    ∃ e, searchTrials D kind space = .error e := by
  cases hs : searchTrials D kind space with
  | error e => exact ⟨e, rfl⟩
  | ok trials =>
    exfalso
    unfold searchTrials at hs
    simp only [ebind_ok] at hs
    obtain ⟨_, hvt, _⟩ := hs
    have := validateTargets_spec _ _ hvt p nd hp
    rw [List.nil_append] at this
    exact hbad (checkPath_ok this)

/-! ### The hypotheses are met -/

/-- Six trials; the score of trial `i` is the `i`-th entry; two trials tie for the best and one is
NaN: the earlier of the two is returned. -/
def demoScores : List Score := [.fin 1, .nan, .fin 3, .ninf, .fin 3, .fin 2]

example : (do
    let r ← runHpo Draw.demo (.grid) demoSpace (fun d => (.ok d : Except PyErr _))
      (fun _ i _ => .ok (demoScores.getD i .nan)) 2 true demoBase
    .ok (r.1.trial.index, r.2.length) : Except PyErr (Nat × Nat)) = .ok (2, 6) := by decide +kernel

example : (do
    let r ← runHpo Draw.demo (.grid) demoSpace (fun d => (.ok d : Except PyErr _))
      (fun _ i _ => .ok (demoScores.getD i .nan)) 1 false demoBase
    .ok (r.1.trial.index, r.2.length) : Except PyErr (Nat × Nat)) = .ok (3, 6) := by decide +kernel

example : Valid (.dict demoSpace) := by simp [Valid, ValidDict, ValidList, demoSpace, Assoc.keys]

example : Apart ["method", "params"] ["method", "id"] ∧ Apart ["method", "params"] ["seed"] := by
  simp [Apart, List.cons_prefix_cons]

end ModSSC.Hpo
