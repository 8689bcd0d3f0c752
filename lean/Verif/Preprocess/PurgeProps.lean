import Verif.Preprocess.ResolveProps

/-!
# Purging unused artifacts (C33)
-/

namespace ModSSC.Preprocess
open ModSSC Spec

variable {V P S : Type}

/-! ## Stores -/

theorem get_setAll {outs : Store V} (hnd : (Assoc.keys outs).Nodup) : ∀ {s : Store V} {k : String},
    Assoc.get (setAll s outs) k = (Assoc.get outs k).or (Assoc.get s k) := by
  induction outs with
  | nil => intro s k; simp [setAll]
  | cons p outs ih =>
    intro s k
    simp only [Assoc.keys, List.map_cons, List.nodup_cons] at hnd
    have h := ih hnd.2 (s := Assoc.set s p.1 p.2) (k := k)
    unfold setAll at h ⊢
    rw [List.foldl_cons, h, Assoc.get_set, Assoc.get_cons]
    by_cases hk : p.1 = k
    · subst hk
      have : Assoc.get outs p.1 = none := Assoc.get_eq_none_iff.mpr hnd.1
      simp [this]
    · rw [if_neg hk, if_neg (fun h => hk h.symm)]

theorem get_setProv {outs : Store V} {fp : String} : ∀ {prov : List (String × String)} {k : String},
    Assoc.get (setProv prov fp outs) k =
      if k ∈ Assoc.keys outs then some fp else Assoc.get prov k := by
  induction outs with
  | nil => intro prov k; simp [setProv, Assoc.keys]
  | cons p outs ih =>
    intro prov k
    have h := ih (prov := Assoc.set prov p.1 fp) (k := k)
    unfold setProv at h ⊢
    rw [List.foldl_cons, h, Assoc.get_set]
    have hkeys : Assoc.keys (p :: outs) = p.1 :: Assoc.keys outs := rfl
    rw [hkeys]
    by_cases hm : k ∈ Assoc.keys outs
    · rw [if_pos hm, if_pos (List.mem_cons_of_mem _ hm)]
    · rw [if_neg hm]
      by_cases hk : k = p.1
      · rw [if_pos hk, if_pos (by simp [hk])]
      · rw [if_neg hk, if_neg (by simp [hk, hm])]

theorem get_purgeStore {s : Store V} {keep : List String} {k : String} :
    Assoc.get (purgeStore s keep) k = if k ∈ keep then Assoc.get s k else none := by
  unfold purgeStore
  induction s with
  | nil => simp
  | cons p s ih =>
    by_cases hp : p.1 ∈ keep
    · rw [List.filter_cons_of_pos (by simpa using hp), Assoc.get_cons, ih, Assoc.get_cons]
      by_cases hk : p.1 = k
      · subst hk; simp [hp]
      · simp [hk]
    · rw [List.filter_cons_of_neg (by simpa using hp), ih, Assoc.get_cons]
      by_cases hk : p.1 = k
      · subst hk; simp [hp]
      · simp [hk]

theorem get_purgeOpt {s : Store V} {keep : Option (List String)} {k : String} :
    Assoc.get (purgeOpt keep s) k = if ∀ K, keep = some K → k ∈ K then Assoc.get s k else none := by
  cases keep with
  | none => simp [purgeOpt]
  | some K => simp [purgeOpt, get_purgeStore]

/-- Keys needed by the rest of the run. -/
def req (final : List String) (steps : List (ResolvedStep P)) : List String :=
  (keepFold steps final).2

theorem req_cons (final : List String) (s : ResolvedStep P) (steps : List (ResolvedStep P)) :
    req final (s :: steps) = req final steps ++ s.spec.consumes ++ implicitConsumes s.stepId := rfl

theorem final_subset_req (final : List String) (steps : List (ResolvedStep P)) :
    ∀ k ∈ final, k ∈ req final steps := by
  induction steps with
  | nil => intro k hk; exact hk
  | cons s steps ih =>
    intro k hk
    rw [req_cons]
    simp [ih k hk]

/-- The step list paired with its purge sets. -/
theorem keepFold_zip (final : List String) (s : ResolvedStep P) (steps : List (ResolvedStep P)) :
    (s :: steps).zip ((keepFold (s :: steps) final).1.map some) =
      (s, some (req final steps)) :: steps.zip ((keepFold steps final).1.map some) := rfl

/-! ## Steps that read only what they declare -/

/-- The step reads nothing outside `R`: its code cannot tell apart two stores that agree on `R`. -/
def ReadsOnly (E : Env V P S) (id : String) (R : List String) : Prop :=
  (∀ obj s s' idx, AgreeOn Assoc.get R s s' → E.fit id obj s idx = E.fit id obj s' idx) ∧
  (∀ obj s s', AgreeOn Assoc.get R s s' → E.transform id obj s = E.transform id obj s')

/-- Every registered step reads only what it declares, apart from the raw fields the built-in graph
embeddings are known to read, and returns a dictionary with declared keys only. -/
structure Declared (E : Env V P S) : Prop where
  reads : ∀ id sp, E.spec id = some sp → ReadsOnly E id (sp.consumes ++ undeclaredReads id)
  outs : ∀ id sp, E.spec id = some sp → ∀ obj s outs obj',
    E.transform id obj s = .ok (outs, obj') →
      (Assoc.keys outs).Nodup ∧ ∀ k ∈ Assoc.keys outs, k ∈ sp.produces

theorem undeclared_implicit {id k : String} (h : k ∈ undeclaredReads id) :
    k ∈ implicitConsumes id := by
  unfold undeclaredReads at h
  unfold implicitConsumes
  by_cases h1 : id = "graph.node2vec"
  · rw [if_pos h1] at h ⊢
    simp only [List.mem_cons, List.not_mem_nil, or_false] at h ⊢
    exact h.symm
  · rw [if_neg h1] at h ⊢
    exact h

theorem readsOnly_mono {E : Env V P S} {id : String} {R R' : List String} (hR : ∀ k ∈ R, k ∈ R')
    (h : ReadsOnly E id R) : ReadsOnly E id R' :=
  ⟨fun obj s s' idx ha => h.1 obj s s' idx (fun k hk => ha k (hR k hk)),
   fun obj s s' ha => h.2 obj s s' (fun k hk => ha k (hR k hk))⟩

theorem Declared.reads' {E : Env V P S} (hE : Declared E) {id : String} {sp : StepSpec}
    (h : E.spec id = some sp) : ReadsOnly E id (sp.consumes ++ implicitConsumes id) :=
  readsOnly_mono (fun _ hk => (List.mem_append.mp hk).elim (fun h => List.mem_append_left _ h)
    (fun h => List.mem_append_right _ (undeclared_implicit h))) (hE.reads _ _ h)

theorem obtain_none (E : Env V P S) (cdc : Codec V) (fp split : String) (step : ResolvedStep P)
    (obj : S) (store : Store V) :
    obtain E cdc none fp split step obj store = ([], E.transform step.stepId obj store) := by
  unfold obtain fromCache
  simp only
  cases E.transform step.stepId obj store with
  | error e => rfl
  | ok r => rfl

/-- The left store is a part of the right one that has the same artifacts under the keys in `R`. -/
def Below (R : List String) (s s' : Store V) : Prop :=
  AgreeOn Assoc.get R s s' ∧ ∀ k v, Assoc.get s k = some v → Assoc.get s' k = some v

/-- Stores of the purged run (left) and of the full run (right) agree on the keys still needed. -/
def AgreeState (R : List String) (st st' : RunState V) : Prop :=
  Below R st.train st'.train ∧ Option.Rel (Below R) st.test st'.test

theorem prepare_congr {E : Env V P S} {id : String} {R : List String} (hr : ReadsOnly E id R)
    {seed : Int} {fit : Option (List Int)} {s s' : Store V} {step : ResolvedStep P}
    (hid : step.stepId = id) (h : AgreeOn Assoc.get R s s') :
    prepare E seed fit s step = prepare E seed fit s' step := by
  unfold prepare
  subst hid
  cases E.start step.stepId step.params (E.deriveSeed seed step.stepId step.index) with
  | error e => rfl
  | ok obj =>
    simp only
    split
    · cases fit with
      | none => rfl
      | some idx => exact hr.1 obj s s' idx h
    · rfl

theorem runStep_purge {E : Env V P S} (hE : Declared E) {cdc : Codec V} {dfp : String} {seed : Int}
    {fit : Option (List Int)} {st st' : RunState V} {step : ResolvedStep P} {R : List String}
    (hspec : E.spec step.stepId = some step.spec)
    (h : AgreeState (R ++ step.spec.consumes ++ implicitConsumes step.stepId) st st') :
    ERel (AgreeState R) (runStep E cdc dfp seed fit none st step (some R)).2
      (runStep E cdc dfp seed fit none st' step none).2 := by
  have hro := hE.reads' hspec
  have hsub : ∀ s s' : Store V,
      Below (R ++ step.spec.consumes ++ implicitConsumes step.stepId) s s' →
      AgreeOn Assoc.get (step.spec.consumes ++ implicitConsumes step.stepId) s s' := by
    intro s s' h k hk
    apply h.1 k
    rw [List.append_assoc]
    exact List.mem_append.mpr (.inr hk)
  have hprep := prepare_congr hro (seed := seed) (fit := fit) rfl (hsub _ _ h.1)
  have hupd : ∀ (s s' outs : Store V), (Assoc.keys outs).Nodup →
      Below (R ++ step.spec.consumes ++ implicitConsumes step.stepId) s s' →
      Below R (purgeOpt (some R) (setAll s outs)) (purgeOpt none (setAll s' outs)) := by
    intro s s' outs hnd h
    constructor
    · intro k hk
      have hk' := h.1 k (by simp [hk])
      rw [get_purgeOpt, get_purgeOpt, if_pos (by simpa using hk), if_pos (by simp),
        get_setAll hnd, get_setAll hnd, hk']
    · intro k v hv
      rw [get_purgeOpt] at hv
      rw [get_purgeOpt, if_pos (by simp), get_setAll hnd]
      split at hv
      · rw [get_setAll hnd] at hv
        cases ho : Assoc.get outs k with
        | some w => rw [ho] at hv; exact hv
        | none =>
          rw [ho] at hv
          simp only [Option.none_or] at hv ⊢
          exact h.2 k v hv
      · simp at hv
  unfold runStep
  simp only [obtain_none, hprep]
  cases hp : prepare E seed fit st'.train step with
  | error e => exact .error e
  | ok obj =>
    simp only
    rw [hro.2 obj _ _ (hsub _ _ h.1)]
    cases ht : E.transform step.stepId obj st'.train with
    | error e => exact .error e
    | ok r =>
      obtain ⟨outs, obj'⟩ := r
      have hnd := (hE.outs _ _ hspec _ _ _ _ ht).1
      simp only
      have h2 := h.2
      cases hte : st.test with
      | none =>
        rw [hte] at h2
        cases hte' : st'.test with
        | some t => rw [hte'] at h2; cases h2
        | none =>
          exact .ok ⟨hupd _ _ _ hnd h.1, .none⟩
      | some t =>
        rw [hte] at h2
        cases hte' : st'.test with
        | none => rw [hte'] at h2; cases h2
        | some t' =>
          rw [hte'] at h2
          cases h2 with
          | some h2 =>
            simp only [advance, Option.map_none, obtain_none]
            rw [hro.2 obj' _ _ (hsub _ _ h2)]
            cases htt : E.transform step.stepId obj' t' with
            | error e => exact .error e
            | ok r =>
              obtain ⟨outsT, obj''⟩ := r
              have hndT := (hE.outs _ _ hspec _ _ _ _ htt).1
              exact .ok ⟨hupd _ _ _ hnd h.1, .some (hupd _ _ _ hndT h2)⟩

theorem runSteps_purge {E : Env V P S} (hE : Declared E) {cdc : Codec V} {dfp : String} {seed : Int}
    {fit : Option (List Int)} {final : List String} {steps : List (ResolvedStep P)} :
    ∀ {st st' : RunState V}, (∀ s ∈ steps, E.spec s.stepId = some s.spec) →
    AgreeState (req final steps) st st' →
    ERel (AgreeState final)
      (runSteps E cdc dfp seed fit none st (steps.zip ((keepFold steps final).1.map some))).2
      (runSteps E cdc dfp seed fit none st' (steps.map (fun s => (s, none)))).2 := by
  induction steps with
  | nil => intro st st' _ h; exact .ok h
  | cons s steps ih =>
    intro st st' hspec h
    rw [keepFold_zip, List.map_cons]
    have hs := runStep_purge hE (cdc := cdc) (dfp := dfp) (seed := seed) (fit := fit)
      (hspec s List.mem_cons_self) (R := req final steps) (by rw [← req_cons]; exact h)
    rw [runSteps, runSteps]
    simp only
    cases ha : (runStep E cdc dfp seed fit none st s (some (req final steps))).2 with
    | error e =>
      rw [ha] at hs
      cases hb : (runStep E cdc dfp seed fit none st' s none).2 with
      | error e' => rw [hb] at hs; cases hs; exact .error e
      | ok b => rw [hb] at hs; cases hs
    | ok a =>
      rw [ha] at hs
      cases hb : (runStep E cdc dfp seed fit none st' s none).2 with
      | error e' => rw [hb] at hs; cases hs
      | ok b =>
        rw [hb] at hs
        cases hs with
        | ok hs =>
          simp only [advance, Option.map_none]
          exact ih (fun s' hs' => hspec s' (List.mem_cons_of_mem _ hs')) hs

/-! ## What the stores contain at the end -/

/-- Properties of the two stores that every step keeps. -/
theorem runStep_invariant {E : Env V P S} {cdc : Codec V} {dfp : String} {seed : Int}
    {fit : Option (List Int)} {step : ResolvedStep P} {keep : Option (List String)}
    {I J : Store V → Prop}
    (hI : ∀ (obj : S) (s0 s outs : Store V) (obj' : S),
      E.transform step.stepId obj s0 = .ok (outs, obj') →
        (I s → I (purgeOpt keep (setAll s outs))) ∧ (J s → J (purgeOpt keep (setAll s outs))))
    {st st' : RunState V} (h : (runStep E cdc dfp seed fit none st step keep).2 = .ok st')
    (h1 : I st.train) (h2 : ∀ t, st.test = some t → J t) :
    I st'.train ∧ ∀ t, st'.test = some t → J t := by
  unfold runStep at h
  simp only [obtain_none] at h
  cases hp : prepare E seed fit st.train step with
  | error e => rw [hp] at h; simp at h
  | ok obj =>
    rw [hp] at h
    simp only at h
    cases ht : E.transform step.stepId obj st.train with
    | error e => rw [ht] at h; simp at h
    | ok r =>
      obtain ⟨outs, obj'⟩ := r
      rw [ht] at h
      simp only at h
      cases hte : st.test with
      | none =>
        rw [hte] at h
        simp only [Except.ok.injEq] at h
        subst h
        exact ⟨(hI _ _ _ _ _ ht).1 h1, by simp⟩
      | some t =>
        rw [hte] at h
        simp only [advance, Option.map_none, obtain_none] at h
        cases htt : E.transform step.stepId obj' t with
        | error e => rw [htt] at h; simp at h
        | ok r =>
          obtain ⟨outsT, obj''⟩ := r
          rw [htt] at h
          simp only [Except.ok.injEq] at h
          subst h
          refine ⟨(hI _ _ _ _ _ ht).1 h1, ?_⟩
          intro t' ht'
          simp only [Option.some.injEq] at ht'
          subst ht'
          exact (hI _ _ _ _ _ htt).2 (h2 t hte)

/-- Properties kept by every step hold at the end. -/
theorem runSteps_invariant {E : Env V P S} {cdc : Codec V} {dfp : String} {seed : Int}
    {fit : Option (List Int)} {I J : Store V → Prop}
    {steps : List (ResolvedStep P × Option (List String))} : ∀ {st st' : RunState V},
    (∀ p ∈ steps, ∀ (obj : S) (s0 s outs : Store V) (obj' : S),
      E.transform p.1.stepId obj s0 = .ok (outs, obj') →
        (I s → I (purgeOpt p.2 (setAll s outs))) ∧ (J s → J (purgeOpt p.2 (setAll s outs)))) →
    (runSteps E cdc dfp seed fit none st steps).2 = .ok st' →
    I st.train → (∀ t, st.test = some t → J t) →
    I st'.train ∧ ∀ t, st'.test = some t → J t := by
  induction steps with
  | nil =>
    intro st st' _ h h1 h2
    simp only [runSteps, Except.ok.injEq] at h
    subst h
    exact ⟨h1, h2⟩
  | cons p steps ih =>
    intro st st' hI h h1 h2
    rw [runSteps] at h
    simp only at h
    cases hr : (runStep E cdc dfp seed fit none st p.1 p.2).2 with
    | error e => rw [hr] at h; simp at h
    | ok st1 =>
      rw [hr] at h
      simp only [advance, Option.map_none] at h
      obtain ⟨g1, g2⟩ := runStep_invariant (hI p List.mem_cons_self) hr h1 h2
      exact ih (fun q hq => hI q (List.mem_cons_of_mem _ hq)) h g1 g2

/-- Without purging, keys are never lost. -/
theorem keep_key {s outs : Store V} {k : String} (h : k ∈ Assoc.keys s) :
    k ∈ Assoc.keys (purgeOpt none (setAll s outs)) := by
  unfold purgeOpt setAll
  simp only
  induction outs generalizing s with
  | nil => exact h
  | cons p outs ih =>
    rw [List.foldl_cons]
    exact ih (mem_keys_set.mpr (.inr h))

theorem initialState_keys {ds : Dataset V} {dfp : String} {k : String}
    (hk : k = "raw.X" ∨ k = "raw.y") :
    k ∈ Assoc.keys (initialState dfp ds).train ∧
      ∀ t, (initialState dfp ds).test = some t → k ∈ Assoc.keys t := by
  have h : ∀ sp : Split V, k ∈ Assoc.keys (initialStore sp) := by
    intro sp
    rw [mem_initialStore]
    rcases hk with hk | hk
    · exact .inl hk
    · exact .inr (.inl hk)
  refine ⟨h _, ?_⟩
  intro t ht
  simp only [initialState, Option.map_eq_some_iff] at ht
  obtain ⟨sp, -, rfl⟩ := ht
  exact h sp

/-! ## The property -/

/-- The plan produces or offers its output key, so that `raw.X` is not the answer. -/
def rawXKept (ds : Dataset V) (plan : Plan P) (steps : List (ResolvedStep P)) : Prop :=
  plan.outputKey = "raw.X" ∨
    (¬ SplitField ds.train plan.outputKey ∧ ∀ s ∈ steps, plan.outputKey ∉ s.spec.produces)

/-- `raw.y` is the answer for the labels, or was asked for. -/
def rawYKept (plan : Plan P) (steps : List (ResolvedStep P)) : Prop :=
  plan.outputKey = "raw.y" ∨ ∀ s ∈ steps, "labels.y" ∉ s.spec.produces

theorem rawX_final {ds : Dataset V} {plan : Plan P} {steps : List (ResolvedStep P)} :
    "raw.X" ∈ finalKeepKeys steps plan.outputKey (Assoc.keys (initialStore ds.train)) ↔
      rawXKept ds plan steps := by
  have hc : rawXKept ds plan steps ↔ (plan.outputKey = "raw.X" ∨
      (plan.outputKey ∉ Assoc.keys (initialStore ds.train) ∧
        plan.outputKey ∉ steps.flatMap (fun s => s.spec.produces))) := by
    unfold rawXKept
    simp only [mem_initialStore, List.mem_flatMap, not_exists, not_and]
  rw [hc]
  unfold finalKeepKeys
  constructor
  · intro h
    simp only [List.mem_append, List.mem_singleton] at h
    rcases h with ((h | h) | h) | h
    · exact .inl h.symm
    · split at h
      · rename_i h'; exact h'
      · simp at h
    · split at h <;> simp at h
    · split at h
      · simp at h
      · split at h <;> simp at h
  · intro h
    dsimp only
    rw [if_pos h]
    simp

theorem rawY_final {ds : Dataset V} {plan : Plan P} {steps : List (ResolvedStep P)} :
    "raw.y" ∈ finalKeepKeys steps plan.outputKey (Assoc.keys (initialStore ds.train)) ↔
      rawYKept plan steps := by
  unfold finalKeepKeys rawYKept
  simp only [List.mem_flatMap]
  constructor
  · intro h
    simp only [List.mem_append, List.mem_singleton] at h
    rcases h with ((h | h) | h) | h
    · exact .inl h.symm
    · split at h <;> simp at h
    · split at h
      · simp at h
      · rename_i h'
        exact .inr (fun s hs hl => h' ⟨s, hs, hl⟩)
    · split at h
      · simp at h
      · split at h <;> simp at h
  · rintro (h | h)
    · rw [h]; simp
    · have : ¬ ∃ s ∈ steps, "labels.y" ∈ s.spec.produces := by
        rintro ⟨s, hs, hl⟩; exact h s hs hl
      rw [if_neg this]; simp

theorem outSplit_ok {out : String} {edges : Option V} {s : Store V} :
    (∃ r, outSplit out edges s = .ok r) ↔ "raw.X" ∈ Assoc.keys s ∧ "raw.y" ∈ Assoc.keys s := by
  unfold outSplit
  cases hx : Assoc.get s "raw.X" with
  | none => simp [Assoc.get_eq_none_iff.mp hx]
  | some rx =>
    have hx' := Assoc.mem_keys_iff.mpr ⟨rx, hx⟩
    cases hy : Assoc.get s "raw.y" with
    | none => simp [Assoc.get_eq_none_iff.mp hy]
    | some ry =>
      have hy' := Assoc.mem_keys_iff.mpr ⟨ry, hy⟩
      simp [hx', hy']

/-- Keys outside a list are absent from a store. -/
def OnlyKeys (K : List String) (s : Store V) : Prop := ∀ k ∈ Assoc.keys s, k ∈ K

theorem finalKeep_only {E : Env V P S} {cdc : Codec V} {dfp : String} {seed : Int}
    {fit : Option (List Int)} {final : List String} {steps : List (ResolvedStep P)} :
    ∀ {st st' : RunState V}, steps ≠ [] →
    (runSteps E cdc dfp seed fit none st (steps.zip ((keepFold steps final).1.map some))).2 =
      .ok st' → OnlyKeys final st'.train ∧ ∀ t, st'.test = some t → OnlyKeys final t := by
  induction steps with
  | nil => intro st st' h; exact absurd rfl h
  | cons s steps ih =>
    intro st st' _ h
    rw [keepFold_zip, runSteps] at h
    simp only at h
    cases hr : (runStep E cdc dfp seed fit none st s (some (req final steps))).2 with
    | error e => rw [hr] at h; simp at h
    | ok st1 =>
      rw [hr] at h
      simp only [advance, Option.map_none] at h
      cases steps with
      | cons s' steps => exact ih (by simp) h
      | nil =>
        simp only [List.zip_nil_left, runSteps, Except.ok.injEq] at h
        subst h
        have hpurge : ∀ s outs : Store V, OnlyKeys final (purgeOpt (some (req final
            ([] : List (ResolvedStep P)))) (setAll s outs)) := by
          intro s outs k hk
          obtain ⟨v, hv⟩ := Assoc.mem_keys_iff.mp hk
          rw [get_purgeOpt] at hv
          split at hv
          · rename_i h'; exact h' _ rfl
          · simp at hv
        -- every store of the state after the last step has been purged
        unfold runStep at hr
        simp only [obtain_none] at hr
        cases hp : prepare E seed fit st.train s with
        | error e => rw [hp] at hr; simp at hr
        | ok obj =>
          rw [hp] at hr
          simp only at hr
          cases ht : E.transform s.stepId obj st.train with
          | error e => rw [ht] at hr; simp at hr
          | ok r =>
            obtain ⟨outs, obj'⟩ := r
            rw [ht] at hr
            simp only at hr
            cases hte : st.test with
            | none =>
              rw [hte] at hr
              simp only [Except.ok.injEq] at hr
              subst hr
              exact ⟨hpurge _ _, by simp⟩
            | some t =>
              rw [hte] at hr
              simp only [advance, Option.map_none, obtain_none] at hr
              cases htt : E.transform s.stepId obj' t with
              | error e => rw [htt] at hr; simp at hr
              | ok r =>
                obtain ⟨outsT, obj''⟩ := r
                rw [htt] at hr
                simp only [Except.ok.injEq] at hr
                subst hr
                refine ⟨hpurge _ _, ?_⟩
                intro t' ht'
                simp only [Option.some.injEq] at ht'
                subst ht'
                exact hpurge _ _

/-- Which keys a store of the full run can have. -/
def KeyOrigin (sp : Split V) (steps : List (ResolvedStep P)) (s : Store V) : Prop :=
  (∀ k ∈ Assoc.keys s, SplitField sp k ∨ ∃ r ∈ steps, k ∈ r.spec.produces) ∧
  ((∀ r ∈ steps, "graph.edge_index" ∉ r.spec.produces) →
    Assoc.get s "graph.edge_index" = sp.edges)

theorem outSplit_agree {plan : Plan P} {ds : Dataset V} {sp : Split V}
    {steps : List (ResolvedStep P)} {s s' : Store V}
    (hbelow : Below (finalKeepKeys steps plan.outputKey (Assoc.keys (initialStore ds.train))) s s')
    (horig : KeyOrigin sp steps s') {r : OutSplit V} (h : outSplit plan.outputKey sp.edges s = .ok r)
    (hrX : rawXKept ds plan steps) (hrY : rawYKept plan steps) :
    outSplit plan.outputKey sp.edges s' = .ok r := by
  have hag := hbelow.1
  have hedge := hbelow.2 "graph.edge_index"
  have horig' : ∀ k ∈ Assoc.keys s, k ∈ Assoc.keys s' := by
    intro k hk
    obtain ⟨v, hv⟩ := Assoc.mem_keys_iff.mp hk
    exact Assoc.mem_keys_iff.mpr ⟨v, hbelow.2 k v hv⟩
  have hX := hag "raw.X" (rawX_final.mpr hrX)
  have hY := hag "raw.y" (rawY_final.mpr hrY)
  have hO := hag plan.outputKey (by unfold finalKeepKeys; simp)
  have hL : Assoc.get s "labels.y" = Assoc.get s' "labels.y" := by
    by_cases hl : ∃ r ∈ steps, "labels.y" ∈ r.spec.produces
    · apply hag
      unfold finalKeepKeys
      simp only [List.mem_flatMap]
      rw [if_pos hl]
      simp
    · have hn : Assoc.get s' "labels.y" = none := by
        rw [Assoc.get_eq_none_iff]
        intro hk
        rcases horig.1 _ hk with h | h
        · rcases h with h | h | h | ⟨ms, -, p, -, hp⟩
          · simp at h
          · simp at h
          · simp at h
          · have := congrArg String.toList hp
            rw [String.toList_append] at this
            have := congrArg List.head? this
            simp at this
        · exact hl h
      rw [hn, Assoc.get_eq_none_iff]
      intro hk
      exact (Assoc.get_eq_none_iff.mp hn) (horig' _ hk)
  have hW : Assoc.get s "graph.edge_weight" = Assoc.get s' "graph.edge_weight" := by
    by_cases hl : ∃ r ∈ steps, "graph.edge_weight" ∈ r.spec.produces
    · apply hag
      unfold finalKeepKeys
      simp only [List.mem_flatMap]
      rw [if_pos hl]
      simp
    · have hn : Assoc.get s' "graph.edge_weight" = none := by
        rw [Assoc.get_eq_none_iff]
        intro hk
        rcases horig.1 _ hk with h | h
        · rcases h with h | h | h | ⟨ms, -, p, -, hp⟩
          · simp at h
          · simp at h
          · simp at h
          · have := congrArg String.toList hp
            rw [String.toList_append] at this
            have := congrArg (fun l => l[6]?) this
            simp at this
        · exact hl h
      rw [hn, Assoc.get_eq_none_iff]
      intro hk
      exact (Assoc.get_eq_none_iff.mp hn) (horig' _ hk)
  have hE : ∀ w, Assoc.get s' "graph.edge_weight" = some w →
      Assoc.get s "graph.edge_index" = Assoc.get s' "graph.edge_index" := by
    intro w hw
    have hl : ∃ r ∈ steps, "graph.edge_weight" ∈ r.spec.produces := by
      rcases horig.1 _ (Assoc.mem_keys_iff.mpr ⟨w, hw⟩) with h | h
      · rcases h with h | h | h | ⟨ms, -, p, -, hp⟩
        · simp at h
        · simp at h
        · simp at h
        · have := congrArg String.toList hp
          rw [String.toList_append] at this
          have := congrArg (fun l => l[6]?) this
          simp at this
      · exact h
    apply hag
    unfold finalKeepKeys
    simp only [List.mem_flatMap]
    rw [if_pos hl]
    simp
  have hE' : (Assoc.get s "graph.edge_index").or sp.edges =
      (Assoc.get s' "graph.edge_index").or sp.edges := by
    by_cases hl : ∃ r ∈ steps, "graph.edge_index" ∈ r.spec.produces
    · have : Assoc.get s "graph.edge_index" = Assoc.get s' "graph.edge_index" := by
        apply hag
        unfold finalKeepKeys
        simp only [List.mem_flatMap]
        by_cases hw : ∃ r ∈ steps, "graph.edge_weight" ∈ r.spec.produces
        · rw [if_pos hw]; simp
        · rw [if_neg hw, if_pos hl]; simp
      rw [this]
    · have := horig.2 (fun r hr hk => hl ⟨r, hr, hk⟩)
      rw [this]
      cases hs : Assoc.get s "graph.edge_index" with
      | none => cases sp.edges <;> rfl
      | some v =>
        have h2 := hedge v hs
        rw [this] at h2
        rw [h2]
  unfold outSplit at h ⊢
  rw [← hX, ← hY, ← hO, ← hL]
  cases hx : Assoc.get s "raw.X" with
  | none => rw [hx] at h; simp at h
  | some rx =>
    rw [hx] at h
    simp only at h ⊢
    cases hy : Assoc.get s "raw.y" with
    | none => rw [hy] at h; simp at h
    | some ry =>
      rw [hy] at h
      simp only [Except.ok.injEq] at h ⊢
      rw [← h]
      congr 1
      rw [hW]
      cases hw : Assoc.get s' "graph.edge_weight" with
      | some w => rw [hE w hw]
      | none => rw [hE']

theorem keyOrigin_initial (sp : Split V) (steps : List (ResolvedStep P)) :
    KeyOrigin sp steps (initialStore sp) := by
  refine ⟨fun k hk => .inl (mem_initialStore.mp hk), fun _ => ?_⟩
  have hmask : ∀ (ms : List (String × V)) (s : Store V),
      Assoc.get (setMasks s ms) "graph.edge_index" = Assoc.get s "graph.edge_index" := by
    intro ms
    induction ms with
    | nil => intro s; rfl
    | cons p ms ih =>
      intro s
      obtain ⟨m, v⟩ := p
      rw [setMasks, ih, Assoc.get_set_other]
      intro hp
      have := congrArg String.toList hp
      rw [String.toList_append] at this
      have := congrArg (fun l => l[6]?) this
      simp at this
  unfold initialStore
  cases he : sp.edges <;> cases hm : sp.masks <;> simp [hmask, Assoc.get_set]

theorem keyOrigin_step {E : Env V P S} (hE : Declared E) {sp : Split V}
    {steps : List (ResolvedStep P)} {step : ResolvedStep P} (hmem : step ∈ steps)
    (hspec : E.spec step.stepId = some step.spec) {obj : S} {s0 s outs : Store V} {obj' : S}
    (ht : E.transform step.stepId obj s0 = .ok (outs, obj')) (h : KeyOrigin sp steps s) :
    KeyOrigin sp steps (purgeOpt none (setAll s outs)) := by
  obtain ⟨hnd, hdecl⟩ := hE.outs _ _ hspec _ _ _ _ ht
  constructor
  · intro k hk
    obtain ⟨v, hv⟩ := Assoc.mem_keys_iff.mp hk
    rw [get_purgeOpt, if_pos (by simp), get_setAll hnd] at hv
    cases ho : Assoc.get outs k with
    | some w =>
      exact .inr ⟨step, hmem, hdecl k (Assoc.mem_keys_iff.mpr ⟨w, ho⟩)⟩
    | none =>
      rw [ho] at hv
      exact h.1 k (Assoc.mem_keys_iff.mpr ⟨v, hv⟩)
  · intro hno
    rw [get_purgeOpt, if_pos (by simp), get_setAll hnd]
    have : Assoc.get outs "graph.edge_index" = none := by
      rw [Assoc.get_eq_none_iff]
      intro hk
      exact hno step hmem (hdecl _ hk)
    rw [this]
    exact h.2 hno

/-- The steps of a resolved plan carry their registered specification. -/
theorem resolved_spec {spec : String → Option StepSpec} {ds : Dataset V} {plan : Plan P}
    {res : List (ResolvedStep P)} {skp : List SkippedStep}
    (h : resolvePlan spec ds plan = .ok (res, skp)) :
    ∀ s ∈ res, spec s.stepId = some s.spec := by
  intro s hs
  obtain ⟨c, -, hid, -, hsp⟩ := (C32_resolve h).2.2.2.1 s hs
  rw [hid]; exact hsp

/-- The purged and the full run of the same call, related. -/
theorem purge_states {E : Env V P S} (hE : Declared E) {cdc : Codec V} {ds : Dataset V}
    {plan : Plan P} {seed : Int} {fit : Option (List Int)} {steps : List (ResolvedStep P)}
    {skp : List SkippedStep} (hres : resolvePlan E.spec ds plan = .ok (steps, skp)) :
    ERel (AgreeState (finalKeepKeys steps plan.outputKey (Assoc.keys (initialStore ds.train))))
      (runSteps E cdc (datasetFp E ds) seed fit none (initialState (datasetFp E ds) ds)
        (withKeeps true ds plan steps)).2
      (runSteps E cdc (datasetFp E ds) seed fit none (initialState (datasetFp E ds) ds)
        (withKeeps false ds plan steps)).2 := by
  have hrefl : ∀ R, AgreeState R (initialState (datasetFp E ds) ds)
      (initialState (datasetFp E ds) ds) := by
    intro R
    refine ⟨⟨fun _ _ => rfl, fun _ _ h => h⟩, ?_⟩
    cases (initialState (datasetFp E ds) ds).test with
    | none => exact .none
    | some t => exact .some ⟨fun _ _ => rfl, fun _ _ h => h⟩
  exact runSteps_purge hE (resolved_spec hres) (hrefl _)

theorem finish_ok_iff {out : String} {ds : Dataset V} {st : RunState V} :
    (∃ r, finish out ds st = .ok r) ↔
      ("raw.X" ∈ Assoc.keys st.train ∧ "raw.y" ∈ Assoc.keys st.train) ∧
      ∀ t s, ds.test = some t → st.test = some s →
        "raw.X" ∈ Assoc.keys s ∧ "raw.y" ∈ Assoc.keys s := by
  unfold finish
  rw [← outSplit_ok (out := out) (edges := ds.train.edges)]
  cases htr : outSplit out ds.train.edges st.train with
  | error e => simp [bind, Except.bind]
  | ok tr =>
    cases hdt : ds.test with
    | none => simp [bind, Except.bind, pure, Except.pure]
    | some t =>
      cases hst : st.test with
      | none => simp [bind, Except.bind, pure, Except.pure]
      | some s =>
        have := outSplit_ok (out := out) (edges := t.edges) (s := s)
        cases hte : outSplit out t.edges s with
        | error e =>
          rw [hte] at this
          simp only [reduceCtorEq, exists_false, false_iff] at this
          simp [bind, Except.bind, hte]
          tauto
        | ok te =>
          rw [hte] at this
          have := this.mp ⟨te, rfl⟩
          simp [bind, Except.bind, pure, Except.pure, hte, this]

theorem runStep_test_some {E : Env V P S} {cdc : Codec V} {dfp : String} {seed : Int}
    {fit : Option (List Int)} {step : ResolvedStep P} {keep : Option (List String)}
    {cm : Option (Cache V)} {st st' : RunState V}
    (h : (runStep E cdc dfp seed fit cm st step keep).2 = .ok st') :
    st'.test.isSome = st.test.isSome := by
  unfold runStep at h
  simp only at h
  cases hp : prepare E seed fit st.train step with
  | error e => rw [hp] at h; simp at h
  | ok obj =>
    rw [hp] at h
    simp only at h
    split at h
    · simp at h
    · split at h
      · rename_i hn
        simp only [Except.ok.injEq] at h
        subst h; simp [hn]
      · rename_i hn
        split at h
        · simp at h
        · simp only [Except.ok.injEq] at h
          subst h; simp [hn]

theorem runSteps_test_some {E : Env V P S} {cdc : Codec V} {dfp : String} {seed : Int}
    {fit : Option (List Int)} {steps : List (ResolvedStep P × Option (List String))} :
    ∀ {cm : Option (Cache V)} {st st' : RunState V},
    (runSteps E cdc dfp seed fit cm st steps).2 = .ok st' →
    st'.test.isSome = st.test.isSome := by
  induction steps with
  | nil =>
    intro cm st st' h
    simp only [runSteps, Except.ok.injEq] at h
    subst h; rfl
  | cons p steps ih =>
    intro cm st st' h
    rw [runSteps] at h
    simp only at h
    cases hr : (runStep E cdc dfp seed fit cm st p.1 p.2).2 with
    | error e => rw [hr] at h; simp at h
    | ok st1 =>
      rw [hr] at h
      simp only at h
      rw [ih h, runStep_test_some hr]

/-- **C33 (same features, labels and edges, when it returns) -- partial.**  If every step reads and
writes only what it declares, and the run with `purge_unused_artifacts=True` returns, then the run
without purging returns the same output splits, and every artifact it keeps is the same.  Missing
from the full property: the purged run often does not return (`C33_purge_returns_iff_partial`,
`C33_purge_fails_violated`). -/
theorem C33_purge_same_partial {E : Env V P S} (hE : Declared E) {cdc : Codec V} {ds : Dataset V}
    {call : Call P} {r : Result V}
    (h : (preprocess E cdc ds none { call with purge := true }).2 = .ok r) :
    ∃ r', (preprocess E cdc ds none { call with purge := false }).2 = .ok r' ∧
      r.train = r'.train ∧ r.test = r'.test ∧
      ∀ k v, Assoc.get r.trainArtifacts k = some v → Assoc.get r'.trainArtifacts k = some v := by
  unfold preprocess at h ⊢
  simp only at h ⊢
  cases hres : resolvePlan E.spec ds call.plan with
  | error e => rw [hres] at h; simp at h
  | ok rs =>
    obtain ⟨steps, skp⟩ := rs
    rw [hres] at h
    simp only at h ⊢
    have hrel := purge_states hE (cdc := cdc) (seed := call.seed) (fit := call.fit) hres
    cases hp : (runSteps E cdc (datasetFp E ds) call.seed call.fit none
        (initialState (datasetFp E ds) ds) (withKeeps true ds call.plan steps)).2 with
    | error e => rw [hp] at h; simp at h
    | ok st =>
      rw [hp] at h
      simp only at h
      obtain ⟨st', hst', hag⟩ := hrel.ok_left hp
      rw [hst']
      simp only
      -- raw.X and raw.y are present in the purged stores
      have hok := finish_ok_iff.mp ⟨r, h⟩
      have hspecs := resolved_spec hres
      have horig : KeyOrigin ds.train steps st'.train ∧ ∀ t, st'.test = some t →
          ∀ sp, ds.test = some sp → KeyOrigin sp steps t := by
        refine runSteps_invariant (I := KeyOrigin ds.train steps)
          (J := fun t => ∀ sp, ds.test = some sp → KeyOrigin sp steps t) ?_ hst'
          (keyOrigin_initial _ _) ?_
        · intro p hp obj s0 s outs obj' ht
          simp only [withKeeps, Bool.false_eq_true, if_false, List.mem_map] at hp
          obtain ⟨q, hq, rfl⟩ := hp
          exact ⟨keyOrigin_step hE hq (hspecs q hq) ht,
            fun h sp hsp => keyOrigin_step hE hq (hspecs q hq) ht (h sp hsp)⟩
        · intro t ht sp hsp
          simp only [initialState, hsp, Option.map_some, Option.some.injEq] at ht
          subst ht
          exact keyOrigin_initial _ _
      by_cases hne : steps = []
      · subst hne
        simp only [withKeeps, buildKeepSets, keepFold, List.foldr_nil, List.map_nil,
          List.zip_nil_left, if_true, Bool.false_eq_true, if_false, runSteps,
          Except.ok.injEq] at hp hst'
        subst hp
        subst hst'
        exact ⟨r, h, rfl, rfl, fun _ _ h => h⟩
      · have honly := finalKeep_only hne (by simpa [withKeeps, buildKeepSets] using hp)
        have hX := rawX_final.mp (honly.1 _ hok.1.1)
        have hY := rawY_final.mp (honly.1 _ hok.1.2)
        unfold finish at h ⊢
        rw [ebind_ok] at h
        obtain ⟨tr, htr, h⟩ := h
        have htr' := outSplit_agree hag.1 horig.1 htr hX hY
        rw [ebind_of_ok htr']
        cases hdt : ds.test with
        | none =>
          rw [hdt] at h
          simp only [pure, Except.pure, Except.ok.injEq] at h ⊢
          subst h
          exact ⟨_, rfl, rfl, rfl, hag.1.2⟩
        | some sp =>
          rw [hdt] at h
          have hag2 := hag.2
          have hsome := runSteps_test_some hp
          cases hst : st.test with
          | none => rw [hst] at hsome; simp [initialState, hdt] at hsome
          | some t =>
            rw [hst] at h hag2
            simp only at h
            rw [ebind_ok] at h
            obtain ⟨te, hte, h⟩ := h
            simp only [pure, Except.pure, Except.ok.injEq] at h
            cases hst2 : st'.test with
            | none => rw [hst2] at hag2; cases hag2
            | some t' =>
              rw [hst2] at hag2
              cases hag2 with
              | some hag2 =>
                have hte' := outSplit_agree hag2 (horig.2 t' hst2 sp hdt) hte hX hY
                simp only
                rw [ebind_of_ok hte']
                refine ⟨_, rfl, ?_, ?_, ?_⟩
                · rw [← h]
                · rw [← h]
                · rw [← h]; exact hag.1.2

/-- **C33 (exactly when the purged run returns) -- partial.**  For a plan with at least one resolved
step, the purged run returns if and only if the full run returns and the pipeline happens to keep
both `raw.X` and `raw.y`: the output key is `raw.X` or is never available, and no step declares
`labels.y` (or the output key is `raw.y`). -/
theorem C33_purge_returns_iff_partial {E : Env V P S} (hE : Declared E) {cdc : Codec V}
    {ds : Dataset V} {call : Call P} {steps : List (ResolvedStep P)} {skp : List SkippedStep}
    (hres : resolvePlan E.spec ds call.plan = .ok (steps, skp)) (hne : steps ≠ []) :
    (∃ r, (preprocess E cdc ds none { call with purge := true }).2 = .ok r) ↔
      (∃ r, (preprocess E cdc ds none { call with purge := false }).2 = .ok r) ∧
        rawXKept ds call.plan steps ∧ rawYKept call.plan steps := by
  constructor
  · rintro ⟨r, h⟩
    obtain ⟨r', h', -⟩ := C33_purge_same_partial hE h
    refine ⟨⟨r', h'⟩, ?_⟩
    unfold preprocess at h
    simp only [hres] at h
    cases hp : (runSteps E cdc (datasetFp E ds) call.seed call.fit none
        (initialState (datasetFp E ds) ds) (withKeeps true ds call.plan steps)).2 with
    | error e => rw [hp] at h; simp at h
    | ok st =>
      rw [hp] at h
      simp only at h
      have hok := finish_ok_iff.mp ⟨r, h⟩
      have honly := finalKeep_only hne (by simpa [withKeeps, buildKeepSets] using hp)
      exact ⟨rawX_final.mp (honly.1 _ hok.1.1), rawY_final.mp (honly.1 _ hok.1.2)⟩
  · rintro ⟨⟨r', h'⟩, hX, hY⟩
    unfold preprocess at h' ⊢
    simp only [hres] at h' ⊢
    have hrel := purge_states hE (cdc := cdc) (seed := call.seed) (fit := call.fit) hres
    cases hq : (runSteps E cdc (datasetFp E ds) call.seed call.fit none
        (initialState (datasetFp E ds) ds) (withKeeps false ds call.plan steps)).2 with
    | error e => rw [hq] at h'; simp at h'
    | ok st' =>
      obtain ⟨st, hst, hag⟩ := hrel.ok_right hq
      rw [hq] at h'
      rw [hst]
      simp only at h' ⊢
      rw [finish_ok_iff]
      have hok := finish_ok_iff.mp ⟨r', h'⟩
      have hkey : ∀ {s s' : Store V} {k : String}, Below (finalKeepKeys steps call.plan.outputKey
          (Assoc.keys (initialStore ds.train))) s s' →
          k ∈ finalKeepKeys steps call.plan.outputKey (Assoc.keys (initialStore ds.train)) →
          k ∈ Assoc.keys s' → k ∈ Assoc.keys s := by
        intro s s' k hb hk hs
        obtain ⟨v, hv⟩ := Assoc.mem_keys_iff.mp hs
        exact Assoc.mem_keys_iff.mpr ⟨v, by rw [hb.1 k hk]; exact hv⟩
      refine ⟨⟨hkey hag.1 (rawX_final.mpr hX) hok.1.1, hkey hag.1 (rawY_final.mpr hY) hok.1.2⟩, ?_⟩
      intro sp t hsp ht
      have hag2 := hag.2
      rw [ht] at hag2
      cases hst2 : st'.test with
      | none => rw [hst2] at hag2; cases hag2
      | some t' =>
        rw [hst2] at hag2
        cases hag2 with
        | some hag2 =>
          have := hok.2 sp t' hsp hst2
          exact ⟨hkey hag2 (rawX_final.mpr hX) this.1, hkey hag2 (rawY_final.mpr hY) this.2⟩

/-- **C33 is violated.**  Purging makes *every* run fail whose plan has a step declaring the output
key (other than `raw.X`): the final lookup insists on `raw.X`, which has been purged. -/
theorem C33_purge_fails_violated {E : Env V P S} (hE : Declared E) {cdc : Codec V}
    {ds : Dataset V} {call : Call P} {steps : List (ResolvedStep P)} {skp : List SkippedStep}
    (hres : resolvePlan E.spec ds call.plan = .ok (steps, skp)) {s : ResolvedStep P}
    (hs : s ∈ steps) (hprod : call.plan.outputKey ∈ s.spec.produces)
    (hout : call.plan.outputKey ≠ "raw.X") :
    ∀ r, (preprocess E cdc ds none { call with purge := true }).2 ≠ .ok r := by
  intro r hr
  have := ((C33_purge_returns_iff_partial hE hres (List.ne_nil_of_mem hs)).mp ⟨r, hr⟩).2.1
  rcases this with h | ⟨-, h⟩
  · exact hout h
  · exact h s hs hprod

end ModSSC.Preprocess
