import Verif.Preprocess.DemoHash

/-!
# One cache for several datasets (C68)

The code keeps a directory per dataset fingerprint and also puts that fingerprint into every step
fingerprint; the model uses one tree for all datasets, which is the harder case.
-/

namespace ModSSC.Preprocess
open ModSSC Spec

variable {V P S : Type}

/-- The fingerprint an operation works on. -/
def Op.fp : Op V → String
  | .mkdir f _ => f
  | .beginFile f _ _ => f
  | .endFile f _ _ _ => f
  | .manifest f _ _ => f

/-- A fingerprint of a step run on the dataset. -/
def OfDs (E : Env V P S) (dfp fp : String) : Prop := ∃ κ : StepKey P, κ.datasetFp = dfp ∧ fp = E.stepFp κ

/-- Two caches agree on what concerns the dataset. -/
def AgreeDs (E : Env V P S) (dfp : String) (c c0 : Cache V) : Prop :=
  ∀ fp, OfDs E dfp fp → dirOf c fp = dirOf c0 fp

theorem dirOf_op_other {c : Cache V} {op : Op V} {fp : String} (h : op.fp ≠ fp) :
    dirOf (applyOp c op) fp = dirOf c fp := by
  cases op <;> (simp only [applyOp, Op.fp] at h ⊢; rw [dirOf_set, if_neg (Ne.symm h)])

theorem dirOf_op_congr {c c0 : Cache V} {op : Op V} {fp : String} (h : dirOf c fp = dirOf c0 fp) :
    dirOf (applyOp c op) fp = dirOf (applyOp c0 op) fp := by
  by_cases hf : op.fp = fp
  · cases op <;>
      (simp only [applyOp, Op.fp] at hf ⊢; subst hf; rw [dirOf_set, dirOf_set, if_pos rfl, if_pos rfl, h])
  · rw [dirOf_op_other hf, dirOf_op_other hf, h]

theorem dirOf_ops_other {c : Cache V} {ops : List (Op V)} {fp : String} (h : ∀ op ∈ ops, op.fp ≠ fp) :
    dirOf (applyOps c ops) fp = dirOf c fp := by
  unfold applyOps
  induction ops generalizing c with
  | nil => rfl
  | cons op ops ih =>
    rw [List.foldl_cons, ih (fun o ho => h o (List.mem_cons_of_mem _ ho)),
      dirOf_op_other (h op (by simp))]

theorem dirOf_ops_congr {c c0 : Cache V} {ops : List (Op V)} {fp : String}
    (h : dirOf c fp = dirOf c0 fp) : dirOf (applyOps c ops) fp = dirOf (applyOps c0 ops) fp := by
  unfold applyOps
  induction ops generalizing c c0 with
  | nil => exact h
  | cons op ops ih => rw [List.foldl_cons, List.foldl_cons]; exact ih (dirOf_op_congr h)

theorem saveOps_fp {cdc : Codec V} {fp split : String} {outs : Store V} :
    ∀ op ∈ saveOps cdc fp split outs, op.fp = fp := by
  intro op hop
  unfold saveOps at hop
  rcases List.mem_append.mp hop with h | h
  · rcases List.mem_cons.mp h with rfl | h
    · rfl
    · have := fileOps_data op h
      cases op <;> simp only [IsData] at this
      · exact this.1
      · exact this.1
      · exact this.1
  · rw [List.mem_singleton] at h
    subst h; rfl

theorem obtain_congr {E : Env V P S} {cdc : Codec V} {c c0 : Cache V} {fp : String}
    (h : dirOf c fp = dirOf c0 fp) (split : String) (step : ResolvedStep P) (obj : S)
    (s : Store V) :
    obtain E cdc (some c) fp split step obj s = obtain E cdc (some c0) fp split step obj s := by
  unfold obtain fromCache hasOutputs loadOutputs
  simp only [h]

theorem obtain_fp {E : Env V P S} {cdc : Codec V} {c : Cache V} {fp split : String}
    {step : ResolvedStep P} {obj : S} {s : Store V} :
    ∀ op ∈ (obtain E cdc (some c) fp split step obj s).1, op.fp = fp := by
  intro op hop
  unfold obtain at hop
  split at hop
  · simp at hop
  · simp at hop
  · split at hop
    · simp at hop
    · exact saveOps_fp op hop

theorem runStep_congr {E : Env V P S} {cdc : Codec V} {dfp : String} {seed : Int}
    {fit : Option (List Int)} {c c0 : Cache V} {st : RunState V} {step : ResolvedStep P}
    {keep : Option (List String)} (h : AgreeDs E dfp c c0) :
    runStep E cdc dfp seed fit (some c) st step keep
      = runStep E cdc dfp seed fit (some c0) st step keep := by
  have hd : dirOf c (E.stepFp (stepKey E dfp seed fit st step))
      = dirOf c0 (E.stepFp (stepKey E dfp seed fit st step)) := h _ ⟨_, rfl, rfl⟩
  unfold runStep
  generalize E.stepFp (stepKey E dfp seed fit st step) = fp at hd
  simp only [obtain_congr hd, advance, Option.map_some]
  have hd2 : ∀ ops, dirOf (applyOps c ops) fp = dirOf (applyOps c0 ops) fp :=
    fun ops => dirOf_ops_congr hd
  simp only [obtain_congr (hd2 _)]

theorem runStep_fp {E : Env V P S} {cdc : Codec V} {dfp : String} {seed : Int}
    {fit : Option (List Int)} {c : Cache V} {st : RunState V} {step : ResolvedStep P}
    {keep : Option (List String)} :
    ∀ op ∈ (runStep E cdc dfp seed fit (some c) st step keep).1, OfDs E dfp op.fp := by
  intro op hop
  have hκ : OfDs E dfp (E.stepFp (stepKey E dfp seed fit st step)) := ⟨_, rfl, rfl⟩
  unfold runStep at hop
  generalize E.stepFp (stepKey E dfp seed fit st step) = fp at hκ hop
  cases hp : prepare E seed fit st.train step with
  | error e => rw [hp] at hop; simp at hop
  | ok obj =>
    rw [hp] at hop
    simp only [advance, Option.map_some] at hop
    have h1 : ∀ op ∈ (obtain E cdc (some c) fp "train" step obj st.train).1, op.fp = fp := obtain_fp
    split at hop
    · rw [h1 op hop]; exact hκ
    · split at hop
      · rw [h1 op hop]; exact hκ
      · split at hop <;>
        · rcases List.mem_append.mp hop with h | h
          · rw [h1 op h]; exact hκ
          · rw [obtain_fp op h]; exact hκ

theorem runSteps_congr {E : Env V P S} {cdc : Codec V} {dfp : String} {seed : Int}
    {fit : Option (List Int)} {steps : List (ResolvedStep P × Option (List String))} :
    ∀ {c c0 : Cache V} {st : RunState V}, AgreeDs E dfp c c0 →
    runSteps E cdc dfp seed fit (some c) st steps = runSteps E cdc dfp seed fit (some c0) st steps ∧
    ∀ op ∈ (runSteps E cdc dfp seed fit (some c) st steps).1, OfDs E dfp op.fp := by
  induction steps with
  | nil => intro c c0 st _; exact ⟨rfl, by simp [runSteps]⟩
  | cons p steps ih =>
    intro c c0 st h
    obtain ⟨step, keep⟩ := p
    have hr := runStep_congr (cdc := cdc) (seed := seed) (fit := fit) (st := st) (step := step)
      (keep := keep) h
    have hf := runStep_fp (E := E) (cdc := cdc) (dfp := dfp) (seed := seed) (fit := fit) (c := c)
      (st := st) (step := step) (keep := keep)
    rw [runSteps, runSteps, ← hr]
    generalize runStep E cdc dfp seed fit (some c) st step keep = r at hf ⊢
    obtain ⟨ops, res⟩ := r
    cases res with
    | error e => exact ⟨rfl, hf⟩
    | ok st' =>
      simp only [advance, Option.map_some] at hf ⊢
      obtain ⟨h1, h2⟩ := ih (c := applyOps c ops) (c0 := applyOps c0 ops) (st := st')
        (fun fp hfp => dirOf_ops_congr (h fp hfp))
      refine ⟨by rw [h1], ?_⟩
      intro op hop
      rcases List.mem_append.mp hop with hop | hop
      · exact hf op hop
      · exact h2 op hop

theorem preprocess_congr {E : Env V P S} {cdc : Codec V} {ds : Dataset V} {c c0 : Cache V}
    (h : AgreeDs E (datasetFp E ds) c c0) (call : Call P) :
    preprocess E cdc ds (some c) call = preprocess E cdc ds (some c0) call ∧
    ∀ op ∈ (preprocess E cdc ds (some c) call).1, OfDs E (datasetFp E ds) op.fp := by
  unfold preprocess
  cases resolvePlan E.spec ds call.plan with
  | error e => exact ⟨rfl, by simp⟩
  | ok rs =>
    obtain ⟨steps, skp⟩ := rs
    simp only
    obtain ⟨h1, h2⟩ := runSteps_congr (cdc := cdc) (seed := call.seed) (fit := call.fit)
      (steps := withKeeps call.purge ds call.plan steps)
      (st := initialState (datasetFp E ds) ds) h
    rw [h1] at h2 ⊢
    refine ⟨rfl, ?_⟩
    generalize runSteps E cdc (datasetFp E ds) call.seed call.fit (some c0)
      (initialState (datasetFp E ds) ds) (withKeeps call.purge ds call.plan steps) = w at h2 ⊢
    obtain ⟨ops, res⟩ := w
    cases res <;> exact h2

/-- Caches reachable by completed calls on the datasets `D`, in any order. -/
inductive MultiHistory (E : Env V P S) (cdc : Codec V) (D : Dataset V → Prop) : Cache V → Prop
  | empty : MultiHistory E cdc D []
  | run {c : Cache V} (ds : Dataset V) (hds : D ds) (call : Call P) {r : Result V}
      (h : MultiHistory E cdc D c) (hr : (preprocess E cdc ds (some c) call).2 = .ok r) :
      MultiHistory E cdc D (applyOps c (preprocess E cdc ds (some c) call).1)

/-- **C68 -- partial.**  If no other dataset in use has the fingerprint of `ds`, then whatever was run
before on the datasets in use, a cached call on `ds` returns or raises what the uncached call does: entries of other
datasets are never used.  Missing from the full property: the fallback fingerprint of a dataset
without a recorded one does not identify it (`C68_same_shape_violated`). -/
theorem C68_other_datasets_partial {E : Env V P S} {cdc : Codec V} {ds : Dataset V}
    (H : CacheOk E cdc ds) (hmode : Complete E cdc ∨ Pure E)
    {D : Dataset V → Prop} (hident : ∀ ds', D ds' → datasetFp E ds' = datasetFp E ds → ds' = ds)
    {c : Cache V} (hc : MultiHistory E cdc D c) (call : Call P) :
    ERel SameResult (preprocess E cdc ds (some c) call).2 (preprocess E cdc ds none call).2 := by
  obtain ⟨c0, hc0, hag⟩ : ∃ c0, History E cdc ds c0 ∧ AgreeDs E (datasetFp E ds) c c0 := by
    induction hc with
    | empty => exact ⟨[], .empty, fun _ _ => rfl⟩
    | @run c ds' hD call r _ hr ih =>
      obtain ⟨c0, h0, hag⟩ := ih
      by_cases hds : datasetFp E ds' = datasetFp E ds
      · have := hident ds' hD hds
        subst this
        obtain ⟨he, -⟩ := preprocess_congr (cdc := cdc) hag call
        rw [he] at hr
        refine ⟨_, .run call h0 hr, ?_⟩
        rw [he]
        exact fun fp hfp => dirOf_ops_congr (hag fp hfp)
      · refine ⟨c0, h0, ?_⟩
        rintro fp ⟨κ, hκ, rfl⟩
        rw [dirOf_ops_other, hag _ ⟨κ, hκ, rfl⟩]
        intro op hop heq
        obtain ⟨κ', hκ', hfp⟩ := (preprocess_congr (cdc := cdc) (ds := ds') (c := c) (c0 := c)
          (fun _ _ => rfl) call).2 op hop
        rw [heq] at hfp
        have := H.stepFp_inj hfp
        subst this
        exact hds (hκ'.symm.trans hκ)
  rw [(preprocess_congr (cdc := cdc) hag call).1]
  exact C34_transparent_partial H hmode hc0 call

/-- Another recorded dataset of the same shape as `demoDs`. -/
def otherDs : Dataset Int := ⟨⟨900, 13, none, none⟩, some ⟨9, 25, none, none⟩, "tabular", some "other"⟩

/-- The hypotheses are met by two datasets of the same shape sharing a cache that holds entries of
both. -/
example : ∃ c, MultiHistory demoE demoCodec (fun ds => ds = demoDs ∨ ds = otherDs) c ∧ c.length = 2 ∧
    (∀ ds', (ds' = demoDs ∨ ds' = otherDs) → datasetFp demoE ds' = datasetFp demoE demoDs →
      ds' = demoDs) := by
  have h1 : ((preprocess demoE demoCodec otherDs (some [])
      (demoCall' "features.X" ["core.copy_raw"])).2).toOption.isSome = true := by decide +kernel
  cases hp1 : (preprocess demoE demoCodec otherDs (some [])
      (demoCall' "features.X" ["core.copy_raw"])).2 with
  | error e => rw [hp1] at h1; simp [Except.toOption] at h1
  | ok r1 =>
    have hc1 := MultiHistory.run (E := demoE) (cdc := demoCodec)
      (D := fun ds => ds = demoDs ∨ ds = otherDs) otherDs (.inr rfl)
      (demoCall' "features.X" ["core.copy_raw"]) .empty hp1
    have h2 : ((preprocess demoE demoCodec demoDs (some (applyOps []
      (preprocess demoE demoCodec otherDs (some []) (demoCall' "features.X" ["core.copy_raw"])).1))
      (demoCall' "features.X" ["core.copy_raw"])).2).toOption.isSome = true := by decide +kernel
    cases hp2 : (preprocess demoE demoCodec demoDs (some (applyOps []
      (preprocess demoE demoCodec otherDs (some []) (demoCall' "features.X" ["core.copy_raw"])).1))
      (demoCall' "features.X" ["core.copy_raw"])).2 with
    | error e => rw [hp2] at h2; simp [Except.toOption] at h2
    | ok r2 =>
      refine ⟨_, .run demoDs (.inl rfl) (demoCall' "features.X" ["core.copy_raw"]) hc1 hp2,
        by decide +kernel, ?_⟩
      rintro ds' (rfl | rfl) h
      · rfl
      · exact absurd h (by decide +kernel)

/-- Two tables of the same shape without a recorded fingerprint. -/
def anonDs (x : Int) : Dataset Int := ⟨⟨x, 13, none, none⟩, none, "tabular", none⟩

/-- **C68 is violated for datasets without a recorded fingerprint.**  The fallback fingerprint only
looks at shapes, so after preprocessing one table another table of the same shape gets the features
of the first. -/
theorem C68_same_shape_violated : ∃ c call,
    MultiHistory demoE demoCodec (fun ds => ds = anonDs 7 ∨ ds = anonDs 900) c ∧
    view (preprocess demoE demoCodec (anonDs 900) (some c) call).2 ≠
      view (preprocess demoE demoCodec (anonDs 900) none call).2 ∧
    view (preprocess demoE demoCodec (anonDs 900) (some c) call).2
      = view (preprocess demoE demoCodec (anonDs 7) none call).2 := by
  have h : ((preprocess demoE demoCodec (anonDs 7) (some [])
      (demoCall' "features.X" ["core.copy_raw"])).2).toOption.isSome = true := by decide +kernel
  cases hp : (preprocess demoE demoCodec (anonDs 7) (some [])
      (demoCall' "features.X" ["core.copy_raw"])).2 with
  | error e => rw [hp] at h; simp [Except.toOption] at h
  | ok r =>
    exact ⟨_, demoCall' "features.X" ["core.copy_raw"],
      .run (anonDs 7) (.inl rfl) (demoCall' "features.X" ["core.copy_raw"]) .empty hp,
      by decide +kernel, by decide +kernel⟩

end ModSSC.Preprocess
