import Verif.Preprocess.CacheInv

/-!
# The preprocessing cache is transparent (C34)
-/

namespace ModSSC.Preprocess
open ModSSC Spec

variable {V P S : Type}

/-- Equal as dictionaries. -/
def SameMap {β : Type} (s s' : List (String × β)) : Prop := ∀ k, Assoc.get s k = Assoc.get s' k

/-- Equal states, stores and provenance taken as dictionaries. -/
structure Same (st st' : RunState V) : Prop where
  train : SameMap st.train st'.train
  test : Option.Rel SameMap st.test st'.test
  provTrain : SameMap st.provTrain st'.provTrain
  provTest : SameMap st.provTest st'.provTest

/-- The keys in `R` hold what their provenance stands for. -/
def ConsB (E : Env V P S) (ds : Dataset V) (b : Bool) (R : List String)
    (prov : List (String × String)) (s : Store V) : Prop :=
  SameDom R prov s ∧
    ∀ k ∈ R, ∀ p v, Assoc.get prov k = some p → Assoc.get s k = some v → Val E ds b p k v

/-- Both splits are consistent. -/
structure Cons (E : Env V P S) (ds : Dataset V) (R : List String) (st : RunState V) : Prop where
  train : ConsB E ds false R st.provTrain st.train
  test : ∀ t, st.test = some t → ConsB E ds true R st.provTest t
  some : st.test.isSome = ds.test.isSome

theorem sameMap_isEmpty {s s' : Store V} (h : SameMap s s') : s.isEmpty = s'.isEmpty := by
  have : ∀ {s s' : Store V}, SameMap s s' → s.isEmpty = true → s'.isEmpty = true := by
    intro s s' h he
    cases s' with
    | nil => rfl
    | cons p s' =>
      rw [List.isEmpty_iff] at he
      subst he
      have := h p.1
      rw [Assoc.get_cons, if_pos rfl] at this
      simp at this
  cases h1 : s.isEmpty <;> cases h2 : s'.isEmpty
  · rfl
  · rw [this (fun k => (h k).symm) h2] at h1; simp at h1
  · rw [this h h1] at h2; simp at h2
  · rfl

theorem stepKey_same {E : Env V P S} {dfp : String} {seed : Int} {fit : Option (List Int)}
    {st st' : RunState V} (h : Same st st') (step : ResolvedStep P) :
    stepKey E dfp seed fit st step = stepKey E dfp seed fit st' step := by
  have h1 : ∀ (pr pr' : List (String × String)), SameMap pr pr' →
      inputsOf pr step.spec.consumes = inputsOf pr' step.spec.consumes := by
    intro pr pr' hp
    unfold inputsOf
    congr 1
    funext k
    rw [hp k]
  unfold stepKey
  rw [h1 _ _ h.provTrain, h1 _ _ h.provTest]
  have := h.test
  cases ht : st.test with
  | none =>
    rw [ht] at this
    cases ht' : st'.test with
    | none => rfl
    | some t' => rw [ht'] at this; cases this
  | some t =>
    rw [ht] at this
    cases ht' : st'.test with
    | none => rw [ht'] at this; cases this
    | some t' =>
      rw [ht'] at this
      cases this with
      | some hs => simp only [sameMap_isEmpty hs]

theorem prep_iff {E : Env V P S} {dfp : String} {seed : Int} {fit : Option (List Int)}
    {st : RunState V} {step : ResolvedStep P} {s : Store V} {obj : S}
    (h : prepare E seed fit s step = .ok obj) :
    Prep E (stepKey E dfp seed fit st step) s obj := by
  unfold prepare at h
  unfold Prep stepKey
  simp only
  cases hs : E.start step.stepId step.params (E.deriveSeed seed step.stepId step.index) with
  | error e => rw [hs] at h; simp at h
  | ok o =>
    rw [hs] at h
    simp only at h
    refine ⟨o, rfl, ?_⟩
    by_cases hk : step.spec.kind = .fittable
    · rw [if_pos hk] at h
      left
      refine ⟨hk, ?_⟩
      cases hf : fit with
      | none => rw [hf] at h; simp at h
      | some l =>
        rw [hf] at h
        simp only at h
        exact ⟨l, by rw [if_pos hk], h⟩
    · rw [if_neg hk] at h
      simp only [Except.ok.injEq] at h
      exact .inr ⟨hk, h.symm⟩

theorem inputs_train {E : Env V P S} {ds : Dataset V} {dfp : String} {seed : Int}
    {fit : Option (List Int)} {R : List String} {st : RunState V} {step : ResolvedStep P}
    (h : Cons E ds R st) (hR : ∀ k ∈ step.spec.consumes, k ∈ R) :
    Inputs E ds false step.spec.consumes (stepKey E dfp seed fit st step).inputsTrain st.train :=
  ⟨st.provTrain, rfl, fun k hk => h.train.1 k (hR k hk), fun k hk => h.train.2 k (hR k hk)⟩

theorem inputs_test {E : Env V P S} {ds : Dataset V} {dfp : String} {seed : Int}
    {fit : Option (List Int)} {R : List String} {st : RunState V} {step : ResolvedStep P}
    (h : Cons E ds R st) (hR : ∀ k ∈ step.spec.consumes, k ∈ R) {t : Store V}
    (ht : st.test = some t) :
    Inputs E ds true step.spec.consumes (stepKey E dfp seed fit st step).inputsTest t := by
  unfold stepKey
  simp only [ht]
  by_cases he : t.isEmpty
  · rw [if_pos he]
    refine ⟨[], by simp [inputsOf], ?_, ?_⟩
    · intro k _
      rw [List.isEmpty_iff] at he
      subst he
      rfl
    · intro k _ p v hp; simp at hp
  · rw [if_neg he]
    have := h.test t ht
    exact ⟨st.provTest, rfl, fun k hk => this.1 k (hR k hk), fun k hk => this.2 k (hR k hk)⟩

theorem sameMap_agree {s s' : Store V} (h : SameMap s s') (R : List String) :
    AgreeOn Assoc.get R s s' := fun k _ => h k

theorem same_update {s s' l outs : Store V} {keep : Option (List String)} (h : SameMap s s')
    (hl : Eqv l outs) (hnd : (Assoc.keys outs).Nodup) :
    SameMap (purgeOpt keep (setAll s l)) (purgeOpt keep (setAll s' outs)) := by
  intro k
  rw [get_purgeOpt, get_purgeOpt, get_setAll hl.1, get_setAll hnd, hl.2, h k]

theorem same_prov {pr pr' : List (String × String)} {l outs : Store V} {fp : String}
    (h : SameMap pr pr') (hl : Eqv l outs) : SameMap (setProv pr fp l) (setProv pr' fp outs) := by
  intro k
  rw [get_setProv, get_setProv, h k]
  by_cases hk : k ∈ Assoc.keys outs
  · rw [if_pos hk, if_pos (hl.keys.mpr hk)]
  · rw [if_neg hk, if_neg (fun h => hk (hl.keys.mp h))]

theorem cons_update {E : Env V P S} {ds : Dataset V} {b : Bool} {R R' : List String}
    {pr : List (String × String)} {s l : Store V} {fp : String} {keep : Option (List String)}
    (h : ConsB E ds b R pr s) (hl : (Assoc.keys l).Nodup) (hR : ∀ k ∈ R', k ∈ R)
    (hkeep : ∀ K, keep = some K → ∀ k ∈ R', k ∈ K)
    (hval : ∀ k v, Assoc.get l k = some v → Val E ds b fp k v) :
    ConsB E ds b R' (setProv pr fp l) (purgeOpt keep (setAll s l)) := by
  have hget : ∀ k ∈ R', Assoc.get (purgeOpt keep (setAll s l)) k
      = (Assoc.get l k).or (Assoc.get s k) := by
    intro k hk
    rw [get_purgeOpt, if_pos (fun K hK => hkeep K hK k hk), get_setAll hl]
  constructor
  · intro k hk
    rw [hget k hk, get_setProv]
    by_cases hm : k ∈ Assoc.keys l
    · obtain ⟨v, hv⟩ := Assoc.mem_keys_iff.mp hm
      rw [if_pos hm, hv]; rfl
    · rw [if_neg hm, Assoc.get_eq_none_iff.mpr hm]
      simpa using h.1 k (hR k hk)
  · intro k hk p v hp hv
    rw [hget k hk] at hv
    rw [get_setProv] at hp
    by_cases hm : k ∈ Assoc.keys l
    · rw [if_pos hm, Option.some.injEq] at hp
      subst hp
      obtain ⟨w, hw⟩ := Assoc.mem_keys_iff.mp hm
      rw [hw] at hv
      simp only [Option.some_or, Option.some.injEq] at hv
      subst hv
      exact hval k w hw
    · rw [if_neg hm] at hp
      rw [Assoc.get_eq_none_iff.mpr hm, Option.none_or] at hv
      exact h.2 k (hR k hk) p v hp hv

/-! ## One split -/

/-- Torn files cannot be mistaken for saved ones: either steps are complete, so that a recorded split
is never written again, or reading a torn file is recognised as a damaged cache. -/
def CrashSafe (E : Env V P S) (cdc : Codec V) : Prop := Complete E cdc ∨ cdc.tornError = .cacheError

/-- The cache has no whole, complete outputs of the split. -/
def Unserved (E : Env V P S) (cdc : Codec V) (ds : Dataset V) (c : Cache V) (κ : StepKey P)
    (split : String) : Prop :=
  ∀ outs, Out E ds κ split outs → (entryOf c (E.stepFp κ) split).isSome → Complete E cdc →
    ¬ AllWhole cdc (dirOf c (E.stepFp κ)) split outs

/-- What is known after obtaining the training outputs with a cache. -/
theorem obtain_train {E : Env V P S} {cdc : Codec V} {ds : Dataset V} (H : CacheOk E cdc ds)
    {c : Cache V} (hc : CInv E cdc ds c) {κ : StepKey P} {step : ResolvedStep P}
    (hid : κ.stepId = step.stepId) (hsp : E.spec step.stepId = some step.spec)
    {s : Store V} {obj : S} (hin : Inputs E ds false step.spec.consumes κ.inputsTrain s)
    (hprep : Prep E κ s obj) :
    (∃ e, E.transform step.stepId obj s = .error e ∧
      obtain E cdc (some c) (E.stepFp κ) "train" step obj s = ([], .error e)) ∨
    (∃ outs obj', E.transform step.stepId obj s = .ok (outs, obj') ∧ TrainOut E ds κ outs obj' ∧
      ((Unserved E cdc ds c κ "train" ∧
        obtain E cdc (some c) (E.stepFp κ) "train" step obj s
          = (saveOps cdc (E.stepFp κ) "train" outs, .ok (outs, obj'))) ∨
       ("train" ∈ (dirOf c (E.stepFp κ)).dirs ∧ ∃ l, Eqv l outs ∧
        obtain E cdc (some c) (E.stepFp κ) "train" step obj s = ([], .ok (l, obj))))) := by
  have hspκ : E.spec κ.stepId = some step.spec := by rw [hid]; exact hsp
  rcases obtain_cases H hc hid hsp "train" obj s with ⟨hd, outs, l, hout, heq, ho⟩ | ⟨hno, ho⟩
  · right
    rcases hout with ⟨-, obj', hout⟩ | ⟨h, -⟩
    · have ht := trainOut_of H hout hspκ hin hprep
      rw [hid] at ht
      exact ⟨outs, obj', ht, hout, .inr ⟨hd, l, heq, ho⟩⟩
    · simp at h
  · unfold miss at ho
    cases ht : E.transform step.stepId obj s with
    | error e =>
      rw [ht] at ho
      exact .inl ⟨e, rfl, ho⟩
    | ok r =>
      obtain ⟨outs, obj'⟩ := r
      rw [ht] at ho
      exact .inr ⟨outs, obj', rfl, ⟨step.spec, s, obj, hspκ, hin, hprep, by rw [hid]; exact ht⟩,
        .inl ⟨hno, ho⟩⟩

/-- What is known after obtaining the test outputs with a cache, from an object whose transforms
agree with those of the object left by the training transform. -/
theorem obtain_test {E : Env V P S} {cdc : Codec V} {ds : Dataset V} (H : CacheOk E cdc ds)
    {c : Cache V} (hc : CInv E cdc ds c) {κ : StepKey P} {step : ResolvedStep P}
    (hid : κ.stepId = step.stepId) (hsp : E.spec step.stepId = some step.spec)
    {t : Store V} {outs : Store V} {obj' o : S} (htr : TrainOut E ds κ outs obj')
    (hin : Inputs E ds true step.spec.consumes κ.inputsTest t)
    (ho : (∃ outsT, Out E ds κ "test" outsT ∧ (entryOf c (E.stepFp κ) "test").isSome ∧
        Complete E cdc ∧ AllWhole cdc (dirOf c (E.stepFp κ)) "test" outsT) ∨
      (E.transform step.stepId obj' t).map (·.1) = (E.transform step.stepId o t).map (·.1)) :
    (∃ e, E.transform step.stepId obj' t = .error e ∧
      obtain E cdc (some c) (E.stepFp κ) "test" step o t = ([], .error e)) ∨
    (∃ outsT obj'' o', E.transform step.stepId obj' t = .ok (outsT, obj'') ∧ TestOut E ds κ outsT ∧
      ((Unserved E cdc ds c κ "test" ∧
        obtain E cdc (some c) (E.stepFp κ) "test" step o t
          = (saveOps cdc (E.stepFp κ) "test" outsT, .ok (outsT, o'))) ∨
       ("test" ∈ (dirOf c (E.stepFp κ)).dirs ∧ ∃ l, Eqv l outsT ∧
        obtain E cdc (some c) (E.stepFp κ) "test" step o t = ([], .ok (l, o))))) := by
  have hspκ : E.spec κ.stepId = some step.spec := by rw [hid]; exact hsp
  rcases obtain_cases H hc hid hsp "test" o t with ⟨hd, outsT, l, hout, heq, hob⟩ | ⟨hno, hob⟩
  · right
    rcases hout with ⟨h, -⟩ | ⟨-, hout⟩
    · simp at h
    · obtain ⟨o'', ht⟩ := testOut_of H hout hspκ htr hin
      rw [hid] at ht
      exact ⟨outsT, o'', o, ht, hout, .inr ⟨hd, l, heq, hob⟩⟩
  · rcases ho with ⟨outsT, h1, h2, h3, h4⟩ | ho
    · exact absurd h4 (hno outsT h1 h2 h3)
    · unfold miss at hob
      cases ht : E.transform step.stepId o t with
      | error e =>
        rw [ht] at hob ho
        left
        refine ⟨e, ?_, hob⟩
        cases hx : E.transform step.stepId obj' t with
        | error e' => rw [hx] at ho; simpa [Except.map] using ho
        | ok r => rw [hx] at ho; simp [Except.map] at ho
      | ok r =>
        obtain ⟨outsT, o'⟩ := r
        rw [ht] at hob ho
        right
        cases hx : E.transform step.stepId obj' t with
        | error e' => rw [hx] at ho; simp [Except.map] at ho
        | ok r' =>
          obtain ⟨outsT', o''⟩ := r'
          rw [hx] at ho
          simp only [Except.map, Except.ok.injEq] at ho
          subst ho
          exact ⟨outsT', o'', o', rfl,
            ⟨step.spec, outs, obj', t, o'', hspκ, htr, hin, by rw [hid]; exact hx⟩, .inl ⟨hno, hob⟩⟩

/-- Every directory holds a recorded split with whole files. -/
def AllServed (E : Env V P S) (cdc : Codec V) (ds : Dataset V) (c : Cache V) : Prop :=
  ∀ κ s o, s ∈ (dirOf c (E.stepFp κ)).dirs → Out E ds κ s o →
    (entryOf c (E.stepFp κ) s).isSome ∧ AllWhole cdc (dirOf c (E.stepFp κ)) s o

theorem ninv_saved {E : Env V P S} {cdc : Codec V} {ds : Dataset V} (H : CacheOk E cdc ds)
    {c : Cache V} {κ : StepKey P} {split : String} {outs : Store V}
    {sp : StepSpec} (hsp : E.spec κ.stepId = some sp) (hout : Out E ds κ split outs)
    (h : AllServed E cdc ds c) :
    AllServed E cdc ds (applyOps c (saveOps cdc (E.stepFp κ) split outs)) := by
  obtain ⟨h1, h2, h3, h4, -, h6, h7⟩ :=
    saved_tree (cdc := cdc) (fp := E.stepFp κ) (split := split) (c := c) (out_props H hsp hout).distinct
  generalize applyOps c (saveOps cdc (E.stepFp κ) split outs) = c' at *
  intro κ' s o hs ho
  by_cases hf : E.stepFp κ' = E.stepFp κ
  · have := H.stepFp_inj hf
    subst this
    by_cases hse : s = split
    · subst hse
      have := out_fun H ho hout
      subst this
      exact ⟨by simp [h6], h7⟩
    · rw [h3 s hse]
      rcases (h2 s).mp hs with hs | hs
      · obtain ⟨g1, g2⟩ := h _ _ _ hs ho
        refine ⟨g1, ?_⟩
        intro k v sfx q1 q2
        rw [h4 s _ hse]
        exact g2 k v sfx q1 q2
      · exact absurd hs hse
  · have he : entryOf c' (E.stepFp κ') s = entryOf c (E.stepFp κ') s := by
      unfold entryOf
      rw [h1 _ hf]
    rw [h1 _ hf] at hs ⊢
    rw [he]
    exact h κ' s o hs ho

theorem dirs_saved {E : Env V P S} {cdc : Codec V} {ds : Dataset V} (H : CacheOk E cdc ds)
    {c : Cache V} {κ : StepKey P} {split : String} {outs : Store V}
    {sp : StepSpec} (hsp : E.spec κ.stepId = some sp) (hout : Out E ds κ split outs)
    (fp s : String) : s ∈ (dirOf (applyOps c (saveOps cdc (E.stepFp κ) split outs)) fp).dirs ↔
      s ∈ (dirOf c fp).dirs ∨ (fp = E.stepFp κ ∧ s = split) := by
  obtain ⟨h1, h2, -⟩ :=
    saved_tree (cdc := cdc) (fp := E.stepFp κ) (split := split) (c := c) (out_props H hsp hout).distinct
  generalize applyOps c (saveOps cdc (E.stepFp κ) split outs) = c' at *
  by_cases hf : fp = E.stepFp κ
  · subst hf
    rw [h2 s]; simp
  · rw [h1 fp hf]; simp [hf]

/-! ## One step -/

/-- What a step does with a cache (`w`), compared with the same step without one (`n`). -/
structure StepRel (E : Env V P S) (cdc : Codec V) (ds : Dataset V) (R : List String) (c : Cache V)
    (w n : List (Op V) × Except PyErr (RunState V)) : Prop where
  same : ERel Same w.2 n.2
  cons : ∀ st, w.2 = .ok st → Cons E ds R st
  full : CInv E cdc ds (applyOps c w.1)
  crash : CrashSafe E cdc → ∀ i, CInv E cdc ds (applyOps c (w.1.take i))
  done : ∀ st, w.2 = .ok st → NInv E cdc ds c → NInv E cdc ds (applyOps c w.1)

theorem applyOps_append (c : Cache V) (a b : List (Op V)) :
    applyOps c (a ++ b) = applyOps (applyOps c a) b := List.foldl_append

theorem take_append_cases (c : Cache V) (a b : List (Op V)) (i : Nat) :
    (∃ j, applyOps c ((a ++ b).take i) = applyOps c (a.take j)) ∨
      ∃ j, applyOps c ((a ++ b).take i) = applyOps (applyOps c a) (b.take j) := by
  rw [List.take_append]
  by_cases h : i ≤ a.length
  · left
    refine ⟨i, ?_⟩
    rw [Nat.sub_eq_zero_of_le h]; simp
  · right
    refine ⟨i - a.length, ?_⟩
    rw [applyOps_append, List.take_of_length_le (by omega)]

theorem runStep_rel {E : Env V P S} {cdc : Codec V} {ds : Dataset V} (H : CacheOk E cdc ds)
    {c : Cache V} (hc : CInv E cdc ds c) (hmode : Pure E ∨ (Complete E cdc ∧ NInv E cdc ds c)) {seed : Int}
    {fit : Option (List Int)} {st st' : RunState V} {step : ResolvedStep P}
    {keep : Option (List String)} {R R' : List String}
    (hsp : E.spec step.stepId = some step.spec) (hsame : Same st st') (hcons : Cons E ds R st)
    (hR : ∀ k ∈ step.spec.consumes, k ∈ R) (hR' : ∀ k ∈ R', k ∈ R)
    (hkeep : ∀ K, keep = some K → ∀ k ∈ R', k ∈ K) :
    StepRel E cdc ds R' c (runStep E cdc (datasetFp E ds) seed fit (some c) st step keep)
      (runStep E cdc (datasetFp E ds) seed fit none st' step keep) := by
  have hκ := stepKey_same (E := E) (dfp := datasetFp E ds) (seed := seed) (fit := fit) hsame step
  have hprep' : prepare E seed fit st.train step = prepare E seed fit st'.train step :=
    prepare_congr (H.reads _ _ hsp) rfl (sameMap_agree hsame.train _)
  have hcrash0 : CrashSafe E cdc → ∀ i, CInv E cdc ds (applyOps c (([] : List (Op V)).take i)) := by
    intro _ i; simpa [applyOps] using hc
  have hfull0 : CInv E cdc ds (applyOps c ([] : List (Op V))) := by simpa [applyOps] using hc
  unfold runStep
  simp only [← hκ, ← hprep', obtain_none]
  have hin := inputs_train (dfp := datasetFp E ds) (seed := seed) (fit := fit) hcons hR
  have hid : (stepKey E (datasetFp E ds) seed fit st step).stepId = step.stepId := rfl
  have hinT : ∀ t, st.test = some t → Inputs E ds true step.spec.consumes
      (stepKey E (datasetFp E ds) seed fit st step).inputsTest t :=
    fun t ht => inputs_test hcons hR ht
  have hprepκ : ∀ obj, prepare E seed fit st.train step = .ok obj →
      Prep E (stepKey E (datasetFp E ds) seed fit st step) st.train obj := fun obj h => prep_iff h
  generalize stepKey E (datasetFp E ds) seed fit st step = κ at hin hid hinT hprepκ ⊢
  have hspκ : E.spec κ.stepId = some step.spec := by rw [hid]; exact hsp
  cases hp : prepare E seed fit st.train step with
  | error e => exact ⟨.error e, by simp, hfull0, hcrash0, by simp⟩
  | ok obj =>
    simp only
    have hprep := hprepκ obj hp
    rw [← (H.reads _ _ hsp).2 obj _ _ (sameMap_agree hsame.train _)]
    rcases obtain_train H hc hid hsp hin hprep with ⟨e, ht, ho⟩ | ⟨outs, obj', ht, htr, hcase⟩
    · rw [ht, ho]
      exact ⟨.error e, by simp, hfull0, hcrash0, by simp⟩
    · rw [ht]
      have hout : Out E ds κ "train" outs := .inl ⟨rfl, obj', htr⟩
      have hndo := (out_props H hspκ hout).1
      -- the training outputs as used by the cached run
      obtain ⟨l, o, ops, hobt, hl, hcr, hc1, hmode1, hdone1, hd1⟩ : ∃ l o ops,
          obtain E cdc (some c) (E.stepFp κ) "train" step obj st.train = (ops, .ok (l, o)) ∧
          Eqv l outs ∧ (CrashSafe E cdc → ∀ i, CInv E cdc ds (applyOps c (ops.take i))) ∧
          CInv E cdc ds (applyOps c ops) ∧
          (∀ t, st.test = some t →
            (∃ outsT, Out E ds κ "test" outsT ∧
              (entryOf (applyOps c ops) (E.stepFp κ) "test").isSome ∧ Complete E cdc ∧
              AllWhole cdc (dirOf (applyOps c ops) (E.stepFp κ)) "test" outsT) ∨
            (E.transform step.stepId obj' t).map (·.1) = (E.transform step.stepId o t).map (·.1)) ∧
          (NInv E cdc ds c → AllServed E cdc ds (applyOps c ops)) ∧
          (∀ fp s, s ∈ (dirOf (applyOps c ops) fp).dirs →
            s ∈ (dirOf c fp).dirs ∨ (fp = E.stepFp κ ∧ s = "train")) ∧
          (∀ fp s, s ∈ (dirOf c fp).dirs → s ∈ (dirOf (applyOps c ops) fp).dirs) := by
        rcases hcase with ⟨hno, ho⟩ | ⟨hd, l, heq, ho⟩
        · refine ⟨outs, obj', _, ho, Eqv.refl hndo, 
            fun hs i => cinv_crash H hc hspκ hout (miss_safe H hc hs hout hno) i,
            cinv_save H hc hspκ hout, fun t _ => .inr rfl,
            fun hn => ninv_saved H hspκ hout hn.entry,
            fun fp s hs => (dirs_saved H hspκ hout fp s).mp hs,
            fun fp s hs => (dirs_saved H hspκ hout fp s).mpr (.inl hs)⟩
        · refine ⟨l, obj, [], ho, heq, hcrash0, by simpa [applyOps] using hc, ?_, ?_,
            fun fp s hs => .inl hs, fun fp s hs => hs⟩
          · intro t hte
            rcases hmode with hpure | ⟨hC, hn⟩
            · right
              exact hpure _ _ _ _ _ ht t
            · left
              have hsome : ds.test.isSome := by rw [← hcons.some, hte]; rfl
              have hd' := hn.both hsome _ hd
              obtain ⟨κ', outsT, hκ', hoT⟩ := hc.dirs _ _ hd'
              have := H.stepFp_inj hκ'
              subst this
              obtain ⟨g1, g2⟩ := hn.entry _ _ _ hd' hoT
              exact ⟨outsT, hoT, g1, hC, g2⟩
          · intro hn
            exact hn.entry
      rw [hobt]
      simp only
      have hvalT : ∀ k v, Assoc.get l k = some v → Val E ds false (E.stepFp κ) k v := by
        intro k v hv
        rw [hl.2] at hv
        exact val_of_trainOut htr hv
      have hct := cons_update hcons.train hl.1 hR' hkeep hvalT
      have htest := hsame.test
      cases hte : st.test with
      | none =>
        rw [hte] at htest
        cases hte' : st'.test with
        | some t' => rw [hte'] at htest; cases htest
        | none =>
          simp only
          refine ⟨.ok ⟨same_update hsame.train hl hndo, .none,
            same_prov hsame.provTrain hl, hsame.provTest⟩, ?_, hc1, hcr, ?_⟩
          · intro st1 h1
            simp only [Except.ok.injEq] at h1
            subst h1
            exact ⟨hct, by simp, by rw [← hcons.some, hte]⟩
          · intro st1 _ hn
            refine ⟨hdone1 hn, ?_⟩
            intro hs
            rw [← hcons.some, hte] at hs
            simp at hs
      | some t =>
        rw [hte] at htest
        cases hte' : st'.test with
        | none => rw [hte'] at htest; cases htest
        | some t' =>
          rw [hte'] at htest
          cases htest with
          | some htt =>
            simp only [advance, Option.map_some, Option.map_none, obtain_none]
            rw [← (H.reads _ _ hsp).2 obj' _ _ (sameMap_agree htt _)]
            rcases obtain_test H hc1 hid hsp htr (hinT t hte) (hmode1 t hte) with
              ⟨e, hx, ho⟩ | ⟨outsT, obj'', o', hx, htestOut, hcaseT⟩
            · rw [hx, ho]
              refine ⟨.error e, by simp, ?_, ?_, by simp⟩
              · simpa using hc1
              · simpa using hcr
            · rw [hx]
              have houtT : Out E ds κ "test" outsT := .inr ⟨rfl, htestOut⟩
              have hndT := (out_props H hspκ houtT).1
              obtain ⟨lT, oT, opsT, hobT, hlT, hc2, hcrT, hdoneT⟩ : ∃ lT oT opsT,
                  obtain E cdc (some (applyOps c ops)) (E.stepFp κ) "test" step o t
                    = (opsT, .ok (lT, oT)) ∧ Eqv lT outsT ∧
                  CInv E cdc ds (applyOps (applyOps c ops) opsT) ∧
                  (CrashSafe E cdc →
                    ∀ i, CInv E cdc ds (applyOps (applyOps c ops) (opsT.take i))) ∧
                  (NInv E cdc ds c → NInv E cdc ds (applyOps (applyOps c ops) opsT)) := by
                rcases hcaseT with ⟨hno, ho⟩ | ⟨hd, lT, heq, ho⟩
                · refine ⟨outsT, o', _, ho, Eqv.refl hndT,
                    cinv_save H hc1 hspκ houtT,
                    fun hs i => cinv_crash H hc1 hspκ houtT (miss_safe H hc1 hs houtT hno) i, ?_⟩
                  intro hn
                  refine ⟨ninv_saved H hspκ houtT (hdone1 hn), ?_⟩
                  intro hs fp hfp
                  rw [dirs_saved H hspκ houtT] at hfp ⊢
                  rcases hfp with hfp | ⟨rfl, h⟩
                  · rcases hd1.1 _ _ hfp with h | ⟨h, -⟩
                    · exact .inl (hd1.2 _ _ (hn.both hs fp h))
                    · exact .inr ⟨h, rfl⟩
                  · simp at h
                · refine ⟨lT, o, [], ho, heq, by simpa [applyOps] using hc1, ?_, ?_⟩
                  · intro _ i; simpa [applyOps] using hc1
                  · intro hn
                    refine ⟨hdone1 hn, ?_⟩
                    intro hs fp hfp
                    rcases hd1.1 _ _ hfp with h | ⟨rfl, -⟩
                    · exact hd1.2 _ _ (hn.both hs fp h)
                    · exact hd
              rw [hobT]
              simp only
              have hvT : ∀ k v, Assoc.get lT k = some v → Val E ds true (E.stepFp κ) k v := by
                intro k v hv
                rw [hlT.2] at hv
                exact val_of_testOut htestOut hv
              refine ⟨.ok ⟨same_update hsame.train hl hndo, .some (same_update htt hlT hndT),
                same_prov hsame.provTrain hl, same_prov hsame.provTest hlT⟩, ?_, ?_, ?_, ?_⟩
              · intro st1 h1
                simp only [Except.ok.injEq] at h1
                subst h1
                refine ⟨hct, ?_, ?_⟩
                · intro t1 ht1
                  simp only [Option.some.injEq] at ht1
                  subst ht1
                  exact cons_update (hcons.test t hte) hlT.1 hR' hkeep hvT
                · rw [← hcons.some, hte]; rfl
              · rw [applyOps_append]
                exact hc2
              · intro hs i
                rcases take_append_cases c ops opsT i with ⟨j, h⟩ | ⟨j, h⟩
                · rw [h]; exact hcr hs j
                · rw [h]; exact hcrT hs j
              · intro st1 _ hn
                rw [applyOps_append]
                exact hdoneT hn

/-! ## Whole runs -/

/-- The purge sets keep what the rest of the run needs. -/
def KeepsOk (final : List String) : List (ResolvedStep P × Option (List String)) → Prop
  | [] => True
  | (_, keep) :: rest =>
    (∀ K, keep = some K → ∀ k ∈ req final (rest.map (·.1)), k ∈ K) ∧ KeepsOk final rest

theorem runSteps_rel {E : Env V P S} {cdc : Codec V} {ds : Dataset V} (H : CacheOk E cdc ds)
    {seed : Int} {fit : Option (List Int)} {final : List String}
    {steps : List (ResolvedStep P × Option (List String))} :
    ∀ {c : Cache V} {st st' : RunState V}, CInv E cdc ds c → Pure E ∨ (Complete E cdc ∧ NInv E cdc ds c) →
    (∀ p ∈ steps, E.spec p.1.stepId = some p.1.spec) → KeepsOk final steps → Same st st' →
    Cons E ds (req final (steps.map (·.1))) st →
    StepRel E cdc ds final c (runSteps E cdc (datasetFp E ds) seed fit (some c) st steps)
      (runSteps E cdc (datasetFp E ds) seed fit none st' steps) := by
  induction steps with
  | nil =>
    intro c st st' hc hmode _ _ hsame hcons
    refine ⟨.ok hsame, ?_, ?_, ?_, ?_⟩
    · intro st1 h1
      simp only [runSteps, Except.ok.injEq] at h1
      subst h1
      exact hcons
    · simpa [runSteps, applyOps] using hc
    · intro _ i; simpa [runSteps, applyOps] using hc
    · intro st1 _ hn; exact hn
  | cons p steps ih =>
    intro c st st' hc hmode hspec hkeeps hsame hcons
    obtain ⟨step, keep⟩ := p
    have hs := runStep_rel H hc hmode (seed := seed) (fit := fit) (keep := keep)
      (R' := req final (steps.map (·.1))) (hspec (step, keep) (by simp)) hsame hcons
      (by
        intro k hk
        rw [List.map_cons, req_cons]
        simp [hk])
      (by
        intro k hk
        rw [List.map_cons, req_cons]
        simp [hk])
      hkeeps.1
    rw [runSteps, runSteps]
    simp only
    generalize runStep E cdc (datasetFp E ds) seed fit (some c) st step keep = w at hs ⊢
    generalize runStep E cdc (datasetFp E ds) seed fit none st' step keep = n at hs ⊢
    obtain ⟨wops, wr⟩ := w
    obtain ⟨nops, nr⟩ := n
    have hsame' := hs.same
    simp only at hsame'
    cases hsame' with
    | error e => exact ⟨.error e, by simp, hs.full, hs.crash, by simp⟩
    | @ok st1 st1' hsame1 =>
      simp only [advance, Option.map_some, Option.map_none]
      have hc1 : CInv E cdc ds (applyOps c wops) := hs.full
      have hmode1 : Pure E ∨ (Complete E cdc ∧ NInv E cdc ds (applyOps c wops)) := by
        rcases hmode with h | ⟨hC, h⟩
        · exact .inl h
        · exact .inr ⟨hC, hs.done st1 rfl h⟩
      have hr := ih hc1 hmode1 (fun q hq => hspec q (List.mem_cons_of_mem _ hq)) hkeeps.2 hsame1
        (hs.cons st1 rfl)
      refine ⟨hr.same, hr.cons, ?_, ?_, ?_⟩
      · rw [applyOps_append]
        exact hr.full
      · intro hsafe i
        rcases take_append_cases c wops
          (runSteps E cdc (datasetFp E ds) seed fit (some (applyOps c wops)) st1 steps).1 i
          with ⟨j, h⟩ | ⟨j, h⟩
        · rw [h]; exact hs.crash hsafe j
        · rw [h]; exact hr.crash hsafe j
      · intro st2 h2 hn
        rw [applyOps_append]
        exact hr.done st2 h2 (hs.done st1 rfl hn)

theorem keepsOk_withKeeps (purge : Bool) (ds : Dataset V) (plan : Plan P)
    (steps : List (ResolvedStep P)) :
    KeepsOk (finalKeepKeys steps plan.outputKey (Assoc.keys (initialStore ds.train)))
      (withKeeps purge ds plan steps) ∧ (withKeeps purge ds plan steps).map (·.1) = steps := by
  unfold withKeeps buildKeepSets
  generalize finalKeepKeys steps plan.outputKey (Assoc.keys (initialStore ds.train)) = final
  cases purge with
  | false =>
    simp only [Bool.false_eq_true, if_false]
    constructor
    · induction steps with
      | nil => trivial
      | cons s steps ih => exact ⟨by simp, ih⟩
    · simp [List.map_map, Function.comp_def]
  | true =>
    simp only [if_true]
    have hmap : ∀ steps : List (ResolvedStep P),
        (steps.zip ((keepFold steps final).1.map some)).map (·.1) = steps := by
      intro steps
      induction steps with
      | nil => rfl
      | cons s steps ih => rw [keepFold_zip, List.map_cons, ih]
    refine ⟨?_, hmap steps⟩
    induction steps with
    | nil => trivial
    | cons s steps ih =>
      rw [keepFold_zip]
      refine ⟨?_, ih⟩
      intro K hK k hk
      rw [hmap] at hk
      simp only [Option.some.injEq] at hK
      rw [← hK]; exact hk

theorem initial_cons (E : Env V P S) (ds : Dataset V) (R : List String) :
    Cons E ds R (initialState (datasetFp E ds) ds) := by
  have hprov : ∀ (s : Store V) k, Assoc.get (initialProv (datasetFp E ds) s) k =
      (Assoc.get s k).map (fun _ => datasetFp E ds ++ ":" ++ k) := by
    intro s k
    unfold initialProv
    induction s with
    | nil => rfl
    | cons p s ih =>
      rw [List.map_cons, Assoc.get_cons, Assoc.get_cons, ih]
      by_cases h : p.1 = k
      · subst h; simp
      · simp [h]
  refine ⟨⟨?_, ?_⟩, ?_, by simp [initialState]⟩
  · intro k _
    simp only [initialState, hprov, Option.isSome_map]
  · intro k _ p v hp hv
    simp only [initialState, hprov] at hp hv
    rw [hv] at hp
    simp only [Option.map_some, Option.some.injEq] at hp
    subst hp
    exact .rawTrain hv
  · intro t ht
    simp only [initialState, Option.map_eq_some_iff] at ht
    obtain ⟨sp, hsp, rfl⟩ := ht
    constructor
    · intro k _
      simp only [initialState, hsp, hprov, Option.isSome_map]
    · intro k _ p v hp hv
      simp only [initialState, hsp, hprov] at hp
      rw [hv] at hp
      simp only [Option.map_some, Option.some.injEq] at hp
      subst hp
      exact .rawTest hsp hv

/-- The same outcome: the output splits are equal and so are the artifacts, as dictionaries. -/
structure SameResult (r r' : Result V) : Prop where
  train : r.train = r'.train
  test : r.test = r'.test
  trainArtifacts : ∀ k, Assoc.get r.trainArtifacts k = Assoc.get r'.trainArtifacts k
  testArtifacts : Option.Rel (fun s s' => ∀ k, Assoc.get s k = Assoc.get s' k)
    r.testArtifacts r'.testArtifacts

theorem outSplit_same {out : String} {edges : Option V} {s s' : Store V} (h : SameMap s s') :
    outSplit out edges s = outSplit out edges s' := by
  unfold outSplit
  simp only [h _]

theorem finish_same {out : String} {ds : Dataset V} {st st' : RunState V} (h : Same st st') :
    ERel SameResult (finish out ds st) (finish out ds st') := by
  unfold finish
  rw [outSplit_same h.train]
  cases outSplit out ds.train.edges st'.train with
  | error e => exact .error e
  | ok tr =>
    rw [ebind_of_ok rfl, ebind_of_ok rfl]
    have ht := h.test
    cases h1 : st.test with
    | none =>
      rw [h1] at ht
      cases h2 : st'.test with
      | some t => rw [h2] at ht; cases ht
      | none =>
        cases ds.test <;> exact .ok ⟨rfl, rfl, h.train, .none⟩
    | some t =>
      rw [h1] at ht
      cases h2 : st'.test with
      | none => rw [h2] at ht; cases ht
      | some t' =>
        rw [h2] at ht
        cases ht with
        | some ht =>
          cases ds.test with
          | none => exact .ok ⟨rfl, rfl, h.train, .some ht⟩
          | some sp =>
            simp only
            rw [outSplit_same ht]
            cases outSplit out sp.edges t' with
            | error e => exact .error e
            | ok te => exact .ok ⟨rfl, rfl, h.train, .some ht⟩

/-- One call against a good cache. -/
theorem preprocess_rel {E : Env V P S} {cdc : Codec V} {ds : Dataset V} (H : CacheOk E cdc ds)
    {c : Cache V} (hc : CInv E cdc ds c) (hmode : Pure E ∨ (Complete E cdc ∧ NInv E cdc ds c)) (call : Call P) :
    ERel SameResult (preprocess E cdc ds (some c) call).2 (preprocess E cdc ds none call).2 ∧
    CInv E cdc ds (applyOps c (preprocess E cdc ds (some c) call).1) ∧
    (CrashSafe E cdc →
      ∀ i, CInv E cdc ds (applyOps c ((preprocess E cdc ds (some c) call).1.take i))) ∧
    (∀ r, (preprocess E cdc ds (some c) call).2 = .ok r → NInv E cdc ds c →
      NInv E cdc ds (applyOps c (preprocess E cdc ds (some c) call).1)) := by
  unfold preprocess
  cases hres : resolvePlan E.spec ds call.plan with
  | error e => 
    exact ⟨.error e, by simpa [applyOps] using hc, fun _ i => by simpa [applyOps] using hc, by simp⟩
  | ok rs =>
    obtain ⟨steps, skp⟩ := rs
    simp only
    obtain ⟨hk, hmap⟩ := keepsOk_withKeeps call.purge ds call.plan steps
    have hr := runSteps_rel H (seed := call.seed) (fit := call.fit) hc hmode
      (st := initialState (datasetFp E ds) ds) (st' := initialState (datasetFp E ds) ds)
      (by
        intro p hp
        apply resolved_spec hres
        rw [← hmap]
        exact List.mem_map.mpr ⟨p, hp, rfl⟩) hk
      ⟨fun _ => rfl, by cases (initialState (datasetFp E ds) ds).test <;>
        first | exact .none | exact .some (fun _ => rfl), fun _ => rfl, fun _ => rfl⟩
      (initial_cons E ds _)
    generalize runSteps E cdc (datasetFp E ds) call.seed call.fit (some c)
      (initialState (datasetFp E ds) ds) (withKeeps call.purge ds call.plan steps) = w at hr ⊢
    generalize runSteps E cdc (datasetFp E ds) call.seed call.fit none
      (initialState (datasetFp E ds) ds) (withKeeps call.purge ds call.plan steps) = n at hr ⊢
    obtain ⟨wops, wr⟩ := w
    obtain ⟨nops, nr⟩ := n
    have hsame := hr.same
    simp only at hsame
    cases hsame with
    | error e => exact ⟨.error e, hr.full, hr.crash, by simp⟩
    | @ok a b h =>
      exact ⟨finish_same h, hr.full, hr.crash, fun r _ hn => hr.done a rfl hn⟩

/-! ## Histories -/

/-- Caches reachable by completed calls of `preprocess` on one dataset, with any plans, seeds, fit
indices and purge flags. -/
inductive History (E : Env V P S) (cdc : Codec V) (ds : Dataset V) : Cache V → Prop
  | empty : History E cdc ds []
  | run {c : Cache V} (call : Call P) {r : Result V} (h : History E cdc ds c)
      (hr : (preprocess E cdc ds (some c) call).2 = .ok r) :
      History E cdc ds (applyOps c (preprocess E cdc ds (some c) call).1)

/-- Caches reachable when calls may also fail, or be killed after any file operation. -/
inductive CrashHistory (E : Env V P S) (cdc : Codec V) (ds : Dataset V) : Cache V → Prop
  | empty : CrashHistory E cdc ds []
  | stop {c : Cache V} (call : Call P) (n : Nat) (h : CrashHistory E cdc ds c) :
      CrashHistory E cdc ds (applyOps c ((preprocess E cdc ds (some c) call).1.take n))

/-- **C34 (any history of completed runs) -- partial.**  Whatever was run before on the dataset, a
call with the cache raises the same exception, or returns the same splits and artifacts, as the same
call without a cache.  Missing from the full property: it needs steps that read only what they
declare (`C34_undeclared_read_violated`), artifacts that are read back as they were stored, and
steps that either leave no trace on their object or return everything they declare
(`C34_incomplete_random_violated`). -/
theorem C34_transparent_partial {E : Env V P S} {cdc : Codec V} {ds : Dataset V}
    (H : CacheOk E cdc ds) (hmode : Complete E cdc ∨ Pure E) {c : Cache V}
    (hc : History E cdc ds c) (call : Call P) :
    ERel SameResult (preprocess E cdc ds (some c) call).2 (preprocess E cdc ds none call).2 := by
  rcases hmode with hC | hpure
  · have hinv : CInv E cdc ds c ∧ NInv E cdc ds c := by
      induction hc with
      | empty => exact ⟨cinv_empty _ _ _, ninv_empty _ _ _⟩
      | @run c call r _ hr ih =>
        obtain ⟨-, h2, -, h3⟩ := preprocess_rel H ih.1 (.inr ⟨hC, ih.2⟩) call
        exact ⟨h2, h3 r hr ih.2⟩
    exact (preprocess_rel H hinv.1 (.inr ⟨hC, hinv.2⟩) call).1
  · have hinv : CInv E cdc ds c := by
      induction hc with
      | empty => exact cinv_empty _ _ _
      | run call _ _ ih => exact (preprocess_rel H ih (.inl hpure) call).2.1
    exact (preprocess_rel H hinv (.inl hpure) call).1

/-- **C34 (any crashes) -- partial.**  If transforming leaves no trace on the step object, the same
holds after any history in which calls fail or are killed at any file operation.  Without that
condition a crash can change later results (`C34_crash_random_violated`), and so it can when a step
returns less than it declares and torn files are not recognised
(`C34_crash_incomplete_violated`). -/
theorem C34_transparent_after_crash_partial {E : Env V P S} {cdc : Codec V} {ds : Dataset V}
    (H : CacheOk E cdc ds) (hpure : Pure E) (hsafe : Complete E cdc ∨ cdc.tornError = .cacheError)
    {c : Cache V} (hc : CrashHistory E cdc ds c) (call : Call P) :
    ERel SameResult (preprocess E cdc ds (some c) call).2 (preprocess E cdc ds none call).2 := by
  have hinv : CInv E cdc ds c := by
    induction hc with
    | empty => exact cinv_empty _ _ _
    | stop call n _ ih => exact (preprocess_rel H ih (.inl hpure) call).2.2.1 hsafe n
  exact (preprocess_rel H hinv (.inl hpure) call).1

end ModSSC.Preprocess
