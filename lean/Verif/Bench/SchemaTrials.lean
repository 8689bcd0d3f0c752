import Verif.Bench.SchemaClosed
import Verif.Bench.SearchProps
import Verif.Hpo.TunerProps

/-!
# Accepted configurations and searches (C130)
-/

namespace ModSSC.Bench
open ModSSC ModSSC.Bench.Spec ModSSC.Hpo ModSSC.Hpo.Spec

theorem apart_single {k : String} (h : k ≠ "method") : Hpo.Spec.Apart ["method", "params"] [k] := by
  constructor
  · intro hp
    have := hp.length_le
    simp at this
  · rintro ⟨t, ht⟩
    simp only [List.cons_append, List.cons.injEq] at ht
    exact h ht.1

theorem apart_method {k : String} (h : k ≠ "params") : Hpo.Spec.Apart ["method", "params"] ["method", k] := by
  constructor
  · rintro ⟨t, ht⟩
    simp only [List.cons_append, List.cons.injEq] at ht
    exact h ht.2.1.symm
  · rintro ⟨t, ht⟩
    simp only [List.cons_append, List.cons.injEq] at ht
    exact h ht.2.1

theorem getPath_single (d : Dict) (k : String) : getPath (.dict d) [k] = Assoc.get d k := by
  rw [getPath_dict_cons]
  cases Assoc.get d k <;> simp

theorem valid_get {d : Dict} {k : String} {v : PyVal} (h : Valid (.dict d)) (hg : Assoc.get d k = some v) : Valid v := by
  unfold Valid at h
  have hm := Assoc.mem_of_get hg
  have h2 := h.2
  clear h hg
  induction d with
  | nil => cases hm
  | cons p d ih =>
    obtain ⟨k', v'⟩ := p
    unfold ValidDict at h2
    rcases List.mem_cons.mp hm with e | hm
    · injection e with _ e; rw [e]; exact h2.1
    · exact ih hm h2.2

theorem valid_mapOpt {d m : Dict} {k : String} (h : Valid (.dict d)) (hm : MapOpt d k m) : Valid (.dict m) := by
  rcases hm with hm | ⟨-, rfl⟩
  · exact valid_get h hm
  · simp [Valid, ValidDict, Assoc.keys]

theorem checkPath_eq (path : List String) : checkPath path = checkLeaf path := by
  unfold checkPath
  rcases path with _ | ⟨a, _ | ⟨b, _ | ⟨c, r⟩⟩⟩
  · rfl
  · simp [checkLeaf]
  · simp [checkLeaf]
  · by_cases ha : a = "method"
    · subst ha
      by_cases hb : b = "params"
      · subst hb; simp [checkLeaf]
      · rw [if_pos (.inr (.inr (by simpa using hb)))]
        unfold checkLeaf
        split
        · rename_i e; simp only [List.cons.injEq] at e; exact absurd e.2.1 hb
        · rfl
    · rw [if_pos (.inr (.inl (by simpa using ha)))]
      unfold checkLeaf
      split
      · rename_i e; simp only [List.cons.injEq] at e; exact absurd e.1 ha
      · rfl

mutual
theorem validateTargets_eq : ∀ (v : PyVal) (path : List String), validateTargets v path = walkSpace v path
  | .none, _ => by simp [validateTargets, walkSpace]
  | .bool _, _ => by simp [validateTargets, walkSpace]
  | .int _, _ => by simp [validateTargets, walkSpace]
  | .flt _, _ => by simp [validateTargets, walkSpace]
  | .str _, _ => by simp [validateTargets, walkSpace]
  | .list l, path => by simp only [validateTargets, walkSpace, checkPath_eq]
  | .dict d, path => by
    simp only [validateTargets, walkSpace, checkPath_eq]
    rw [validateTargetEntries_eq d path]
theorem validateTargetEntries_eq : ∀ (d : Dict) (path : List String),
    validateTargetEntries d path = walkSpaceEntries d path
  | [], _ => rfl
  | (k, v) :: d, path => by
    simp only [validateTargetEntries, walkSpaceEntries]
    rw [validateTargets_eq v, validateTargetEntries_eq d path]
    cases walkSpace v (path ++ [k]) <;> rfl
end

/-- The space of an accepted search has leaves, all below `method.params`. -/
theorem leaves_in_params {path : List String} {v : PyVal} (h : SpaceAt path v) :
    (∃ p nd, LeafAt v p nd) ∧ ∀ p nd, LeafAt v p nd → InParams (path ++ p) := by
  induction h with
  | values _ hp =>
    refine ⟨⟨_, _, .list _⟩, ?_⟩
    intro p nd h
    cases h
    rwa [List.append_nil]
  | dist hd _ hp =>
    refine ⟨⟨_, _, .dist _ hd⟩, ?_⟩
    intro p nd h
    cases h with
    | dist => rwa [List.append_nil]
    | child _ _ _ _ _ hn => exact absurd hd hn
  | @node path d hne hd _ hc ih =>
    refine ⟨?_, ?_⟩
    · obtain ⟨⟨k, v⟩, d', rfl⟩ := List.exists_cons_of_ne_nil hne
      obtain ⟨⟨p, nd, h⟩, -⟩ := ih (k, v) (by simp)
      exact ⟨_, _, .child _ k v p nd hd (by rw [Assoc.get_cons]; simp) h⟩
    · intro p nd h
      cases h with
      | dist _ h => exact absurd h hd
      | child _ k v p _ hn hg hl =>
        have := (ih _ (Assoc.mem_of_get hg)).2 _ _ hl
        simpa using this

/-- C130: every trial of a search over the accepted space is accepted, and it is the configuration with other parameters
of the method. -/
theorem C130_trials (env : SchemaEnv) (hl : EnvLaw env) (data : Dict) (hv : Valid (.dict data)) (c : ExperimentConfig)
    (h : configFromDict env data = .ok c) (sc : SearchConfig) (hs : c.search = some sc)
    {σ : Type} (D : Draw σ) (hD : D.Lawful) (kind : Kind σ) (trials : List Trial)
    (ht : searchTrials D kind sc.space = .ok trials) (t : Trial) (hm : t ∈ trials) :
    ∃ p, configFromDict env (trialConfig data t.patch) = .ok { c with method := { c.method with params := p } } ∧
      getPath (.dict (trialConfig data t.patch)) ["method", "params"] = some (.dict p) := by
  unfold trialConfig
  rw [C129_meaning env hl.torch] at h
  have hso := h.search
  rw [hs] at hso
  obtain ⟨sv, hsv, ss, rfl, hsm⟩ := hso
  have hvs : Valid (.dict sc.space) := valid_mapOpt (valid_get hv hsv) hsm.space
  have hc := fun q hq => C23_only_method_params D hD kind sc.space hvs trials ht t hm data q hq
  have g : ∀ k, k ≠ "method" → Assoc.get (deepMerge data t.patch) k = Assoc.get data k := by
    intro k hk
    have := hc _ (apart_single hk)
    rwa [getPath_single, getPath_single] at this
  obtain ⟨s, hsect, hmm⟩ := h.method
  have hms : Assoc.get data "method" = some (.dict s) := by
    rcases hsect with hsect | ⟨-, rfl⟩
    · exact hsect
    · cases hmm.id.1
  have hpv := searchTrials_valid hD hvs ht t hm
  -- the patch has a mapping at method.params
  obtain ⟨pd, hpd⟩ : ∃ pd, getPath (.dict t.patch) ["method", "params"] = some (.dict pd) := by
    obtain ⟨⟨p, nd, hp⟩, hin⟩ := leaves_in_params hsm.spaceOk
    obtain ⟨k, rest, e⟩ := hin p nd hp
    rw [List.nil_append] at e
    subst e
    obtain ⟨v, -, hv⟩ := (((searchTrials_index hD hvs ht).2.2 t hm).1 _ _ hp)
    rw [show "method" :: "params" :: k :: rest = ["method", "params"] ++ k :: rest from rfl, getPath_append] at hv
    rcases hx : getPath (.dict t.patch) ["method", "params"] with _ | x
    · rw [hx] at hv; cases hv
    · rw [hx] at hv
      by_cases hd : IsDict x
      · obtain ⟨pd, rfl⟩ := hd; exact ⟨pd, rfl⟩
      · rw [Option.bind_some, getPath_not_dict hd] at hv; cases hv
  obtain ⟨p, hp⟩ : ∃ p, getPath (.dict (deepMerge data t.patch)) ["method", "params"] = some (.dict p) := by
    by_cases hb : ∃ bd, getPath (.dict data) ["method", "params"] = some (.dict bd)
    · obtain ⟨bd, hb⟩ := hb
      obtain ⟨md, h1, -⟩ := C22_both_mappings _ data t.patch hpv bd pd hpd hb
      exact ⟨md, h1⟩
    · exact ⟨pd, C22_patch_mapping _ data t.patch hpv _ hpd (by simpa using hb)⟩
  obtain ⟨ms, hmd, hmp⟩ : ∃ ms, Assoc.get (deepMerge data t.patch) "method" = some (.dict ms) ∧
      Assoc.get ms "params" = some (.dict p) := by
    rw [getPath_dict_cons] at hp
    rcases hx : Assoc.get (deepMerge data t.patch) "method" with _ | x
    · rw [hx] at hp; cases hp
    · rw [hx, Option.bind_some] at hp
      by_cases hd : IsDict x
      · obtain ⟨ms, rfl⟩ := hd
        exact ⟨ms, rfl, by rwa [getPath_single] at hp⟩
      · rw [getPath_not_dict hd] at hp; cases hp
  have gm : ∀ k, k ≠ "params" → Assoc.get ms k = Assoc.get s k := by
    intro k hk
    have := hc _ (apart_method hk)
    rw [getPath_dict_cons, getPath_dict_cons, hmd, hms, Option.bind_some, Option.bind_some, getPath_single,
      getPath_single] at this
    exact this
  refine ⟨p, (C129_meaning env hl.torch _ _).mpr ?_, hp⟩
  have sect {β : Type} {k : String} {R : Dict → β → Prop} {x : β} (hk : k ≠ "method")
      (h : ∃ s, Sect data k s ∧ R s x) : ∃ s, Sect (deepMerge data t.patch) k s ∧ R s x := by
    obtain ⟨s, hs, hr⟩ := h
    exact ⟨s, sect_congr (g k hk) hs, hr⟩
  refine ⟨?_, sect (by decide) h.run, optional_congr (g _ (by decide)) h.limits, sect (by decide) h.dataset,
    sect (by decide) h.sampling, sect (by decide) h.preprocess, optional_congr (g _ (by decide)) h.views,
    optional_congr (g _ (by decide)) h.graph, optional_congr (g _ (by decide)) h.augmentation,
    ⟨ms, .inl hmd, ?_⟩, sect (by decide) h.evaluation, optional_congr (g _ (by decide)) h.search⟩
  · rw [onlyKeys_iff]
    intro k v hk
    by_cases e : k = "method"
    · subst e; simp
    · rw [g k e] at hk
      exact onlyKeys_iff.mp h.keys k v hk
  · refine ⟨onlyKeys_of hmm.keys (fun k hk => gm k (by rintro rfl; simp at hk)), text_congr (gm _ (by decide)) hmm.kind,
      hmm.kinds, text_congr (gm _ (by decide)) hmm.id, ?_, .inl hmp, modelOpt_congr (gm _ (by decide)) hmm.model⟩
    obtain ⟨ds, hds, hd⟩ := hmm.device
    exact ⟨ds, sect_congr (gm _ (by decide)) hds, hd⟩

/-- The search of an accepted configuration, as `run_hpo` starts it (bench/orchestrators/hpo.py:67-84): `state` is the
generator of the seed. -/
def searchKind {σ : Type} (state : Int → σ) (sc : SearchConfig) : Option (Kind σ) :=
  if sc.kind = "grid" then some .grid
  else match sc.seed, sc.nTrials with
    | some s, some n => some (.random (state s) n)
    | _, _ => none

/-- A leaf with finitely many values: a list, or a choice. -/
def FiniteLeaf (nd : PyVal) : Prop := (∃ vs, nd = .list vs) ∨ ∃ d, nd = .dict d ∧ Assoc.get d "dist" = some (.str "choice")

theorem fromDict_of_space {d : Dict} (h : SpaceAt [] (.dict d)) :
    ∃ ls, validateTargets (.dict d) [] = .ok () ∧ fromDict d = .ok ls := by
  obtain ⟨hw, hwalk⟩ := (space_iff _ _).mpr h
  obtain ⟨ls, hls⟩ := (fromDict_ok_iff (spaceAt_ne_nil h)).mpr hwalk
  exact ⟨ls, by rw [validateTargets_eq, hw], hls⟩

theorem distOk_of_leaf {d : Dict} {path : List String} {v : PyVal} (h : SpaceAt path v) :
    ∀ {p : List String}, LeafAt v p (.dict d) → DistOk d := by
  induction h with
  | values => intro p hl; cases hl
  | dist hk hd _ =>
    intro p hl
    cases hl with
    | dist => exact hd
    | child _ _ _ _ _ hn => exact absurd hk hn
  | node _ hn _ _ ih =>
    intro p hl
    cases hl with
    | dist _ hk => exact absurd hk hn
    | child _ k v p _ _ hg hl => exact ih _ (Assoc.mem_of_get hg) hl

theorem options_of_leaf {path : List String} {v : PyVal} (h : SpaceAt path v) {p : List String} {nd : PyVal}
    (hl : LeafAt v p nd) (hf : FiniteLeaf nd) : ∃ vs, Options nd vs := by
  rcases hf with ⟨vs, rfl⟩ | ⟨d, rfl, hd⟩
  · exact ⟨vs, .list vs⟩
  · obtain ⟨-, hcase⟩ := distOk_of_leaf h hl
    rcases hcase with ⟨_, _, _, _, hx, _⟩ | ⟨_, _, hx, _⟩ | ⟨vs, _, hvs, _⟩
    · rcases hx with hx | ⟨hx, -⟩ <;> rw [hd] at hx <;> simp at hx
    · rw [hd] at hx; simp at hx
    · exact ⟨vs, .choice d vs hd hvs⟩

/-- C130: the search of an accepted configuration has a kind. -/
theorem C130_search_kind {σ : Type} (env : SchemaEnv) (hl : EnvLaw env) (data : Dict) (c : ExperimentConfig)
    (h : configFromDict env data = .ok c) (sc : SearchConfig) (hs : c.search = some sc) (state : Int → σ) :
    ∃ k, searchKind state sc = some k := by
  rw [C129_meaning env hl.torch] at h
  have hso := h.search
  rw [hs] at hso
  obtain ⟨sv, hsv, ss, rfl, hsm⟩ := hso
  unfold searchKind
  rcases hsm.kinds with e | e
  · exact ⟨_, if_pos e⟩
  · obtain ⟨h1, h2⟩ := hsm.random e
    obtain ⟨s, hs⟩ := Option.ne_none_iff_exists'.mp h1
    obtain ⟨n, hn⟩ := Option.ne_none_iff_exists'.mp h2
    rw [hs, hn, if_neg (by rw [e]; decide)]
    exact ⟨_, rfl⟩

/-- C130, proved part: the search of an accepted configuration yields trials, all accepted, unless it is a grid search
with a continuous distribution.  Missing: such a grid search (`C130_grid_violated`). -/
theorem C130_search_partial {σ : Type} (env : SchemaEnv) (hl : EnvLaw env) (data : Dict) (hv : Valid (.dict data))
    (c : ExperimentConfig) (h : configFromDict env data = .ok c) (sc : SearchConfig) (hs : c.search = some sc)
    (D : Draw σ) (hD : D.Lawful) (state : Int → σ) (k : Kind σ) (hk : searchKind state sc = some k)
    (hfin : sc.kind = "grid" → ∀ p nd, LeafAt (.dict sc.space) p nd → FiniteLeaf nd) :
    ∃ trials, searchTrials D k sc.space = .ok trials ∧ trials ≠ [] ∧
      ∀ t ∈ trials, ∃ p, configFromDict env (trialConfig data t.patch) =
        .ok { c with method := { c.method with params := p } } := by
  obtain ⟨trials, ht⟩ : ∃ trials, searchTrials D k sc.space = .ok trials := by
    rw [C129_meaning env hl.torch] at h
    have hso := h.search
    rw [hs] at hso
    obtain ⟨sv, hsv, ss, rfl, hsm⟩ := hso
    have hvs : Valid (.dict sc.space) := valid_mapOpt (valid_get hv hsv) hsm.space
    obtain ⟨ls, h1, h2⟩ := fromDict_of_space hsm.spaceOk
    unfold searchTrials
    rw [ebind_of_ok h1, ebind_of_ok h2]
    unfold searchKind at hk
    split at hk
    · rename_i e
      injection hk with hk; subst hk
      exact (C21_grid_total sc.space hvs ls h2).mpr (fun p nd hp => options_of_leaf hsm.spaceOk hp (hfin e p nd hp))
    · split at hk
      · rename_i s n h3 h4
        injection hk with hk; subst hk
        obtain ⟨ts, hts, -⟩ := C64_random_inside D hD sc.space hvs ls h2 (state s) n (hsm.nTrials.2 n h4)
        exact ⟨ts, hts⟩
      · cases hk
  have hvs : Valid (.dict sc.space) := by
    rw [C129_meaning env hl.torch] at h
    have hso := h.search
    rw [hs] at hso
    obtain ⟨sv, hsv, ss, rfl, hsm⟩ := hso
    exact valid_mapOpt (valid_get hv hsv) hsm.space
  refine ⟨trials, ht, (searchTrials_index hD hvs ht).2.1, fun t hm => ?_⟩
  obtain ⟨p, hp, -⟩ := C130_trials env hl data hv c h sc hs D hD k trials ht t hm
  exact ⟨p, hp⟩

/-- C130: the final run of a search is accepted, and it is the configuration up to the parts that limits and the search
are about. -/
theorem C130_final (env : SchemaEnv) (hl : EnvLaw env) (data : Dict) (hv : Valid (.dict data)) (c : ExperimentConfig)
    (h : configFromDict env data = .ok c) (sc : SearchConfig) (hs : c.search = some sc)
    {σ : Type} (D : Draw σ) (hD : D.Lawful) (kind : Kind σ) (trials : List Trial)
    (ht : searchTrials D kind sc.space = .ok trials) (t : Trial) (hm : t ∈ trials) (parse : String → Option Int)
    (r : Resolved) :
    ∃ c', configFromDict env (finalConfig parse r data t.patch) = .ok c' ∧ SameUpToLimits c c' := by
  obtain ⟨p, hp, -⟩ := C130_trials env hl data hv c h sc hs D hD kind trials ht t hm
  obtain ⟨c', hc', h'⟩ := C130_limits env hl _ _ hp parse r
  exact ⟨c', hc', h'.run, h'.limits, h'.dataset, h'.sampling, h'.preprocess, h'.views, h'.graph, h'.augmentation,
    h'.method, h'.evaluation, h'.search⟩

/-! ### The hypotheses are met -/

/-- Plain ASCII versions of the string functions. -/
def demoSchemaEnv : SchemaEnv where
  blank s := s.toList.all (· == ' ')
  lower s := s
  parseInt _ := none
  repr _ := "?"
  metrics := ["accuracy", "macro_f1"]

theorem demoSchemaEnv_law : EnvLaw demoSchemaEnv where
  torch := by decide +kernel
  append s t h := by
    simp only [demoSchemaEnv, String.toList_append, List.all_append] at h ⊢
    rw [h]; rfl

/-- A configuration with a search. -/
def demoConfig (kind : String) (lr : PyVal) : Dict :=
  [("run", .dict [("name", .str "toy"), ("seed", .int 1), ("output_dir", .str "runs"), ("fail_fast", .bool true)]),
   ("dataset", .dict [("id", .str "toy"), ("download", .bool false)]),
   ("sampling", .dict [("plan", .dict [("split", .dict [])])]),
   ("preprocess", .dict [("cache", .bool false), ("plan", .dict [("steps", .list [.dict [("id", .str "core.to_numpy")]])])]),
   ("method", .dict [("kind", .str "inductive"), ("id", .str "pseudo_label"),
      ("device", .dict [("device", .str "cpu"), ("dtype", .str "float32")]),
      ("params", .dict [("batch_size", .int 512)])]),
   ("evaluation", .dict [("report_splits", .list [.str "val"]), ("metrics", .list [.str "accuracy"])]),
   ("search", .dict [("enabled", .bool true), ("kind", .str kind), ("seed", .int 7), ("n_trials", .int 3),
      ("objective", .dict [("split", .str "val"), ("metric", .str "accuracy"), ("direction", .str "maximize"), ("aggregate", .str "mean")]),
      ("space", .dict [("method", .dict [("params", .dict [("lr", lr)])])])])]

def demoUniform : PyVal := .dict [("dist", .str "uniform"), ("low", .int 0), ("high", .int 1)]

example : (configFromDict demoSchemaEnv (demoConfig "grid" (.list [.int 1, .int 2]))).toOption.map
    (fun c => (c.run.name, c.method.params, c.search.map (·.repeats))) =
    some ("toy", [("batch_size", .int 512)], some 1) := by decide +kernel

example : Valid (.dict (demoConfig "grid" (.list [.int 1, .int 2]))) := by
  simp [Valid, ValidDict, ValidList, demoConfig, Assoc.keys]

/-- The trials of a grid search and of a random search are accepted with their learning rates. -/
example : (do
      let c ← configFromDict demoSchemaEnv (demoConfig "grid" (.list [.int 1, .int 2]))
      match c.search with
      | none => .ok []
      | some sc => do
        let ts ← searchTrials Draw.demo .grid sc.space
        ts.mapM (fun t => do
          let c' ← configFromDict demoSchemaEnv (trialConfig (demoConfig "grid" (.list [.int 1, .int 2])) t.patch)
          .ok c'.method.params) : Except PyErr (List Dict)) =
    .ok [[("batch_size", .int 512), ("lr", .int 1)], [("batch_size", .int 512), ("lr", .int 2)]] := by decide +kernel

example : (do
      let c ← configFromDict demoSchemaEnv (demoConfig "random" demoUniform)
      match c.search with
      | none => .ok 0
      | some sc => do
        let ts ← searchTrials Draw.demo (.random 7 3) sc.space
        .ok ts.length : Except PyErr Nat) = .ok 3 := by decide +kernel

/-- C130 is violated: a grid search over a continuous distribution is accepted, and the search then fails. -/
theorem C130_grid_violated :
    ∃ c sc, configFromDict demoSchemaEnv (demoConfig "grid" demoUniform) = .ok c ∧ c.search = some sc ∧
      sc.kind = "grid" ∧ sc.enabled = true ∧
      ∀ {σ : Type} (D : Draw σ), (searchTrials D .grid sc.space).toOption = none := by
  have h : (configFromDict demoSchemaEnv (demoConfig "grid" demoUniform)).toOption.map (fun c => c.search.map
      (fun sc => (sc.kind, sc.enabled, sc.space))) =
      some (some ("grid", true, [("method", .dict [("params", .dict [("lr", demoUniform)])])])) := by decide +kernel
  rcases hc : configFromDict demoSchemaEnv (demoConfig "grid" demoUniform) with e | c
  · rw [hc] at h; cases h
  · rw [hc] at h
    simp only [Except.toOption, Option.map_some, Option.some.injEq] at h
    rcases hs : c.search with _ | sc
    · rw [hs] at h; cases h
    · rw [hs, Option.map_some, Option.some.injEq] at h
      injection h with h1 h2
      injection h2 with h2 h3
      refine ⟨c, sc, rfl, hs, h1, h2, ?_⟩
      intro σ D
      have : (do validateTargets (.dict sc.space) []; let l ← fromDict sc.space; iterGrid l :
          Except PyErr (List Trial)).toOption.map (·.length) = none := by
        rw [h3]; decide +kernel
      unfold searchTrials
      simpa using this

end ModSSC.Bench
