import Verif.Bench.SchemaSpace
import Verif.Bench.SweepProps
import Verif.Bench.SearchProps
import Verif.Hpo.TunerProps

/-!
# Accepted configurations stay accepted (C130)
-/

namespace ModSSC.Bench
open ModSSC ModSSC.Bench.Spec

theorem onlyKeys_iff {d : Dict} {ks : List String} : OnlyKeys d ks ↔ ∀ k v, Assoc.get d k = some v → k ∈ ks := by
  constructor
  · intro h k v hv; exact h k (Assoc.mem_keys_iff.mpr ⟨v, hv⟩)
  · intro h k hk
    obtain ⟨v, hv⟩ := Assoc.mem_keys_iff.mp hk
    exact h k v hv

/-- The same entries up to some keys that are known anyway. -/
theorem onlyKeys_of {d d' : Dict} {ks : List String} (h : OnlyKeys d ks)
    (h' : ∀ k, k ∉ ks → Assoc.get d' k = Assoc.get d k) : OnlyKeys d' ks := by
  rw [onlyKeys_iff] at h ⊢
  intro k v hv
  by_contra hk
  rw [h' k hk] at hv
  exact hk (h k v hv)

theorem text_congr {env : SchemaEnv} {d d' : Dict} {k s : String} (e : Assoc.get d' k = Assoc.get d k)
    (h : Text env d k s) : Text env d' k s := by
  unfold Text at *; rw [e]; exact h

theorem unset_congr {d d' : Dict} {k : String} (e : Assoc.get d' k = Assoc.get d k) (h : Unset d k) : Unset d' k := by
  unfold Unset at *; rw [e]; exact h

theorem textOpt_congr {env : SchemaEnv} {d d' : Dict} {k : String} {o : Option String}
    (e : Assoc.get d' k = Assoc.get d k) (h : TextOpt env d k o) : TextOpt env d' k o := by
  cases o with
  | none => exact unset_congr e h
  | some s => exact text_congr e h

theorem flag_congr {d d' : Dict} {k : String} {x b : Bool} (e : Assoc.get d' k = Assoc.get d k)
    (h : FlagIs d k x b) : FlagIs d' k x b := by
  unfold FlagIs at *; rw [e]; exact h

theorem whole_congr {d d' : Dict} {k : String} {o : Option Int} (e : Assoc.get d' k = Assoc.get d k)
    (h : WholeOpt d k o) : WholeOpt d' k o := by
  cases o with
  | none => exact unset_congr e h
  | some i => obtain ⟨v, hv, hw⟩ := h; exact ⟨v, by rw [e, hv], hw⟩

theorem map_congr {d d' m : Dict} {k : String} (e : Assoc.get d' k = Assoc.get d k) (h : MapOpt d k m) :
    MapOpt d' k m := by
  unfold MapOpt Unset at *; rw [e]; exact h

theorem sect_congr {d d' s : Dict} {k : String} (e : Assoc.get d' k = Assoc.get d k) (h : Sect d k s) :
    Sect d' k s := by
  unfold Sect at *; rw [e]; exact h

theorem printed_congr {env : SchemaEnv} {d d' : Dict} {k x s : String} (e : Assoc.get d' k = Assoc.get d k)
    (h : PrintedOr env d k x s) : PrintedOr env d' k x s := by
  unfold PrintedOr at *; rw [e]; exact h

theorem optional_congr {β : Type} {d d' : Dict} {k : String} {R : PyVal → β → Prop} {o : Option β}
    (e : Assoc.get d' k = Assoc.get d k) (h : Optional d k R o) : Optional d' k R o := by
  cases o with
  | none => unfold Optional at *; rw [e]; exact h
  | some c => obtain ⟨v, hv, hr⟩ := h; exact ⟨v, by rw [e, hv], hr⟩

theorem modelOpt_congr {env : SchemaEnv} {a : Bool} {d d' : Dict} {o : Option ModelConfig}
    (e : Assoc.get d' "model" = Assoc.get d "model") (h : ModelOpt env a d o) : ModelOpt env a d' o := by
  cases o with
  | none => exact unset_congr e h
  | some c => obtain ⟨v, hv, hr⟩ := h; exact ⟨v, by rw [e, hv], hr⟩

/-! ### Sweeps -/

/-- The laws of strings used: the name of a sweep run is as non-blank as the name it extends. -/
structure EnvLaw (env : SchemaEnv) : Prop where
  torch : env.blank "torch" = false
  append : ∀ a b, env.blank a = false → env.blank (a ++ b) = false

/-- The configuration of a sweep run. -/
def sweptConfig (c : ExperimentConfig) (seed : Int) (outDir : String) : ExperimentConfig :=
  { c with
    run := { c.run with name := sweepRunName c.run.name seed, seed := seed, seeds := none, outputDir := outDir }
    sampling := { c.sampling with seed := some seed }
    preprocess := { c.preprocess with seed := some seed }
    views := c.views.map (fun v => { v with seed := some seed })
    graph := c.graph.map (fun g => { g with seed := some seed })
    augmentation := c.augmentation.map (fun a => { a with seed := some seed })
    search := c.search.map (fun s => { s with seed := some seed }) }

theorem get_setSeed' {seed : Int} {s : Dict} {k : String} (hk : k ≠ "seed") :
    Assoc.get (Assoc.set s "seed" (.int seed)) k = Assoc.get s k := Assoc.get_set_other _ _ hk

theorem whole_set {seed : Int} {s : Dict} : WholeOpt (Assoc.set s "seed" (.int seed)) "seed" (some seed) :=
  ⟨_, Assoc.get_set_self .., .inl rfl⟩

theorem planMeans_seed {s : Dict} {c : PlanConfig} (seed : Int) (h : PlanMeans s c) :
    PlanMeans (Assoc.set s "seed" (.int seed)) { c with seed := some seed } :=
  ⟨onlyKeys_of h.keys (fun k hk => get_setSeed' (by rintro rfl; simp at hk)), whole_set,
    map_congr (get_setSeed' (by decide)) h.plan, h.some⟩

theorem preprocessMeans_seed {env : SchemaEnv} {s : Dict} {c : PreprocessConfig} (seed : Int)
    (h : PreprocessMeans env s c) :
    PreprocessMeans env (Assoc.set s "seed" (.int seed)) { c with seed := some seed } :=
  ⟨onlyKeys_of h.keys (fun k hk => get_setSeed' (by rintro rfl; simp at hk)), whole_set,
    textOpt_congr (get_setSeed' (by decide)) h.fitOn, flag_congr (get_setSeed' (by decide)) h.cache,
    map_congr (get_setSeed' (by decide)) h.plan, h.some, textOpt_congr (get_setSeed' (by decide)) h.cacheDir⟩

theorem graphMeans_seed {env : SchemaEnv} {s : Dict} {c : GraphConfig} (seed : Int) (h : GraphMeans env s c) :
    GraphMeans env (Assoc.set s "seed" (.int seed)) { c with seed := some seed } :=
  ⟨onlyKeys_of h.keys (fun k hk => get_setSeed' (by rintro rfl; simp at hk)),
    flag_congr (get_setSeed' (by decide)) h.enabled, whole_set, flag_congr (get_setSeed' (by decide)) h.cache,
    map_congr (get_setSeed' (by decide)) h.spec, textOpt_congr (get_setSeed' (by decide)) h.cacheDir⟩

theorem augmentationMeans_seed {env : SchemaEnv} {s : Dict} {c : AugmentationConfig} (seed : Int)
    (h : AugmentationMeans env s c) :
    AugmentationMeans env (Assoc.set s "seed" (.int seed)) { c with seed := some seed } :=
  ⟨onlyKeys_of h.keys (fun k hk => get_setSeed' (by rintro rfl; simp at hk)),
    flag_congr (get_setSeed' (by decide)) h.enabled, whole_set, printed_congr (get_setSeed' (by decide)) h.mode,
    map_congr (get_setSeed' (by decide)) h.weak, map_congr (get_setSeed' (by decide)) h.strong,
    textOpt_congr (get_setSeed' (by decide)) h.modality⟩

theorem searchMeans_seed {env : SchemaEnv} {s : Dict} {c : SearchConfig} (seed : Int) (h : SearchMeans env s c) :
    SearchMeans env (Assoc.set s "seed" (.int seed)) { c with seed := some seed } where
  keys := onlyKeys_of h.keys (fun k hk => get_setSeed' (by rintro rfl; simp at hk))
  enabled := by rw [get_setSeed' (by decide)]; exact h.enabled
  kind := text_congr (get_setSeed' (by decide)) h.kind
  kinds := h.kinds
  seed := whole_set
  nTrials := ⟨whole_congr (get_setSeed' (by decide)) h.nTrials.1, h.nTrials.2⟩
  random := fun hr => ⟨by simp, (h.random hr).2⟩
  repeats := by
    rcases h.repeats with hr | ⟨hr, e⟩
    · exact .inl (whole_congr (get_setSeed' (by decide)) hr)
    · exact .inr ⟨unset_congr (get_setSeed' (by decide)) hr, e⟩
  positive := h.positive
  objective := by
    obtain ⟨o, ho, hm⟩ := h.objective
    exact ⟨o, sect_congr (get_setSeed' (by decide)) ho, hm⟩
  space := map_congr (get_setSeed' (by decide)) h.space
  spaceOk := h.spaceOk

theorem get_sweepConfig (base outDir : String) (raw : Dict) (seed : Int) (k : String) :
    Assoc.get (sweepConfig base outDir raw seed) k =
      if k = "run" then some (.dict (Assoc.set (sweepRun seed (some (sweepRunName base seed)) (Assoc.get raw "run"))
        "output_dir" (.str outDir)))
      else if k ∈ seededSections then (Assoc.get raw k).map (setSeed seed) else Assoc.get raw k := by
  unfold sweepConfig
  rw [get_modifyKey]
  by_cases hk : k = "run"
  · rw [if_pos hk, if_pos hk, get_applyGlobalSeed, if_pos rfl]
    rfl
  · rw [if_neg hk, if_neg hk, get_applyGlobalSeed, if_neg hk]

theorem optional_seed {β : Type} {d d' : Dict} {k : String} {R : Dict → β → Prop} {o : Option β} {f : β → β} {seed : Int}
    (e : Assoc.get d' k = (Assoc.get d k).map (setSeed seed))
    (hR : ∀ s c, R s c → R (Assoc.set s "seed" (.int seed)) (f c))
    (h : Optional d k (fun v c => ∃ s, v = .dict s ∧ R s c) o) :
    Optional d' k (fun v c => ∃ s, v = .dict s ∧ R s c) (o.map f) := by
  cases o with
  | none =>
    have h' : Assoc.get d k = none := h
    show Assoc.get d' k = none
    rw [e, h']; rfl
  | some c =>
    obtain ⟨v, hv, s, rfl, hr⟩ := h
    exact ⟨_, by rw [e, hv]; rfl, _, rfl, hR s c hr⟩

theorem sect_seed {β : Type} {d d' : Dict} {k : String} {R : Dict → β → Prop} {c : β} {f : β → β} {seed : Int}
    (e : Assoc.get d' k = (Assoc.get d k).map (setSeed seed))
    (hR : ∀ s c, R s c → R (Assoc.set s "seed" (.int seed)) (f c)) (hne : ¬ R [] c)
    (h : ∃ s, Sect d k s ∧ R s c) : ∃ s, Sect d' k s ∧ R s (f c) := by
  obtain ⟨s, hs, hr⟩ := h
  rcases hs with hs | ⟨-, rfl⟩
  · exact ⟨_, .inl (by rw [e, hs]; rfl), hR s c hr⟩
  · exact absurd hr hne

theorem mapOpt_nil {m : Dict} {k : String} (h : MapOpt [] k m) : m = [] := by
  rcases h with h | ⟨-, rfl⟩
  · cases h
  · rfl

/-- C130: every run of a seed sweep over an accepted configuration is accepted, and it is that configuration with the
seed in every place, the name and output directory of the run, and no further sweep. -/
theorem C130_sweep (env : SchemaEnv) (hl : EnvLaw env) (data : Dict) (c : ExperimentConfig)
    (h : configFromDict env data = .ok c) (seed : Int) (outDir : String) :
    configFromDict env (sweepConfig c.run.name outDir data seed) = .ok (sweptConfig c seed outDir) := by
  rw [C129_meaning env hl.torch] at h ⊢
  have g := get_sweepConfig c.run.name outDir data seed
  obtain ⟨rs, hrs, hrun⟩ := h.run
  have hrd : Assoc.get data "run" = some (.dict rs) := by
    rcases hrs with hrs | ⟨-, rfl⟩
    · exact hrs
    · have := hrun.name.1; cases this
  have grun : ∀ k, Assoc.get (Assoc.set (sweepRun seed (some (sweepRunName c.run.name seed)) (Assoc.get data "run"))
        "output_dir" (.str outDir)) k = if k = "output_dir" then some (.str outDir) else if k = "name" then
        some (.str (sweepRunName c.run.name seed)) else if k = "seed" then some (.int seed)
        else if k = "seeds" then none else Assoc.get rs k := by
    intro k
    rw [Assoc.get_set, hrd, get_sweepRun]
  refine ⟨?_, ⟨_, .inl (by rw [g]; exact if_pos rfl), ?_⟩, ?_, ?_, ?_, ?_, ?_, ?_, ?_, ?_, ?_, ?_⟩
  · rw [onlyKeys_iff]
    intro k v hv
    rw [g] at hv
    by_cases hk : k = "run"
    · subst hk; simp
    rw [if_neg hk] at hv
    have hk' := onlyKeys_iff.mp h.keys k
    by_cases hs : k ∈ seededSections
    · rw [if_pos hs] at hv
      rcases hd : Assoc.get data k with _ | w
      · rw [hd] at hv; cases hv
      · exact hk' w hd
    · rw [if_neg hs] at hv
      exact hk' v hv
  · refine ⟨?_, ?_, .inl ⟨.int seed, by rw [grun]; simp, .inl (.inl rfl)⟩,
      .inl ⟨.str outDir, by rw [grun]; simp, rfl⟩, .inl (by rw [grun]; simp),
      flag_congr (by rw [grun]; simp) hrun.failFast, textOpt_congr (by rw [grun]; simp) hrun.logLevel,
      flag_congr (by rw [grun]; simp) hrun.benchmarkMode, flag_congr (by rw [grun]; simp) hrun.allowFactories,
      hrun.strict⟩
    · refine onlyKeys_of hrun.keys (fun k hk => ?_)
      simp only [List.mem_cons, not_or] at hk
      rw [grun]; simp [hk]
    · refine ⟨by rw [grun]; simp [sweptConfig], ?_⟩
      have e : (sweptConfig c seed outDir).run.name = c.run.name ++ ("-seed" ++ seed.repr) := by
        show c.run.name ++ "-seed" ++ seed.repr = _
        rw [String.append_assoc]
      rw [e]
      exact hl.append _ _ hrun.name.2
  · exact optional_congr (by rw [g]; simp [seededSections]) h.limits
  · obtain ⟨s, hs, hm⟩ := h.dataset
    exact ⟨s, sect_congr (by rw [g]; simp [seededSections]) hs, hm⟩
  · exact sect_seed (f := fun p => { p with seed := some seed }) (by rw [g]; simp [seededSections])
      (fun s c => planMeans_seed seed) (fun hm => hm.some (mapOpt_nil hm.plan)) h.sampling
  · exact sect_seed (f := fun p => { p with seed := some seed }) (by rw [g]; simp [seededSections])
      (fun s c => preprocessMeans_seed seed) (fun hm => hm.some (mapOpt_nil hm.plan)) h.preprocess
  · exact optional_seed (by rw [g]; simp [seededSections]) (fun s c => planMeans_seed seed) h.views
  · exact optional_seed (by rw [g]; simp [seededSections]) (fun s c => graphMeans_seed seed) h.graph
  · exact optional_seed (by rw [g]; simp [seededSections]) (fun s c => augmentationMeans_seed seed) h.augmentation
  · obtain ⟨s, hs, hm⟩ := h.method
    exact ⟨s, sect_congr (by rw [g]; simp [seededSections]) hs, hm⟩
  · obtain ⟨s, hs, hm⟩ := h.evaluation
    exact ⟨s, sect_congr (by rw [g]; simp [seededSections]) hs, hm⟩
  · exact optional_seed (by rw [g]; simp [seededSections]) (fun s c => searchMeans_seed seed) h.search

/-! ### Limits -/

theorem get_onKey {key : String} {f : PyVal → PyVal × List Change} {d : Dict} (k : String) :
    Assoc.get (onKey key f d).1 k = if k = key then (Assoc.get d key).map (fun v => (f v).1) else Assoc.get d k :=
  get_modifyKey ..

theorem map_onKey {key : String} {f : Dict → Dict × List Change} {d m : Dict} (h : MapOpt d key m) :
    MapOpt (onKey key (onDict f) d).1 key (if Assoc.get d key = some (.dict m) then (f m).1 else m) := by
  rcases h with h | ⟨h, rfl⟩
  · rw [if_pos h]
    exact .inl (by rw [get_onKey, if_pos rfl, h]; rfl)
  · have : Assoc.get d key ≠ some (.dict []) := by rcases h with h | h <;> rw [h] <;> simp
    rw [if_neg this]
    refine .inr ⟨?_, rfl⟩
    unfold Unset at *
    rw [get_onKey, if_pos rfl]
    rcases h with h | h
    · exact .inl (by rw [h]; rfl)
    · exact .inr (by rw [h]; rfl)

theorem modifyKey_ne_nil {key : String} {g : PyVal → PyVal} {d : Dict} (h : d ≠ []) : modifyKey key g d ≠ [] := by
  cases d with
  | nil => exact absurd rfl h
  | cons p d =>
    unfold modifyKey
    split <;> simp

theorem sect_onKey {β : Type} {d : Dict} {key : String} {f : Dict → Dict × List Change} {R R' : Dict → β → Prop} {c : β}
    (hR : ∀ s, R s c → ∃ c', R' (f s).1 c') (hn : R [] c → ∃ c', R' [] c') (h : ∃ s, Sect d key s ∧ R s c) :
    ∃ c' s, Sect (onKey key (onDict f) d).1 key s ∧ R' s c' := by
  obtain ⟨s, hs, hr⟩ := h
  rcases hs with hs | ⟨hs, rfl⟩
  · obtain ⟨c', hc'⟩ := hR s hr
    exact ⟨c', _, .inl (by rw [get_onKey, if_pos rfl, hs]; rfl), hc'⟩
  · obtain ⟨c', hc'⟩ := hn hr
    exact ⟨c', [], .inr ⟨by rw [get_onKey, if_pos rfl, hs]; rfl, rfl⟩, hc'⟩

theorem get_limitDataset {parse : String → Option Int} {r : Resolved} {d : Dict} {k : String} (hk : k ≠ "options") :
    Assoc.get (limitDataset parse r d).1 k = Assoc.get d k := by
  unfold limitDataset
  rw [get_onKey, if_neg hk]
  unfold ensureDict
  split
  · rfl
  · rw [Assoc.get_set_other _ _ hk]

theorem options_limitDataset {parse : String → Option Int} {r : Resolved} {d : Dict} :
    ∃ o, Assoc.get (limitDataset parse r d).1 "options" = some (.dict o) := by
  have : ∃ o, Assoc.get (ensureDict "options" d) "options" = some (.dict o) := by
    unfold ensureDict
    split
    · rename_i o h; exact ⟨o, h⟩
    · exact ⟨[], Assoc.get_set_self ..⟩
  obtain ⟨o, ho⟩ := this
  unfold limitDataset
  exact ⟨_, by rw [get_onKey, if_pos rfl, ho]; rfl⟩

theorem datasetMeans_limit {env : SchemaEnv} {s : Dict} {c : DatasetConfig} (parse : String → Option Int) (r : Resolved)
    (h : DatasetMeans env s c) : ∃ o, DatasetMeans env (limitDataset parse r s).1 { c with options := o } := by
  obtain ⟨o, ho⟩ := options_limitDataset (parse := parse) (r := r) (d := s)
  refine ⟨o, onlyKeys_of h.keys (fun k hk => get_limitDataset (by rintro rfl; simp at hk)),
    text_congr (get_limitDataset (by decide)) h.id, .inl ho, flag_congr (get_limitDataset (by decide)) h.download,
    textOpt_congr (get_limitDataset (by decide)) h.cacheDir⟩

theorem clampSteps_ne_nil {parse : String → Option Int} {l : Option Int} {d : Dict} (h : d ≠ []) :
    (clampSteps parse l d).1 ≠ [] := modifyKey_ne_nil h

theorem planOpt_onKey {f : Dict → Dict × List Change} (hf : ∀ d, d ≠ [] → (f d).1 ≠ []) {s p : Dict}
    (h : MapOpt s "plan" p) (hne : p ≠ []) :
    ∃ p', MapOpt (onKey "plan" (onDict f) s).1 "plan" p' ∧ p' ≠ [] := by
  refine ⟨_, map_onKey h, ?_⟩
  split
  · exact hf _ hne
  · exact hne

theorem get_onKey_other {key k : String} {f : PyVal → PyVal × List Change} {d : Dict} (hk : k ≠ key) :
    Assoc.get (onKey key f d).1 k = Assoc.get d k := by
  rw [get_onKey, if_neg hk]

theorem planMeans_limit {f : Dict → Dict × List Change} (hf : ∀ d, d ≠ [] → (f d).1 ≠ []) {s : Dict} {c : PlanConfig}
    (h : PlanMeans s c) : ∃ p, PlanMeans (onKey "plan" (onDict f) s).1 { c with plan := p } := by
  obtain ⟨p, hp, hne⟩ := planOpt_onKey hf h.plan h.some
  exact ⟨p, onlyKeys_of h.keys (fun k hk => get_onKey_other (by rintro rfl; simp at hk)),
    whole_congr (get_onKey_other (by decide)) h.seed, hp, hne⟩

theorem preprocessMeans_limit {env : SchemaEnv} {f : Dict → Dict × List Change} (hf : ∀ d, d ≠ [] → (f d).1 ≠ [])
    {s : Dict} {c : PreprocessConfig} (h : PreprocessMeans env s c) :
    ∃ p, PreprocessMeans env (onKey "plan" (onDict f) s).1 { c with plan := p } := by
  obtain ⟨p, hp, hne⟩ := planOpt_onKey hf h.plan h.some
  exact ⟨p, onlyKeys_of h.keys (fun k hk => get_onKey_other (by rintro rfl; simp at hk)),
    whole_congr (get_onKey_other (by decide)) h.seed, textOpt_congr (get_onKey_other (by decide)) h.fitOn,
    flag_congr (get_onKey_other (by decide)) h.cache, hp, hne, textOpt_congr (get_onKey_other (by decide)) h.cacheDir⟩

theorem graphMeans_limit {env : SchemaEnv} {f : Dict → Dict × List Change} {s : Dict} {c : GraphConfig}
    (h : GraphMeans env s c) : ∃ p, GraphMeans env (onKey "spec" (onDict f) s).1 { c with spec := p } :=
  ⟨if Assoc.get s "spec" = some (.dict c.spec) then (f c.spec).1 else c.spec, onlyKeys_of h.keys (fun k hk => get_onKey_other (by rintro rfl; simp at hk)),
    flag_congr (get_onKey_other (by decide)) h.enabled, whole_congr (get_onKey_other (by decide)) h.seed,
    flag_congr (get_onKey_other (by decide)) h.cache, map_onKey h.spec,
    textOpt_congr (get_onKey_other (by decide)) h.cacheDir⟩

theorem modelMeans_limit {env : SchemaEnv} {a : Bool} {f : Dict → Dict × List Change} {m : Dict} {c : ModelConfig}
    (h : ModelMeans env a m c) : ∃ c', ModelMeans env a (onKey "classifier_params" (onDict f) m).1 c' ∧
      match c with
      | .factory .. => c' = c
      | .classifier i b _ e => ∃ p, c' = .classifier i b p e := by
  cases c with
  | factory n p =>
    obtain ⟨ha, hk, hn, hp⟩ := h
    exact ⟨.factory n p, ⟨ha, onlyKeys_iff.mpr (fun k v hv => by
        rw [get_onKey] at hv
        split at hv
        · rename_i e
          subst e
          have : Assoc.get m "classifier_params" = none := by
            rcases hm : Assoc.get m "classifier_params" with _ | w
            · rfl
            · exact absurd (onlyKeys_iff.mp hk _ w hm) (by simp)
          rw [this] at hv; cases hv
        · exact onlyKeys_iff.mp hk k v hv), text_congr (get_onKey_other (by decide)) hn,
      map_congr (get_onKey_other (by decide)) hp⟩, rfl⟩
  | classifier i b p e =>
    obtain ⟨hk, hi, hb, hp, he⟩ := h
    refine ⟨.classifier i b (if Assoc.get m "classifier_params" = some (.dict p) then (f p).1 else p) e, ⟨onlyKeys_of hk (fun k hk => get_onKey_other (by rintro rfl; simp at hk)),
      text_congr (get_onKey_other (by decide)) hi, ?_, map_onKey hp, ?_⟩, _, rfl⟩
    · unfold TextOr Text at *
      rw [get_onKey_other (by decide)]
      exact hb
    · cases e with
      | none => exact unset_congr (get_onKey_other (by decide)) he
      | some e => exact (get_onKey_other (by decide)).trans he

/-- The model up to the parameters of a classifier. -/
def SameModel : Option ModelConfig → Option ModelConfig → Prop
  | some (.classifier i b _ e), c' => ∃ p, c' = some (.classifier i b p e)
  | c, c' => c' = c

theorem modelOpt_limit {env : SchemaEnv} {a : Bool} {f : Dict → Dict × List Change} {m : Dict} {o : Option ModelConfig}
    (h : ModelOpt env a m o) :
    ∃ o', ModelOpt env a (onKey "model" (onDict (onKey "classifier_params" (onDict f))) m).1 o' ∧ SameModel o o' := by
  cases o with
  | none =>
    refine ⟨none, ?_, rfl⟩
    have h : Unset m "model" := h
    show Unset _ _
    unfold Unset at *
    rw [get_onKey, if_pos rfl]
    rcases h with h | h
    · exact .inl (by rw [h]; rfl)
    · exact .inr (by rw [h]; rfl)
  | some c =>
    obtain ⟨md, hm, hc⟩ := h
    obtain ⟨c', hc', hs⟩ := modelMeans_limit (f := f) hc
    refine ⟨some c', ⟨_, by rw [get_onKey, if_pos rfl, hm]; rfl, hc'⟩, ?_⟩
    cases c with
    | factory n p => simp only at hs; subst hs; rfl
    | classifier i b p e => obtain ⟨p', rfl⟩ := hs; exact ⟨p', rfl⟩

theorem get_limitMethod {parse : String → Option Int} {r : Resolved} {d : Dict} {k : String} (h1 : k ≠ "params")
    (h2 : k ≠ "model") : Assoc.get (limitMethod parse r d).1 k = Assoc.get d k := by
  simp only [limitMethod, andThen]
  rw [get_onKey_other h2, get_onKey_other h1]

theorem methodMeans_limit {env : SchemaEnv} {a : Bool} {s : Dict} {c : MethodConfig} (parse : String → Option Int)
    (r : Resolved) (h : MethodMeans env a s c) : ∃ p m, SameModel c.model m ∧
      MethodMeans env a (limitMethod parse r s).1 { c with params := p, model := m } := by
  have hm0 : ModelOpt env a (onKey "params" (onDict (andThen (clampKey parse "batch_size" r.method false)
      (andThen (clampKey parse "sup_batch_size" r.sup false)
        (onKey "classifier_params" (onDict (clampKey parse "batch_size" r.method false)))))) s).1 c.model :=
    modelOpt_congr (get_onKey_other (by decide)) h.model
  obtain ⟨m, hm, hs⟩ := modelOpt_limit (f := clampKey parse "batch_size" r.method false) hm0
  obtain ⟨p, hp⟩ : ∃ p, MapOpt (limitMethod parse r s).1 "params" p :=
    ⟨_, map_congr (d := (onKey "params" _ s).1) (get_onKey_other (by decide)) (map_onKey h.params)⟩
  refine ⟨p, m, hs, onlyKeys_of h.keys (fun k hk => get_limitMethod (by rintro rfl; simp at hk) (by rintro rfl; simp at hk)),
    text_congr (get_limitMethod (by decide) (by decide)) h.kind, h.kinds,
    text_congr (get_limitMethod (by decide) (by decide)) h.id, ?_, hp, hm⟩
  · obtain ⟨ds, hds, hd⟩ := h.device
    exact ⟨ds, sect_congr (get_limitMethod (by decide) (by decide)) hds, hd⟩

/-- The same up to the parts that limits may change: dataset options, plans, the graph spec and the parameters of the
method and of its classifier. -/
structure SameUpToLimits (c c' : ExperimentConfig) : Prop where
  run : c'.run = c.run
  limits : c'.limits = c.limits
  dataset : ∃ o, c'.dataset = { c.dataset with options := o }
  sampling : c'.sampling = c.sampling
  preprocess : ∃ p, c'.preprocess = { c.preprocess with plan := p }
  views : ∃ p, c'.views = c.views.map (fun v => { v with plan := p })
  graph : ∃ p, c'.graph = c.graph.map (fun g => { g with spec := p })
  augmentation : c'.augmentation = c.augmentation
  method : ∃ p m, SameModel c.method.model m ∧ c'.method = { c.method with params := p, model := m }
  evaluation : c'.evaluation = c.evaluation
  search : c'.search = c.search

theorem get_applyResolved {parse : String → Option Int} {r : Resolved} {d : Dict} (k : String) :
    Assoc.get (applyResolved parse r d).1 k =
      if k = "dataset" then (Assoc.get d k).map (fun v => (onDict (limitDataset parse r) v).1)
      else if k = "preprocess" then
        (Assoc.get d k).map (fun v => (onDict (onKey "plan" (onDict (clampSteps parse r.preprocess))) v).1)
      else if k = "views" then
        (Assoc.get d k).map (fun v => (onDict (onKey "plan" (onDict (onKey "views" (onItems (onDict (onKey "preprocess"
          (onDict (clampSteps parse r.preprocess)))))))) v).1)
      else if k = "method" then (Assoc.get d k).map (fun v => (onDict (limitMethod parse r) v).1)
      else if k = "graph" then
        (Assoc.get d k).map (fun v => (onDict (onKey "spec" (onDict (clampKey parse "chunk_size" r.chunk true))) v).1)
      else Assoc.get d k := by
  simp only [applyResolved, andThen]
  simp only [get_onKey, String.reduceEq, if_false]
  by_cases h1 : k = "dataset"
  · subst h1; simp
  by_cases h2 : k = "preprocess"
  · subst h2; simp
  by_cases h3 : k = "views"
  · subst h3; simp
  by_cases h4 : k = "method"
  · subst h4; simp
  by_cases h5 : k = "graph"
  · subst h5; simp
  simp [h1, h2, h3, h4, h5]

theorem sect_limit {β : Type} {d d' : Dict} {k : String} {f : Dict → Dict × List Change} {R : Dict → β → Prop} {c : β}
    {Q : β → Prop} (e : Assoc.get d' k = (Assoc.get d k).map (fun v => (onDict f v).1))
    (hR : ∀ s, R s c → ∃ c', Q c' ∧ R (f s).1 c') (hne : ¬ R [] c) (h : ∃ s, Sect d k s ∧ R s c) :
    ∃ c', Q c' ∧ ∃ s, Sect d' k s ∧ R s c' := by
  obtain ⟨s, hs, hr⟩ := h
  rcases hs with hs | ⟨-, rfl⟩
  · obtain ⟨c', hq, hc'⟩ := hR s hr
    exact ⟨c', hq, _, .inl (by rw [e, hs]; rfl), hc'⟩
  · exact absurd hr hne

theorem optional_limit {β γ : Type} {d d' : Dict} {k : String} {f : Dict → Dict × List Change} {R : Dict → β → Prop}
    {o : Option β} {u : γ → β → β} [Inhabited γ] (e : Assoc.get d' k = (Assoc.get d k).map (fun v => (onDict f v).1))
    (hR : ∀ s c, R s c → ∃ p, R (f s).1 (u p c))
    (h : Optional d k (fun v c => ∃ s, v = .dict s ∧ R s c) o) :
    ∃ p, Optional d' k (fun v c => ∃ s, v = .dict s ∧ R s c) (o.map (u p)) := by
  cases o with
  | none =>
    have h' : Assoc.get d k = none := h
    refine ⟨default, ?_⟩
    show Assoc.get d' k = none
    rw [e, h']; rfl
  | some c =>
    obtain ⟨v, hv, s, rfl, hr⟩ := h
    obtain ⟨p, hp⟩ := hR s c hr
    exact ⟨p, _, by rw [e, hv]; rfl, _, rfl, hp⟩

/-- C130: limits applied to an accepted configuration give an accepted configuration, the same up to the parts that
limits are about. -/
theorem C130_limits (env : SchemaEnv) (hl : EnvLaw env) (data : Dict) (c : ExperimentConfig)
    (h : configFromDict env data = .ok c) (parse : String → Option Int) (r : Resolved) :
    ∃ c', configFromDict env (applyResolved parse r data).1 = .ok c' ∧ SameUpToLimits c c' := by
  rw [C129_meaning env hl.torch] at h
  have g := @get_applyResolved parse r data
  have g_dataset := g "dataset"
  have g_preprocess := g "preprocess"
  have g_views := g "views"
  have g_graph := g "graph"
  have g_method := g "method"
  simp only [String.reduceEq, if_false, if_true] at g_dataset g_preprocess g_views g_graph g_method
  obtain ⟨ds, ⟨o, rfl⟩, hds⟩ := sect_limit (R := DatasetMeans env) (Q := fun c' => ∃ o, c' = { c.dataset with options := o })
    (d' := (applyResolved parse r data).1) (k := "dataset") g_dataset
    (fun s hs => by obtain ⟨o, ho⟩ := datasetMeans_limit parse r hs; exact ⟨_, ⟨o, rfl⟩, ho⟩) (fun hm => by cases hm.id.1) h.dataset
  obtain ⟨ps, ⟨p, rfl⟩, hps⟩ := sect_limit (R := PreprocessMeans env) (Q := fun c' => ∃ p, c' = { c.preprocess with plan := p })
    (d' := (applyResolved parse r data).1) (k := "preprocess") g_preprocess
    (fun s hs => by
      obtain ⟨o, ho⟩ := preprocessMeans_limit (fun d => clampSteps_ne_nil) hs; exact ⟨_, ⟨o, rfl⟩, ho⟩) (fun hm => hm.some (mapOpt_nil hm.plan)) h.preprocess
  obtain ⟨vp, hvp⟩ := optional_limit (R := PlanMeans) (u := fun p (c : PlanConfig) => { c with plan := p })
    (d' := (applyResolved parse r data).1) (k := "views") g_views
    (fun s c hs => planMeans_limit (fun d => modifyKey_ne_nil) hs) h.views
  obtain ⟨gp, hgp⟩ := optional_limit (R := GraphMeans env) (u := fun p (c : GraphConfig) => { c with spec := p })
    (d' := (applyResolved parse r data).1) (k := "graph") g_graph
    (fun s c hs => graphMeans_limit hs) h.graph
  obtain ⟨ms, ⟨mp, m, hsm, rfl⟩, hms⟩ := sect_limit (R := MethodMeans env c.run.allowFactories)
    (Q := fun c' => ∃ p m, SameModel c.method.model m ∧ c' = { c.method with params := p, model := m })
    (d' := (applyResolved parse r data).1) (k := "method") g_method
    (fun s hs => by
      obtain ⟨p, m, hm, h'⟩ := methodMeans_limit parse r hs
      exact ⟨_, ⟨p, m, hm, rfl⟩, h'⟩) (fun hm => by cases hm.id.1) h.method
  refine ⟨{ c with
      dataset := { c.dataset with options := o }, preprocess := { c.preprocess with plan := p },
      views := c.views.map (fun v => { v with plan := vp }), graph := c.graph.map (fun g => { g with spec := gp }),
      method := { c.method with params := mp, model := m } },
    (C129_meaning env hl.torch _ _).mpr ?_, rfl, rfl, ⟨o, rfl⟩, rfl, ⟨p, rfl⟩, ⟨vp, rfl⟩, ⟨gp, rfl⟩, rfl,
    ⟨mp, m, hsm, rfl⟩, rfl, rfl⟩
  refine ⟨?_, ?_, ?_, hds, ?_, hps, hvp, hgp, ?_, hms, ?_, ?_⟩
  · rw [onlyKeys_iff]
    intro k v hv
    rw [g] at hv
    have hk' := onlyKeys_iff.mp h.keys k
    rcases hd : Assoc.get data k with _ | w
    · rw [hd] at hv
      split_ifs at hv <;> cases hv
    · exact hk' w hd
  · obtain ⟨s, hs, hm⟩ := h.run
    exact ⟨s, sect_congr (by rw [g]; simp) hs, hm⟩
  · exact optional_congr (by rw [g]; simp) h.limits
  · obtain ⟨s, hs, hm⟩ := h.sampling
    exact ⟨s, sect_congr (by rw [g]; simp) hs, hm⟩
  · exact optional_congr (by rw [g]; simp) h.augmentation
  · obtain ⟨s, hs, hm⟩ := h.evaluation
    exact ⟨s, sect_congr (by rw [g]; simp) hs, hm⟩
  · exact optional_congr (by rw [g]; simp) h.search

end ModSSC.Bench
