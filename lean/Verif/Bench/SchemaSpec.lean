import Verif.Bench.SchemaModel

/-!
# What a benchmark configuration means (specification for C129, C130)
-/

namespace ModSSC.Bench.Spec
open ModSSC

/-- No keys but these. -/
def OnlyKeys (d : Dict) (ks : List String) : Prop := ∀ k ∈ Assoc.keys d, k ∈ ks

/-- The key is missing or its value is `None`. -/
def Unset (d : Dict) (k : String) : Prop := Assoc.get d k = none ∨ Assoc.get d k = some .none

/-- A required text that is not blank. -/
def Text (env : SchemaEnv) (d : Dict) (k s : String) : Prop := Assoc.get d k = some (.str s) ∧ env.blank s = false

/-- An optional text. -/
def TextOpt (env : SchemaEnv) (d : Dict) (k : String) : Option String → Prop
  | none => Unset d k
  | some s => Text env d k s

/-- A text with a default. -/
def TextOr (env : SchemaEnv) (d : Dict) (k dflt s : String) : Prop :=
  Text env d k s ∨ Assoc.get d k = none ∧ s = dflt

/-- The integer a value stands for (`True` is 1). -/
def Whole (v : PyVal) (i : Int) : Prop := v = .int i ∨ v = .bool true ∧ i = 1 ∨ v = .bool false ∧ i = 0

/-- An optional integer. -/
def WholeOpt (d : Dict) (k : String) : Option Int → Prop
  | none => Unset d k
  | some i => ∃ v, Assoc.get d k = some v ∧ Whole v i

/-- An optional positive integer. -/
def PositiveOpt (d : Dict) (k : String) (o : Option Int) : Prop := WholeOpt d k o ∧ ∀ i, o = some i → 0 < i

/-- A flag with a default. -/
def FlagIs (d : Dict) (k : String) (dflt b : Bool) : Prop :=
  Assoc.get d k = some (.bool b) ∨ Assoc.get d k = none ∧ b = dflt

/-- A mapping, empty when unset. -/
def MapOpt (d : Dict) (k : String) (m : Dict) : Prop := Assoc.get d k = some (.dict m) ∨ Unset d k ∧ m = []

/-- A list, empty when unset. -/
def ListOpt (d : Dict) (k : String) (l : List PyVal) : Prop := Assoc.get d k = some (.list l) ∨ Unset d k ∧ l = []

/-- A section: a mapping, empty when missing. -/
def Sect (d : Dict) (k : String) (s : Dict) : Prop := Assoc.get d k = some (.dict s) ∨ Assoc.get d k = none ∧ s = []

/-- A value printed with `str`, with a default. -/
def PrintedOr (env : SchemaEnv) (d : Dict) (k dflt s : String) : Prop :=
  (∃ v, Assoc.get d k = some v ∧ s = pyStr env v) ∨ Assoc.get d k = none ∧ s = dflt

/-- An optional section. -/
def Optional {β : Type} (d : Dict) (k : String) (R : PyVal → β → Prop) : Option β → Prop
  | none => Assoc.get d k = none
  | some c => ∃ v, Assoc.get d k = some v ∧ R v c

/-- `run.seed`: anything `int` converts. -/
def SeedIs (env : SchemaEnv) (d : Dict) (i : Int) : Prop :=
  (∃ v, Assoc.get d "seed" = some v ∧
    (Whole v i ∨ (∃ q, v = .flt q ∧ i = pyInt q) ∨ ∃ s, v = .str s ∧ env.parseInt s = some i)) ∨
  Assoc.get d "seed" = none ∧ i = 0

/-- `run.seeds`: a non-empty list of distinct integers. -/
def SeedsIs (d : Dict) : Option (List Int) → Prop
  | none => Unset d "seeds"
  | some l => (∃ vs, Assoc.get d "seeds" = some (.list vs) ∧ List.Forall₂ Whole vs l) ∧ l ≠ [] ∧ l.Nodup

/-- The `run` section; benchmark mode goes with failing fast. -/
structure RunMeans (env : SchemaEnv) (d : Dict) (c : RunConfig) : Prop where
  keys : OnlyKeys d ["name", "seed", "seeds", "output_dir", "fail_fast", "log_level", "benchmark_mode",
    "allow_custom_factories"]
  name : Text env d "name" c.name
  seed : SeedIs env d c.seed
  outputDir : PrintedOr env d "output_dir" "modssc_cache/output" c.outputDir
  seeds : SeedsIs d c.seeds
  failFast : FlagIs d "fail_fast" true c.failFast
  logLevel : TextOpt env d "log_level" c.logLevel
  benchmarkMode : FlagIs d "benchmark_mode" false c.benchmarkMode
  allowFactories : FlagIs d "allow_custom_factories" false c.allowFactories
  strict : c.benchmarkMode = true → c.failFast = true

/-- The profile, in lower case, one of three. -/
def ProfileIs (env : SchemaEnv) (d : Dict) : Option String → Prop
  | none => Unset d "profile"
  | some p => (∃ s, Text env d "profile" s ∧ p = env.lower s) ∧ (p = "auto" ∨ p = "v100" ∨ p = "h100")

/-- The `limits` section; `None` is an empty one. -/
structure LimitsMeans (env : SchemaEnv) (d : Dict) (c : LimitsConfig) : Prop where
  keys : OnlyKeys d ["profile", "max_preprocess_batch_size", "max_method_batch_size", "max_method_sup_batch_size",
    "max_graph_chunk_size", "max_train_samples", "max_test_samples"]
  profile : ProfileIs env d c.profile
  preprocess : PositiveOpt d "max_preprocess_batch_size" c.preprocess
  method : PositiveOpt d "max_method_batch_size" c.method
  sup : PositiveOpt d "max_method_sup_batch_size" c.sup
  chunk : PositiveOpt d "max_graph_chunk_size" c.chunk
  train : PositiveOpt d "max_train_samples" c.train
  test : PositiveOpt d "max_test_samples" c.test

structure DatasetMeans (env : SchemaEnv) (d : Dict) (c : DatasetConfig) : Prop where
  keys : OnlyKeys d ["id", "options", "download", "cache_dir"]
  id : Text env d "id" c.id
  options : MapOpt d "options" c.options
  download : FlagIs d "download" true c.download
  cacheDir : TextOpt env d "cache_dir" c.cacheDir

/-- A section with a plan that is not empty. -/
structure PlanMeans (d : Dict) (c : PlanConfig) : Prop where
  keys : OnlyKeys d ["seed", "plan"]
  seed : WholeOpt d "seed" c.seed
  plan : MapOpt d "plan" c.plan
  some : c.plan ≠ []

structure PreprocessMeans (env : SchemaEnv) (d : Dict) (c : PreprocessConfig) : Prop where
  keys : OnlyKeys d ["seed", "fit_on", "cache", "plan", "cache_dir"]
  seed : WholeOpt d "seed" c.seed
  fitOn : TextOpt env d "fit_on" c.fitOn
  cache : FlagIs d "cache" true c.cache
  plan : MapOpt d "plan" c.plan
  some : c.plan ≠ []
  cacheDir : TextOpt env d "cache_dir" c.cacheDir

structure GraphMeans (env : SchemaEnv) (d : Dict) (c : GraphConfig) : Prop where
  keys : OnlyKeys d ["enabled", "seed", "cache", "cache_dir", "spec"]
  enabled : FlagIs d "enabled" false c.enabled
  seed : WholeOpt d "seed" c.seed
  cache : FlagIs d "cache" true c.cache
  spec : MapOpt d "spec" c.spec
  cacheDir : TextOpt env d "cache_dir" c.cacheDir

structure AugmentationMeans (env : SchemaEnv) (d : Dict) (c : AugmentationConfig) : Prop where
  keys : OnlyKeys d ["enabled", "seed", "mode", "weak", "strong", "modality"]
  enabled : FlagIs d "enabled" true c.enabled
  seed : WholeOpt d "seed" c.seed
  mode : PrintedOr env d "mode" "fixed" c.mode
  weak : MapOpt d "weak" c.weak
  strong : MapOpt d "strong" c.strong
  modality : TextOpt env d "modality" c.modality

structure DeviceMeans (env : SchemaEnv) (d : Dict) (c : DeviceConfig) : Prop where
  keys : OnlyKeys d ["device", "dtype", "resolved_device"]
  device : PrintedOr env d "device" "cpu" c.device
  dtype : PrintedOr env d "dtype" "float32" c.dtype
  resolved : TextOpt env d "resolved_device" c.resolved

/-- An optional flag. -/
def FlagOpt (d : Dict) (k : String) : Option Bool → Prop
  | none => Unset d k
  | some b => Assoc.get d k = some (.bool b)

/-- `method.model`: either a custom factory, which must be allowed, or a registered classifier. -/
def ModelMeans (env : SchemaEnv) (allow : Bool) (d : Dict) : ModelConfig → Prop
  | .factory name params => allow = true ∧ OnlyKeys d ["factory", "params"] ∧ Text env d "factory" name ∧
      MapOpt d "params" params
  | .classifier id backend params ema =>
      OnlyKeys d ["classifier_id", "classifier_backend", "classifier_params", "ema"] ∧
      Text env d "classifier_id" id ∧ TextOr env d "classifier_backend" "torch" backend ∧
      MapOpt d "classifier_params" params ∧ FlagOpt d "ema" ema

/-- The optional model. -/
def ModelOpt (env : SchemaEnv) (allow : Bool) (d : Dict) : Option ModelConfig → Prop
  | none => Unset d "model"
  | some c => ∃ m, Assoc.get d "model" = some (.dict m) ∧ ModelMeans env allow m c

structure MethodMeans (env : SchemaEnv) (allow : Bool) (d : Dict) (c : MethodConfig) : Prop where
  keys : OnlyKeys d ["kind", "id", "device", "params", "model"]
  kind : Text env d "kind" c.kind
  kinds : c.kind = "inductive" ∨ c.kind = "transductive"
  id : Text env d "id" c.id
  device : ∃ s, Sect d "device" s ∧ DeviceMeans env s c.device
  params : MapOpt d "params" c.params
  model : ModelOpt env allow d c.model

/-- A non-empty list of printed values. -/
def PrintedList (env : SchemaEnv) (d : Dict) (k : String) (l : List String) : Prop :=
  ∃ vs, Assoc.get d k = some (.list vs) ∧ l = vs.map (pyStr env) ∧ l ≠ []

structure EvaluationMeans (env : SchemaEnv) (d : Dict) (c : EvaluationConfig) : Prop where
  keys : OnlyKeys d ["report_splits", "metrics", "split_for_model_selection"]
  report : PrintedList env d "report_splits" c.report
  metrics : PrintedList env d "metrics" c.metrics
  selection : TextOpt env d "split_for_model_selection" c.selection

structure ObjectiveMeans (env : SchemaEnv) (d : Dict) (c : ObjectiveConfig) : Prop where
  keys : OnlyKeys d ["split", "metric", "direction", "aggregate"]
  split : Text env d "split" c.split
  splits : c.split = "train" ∨ c.split = "val" ∨ c.split = "test"
  metric : Text env d "metric" c.metric
  known : c.metric ∈ env.metrics
  direction : Text env d "direction" c.direction
  directions : c.direction = "maximize" ∨ c.direction = "minimize"
  aggregate : Text env d "aggregate" c.aggregate
  mean : c.aggregate = "mean"

/-- A number (not a bool). -/
def Num (v : PyVal) (q : Rat) : Prop := (∃ i : Int, v = .int i ∧ q = i) ∨ v = .flt q

/-- A distribution: bounds in order, positive for a logarithmic scale, integers for `randint`; or a list of choices. -/
def DistOk (d : Dict) : Prop :=
  OnlyKeys d ["dist", "low", "high", "values"] ∧
  ((∃ lo hi l h, (Assoc.get d "dist" = some (.str "uniform") ∨ Assoc.get d "dist" = some (.str "loguniform") ∧ 0 < l) ∧
      Assoc.get d "low" = some lo ∧ Assoc.get d "high" = some hi ∧ Num lo l ∧ Num hi h ∧ l < h ∧ Unset d "values") ∨
   (∃ l h : Int, Assoc.get d "dist" = some (.str "randint") ∧ Assoc.get d "low" = some (.int l) ∧
      Assoc.get d "high" = some (.int h) ∧ l < h ∧ Unset d "values") ∨
   (∃ vs, Assoc.get d "dist" = some (.str "choice") ∧ Assoc.get d "values" = some (.list vs) ∧ vs ≠ [] ∧
      Unset d "low" ∧ Unset d "high"))

/-- A place below `method.params`. -/
def InParams (path : List String) : Prop := ∃ k rest, path = "method" :: "params" :: k :: rest

/-- A search space: non-empty mappings down to value lists and distributions, all below `method.params`. -/
inductive SpaceAt : List String → PyVal → Prop
  | values {path : List String} {l : List PyVal} : l ≠ [] → InParams path → SpaceAt path (.list l)
  | dist {path : List String} {d : Dict} : "dist" ∈ Assoc.keys d → DistOk d → InParams path → SpaceAt path (.dict d)
  | node {path : List String} {d : Dict} : d ≠ [] → "dist" ∉ Assoc.keys d →
      (∀ p ∈ d, p.1 ≠ "") → (∀ p ∈ d, SpaceAt (path ++ [p.1]) p.2) → SpaceAt path (.dict d)

structure SearchMeans (env : SchemaEnv) (d : Dict) (c : SearchConfig) : Prop where
  keys : OnlyKeys d ["enabled", "kind", "seed", "n_trials", "repeats", "objective", "space"]
  enabled : Assoc.get d "enabled" = some (.bool c.enabled)
  kind : Text env d "kind" c.kind
  kinds : c.kind = "grid" ∨ c.kind = "random"
  seed : WholeOpt d "seed" c.seed
  nTrials : PositiveOpt d "n_trials" c.nTrials
  random : c.kind = "random" → c.seed ≠ none ∧ c.nTrials ≠ none
  repeats : WholeOpt d "repeats" (some c.repeats) ∨ Unset d "repeats" ∧ c.repeats = 1
  positive : 0 < c.repeats
  objective : ∃ s, Sect d "objective" s ∧ ObjectiveMeans env s c.objective
  space : MapOpt d "space" c.space
  spaceOk : SpaceAt [] (.dict c.space)

/-- `limits: null` is an empty section, unlike the other sections. -/
def limitsSect (v : PyVal) (s : Dict) : Prop := v = .dict s ∨ v = .none ∧ s = []

/-- The meaning of a configuration. -/
structure Means (env : SchemaEnv) (d : Dict) (c : ExperimentConfig) : Prop where
  keys : OnlyKeys d ["run", "limits", "dataset", "sampling", "preprocess", "views", "graph", "augmentation", "method",
    "evaluation", "search"]
  run : ∃ s, Sect d "run" s ∧ RunMeans env s c.run
  limits : Optional d "limits" (fun v c => ∃ s, limitsSect v s ∧ LimitsMeans env s c) c.limits
  dataset : ∃ s, Sect d "dataset" s ∧ DatasetMeans env s c.dataset
  sampling : ∃ s, Sect d "sampling" s ∧ PlanMeans s c.sampling
  preprocess : ∃ s, Sect d "preprocess" s ∧ PreprocessMeans env s c.preprocess
  views : Optional d "views" (fun v c => ∃ s, v = .dict s ∧ PlanMeans s c) c.views
  graph : Optional d "graph" (fun v c => ∃ s, v = .dict s ∧ GraphMeans env s c) c.graph
  augmentation : Optional d "augmentation" (fun v c => ∃ s, v = .dict s ∧ AugmentationMeans env s c) c.augmentation
  method : ∃ s, Sect d "method" s ∧ MethodMeans env c.run.allowFactories s c.method
  evaluation : ∃ s, Sect d "evaluation" s ∧ EvaluationMeans env s c.evaluation
  search : Optional d "search" (fun v c => ∃ s, v = .dict s ∧ SearchMeans env s c) c.search

end ModSSC.Bench.Spec
