import Verif.Bench.SweepModel
import Verif.Hpo.Model

/-!
# Model of the benchmark configuration

`bench/schema.py`.  A configuration is plain Python data with string keys.  Every `BenchConfigError` is
`PyErr.validation`; which of several errors comes first is modelled, its text is not.
-/

namespace ModSSC.Bench
open ModSSC

/-- The string functions used: `not s.strip()`, `s.lower()`, `int(s)`, `str(v)` of a value that is not a string, and
`list_metrics()`. -/
structure SchemaEnv where
  blank : String → Bool
  lower : String → String
  parseInt : String → Option Int
  repr : PyVal → String
  metrics : List String

/-- `_as_mapping` (schema.py:18-21). -/
def asMapping : PyVal → Except PyErr Dict
  | .dict d => .ok d
  | _ => .error .validation

/-- `data.get(key, dflt)`. -/
def getOr (d : Dict) (key : String) (dflt : PyVal) : PyVal := (Assoc.get d key).getD dflt

/-- `_check_unknown` (schema.py:24-27). -/
def checkUnknown (d : Dict) (allowed : List String) : Except PyErr Unit :=
  if (Assoc.keys d).all (fun k => allowed.contains k) then .ok () else .error .validation

/-- `_require_str` (schema.py:30-34). -/
def requireStr (env : SchemaEnv) (d : Dict) (key : String) : Except PyErr String :=
  match getOr d key .none with
  | .str s => if env.blank s then .error .validation else .ok s
  | _ => .error .validation

/-- `_require_bool` (schema.py:37-41). -/
def requireBool (d : Dict) (key : String) : Except PyErr Bool :=
  match getOr d key .none with
  | .bool b => .ok b
  | _ => .error .validation

/-- `_optional_str` (schema.py:44-50). -/
def optionalStr (env : SchemaEnv) (d : Dict) (key : String) : Except PyErr (Option String) :=
  match getOr d key .none with
  | .none => .ok none
  | .str s => if env.blank s then .error .validation else .ok (some s)
  | _ => .error .validation

/-- `_optional_int` (schema.py:53-59); `isinstance(True, int)` holds. -/
def optionalInt (d : Dict) (key : String) : Except PyErr (Option Int) :=
  match getOr d key .none with
  | .none => .ok none
  | .int i => .ok (some i)
  | .bool b => .ok (some (if b then 1 else 0))
  | _ => .error .validation

/-- `_optional_positive_int` (schema.py:83-89). -/
def optionalPositiveInt (d : Dict) (key : String) : Except PyErr (Option Int) :=
  match optionalInt d key with
  | .error e => .error e
  | .ok none => .ok none
  | .ok (some i) => if i ≤ 0 then .error .validation else .ok (some i)

/-- `_optional_bool` (schema.py:92-96). -/
def optionalBool (d : Dict) (key : String) (dflt : Bool) : Except PyErr Bool :=
  match getOr d key (.bool dflt) with
  | .bool b => .ok b
  | _ => .error .validation

/-- `_optional_mapping` (schema.py:99-105). -/
def optionalMapping (d : Dict) (key : String) : Except PyErr Dict :=
  match getOr d key (.dict []) with
  | .none => .ok []
  | .dict m => .ok m
  | _ => .error .validation

/-- `_optional_list` (schema.py:108-114). -/
def optionalList (d : Dict) (key : String) : Except PyErr (List PyVal) :=
  match getOr d key (.list []) with
  | .none => .ok []
  | .list l => .ok l
  | _ => .error .validation

/-- `str(v)`. -/
def pyStr (env : SchemaEnv) : PyVal → String
  | .str s => s
  | v => env.repr v

/-- `int(v)`; a float is finite. -/
def pyIntOf (env : SchemaEnv) : PyVal → Except PyErr Int
  | .int i => .ok i
  | .bool b => .ok (if b then 1 else 0)
  | .flt q => .ok (pyInt q)
  | .str s => match env.parseInt s with
    | some i => .ok i
    | none => .error .valueError
  | _ => .error .typeError

/-- `RunConfig` (schema.py:117-126). -/
structure RunConfig where
  name : String
  seed : Int
  outputDir : String
  seeds : Option (List Int)
  failFast : Bool
  logLevel : Option String
  benchmarkMode : Bool
  allowFactories : Bool
deriving DecidableEq

/-- The `run` section (schema.py:275-308). -/
def parseRun (env : SchemaEnv) (data : Dict) : Except PyErr RunConfig := do
  let run ← asMapping (getOr data "run" (.dict []))
  checkUnknown run ["name", "seed", "seeds", "output_dir", "fail_fast", "log_level", "benchmark_mode",
    "allow_custom_factories"]
  let bm ← optionalBool run "benchmark_mode" false
  let ff ← optionalBool run "fail_fast" true
  (if bm && !ff then .error .validation else .ok ())
  let name ← requireStr env run "name"
  let seed ← pyIntOf env (getOr run "seed" (.int 0))
  let seeds ← optionalSeedList (Assoc.get run "seeds")
  let logLevel ← optionalStr env run "log_level"
  let allow ← optionalBool run "allow_custom_factories" false
  pure ⟨name, seed, pyStr env (getOr run "output_dir" (.str "modssc_cache/output")), seeds, ff, logLevel, bm, allow⟩

/-- `limits.profile` (schema.py:329-333). -/
def parseProfile (env : SchemaEnv) (limits : Dict) : Except PyErr (Option String) :=
  match optionalStr env limits "profile" with
  | .error e => .error e
  | .ok none => .ok none
  | .ok (some p) =>
    if env.lower p ∈ ["auto", "v100", "h100"] then .ok (some (env.lower p)) else .error .validation

/-- `if limits_raw is None: limits_raw = {}` (schema.py:313-314). -/
def emptyIfNone : PyVal → PyVal
  | .none => .dict []
  | v => v

/-- The `limits` section, present (schema.py:312-354). -/
def parseLimitsSome (env : SchemaEnv) (v : PyVal) : Except PyErr LimitsConfig := do
  let limits ← asMapping (emptyIfNone v)
  checkUnknown limits ["profile", "max_preprocess_batch_size", "max_method_batch_size", "max_method_sup_batch_size",
    "max_graph_chunk_size", "max_train_samples", "max_test_samples"]
  let profile ← parseProfile env limits
  let a ← optionalPositiveInt limits "max_preprocess_batch_size"
  let b ← optionalPositiveInt limits "max_method_batch_size"
  let c ← optionalPositiveInt limits "max_method_sup_batch_size"
  let d ← optionalPositiveInt limits "max_graph_chunk_size"
  let e ← optionalPositiveInt limits "max_train_samples"
  let f ← optionalPositiveInt limits "max_test_samples"
  pure ⟨profile, a, b, c, d, e, f⟩

/-- `if "key" in data`. -/
def whenPresent {β : Type} (data : Dict) (key : String) (f : PyVal → Except PyErr β) : Except PyErr (Option β) :=
  match Assoc.get data key with
  | none => .ok none
  | some v => (f v).map some

/-- `DatasetConfig` (schema.py:140-145). -/
structure DatasetConfig where
  id : String
  options : Dict
  download : Bool
  cacheDir : Option String
deriving DecidableEq

/-- The `dataset` section (schema.py:356-363). -/
def parseDataset (env : SchemaEnv) (data : Dict) : Except PyErr DatasetConfig := do
  let d ← asMapping (getOr data "dataset" (.dict []))
  checkUnknown d ["id", "options", "download", "cache_dir"]
  let id ← requireStr env d "id"
  let options ← optionalMapping d "options"
  let download ← optionalBool d "download" true
  let cacheDir ← optionalStr env d "cache_dir"
  pure ⟨id, options, download, cacheDir⟩

/-- `if not plan: raise`. -/
def nonEmpty {β : Type} (l : List β) : Except PyErr Unit :=
  match l with
  | [] => .error .validation
  | _ :: _ => .ok ()

/-- `SamplingConfig` and `ViewsConfig` (schema.py:164-166). -/
structure PlanConfig where
  seed : Option Int
  plan : Dict
deriving DecidableEq

/-- A section with `seed` and `plan` (schema.py:365-370, 388-395). -/
def parsePlan (v : PyVal) : Except PyErr PlanConfig := do
  let d ← asMapping v
  checkUnknown d ["seed", "plan"]
  let plan ← optionalMapping d "plan"
  nonEmpty plan
  let seed ← optionalInt d "seed"
  pure ⟨seed, plan⟩

/-- `PreprocessConfig` (schema.py:154-160). -/
structure PreprocessConfig where
  seed : Option Int
  fitOn : Option String
  cache : Bool
  plan : Dict
  cacheDir : Option String
deriving DecidableEq

/-- The `preprocess` section (schema.py:372-386). -/
def parsePreprocess (env : SchemaEnv) (data : Dict) : Except PyErr PreprocessConfig := do
  let d ← asMapping (getOr data "preprocess" (.dict []))
  checkUnknown d ["seed", "fit_on", "cache", "plan", "cache_dir"]
  let plan ← optionalMapping d "plan"
  nonEmpty plan
  let seed ← optionalInt d "seed"
  let fitOn ← optionalStr env d "fit_on"
  let cache ← optionalBool d "cache" true
  let cacheDir ← optionalStr env d "cache_dir"
  pure ⟨seed, fitOn, cache, plan, cacheDir⟩

/-- `GraphConfig` (schema.py:170-176). -/
structure GraphConfig where
  enabled : Bool
  seed : Option Int
  cache : Bool
  spec : Dict
  cacheDir : Option String
deriving DecidableEq

/-- The `graph` section (schema.py:397-407). -/
def parseGraph (env : SchemaEnv) (v : PyVal) : Except PyErr GraphConfig := do
  let d ← asMapping v
  checkUnknown d ["enabled", "seed", "cache", "cache_dir", "spec"]
  let enabled ← optionalBool d "enabled" false
  let seed ← optionalInt d "seed"
  let cache ← optionalBool d "cache" true
  let cacheDir ← optionalStr env d "cache_dir"
  let spec ← optionalMapping d "spec"
  pure ⟨enabled, seed, cache, spec, cacheDir⟩

/-- `AugmentationConfig` (schema.py:179-186). -/
structure AugmentationConfig where
  enabled : Bool
  seed : Option Int
  mode : String
  weak : Dict
  strong : Dict
  modality : Option String
deriving DecidableEq

/-- The `augmentation` section (schema.py:409-422). -/
def parseAugmentation (env : SchemaEnv) (v : PyVal) : Except PyErr AugmentationConfig := do
  let d ← asMapping v
  checkUnknown d ["enabled", "seed", "mode", "weak", "strong", "modality"]
  let enabled ← optionalBool d "enabled" true
  let seed ← optionalInt d "seed"
  let weak ← optionalMapping d "weak"
  let strong ← optionalMapping d "strong"
  let modality ← optionalStr env d "modality"
  pure ⟨enabled, seed, pyStr env (getOr d "mode" (.str "fixed")), weak, strong, modality⟩

/-- `DeviceConfig` (schema.py:189-193). -/
structure DeviceConfig where
  device : String
  dtype : String
  resolved : Option String
deriving DecidableEq

/-- `method.device` (schema.py:429-435). -/
def parseDevice (env : SchemaEnv) (method : Dict) : Except PyErr DeviceConfig := do
  let d ← asMapping (getOr method "device" (.dict []))
  checkUnknown d ["device", "dtype", "resolved_device"]
  let resolved ← optionalStr env d "resolved_device"
  pure ⟨pyStr env (getOr d "device" (.str "cpu")), pyStr env (getOr d "dtype" (.str "float32")), resolved⟩

/-- `ModelConfig` (schema.py:196-203): a custom factory or a registered classifier. -/
inductive ModelConfig where
  | factory (name : String) (params : Dict)
  | classifier (id backend : String) (params : Dict) (ema : Option Bool)
deriving DecidableEq

/-- `method.model.classifier_backend` (schema.py:464-468). -/
def parseBackend (env : SchemaEnv) (m : Dict) : Except PyErr String :=
  match getOr m "classifier_backend" (.str "torch") with
  | .str s => if env.blank s then .error .validation else .ok s
  | _ => .error .validation

/-- `method.model.ema` (schema.py:469-475). -/
def parseEma (m : Dict) : Except PyErr (Option Bool) :=
  match getOr m "ema" .none with
  | .none => .ok none
  | .bool b => .ok (some b)
  | _ => .error .validation

/-- `method.model` with a factory (schema.py:448-459). -/
def parseFactory (env : SchemaEnv) (allow : Bool) (m : Dict) : Except PyErr ModelConfig := do
  (if allow then .ok () else .error .validation)
  checkUnknown m ["factory", "params"]
  let name ← requireStr env m "factory"
  let params ← optionalMapping m "params"
  pure (.factory name params)

/-- `method.model` with a classifier (schema.py:460-481). -/
def parseClassifier (env : SchemaEnv) (m : Dict) : Except PyErr ModelConfig := do
  checkUnknown m ["classifier_id", "classifier_backend", "classifier_params", "ema"]
  let backend ← parseBackend env m
  let ema ← parseEma m
  let id ← requireStr env m "classifier_id"
  let params ← optionalMapping m "classifier_params"
  pure (.classifier id backend params ema)

/-- `method.model` (schema.py:436-481). -/
def parseModel (env : SchemaEnv) (allow : Bool) (method : Dict) : Except PyErr (Option ModelConfig) :=
  match getOr method "model" .none with
  | .none => .ok none
  | .dict m =>
    if Assoc.has m "factory" && Assoc.has m "classifier_id" then .error .validation
    else if Assoc.has m "factory" then (parseFactory env allow m).map some
    else if Assoc.has m "classifier_id" then (parseClassifier env m).map some
    else .error .validation
  | _ => .error .validation

/-- `MethodConfig` (schema.py:206-212). -/
structure MethodConfig where
  kind : String
  id : String
  device : DeviceConfig
  params : Dict
  model : Option ModelConfig
deriving DecidableEq

/-- The `method` section (schema.py:424-488). -/
def parseMethod (env : SchemaEnv) (allow : Bool) (data : Dict) : Except PyErr MethodConfig := do
  let m ← asMapping (getOr data "method" (.dict []))
  checkUnknown m ["kind", "id", "device", "params", "model"]
  let kind ← requireStr env m "kind"
  (if kind ∈ ["inductive", "transductive"] then .ok () else .error .validation)
  let device ← parseDevice env m
  let model ← parseModel env allow m
  let id ← requireStr env m "id"
  let params ← optionalMapping m "params"
  pure ⟨kind, id, device, params, model⟩

/-- `EvaluationConfig` (schema.py:215-218). -/
structure EvaluationConfig where
  report : List String
  metrics : List String
  selection : Option String
deriving DecidableEq

/-- The `evaluation` section (schema.py:490-504). -/
def parseEvaluation (env : SchemaEnv) (data : Dict) : Except PyErr EvaluationConfig := do
  let d ← asMapping (getOr data "evaluation" (.dict []))
  checkUnknown d ["report_splits", "metrics", "split_for_model_selection"]
  let report ← optionalList d "report_splits"
  let metrics ← optionalList d "metrics"
  nonEmpty report
  nonEmpty metrics
  let selection ← optionalStr env d "split_for_model_selection"
  pure ⟨report.map (pyStr env), metrics.map (pyStr env), selection⟩

/-- `SearchObjectiveConfig` (schema.py:221-226). -/
structure ObjectiveConfig where
  split : String
  metric : String
  direction : String
  aggregate : String
deriving DecidableEq

/-- `search.objective` (schema.py:534-552). -/
def parseObjective (env : SchemaEnv) (search : Dict) : Except PyErr ObjectiveConfig := do
  let d ← asMapping (getOr search "objective" (.dict []))
  checkUnknown d ["split", "metric", "direction", "aggregate"]
  let split ← requireStr env d "split"
  let metric ← requireStr env d "metric"
  let direction ← requireStr env d "direction"
  let aggregate ← requireStr env d "aggregate"
  (if split ∈ ["train", "val", "test"] then .ok () else .error .validation)
  (if metric ∈ env.metrics then .ok () else .error .validation)
  (if direction ∈ ["maximize", "minimize"] then .ok () else .error .validation)
  (if aggregate = "mean" then .ok () else .error .validation)
  pure ⟨split, metric, direction, aggregate⟩

/-- `_check_leaf` (schema.py:590-595). -/
def checkLeaf : List String → Except PyErr Unit
  | "method" :: "params" :: _ :: _ => .ok ()
  | _ => .error .validation

mutual
/-- `_walk` of `_validate_search_space` (schema.py:597-616); the order of visits decides only which error comes
first. -/
def walkSpace : PyVal → List String → Except PyErr Unit
  | .list l, path => if l = [] then .error .validation else checkLeaf path
  | .dict d, path =>
    if d = [] then .error .validation
    else if Assoc.has d "dist" then checkLeaf path
    else walkSpaceEntries d path
  | _, _ => .error .validation

/-- The entries of a mapping. -/
def walkSpaceEntries : Dict → List String → Except PyErr Unit
  | [], _ => .ok ()
  | (k, v) :: d, path =>
    if k = "" then .error .validation
    else match walkSpace v (path ++ [k]) with
      | .error e => .error e
      | .ok _ => walkSpaceEntries d path
end

/-- `SearchConfig` (schema.py:229-237). -/
structure SearchConfig where
  enabled : Bool
  kind : String
  seed : Option Int
  nTrials : Option Int
  repeats : Int
  objective : ObjectiveConfig
  space : Dict
deriving DecidableEq

/-- The checks of `seed` and `n_trials` (schema.py:519-526). -/
def checkTrials (kind : String) (seed nTrials : Option Int) : Except PyErr Unit :=
  if nTrials.any (fun n => decide (n ≤ 0)) then .error .validation
  else if kind = "random" ∧ (seed = none ∨ nTrials = none) then .error .validation
  else .ok ()

/-- The `search` section (schema.py:506-573). -/
def parseSearch (env : SchemaEnv) (v : PyVal) : Except PyErr SearchConfig := do
  let d ← asMapping v
  checkUnknown d ["enabled", "kind", "seed", "n_trials", "repeats", "objective", "space"]
  let enabled ← requireBool d "enabled"
  let kind ← requireStr env d "kind"
  (if kind ∈ ["grid", "random"] then .ok () else .error .validation)
  let seed ← optionalInt d "seed"
  let nTrials ← optionalInt d "n_trials"
  checkTrials kind seed nTrials
  let repeats ← optionalInt d "repeats"
  (if repeats.getD 1 ≤ 0 then .error .validation else .ok ())
  let objective ← parseObjective env d
  let space ← optionalMapping d "space"
  nonEmpty space
  walkSpace (.dict space) []
  let _ ← Hpo.fromDict space
  pure ⟨enabled, kind, seed, nTrials, repeats.getD 1, objective, space⟩

/-- `ExperimentConfig` (schema.py:240-252). -/
structure ExperimentConfig where
  run : RunConfig
  limits : Option LimitsConfig
  dataset : DatasetConfig
  sampling : PlanConfig
  preprocess : PreprocessConfig
  views : Option PlanConfig
  graph : Option GraphConfig
  augmentation : Option AugmentationConfig
  method : MethodConfig
  evaluation : EvaluationConfig
  search : Option SearchConfig
deriving DecidableEq

/-- `ExperimentConfig.from_dict` (schema.py:254-586). -/
def configFromDict (env : SchemaEnv) (data : Dict) : Except PyErr ExperimentConfig := do
  checkUnknown data ["run", "limits", "dataset", "sampling", "preprocess", "views", "graph", "augmentation", "method",
    "evaluation", "search"]
  let run ← parseRun env data
  let limits ← whenPresent data "limits" (parseLimitsSome env)
  let dataset ← parseDataset env data
  let sampling ← parsePlan (getOr data "sampling" (.dict []))
  let preprocess ← parsePreprocess env data
  let views ← whenPresent data "views" parsePlan
  let graph ← whenPresent data "graph" (parseGraph env)
  let augmentation ← whenPresent data "augmentation" (parseAugmentation env)
  let method ← parseMethod env run.allowFactories data
  let evaluation ← parseEvaluation env data
  let search ← whenPresent data "search" (parseSearch env)
  pure ⟨run, limits, dataset, sampling, preprocess, views, graph, augmentation, method, evaluation, search⟩

end ModSSC.Bench
