import Verif.Bench.ContractModel
import Verif.Bench.LimitsSpec
import Verif.Bench.ProtoSpec
import Verif.Bench.SchemaSpec

/-!
# Specification for C132 to C134: a pinned configuration, the meaning of a plan, the rows to fit on
-/

namespace ModSSC.Bench.Spec
open ModSSC ModSSC.Bench

/-- The entry at the end of the path leaves a device, backend or profile to be chosen at run time. -/
def AutoAt (isAuto : String → Bool) (v : PyVal) (q : List Step) : Prop :=
  ∃ p k s, q = p ++ [.key k] ∧ (k = "device" ∨ k = "backend" ∨ k = "classifier_backend" ∨ k = "profile") ∧
    lookup q v = some (.str s) ∧ isAuto s = true

/-- What benchmark mode demands of a configuration. -/
structure Pinned (env : ContractEnv) (cfg : ExperimentConfig) (raw : Dict) : Prop where
  offline : cfg.dataset.download = false
  cacheDir : ∃ s, cfg.dataset.cacheDir = some s ∧ s ≠ ""
  device : cfg.method.device.device ≠ "auto"
  profile : ∀ l, cfg.limits = some l → l.profile ≠ some "auto"
  graph : ∀ g s, cfg.graph = some g → g.enabled = true → Assoc.get g.spec "backend" = some (.str s) →
    env.schema.lower s ≠ "auto"
  model : ∀ id b p e, cfg.method.model = some (.classifier id b p e) → b ≠ "auto"
  selection : ∃ sel, cfg.evaluation.selection = some sel ∧ sel ∈ cfg.evaluation.report ∧
    ∀ s, cfg.search = some s → s.enabled = true → s.objective.split = sel
  backend : env.hasBackend cfg.method.kind cfg.method.id = .ok false ∨
    env.hasBackend cfg.method.kind cfg.method.id = .ok true ∧
      ∃ v, Assoc.get cfg.method.params "backend" = some v ∧ v ≠ .none ∧
        env.schema.lower (pyStr env.schema v) ≠ "auto"
  noAuto : ∀ q, ¬ AutoAt env.isAuto (.dict raw) q

/-- The steps up to the first fittable one are known, and if there is a fittable one the rows to fit on are named. -/
def FitNamed (env : ContractEnv) (fitOn : Option String) (ids : List String) : Prop :=
  (∀ s ∈ ids, env.fittable s = .ok false) ∨
  (∃ f, fitOn = some f) ∧ ∃ a s b, ids = a ++ s :: b ∧ (∀ t ∈ a, env.fittable t = .ok false) ∧ env.fittable s = .ok true

/-- The id of a step: `id`, or else `step_id`, printed. -/
def IdIs (env : SchemaEnv) (item : Dict) (s : String) : Prop :=
  s ≠ "" ∧
  ((∃ v, Assoc.get item "id" = some v ∧ v.truthy = true ∧ s = pyStr env v) ∨
   (∀ v, Assoc.get item "id" = some v → v.truthy = false) ∧
     ∃ v, Assoc.get item "step_id" = some v ∧ v.truthy = true ∧ s = pyStr env v)

/-- The step ids a plan lists, in order. -/
def StepIds (env : SchemaEnv) (plan : Dict) (ids : List String) : Prop :=
  (∃ l, Assoc.get plan "steps" = some (.list l) ∧
    List.Forall₂ (fun v s => ∃ item, v = .dict item ∧ IdIs env item s) l ids) ∨
  Assoc.get plan "steps" = none ∧ ids = []

/-- The step ids of all views that have a preprocessing plan, in order. -/
def ViewIds (env : SchemaEnv) (plan : Dict) (ids : List String) : Prop :=
  (∀ l, Assoc.get plan "views" ≠ some (.list l)) ∧ ids = [] ∨
  ∃ l parts, Assoc.get plan "views" = some (.list l) ∧ ids = List.flatten parts ∧
    List.Forall₂ (fun v p =>
      (∃ view d, v = .dict view ∧ Assoc.get view "preprocess" = some (.dict d) ∧ StepIds env d p) ∨
      (∀ view d, v = .dict view → Assoc.get view "preprocess" ≠ some (.dict d)) ∧ p = []) l parts

/-- Step ids of the views, if there are views. -/
def AllViewIds (env : SchemaEnv) : Option PlanConfig → List String → Prop
  | none, ids => ids = []
  | some v, ids => ViewIds env v.plan ids

/-- The words a list of words is read as. -/
def WordsIs (env : SchemaEnv) (d : Dict) (k : String) (ws : List String) : Prop :=
  (∀ v, Assoc.get d k = some v → v.truthy = false) ∧ ws = [] ∨
  ∃ v, Assoc.get d k = some v ∧ v.truthy = true ∧
    ((∃ l, v = .list l ∧ ws = l.map (pyStr env)) ∨ (∃ s, v = .str s ∧ ws = s.toList.map String.singleton) ∨
     ∃ m, v = .dict m ∧ ws = Assoc.keys m)

/-- One step of a plan. -/
structure StepMeans (env : SchemaEnv) (item : Dict) (s : StepPlan) : Prop where
  keys : OnlyKeys item ["id", "step_id", "params", "modalities", "requires_fields", "enabled"]
  agree : ∀ a b, Assoc.get item "id" = some a → Assoc.get item "step_id" = some b → pyStr env a = pyStr env b
  id : IdIs env item s.id
  params : (∀ v, Assoc.get item "params" = some v → v.truthy = false) ∧ s.params = [] ∨
    Assoc.get item "params" = some (.dict s.params) ∧ s.params ≠ []
  modalities : WordsIs env item "modalities" s.modalities
  fields : WordsIs env item "requires_fields" s.fields
  enabled : (∃ v, Assoc.get item "enabled" = some v ∧ s.enabled = v.truthy) ∨
    Assoc.get item "enabled" = none ∧ s.enabled = true

/-- A preprocessing plan. -/
structure PrePlanMeans (env : SchemaEnv) (d : Dict) (p : PrePlan) : Prop where
  keys : OnlyKeys d ["output_key", "steps"]
  output : PrintedOr env d "output_key" "features.X" p.outputKey
  steps : (∃ l, Assoc.get d "steps" = some (.list l) ∧
      List.Forall₂ (fun v s => ∃ item, v = .dict item ∧ StepMeans env item s) l p.steps) ∨
    Assoc.get d "steps" = none ∧ p.steps = []

/-- A split of the training samples: training, validation and test samples are apart, and labeled and unlabeled samples
are training samples. -/
structure ValidIndex (s : IndexSplit) : Prop where
  train : ∀ a b, Assoc.get s.indices "train" = some a → Assoc.get s.indices "test" = some b →
    refOf s.refs "test" = "train" → ∀ i ∈ a, i ∉ b
  val : ∀ a b, Assoc.get s.indices "val" = some a → Assoc.get s.indices "test" = some b →
    refOf s.refs "test" = "train" → ∀ i ∈ a, i ∉ b
  parts : ∀ k, k = "train_labeled" ∨ k = "train_unlabeled" → ∀ a, Assoc.get s.indices k = some a →
    ∃ t, Assoc.get s.indices "train" = some t ∧ ∀ i ∈ a, i ∈ t
  bases : ∀ k, k ≠ "test" → refOf s.refs k = "train"

/-- Node masks of a split. -/
structure ValidMasks (g : GraphSplit) : Prop where
  train : ∀ i : Nat, g.train[i]? = some true → g.test[i]? ≠ some true
  val : ∀ i : Nat, g.val[i]? = some true → g.test[i]? ≠ some true
  labeled : ∀ i : Nat, g.labeled[i]? = some true → g.train[i]? = some true
  unlabeled : ∀ i : Nat, g.unlabeled[i]? = some true → g.train[i]? = some true

def ValidSampling : Sampling → Prop
  | .index s => ValidIndex s
  | .graph g => ValidMasks g

/-- Row `i` of the training data is a test sample. -/
def IsTest : Sampling → Nat → Prop
  | .index s, i => refOf s.refs "test" = "train" ∧ ∃ b, Assoc.get s.indices "test" = some b ∧ i ∈ b
  | .graph g, i => g.test[i]? = some true

/-- `rows` lists the samples of the part `name` (training, labeled, unlabeled or validation samples). -/
def IsPart (s : Sampling) (name : String) (rows : List Nat) : Prop :=
  match s with
  | .index s => (name = "train" ∨ name = "train_labeled" ∨ name = "train_unlabeled" ∨ name = "val") ∧
      Assoc.get s.indices name = some rows
  | .graph g => (name = "train" ∧ IsPositions g.train rows) ∨ (name = "train_labeled" ∧ IsPositions g.labeled rows) ∨
      (name = "train_unlabeled" ∧ IsPositions g.unlabeled rows) ∨ (name = "val" ∧ IsPositions g.val rows)

end ModSSC.Bench.Spec
