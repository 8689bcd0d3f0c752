import Verif.Bench.SchemaModel
import Verif.Bench.ProtoModel

/-!
# Model of the benchmark contract and of the rows steps are fitted on

`bench/main.py`: the strict checks of `run.benchmark_mode` and the checks of fittable steps.
`bench/orchestrators/preprocess.py`, `bench/orchestrators/views.py`: reading plans and choosing the fit rows.
-/

namespace ModSSC.Bench
open ModSSC

/-- What the checks ask the rest of the library: `value.strip().lower() == "auto"`, whether a method has a `backend`
parameter (`_method_has_backend_param`, main.py:369-384), and whether a step is fittable (`step_info`). -/
structure ContractEnv where
  schema : SchemaEnv
  isAuto : String → Bool
  hasBackend : String → String → Except PyErr Bool
  fittable : String → Except PyErr Bool

/-- Why a configuration is refused: an error code, entries that are `auto`, or another error. -/
inductive Refusal where
  | code (c : String)
  | auto (paths : List (List (String ⊕ Nat)))
  | other (e : PyErr)
deriving DecidableEq

/-- The keys whose value may not be `auto` (main.py:333-338). -/
def autoKeys : List String := ["device", "backend", "classifier_backend", "profile"]

/-- The test of one entry (main.py:329-339). -/
def autoEntry (isAuto : String → Bool) (key : String) : PyVal → Bool
  | .str s => isAuto s && decide (key ∈ autoKeys)
  | _ => false

mutual
/-- `_scan_auto_entries` (main.py:324-345); a path is the list of its keys and positions instead of their text. -/
def scanAuto (isAuto : String → Bool) : PyVal → List (List (String ⊕ Nat))
  | .dict d => scanAutoDict isAuto d
  | .list l => scanAutoList isAuto l 0
  | _ => []

/-- The entries of a mapping. -/
def scanAutoDict (isAuto : String → Bool) : Dict → List (List (String ⊕ Nat))
  | [] => []
  | (k, v) :: d =>
    (if autoEntry isAuto k v then [[.inl k]] else []) ++ (scanAuto isAuto v).map (.inl k :: ·) ++ scanAutoDict isAuto d

/-- The items of a list, from position `i`. -/
def scanAutoList (isAuto : String → Bool) : List PyVal → Nat → List (List (String ⊕ Nat))
  | [], _ => []
  | v :: l, i => (scanAuto isAuto v).map (.inr i :: ·) ++ scanAutoList isAuto l (i + 1)
end

/-- `str(item.get("id") or item.get("step_id") or "")` (main.py:242, preprocess.py:57). -/
def stepIdOf (env : SchemaEnv) (item : Dict) : String :=
  if (getOr item "id" .none).truthy then pyStr env (getOr item "id" .none)
  else if (getOr item "step_id" .none).truthy then pyStr env (getOr item "step_id" .none)
  else ""

/-- One step of `_preprocess_step_ids` (main.py:239-247). -/
def stepIdItem (env : SchemaEnv) : PyVal → Except PyErr String
  | .dict item => if stepIdOf env item = "" then .error .validation else .ok (stepIdOf env item)
  | _ => .error .validation

/-- `_preprocess_step_ids` (main.py:234-249). -/
def stepIds (env : SchemaEnv) (plan : Dict) : Except PyErr (List String) :=
  match getOr plan "steps" (.list []) with
  | .list l => l.mapM (stepIdItem env)
  | _ => .error .validation

/-- The step ids of one view (main.py:257-262). -/
def viewStepIds (env : SchemaEnv) : PyVal → Except PyErr (List String)
  | .dict v =>
    match getOr v "preprocess" .none with
    | .dict p => stepIds env p
    | _ => .ok []
  | _ => .ok []

/-- `_views_preprocess_step_ids` (main.py:252-263). -/
def viewsStepIds (env : SchemaEnv) (plan : Dict) : Except PyErr (List String) :=
  match getOr plan "views" (.list []) with
  | .list l => (l.mapM (viewStepIds env)).map List.flatten
  | _ => .ok []

/-- `_requires_fit_indices` (main.py:266-271). -/
def requiresFit (env : ContractEnv) : List String → Except PyErr Bool
  | [] => .ok false
  | s :: l =>
    match env.fittable s with
    | .error e => .error e
    | .ok true => .ok true
    | .ok false => requiresFit env l

/-- Refuse with a code unless the condition holds. -/
def demand (p : Bool) (code : String) : Except Refusal Unit := if p then .ok () else .error (.code code)

/-- Carry an error of the library. -/
def lift {β : Type} : Except PyErr β → Except Refusal β
  | .ok b => .ok b
  | .error e => .error (.other e)

/-- `graph.spec.backend` is `auto` for an enabled graph (main.py:418-424). -/
def graphAuto (env : ContractEnv) : Option GraphConfig → Bool
  | none => false
  | some g => g.enabled &&
    (match Assoc.get g.spec "backend" with
     | some (.str s) => decide (env.schema.lower s = "auto")
     | _ => false)

/-- `method.model.classifier_backend == "auto"` (main.py:426-430). -/
def modelAuto : Option ModelConfig → Bool
  | some (.classifier _ b _ _) => decide (b = "auto")
  | _ => false

/-- The model selection split is that of the search (main.py:442-451). -/
def searchAgrees (sel : String) : Option SearchConfig → Bool
  | none => true
  | some s => !s.enabled || decide (s.objective.split = sel)

/-- `method.params.backend` (main.py:453-464). -/
def backendCheck (env : ContractEnv) (m : MethodConfig) : Except Refusal Unit := do
  let has ← lift (env.hasBackend m.kind m.id)
  if has then
    match getOr m.params "backend" .none with
    | .none => .error (.code "E_BENCH_BACKEND_REQUIRED")
    | v => demand (decide (env.schema.lower (pyStr env.schema v) ≠ "auto")) "E_BENCH_AUTO_FORBIDDEN"
  else .ok ()

/-- Fittable steps need `preprocess.fit_on` (main.py:471-480 and 642-652). -/
def fitCheck (env : ContractEnv) (fitOn : Option String) (ids : List String) : Except Refusal Unit := do
  let req ← lift (requiresFit env ids)
  demand (!(req && fitOn.isNone)) "E_BENCH_FIT_ON_REQUIRED"

/-- The model selection split (main.py:432-451). -/
def selectionCheck (cfg : ExperimentConfig) : Except Refusal Unit :=
  match cfg.evaluation.selection with
  | none => .error (.code "E_BENCH_SPLIT_MODEL_SELECTION_REQUIRED")
  | some sel => do
    demand (decide (sel ∈ cfg.evaluation.report)) "E_BENCH_SPLIT_MODEL_SELECTION_INVALID"
    demand (searchAgrees sel cfg.search) "E_BENCH_SPLIT_MODEL_SELECTION_CONFLICT"

/-- `_benchmark_contract_preflight` (main.py:387-480). -/
def contractPreflight (env : ContractEnv) (cfg : ExperimentConfig) (raw : Dict) (pre views : List String) :
    Except Refusal Unit :=
  if !cfg.run.benchmarkMode then .ok ()
  else do
    demand (!cfg.dataset.download) "E_BENCH_DOWNLOAD_FORBIDDEN"
    demand (decide (∃ s ∈ cfg.dataset.cacheDir, s ≠ "")) "E_BENCH_CACHE_DIR_REQUIRED"
    demand (decide (cfg.method.device.device ≠ "auto")) "E_BENCH_AUTO_FORBIDDEN"
    demand (decide (∀ l ∈ cfg.limits, l.profile ≠ some "auto")) "E_BENCH_AUTO_FORBIDDEN"
    demand (!graphAuto env cfg.graph) "E_BENCH_AUTO_FORBIDDEN"
    demand (!modelAuto cfg.method.model) "E_BENCH_AUTO_FORBIDDEN"
    selectionCheck cfg
    backendCheck env cfg.method
    (if scanAuto env.isAuto (.dict raw) = [] then .ok () else .error (.auto (scanAuto env.isAuto (.dict raw))))
    fitCheck env cfg.preprocess.fitOn pre
    fitCheck env cfg.preprocess.fitOn views

/-- The checks before any data is touched (main.py:627-652): the step ids, the contract, and the fittable steps, which
are checked in every mode. -/
def preflight (env : ContractEnv) (cfg : ExperimentConfig) (raw : Dict) : Except Refusal Unit := do
  let pre ← lift (stepIds env.schema cfg.preprocess.plan)
  let views ← lift (match cfg.views with
    | none => .ok []
    | some v => viewsStepIds env.schema v.plan)
  contractPreflight env cfg raw pre views
  fitCheck env cfg.preprocess.fitOn pre
  fitCheck env cfg.preprocess.fitOn views

/-! ### Reading the plans -/

/-- `StepConfig`. -/
structure StepPlan where
  id : String
  params : Dict
  modalities : List String
  fields : List String
  enabled : Bool
deriving DecidableEq

/-- `PreprocessPlan`. -/
structure PrePlan where
  outputKey : String
  steps : List StepPlan
deriving DecidableEq

/-- `tuple(str(m) for m in (value or ()))` (preprocess.py:63-64): iterating over a string gives its characters, over a
mapping its keys. -/
def strItems (env : SchemaEnv) (v : PyVal) : Except PyErr (List String) :=
  if !v.truthy then .ok []
  else match v with
    | .list l => .ok (l.map (pyStr env))
    | .str s => .ok (s.toList.map String.singleton)
    | .dict d => .ok (Assoc.keys d)
    | _ => .error .typeError

/-- `params = item.get("params", {}) or {}`, a mapping (preprocess.py:60-62). -/
def paramsOf (item : Dict) : Except PyErr Dict :=
  if !(getOr item "params" (.dict [])).truthy then .ok []
  else match getOr item "params" (.dict []) with
    | .dict d => .ok d
    | _ => .error .valueError

/-- `id` and `step_id` may not disagree (preprocess.py:53-56). -/
def idConflict (env : SchemaEnv) (item : Dict) : Bool :=
  match Assoc.get item "id", Assoc.get item "step_id" with
  | some a, some b => decide (pyStr env a ≠ pyStr env b)
  | _, _ => false

/-- `_check_unknown_keys` (preprocess.py:19-22, views.py:21-24). -/
def onlyKeys (d : Dict) (allowed : List String) : Except PyErr Unit :=
  if (Assoc.keys d).all (fun k => decide (k ∈ allowed)) then .ok () else .error .valueError

/-- One step of `_plan_from_dict` (preprocess.py:45-75). -/
def stepFromVal (env : SchemaEnv) : PyVal → Except PyErr StepPlan
  | .dict item => do
    onlyKeys item ["id", "step_id", "params", "modalities", "requires_fields", "enabled"]
    (if idConflict env item then .error .valueError else .ok ())
    (if stepIdOf env item = "" then .error .valueError else .ok ())
    let params ← paramsOf item
    let modalities ← strItems env (getOr item "modalities" .none)
    let fields ← strItems env (getOr item "requires_fields" .none)
    pure ⟨stepIdOf env item, params, modalities, fields, (getOr item "enabled" (.bool true)).truthy⟩
  | _ => .error .valueError

/-- `_plan_from_dict` (preprocess.py:34-77). -/
def planFromDict (env : SchemaEnv) : PyVal → Except PyErr PrePlan
  | .dict obj => do
    onlyKeys obj ["output_key", "steps"]
    match getOr obj "steps" (.list []) with
    | .list l => do
      let steps ← l.mapM (stepFromVal env)
      pure ⟨pyStr env (getOr obj "output_key" (.str "features.X")), steps⟩
    | _ => .error .valueError
  | _ => .error .valueError

/-- `view.preprocess` of `_view_spec_from_dict` (views.py:55-57). -/
def viewPlanOf (env : SchemaEnv) (view : Dict) : Except PyErr (Option PrePlan) :=
  match getOr view "preprocess" .none with
  | .none => .ok none
  | v => (planFromDict env v).map some

/-- The preprocessing part of `_view_spec_from_dict` (views.py:42-71).  Not modelled: columns and meta. -/
def viewFromVal (env : SchemaEnv) : PyVal → Except PyErr (String × Option PrePlan)
  | .dict v => do
    onlyKeys v ["name", "preprocess", "columns", "meta"]
    (if pyStr env (getOr v "name" (.str "")) = "" then .error .valueError else .ok ())
    let p ← viewPlanOf env v
    pure (pyStr env (getOr v "name" (.str "")), p)
  | _ => .error .valueError

/-- The preprocessing part of `_plan_from_dict` for views (views.py:74-85).  Not modelled: `plan.validate()`. -/
def viewsPlanFromDict (env : SchemaEnv) (obj : Dict) : Except PyErr (List (String × Option PrePlan)) := do
  onlyKeys obj ["views"]
  match getOr obj "views" (.list []) with
  | .list l => l.mapM (viewFromVal env)
  | _ => .error .valueError

/-- `resolve_fit_indices` (preprocess.py:80-110). -/
def resolveFit (s : Sampling) (fitOn : Option String) : Except PyErr (Option (List Nat)) :=
  match fitOn with
  | none => .ok none
  | some f =>
    match s with
    | .graph g =>
      if f = "train" then .ok (some (whereTrue g.train))
      else if f = "train_labeled" then .ok (some (whereTrue g.labeled))
      else if f = "train_unlabeled" then .ok (some (whereTrue g.unlabeled))
      else if f = "val" then .ok (some (whereTrue g.val))
      else .error .valueError
    | .index i =>
      if f ∈ ["train", "train_labeled", "train_unlabeled", "val"] then (getKey i.indices f).map some
      else .error .valueError

end ModSSC.Bench
