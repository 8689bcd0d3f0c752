import Verif.Bench.ReportModel

/-!
# What a run report and a sweep summary should say (C154, C155)
-/

namespace ModSSC.Bench.Spec
open ModSSC ModSSC.Bench

/-- The value at a path through nested dictionaries. -/
def valAt : PyVal → List String → Option PyVal
  | v, [] => some v
  | .dict d, k :: p => (Assoc.get d k).bind (fun v => valAt v p)
  | _, _ :: _ => none

/-- A number; booleans are not numbers. -/
def number : PyVal → Option Rat
  | .int i => some (i : Rat)
  | .flt q => some q
  | _ => none

/-- The number a metrics document gives at a path. -/
def metricAt (d : Dict) (p : List String) : Option Rat := (valAt (.dict d) p).bind number

/-- No dictionary of the document has a key twice (true of every parsed JSON document). -/
def UniqueKeys (v : PyVal) : Prop := ∀ p d, valAt v p = some (.dict d) → (Assoc.keys d).Nodup

/-- The metrics of a report that says `success` and has metrics. -/
def successful (doc : Dict) : Option Dict :=
  match valAt (.dict doc) ["run", "status"], valAt (.dict doc) ["metrics"] with
  | some (.str s), some (.dict d) => if s = "success" then some d else none
  | _, _ => none

/-- The values of a metric in the successful reports, in the order of the runs. -/
def valuesOf (files : List ReportFile) (p : List String) : List Rat :=
  (files.filterMap (fun f => successful f.doc)).filterMap (fun d => metricAt d p)

/-- The summary says what the values are. -/
structure Describes (sqrt : Rat → Rat) (v : PyVal) (vs : List Rat) : Prop where
  count : valAt v ["count"] = some (.int vs.length)
  values : valAt v ["values"] = some (.list (vs.map .flt))
  mean : ∃ m, valAt v ["mean"] = some (.flt m) ∧ m * vs.length = vs.sum ∧
    (valAt v ["std"] = some (.flt (if vs.length = 1 then 0 else sqrt ((vs.map (fun x => (x - m) * (x - m))).sum / vs.length))))
  least : ∃ m, valAt v ["min"] = some (.flt m) ∧ m ∈ vs ∧ ∀ x ∈ vs, m ≤ x
  greatest : ∃ m, valAt v ["max"] = some (.flt m) ∧ m ∈ vs ∧ ∀ x ∈ vs, x ≤ m

/-- The paths a `run.json` must have. -/
def requiredPaths : List (List String) :=
  [["config"], ["artifacts"], ["metrics"], ["hpo"], ["error"],
   ["run", "name"], ["run", "seed"], ["run", "run_id"], ["run", "started_at"], ["run", "finished_at"], ["run", "status"],
   ["run", "benchmark_mode"], ["run", "config_path"], ["run", "error_code"],
   ["hashes", "config_hash"], ["hashes", "effective_config_hash"],
   ["resolution", "splits"], ["resolution", "limits"],
   ["resolution", "device", "requested"], ["resolution", "device", "resolved"],
   ["resolution", "backend", "requested"], ["resolution", "backend", "resolved"],
   ["resolution", "dtype", "requested"], ["resolution", "dtype", "resolved"],
   ["resolution", "normalization", "requested"], ["resolution", "normalization", "resolved"],
   ["protocol", "kind"], ["protocol", "use_test_split"], ["protocol", "report_splits"],
   ["protocol", "split_for_model_selection"],
   ["versions", "python"], ["versions", "modssc"], ["versions", "numpy"], ["versions", "git_sha"]]

end ModSSC.Bench.Spec
