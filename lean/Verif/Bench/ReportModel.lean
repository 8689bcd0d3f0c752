import Verif.Bench.RunModel
import Mathlib.Data.List.Sort

/-!
# Run reports and the summary of a seed sweep

Model of `bench/orchestrators/reporting.py` and `bench/report_schema.py`.  JSON documents are `PyVal`, JSON numbers are exact
rationals (`NaN` and infinities, which `json.loads` also reads, are not modelled).
-/

namespace ModSSC.Bench
open ModSSC

/-! ### Numbers in a metrics document -/

mutual
/-- `_iter_numeric_metric_leaves` (reporting.py:83-96): numbers, but not booleans, below dictionaries only. -/
def leaves (path : List String) : PyVal → List (List String × Rat)
  | .bool _ => []
  | .int i => [(path, (i : Rat))]
  | .flt q => [(path, q)]
  | .dict d => leavesDict path d
  | _ => []

/-- The loop over a dictionary (reporting.py:91-95). -/
def leavesDict (path : List String) : List (String × PyVal) → List (List String × Rat)
  | [] => []
  | (k, v) :: d => leaves (path ++ [k]) v ++ leavesDict path d
end

/-- `cur.get(key)`, replaced by an empty dictionary unless it is one (reporting.py:103-106). -/
def subDict (d : Dict) (k : String) : Dict :=
  match Assoc.get d k with
  | some (.dict e) => e
  | _ => []

/-- `_set_nested` (reporting.py:99-108).  Python changes the dictionaries in place; here the changed document is returned. -/
def setNested : Dict → List String → PyVal → Except PyErr Dict
  | _, [], _ => .error .valueError
  | d, [k], v => .ok (Assoc.set d k v)
  | d, k :: k' :: ks, v =>
    (setNested (subDict d k) (k' :: ks) v).map
      (fun e => Assoc.set d k (.dict e))

/-! ### Statistics -/

/-- `fmean(values)` (reporting.py:156). -/
def fmean (vs : List Rat) : Rat := vs.sum / vs.length

/-- The argument of the square root in `pstdev(values)` (reporting.py:157). -/
def pvariance (vs : List Rat) : Rat := (vs.map (fun v => (v - fmean vs) ^ 2)).sum / vs.length

/-- `min(values)` of a list with a first element. -/
def listMin (v : Rat) (vs : List Rat) : Rat := vs.foldl (fun a b => if b < a then b else a) v

/-- `max(values)` of a list with a first element. -/
def listMax (v : Rat) (vs : List Rat) : Rat := vs.foldl (fun a b => if a < b then b else a) v

/-- The summary of one metric (reporting.py:154-161).  `sqrt` is the square root of `pstdev`. -/
def summaryOf (sqrt : Rat → Rat) : List Rat → PyVal
  | [] => .none
  | v :: vs => .dict
    [("count", .int ((v :: vs).length : Nat)), ("mean", .flt (fmean (v :: vs))),
     ("std", .flt (if (v :: vs).length > 1 then sqrt (pvariance (v :: vs)) else 0)),
     ("min", .flt (listMin v vs)), ("max", .flt (listMax v vs)), ("values", .list ((v :: vs).map .flt))]

/-! ### The summary of a sweep -/

/-- A report file: the parsed `run.json` and its path. -/
structure ReportFile where
  path : String
  dir : String
  doc : Dict

/-- One entry of `runs` (reporting.py:129-141). -/
structure RunEntry where
  seed : PyVal
  name : PyVal
  runId : PyVal
  status : String
  runDir : String
  runJson : String
  errorCode : PyVal
  error : PyVal
  metrics : PyVal
deriving DecidableEq

/-- `d.get(k)` with the default `None`. -/
def getNone (d : Dict) (k : String) : PyVal := (Assoc.get d k).getD .none

/-- `report.get("run", {})` (reporting.py:126); `.get` of something else fails. -/
def runBlock (doc : Dict) : Except PyErr Dict :=
  match Assoc.get doc "run" with
  | none => .ok []
  | some (.dict d) => .ok d
  | some _ => .error .typeError

/-- `str(run_block.get("status", "unknown"))` (reporting.py:127); `pystr` is `str` of a value that is not a string. -/
def statusOf (pystr : PyVal → String) (run : Dict) : String :=
  match Assoc.get run "status" with
  | none => "unknown"
  | some (.str s) => s
  | some v => pystr v

/-- The entry of one report (reporting.py:126-141). -/
def entryOf (pystr : PyVal → String) (f : ReportFile) : Except PyErr RunEntry :=
  (runBlock f.doc).map fun run =>
    { seed := getNone run "seed", name := getNone run "name", runId := getNone run "run_id",
      status := statusOf pystr run, runDir := f.dir, runJson := f.path,
      errorCode := getNone run "error_code", error := getNone f.doc "error", metrics := getNone f.doc "metrics" }

/-- `status != "success" or not isinstance(metrics, dict)` (reporting.py:142): the metrics of an entry that counts. -/
def successMetrics (e : RunEntry) : Option Dict :=
  match e.metrics with
  | .dict d => if e.status = "success" then some d else none
  | _ => none

/-- `metric_values.setdefault(path, []).append(value)` (reporting.py:145-146). -/
def pushValue (m : List (List String × List Rat)) (lv : List String × Rat) : List (List String × List Rat) :=
  Assoc.set m lv.1 ((Assoc.get m lv.1).getD [] ++ [lv.2])

/-- The loop over the reports, for the values (reporting.py:142-146). -/
def collectValues (es : List RunEntry) : List (List String × List Rat) :=
  ((es.filterMap successMetrics).flatMap (fun d => leaves [] (.dict d))).foldl pushValue []

/-- Comparison of tuples of strings. -/
def pathLe : List String → List String → Bool
  | [], _ => true
  | _ :: _, [] => false
  | a :: as, b :: bs => if a = b then pathLe as bs else decide (a < b)

/-- `sorted(metric_values.items())` (reporting.py:149): the keys are distinct, so the values are never compared. -/
def sortItems (m : List (List String × List Rat)) : List (List String × List Rat) :=
  m.insertionSort (fun a b => pathLe a.1 b.1 = true)

/-- The loop that fills `aggregated_metrics` (reporting.py:148-163). -/
def fillMetrics (sqrt : Rat → Rat) : List (List String × List Rat) → Dict → Except PyErr Dict
  | [], d => .ok d
  | (p, vs) :: m, d => setNested d p (summaryOf sqrt vs) >>= fun d' => fillMetrics sqrt m d'

/-- The document written by `write_seed_sweep_summary` (reporting.py:172-187), without times and paths. -/
structure SweepSummary where
  requestedSeeds : List Int
  requestedRunCount : Nat
  completedRunCount : Nat
  successfulRunCount : Nat
  failedRunCount : Nat
  status : String
  metrics : Dict
  runs : List RunEntry
deriving DecidableEq

/-- The status of a sweep (reporting.py:164-170). -/
def sweepStatus (failed successful : Nat) : String :=
  if failed = 0 then "success" else if successful ≠ 0 then "partial_failure" else "failed"

/-- `write_seed_sweep_summary` (reporting.py:111-198), without the writing. -/
def sweepSummary (pystr : PyVal → String) (sqrt : Rat → Rat) (requested : List Int) (files : List ReportFile) :
    Except PyErr SweepSummary :=
  files.mapM (entryOf pystr) >>= fun es =>
  fillMetrics sqrt (sortItems (collectValues es)) [] >>= fun ms =>
  .ok
    { requestedSeeds := requested, requestedRunCount := requested.length, completedRunCount := es.length,
      successfulRunCount := (es.filterMap successMetrics).length,
      failedRunCount := es.length - (es.filterMap successMetrics).length,
      status := sweepStatus (es.length - (es.filterMap successMetrics).length) (es.filterMap successMetrics).length,
      metrics := ms, runs := es }

/-! ### The schema of `run.json` -/

/-- `_require_mapping` (report_schema.py:9-12). -/
def requireMapping : PyVal → Except PyErr Dict
  | .dict d => .ok d
  | _ => .error .runtimeError

/-- `_require_keys` (report_schema.py:15-21). -/
def requireKeys (d : Dict) (ks : List String) : Except PyErr Unit :=
  if ks.all (fun k => Assoc.has d k) then .ok () else .error .runtimeError

/-- A section that must be a mapping with some keys. -/
def requireSection (d : Dict) (name : String) (ks : List String) : Except PyErr Dict :=
  match Assoc.get d name with
  | none => .error .keyError
  | some v => requireMapping v >>= fun s => requireKeys s ks >>= fun _ => .ok s

/-- `validate_run_payload` (report_schema.py:24-110). -/
def validatePayload (p : Dict) : Except PyErr Unit :=
  requireKeys p ["run", "hashes", "resolution", "protocol", "versions", "config", "artifacts", "fallback_events", "metrics",
    "hpo", "error"] >>= fun _ =>
  requireSection p "run" ["name", "seed", "run_id", "started_at", "finished_at", "status", "benchmark_mode", "config_path",
    "error_code"] >>= fun _ =>
  requireSection p "hashes" ["config_hash", "effective_config_hash"] >>= fun _ =>
  requireSection p "resolution" ["device", "backend", "dtype", "normalization", "splits", "limits"] >>= fun r =>
  requireSection r "device" ["requested", "resolved"] >>= fun _ =>
  requireSection r "backend" ["requested", "resolved"] >>= fun _ =>
  requireSection r "dtype" ["requested", "resolved"] >>= fun _ =>
  requireSection r "normalization" ["requested", "resolved"] >>= fun _ =>
  requireSection p "protocol" ["kind", "use_test_split", "report_splits", "split_for_model_selection"] >>= fun _ =>
  requireSection p "versions" ["python", "modssc", "numpy", "git_sha"] >>= fun _ =>
  match Assoc.get p "fallback_events" with
  | some (.list _) => .ok ()
  | _ => .error .runtimeError

/-- What `write_run_summary` is called with (reporting.py:21-36). -/
structure RunFacts where
  name : String
  seed : Int
  runId : String
  startedAt : String
  finishedAt : String
  status : String
  benchmarkMode : Bool
  configPath : PyVal
  errorCode : PyVal
  hashes : Dict
  resolution : Dict
  protocol : Dict
  versions : Dict
  config : Dict
  artifacts : Dict
  metrics : PyVal
  hpo : PyVal
  fallbackEvents : List PyVal
  error : PyVal

/-- The payload of `write_run_summary` (reporting.py:39-73); `config` stands for the sections of the configuration. -/
def payloadOf (f : RunFacts) : Dict :=
  [("run", .dict [("name", .str f.name), ("seed", .int f.seed), ("run_id", .str f.runId), ("started_at", .str f.startedAt),
      ("finished_at", .str f.finishedAt), ("status", .str f.status), ("benchmark_mode", .bool f.benchmarkMode),
      ("config_path", f.configPath), ("error_code", f.errorCode)]),
   ("hashes", .dict f.hashes), ("resolution", .dict f.resolution), ("protocol", .dict f.protocol),
   ("versions", .dict f.versions), ("config", .dict f.config), ("artifacts", .dict f.artifacts), ("metrics", f.metrics),
   ("hpo", f.hpo), ("fallback_events", .list f.fallbackEvents), ("error", f.error)]

/-- `write_run_summary` (reporting.py:21-80): the document written, or the error.  Nothing is written when the payload is
not valid. -/
def writeRunSummary (f : RunFacts) : Except PyErr Dict :=
  validatePayload (payloadOf f) >>= fun _ => .ok (payloadOf f)

end ModSSC.Bench
