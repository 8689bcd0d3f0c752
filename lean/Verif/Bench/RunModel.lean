import Verif.Bench.SchemaModel

/-!
# Model of runs and sweeps: directories, reports, exit codes

`bench/context.py`: run directories.  `bench/main.py`: `_run_experiment_single` (its control flow), `run_experiment`,
`_sync_ctx_run_identity`.
-/

namespace ModSSC.Bench
open ModSSC

/-! ### Directories -/

/-- `f"{n:02d}"`. -/
def pad2 (n : Nat) : String := if n < 10 then "0" ++ n.repr else n.repr

/-- `candidate.with_name(f"{candidate.name}__r{suffix:02d}")` (context.py:20). -/
def suffixed (path : String) (n : Nat) : String := path ++ ("__r" ++ pad2 n)

/-- The loop of `next_available_run_dir` (context.py:18-23).  There are finitely many directories, so it ends; `fuel` is
the number of attempts. -/
def nextLoop (taken : List String) (path : String) : Nat → Nat → String
  | 0, n => suffixed path n
  | fuel + 1, n => if suffixed path n ∈ taken then nextLoop taken path fuel (n + 1) else suffixed path n

/-- `next_available_run_dir` (context.py:12-23). -/
def nextDir (taken : List String) (path : String) : String :=
  if path ∈ taken then nextLoop taken path taken.length 1 else path

/-- A directory and its files: the process that wrote each one, and its name. -/
abbrev Files := List (String × Nat)

/-- Directories that exist. -/
abbrev Disk := List (String × Files)

/-- Where a process is: before it has a directory, after it has picked a free name, after `mkdir`, after it has picked
a new name for its directory, in a sweep with a root directory, or stopped by an error. -/
inductive Phase where
  | idle
  | picked (dir : String)
  | owns (dir : String)
  | moving (dir target : String)
  | sweep (root : String)
  | stopped
deriving DecidableEq

/-- What a process does next. -/
inductive Act where
  /-- `next_available_run_dir(self.run_dir)` in `ensure_dirs` (context.py:65). -/
  | pick (path : String)
  /-- `self.run_dir.mkdir(parents=True, exist_ok=False)` (context.py:66). -/
  | mkdir
  /-- Write a file of the run. -/
  | write (file : String)
  /-- `next_available_run_dir(desired_dir)` in `_sync_ctx_run_identity` (main.py:517-518). -/
  | pickNew (path : String)
  /-- `old_run_dir.rename(new_run_dir)` (main.py:525): POSIX `rename` replaces an existing empty directory. -/
  | rename
  /-- `next_available_run_dir` for the root of a sweep (main.py:1045-1047). -/
  | pickRoot (path : String)
  /-- `self.output_dir.mkdir(parents=True, exist_ok=True)` in the first run of a sweep (context.py:64). -/
  | mkRoot
  /-- Write the summary of a sweep. -/
  | writeRoot (file : String)
deriving DecidableEq

/-- The disk and all processes. -/
structure World where
  disk : Disk
  phase : Nat → Phase

def World.put (w : World) (p : Nat) (ph : Phase) : World :=
  { w with phase := fun q => if q = p then ph else w.phase q }

/-- Write a file into a directory that exists. -/
def writeFile (d : Disk) (dir file : String) (p : Nat) : Disk :=
  match Assoc.get d dir with
  | some fs => Assoc.set d dir (Assoc.set fs file p)
  | none => d

/-- One step of process `p`; actions that do not fit its phase do nothing. -/
def World.step (w : World) (p : Nat) : Act → World
  | .pick path =>
    match w.phase p with
    | .idle => w.put p (.picked (nextDir (Assoc.keys w.disk) path))
    | _ => w
  | .mkdir =>
    match w.phase p with
    | .picked dir =>
      if Assoc.has w.disk dir then w.put p .stopped
      else { w with disk := Assoc.set w.disk dir [] }.put p (.owns dir)
    | _ => w
  | .write file =>
    match w.phase p with
    | .owns dir => if Assoc.has w.disk dir then { w with disk := writeFile w.disk dir file p } else w.put p .stopped
    | _ => w
  | .pickNew path =>
    match w.phase p with
    | .owns dir => w.put p (.moving dir (nextDir (Assoc.keys w.disk) path))
    | _ => w
  | .rename =>
    match w.phase p with
    | .moving dir target =>
      match Assoc.get w.disk dir, Assoc.get w.disk target with
      | some fs, none => { w with disk := Assoc.set (Assoc.erase w.disk dir) target fs }.put p (.owns target)
      | some fs, some [] => { w with disk := Assoc.set (Assoc.erase w.disk dir) target fs }.put p (.owns target)
      | _, _ => w.put p .stopped
    | _ => w
  | .pickRoot path =>
    match w.phase p with
    | .idle => w.put p (.sweep (nextDir (Assoc.keys w.disk) path))
    | _ => w
  | .mkRoot =>
    match w.phase p with
    | .sweep root => if Assoc.has w.disk root then w else { w with disk := Assoc.set w.disk root [] }
    | _ => w
  | .writeRoot file =>
    match w.phase p with
    | .sweep root => { w with disk := writeFile w.disk root file p }
    | _ => w

/-- A schedule. -/
def World.run (w : World) : List (Nat × Act) → World
  | [] => w
  | (p, a) :: s => (w.step p a).run s

/-- Nobody has started. -/
def World.init (d : Disk) : World := ⟨d, fun _ => .idle⟩

/-! ### One run -/

/-- How `_run_experiment_single` ends. -/
inductive RunOut where
  | code (n : Nat)
  | raised (e : PyErr)
deriving DecidableEq

/-- What a run leaves: its directory, and the status, error and metrics of its `run.json`. -/
structure RunTrace (M : Type) where
  dir : Bool
  report : Option (String × Option PyErr × Option M)
  out : RunOut
deriving DecidableEq

/-- Iterating over a value. -/
def pyIter : PyVal → Except PyErr (List PyVal)
  | .list l => .ok l
  | .str s => .ok (s.toList.map (fun c => .str (String.singleton c)))
  | .dict d => .ok ((Assoc.keys d).map .str)
  | _ => .error .typeError

/-- The loop over the views that collects the requested normalization, before the `try` (main.py:582-585): it fails when
the views cannot be iterated.  Simplification: what it collects goes into the report only and is not modelled. -/
def viewsLoop : Option PlanConfig → Except PyErr Unit
  | none => .ok ()
  | some v => (pyIter (getOr v.plan "views" (.list []))).map (fun _ => ())

/-- `_run_experiment_single` (main.py:531-1019): `setup` is everything before the run directory exists, `body` the `try`
block.  Simplification: writing the report succeeds. -/
def runSingle {M : Type} (cfg : ExperimentConfig) (setup : Except PyErr Unit) (body : Except PyErr M) : RunTrace M :=
  match setup with
  | .error e => ⟨false, none, .raised e⟩
  | .ok _ =>
    match viewsLoop cfg.views with
    | .error e => ⟨true, none, .raised e⟩
    | .ok _ =>
      match body with
      | .error e =>
        ⟨true, some ("failed", some e, none), if cfg.run.benchmarkMode || cfg.run.failFast then .raised e else .code 1⟩
      | .ok m => ⟨true, some ("success", none, some m), .code 0⟩

/-! ### Sweeps -/

/-- The state of the loop over the seeds: seeds tried, seeds with a result, failures. -/
structure SweepState where
  tried : List Int
  results : List Int
  failures : Nat
deriving DecidableEq

/-- The loop of `run_experiment` (main.py:1050-1074); `stop` is `benchmark_mode or fail_fast`. -/
def sweepLoop (single : Int → RunOut) (stop : Bool) : List Int → SweepState → SweepState × Option PyErr
  | [], st => (st, none)
  | s :: l, st =>
    match single s with
    | .raised e =>
      if stop then ({ st with tried := st.tried ++ [s] }, some e)
      else sweepLoop single stop l { st with tried := st.tried ++ [s], failures := st.failures + 1 }
    | .code 0 => sweepLoop single stop l { st with tried := st.tried ++ [s], results := st.results ++ [s] }
    | .code (_ + 1) =>
      if stop then (⟨st.tried ++ [s], st.results ++ [s], st.failures + 1⟩, some .runtimeError)
      else sweepLoop single stop l ⟨st.tried ++ [s], st.results ++ [s], st.failures + 1⟩

/-- What an experiment leaves: the seeds tried, the seeds in the summary of the sweep (if one is written), and the exit
code or error. -/
structure SweepTrace where
  tried : List Int
  summary : Option (List Int)
  out : Except PyErr Nat
deriving DecidableEq

/-- The end of `run_experiment` (main.py:1076-1091). -/
def sweepEnd (st : SweepState) (err : Option PyErr) : SweepTrace :=
  match err with
  | some e => ⟨st.tried, none, .error e⟩
  | none => ⟨st.tried, if st.results = [] then none else some st.results, .ok (if st.failures = 0 then 0 else 1)⟩

/-- The exit code of a plain run. -/
def RunOut.toExcept : RunOut → Except PyErr Nat
  | .code n => .ok n
  | .raised e => .error e

/-- One run of a sweep: its configuration is read again (main.py:1051-1062). -/
def sweepSingle (env : SchemaEnv) (run : Dict → ExperimentConfig → RunOut) (base root : String) (raw : Dict) (s : Int) :
    RunOut :=
  match configFromDict env (sweepConfig base root raw s) with
  | .error e => .raised e
  | .ok c => run (sweepConfig base root raw s) c

/-- `run_experiment` (main.py:1022-1091); `root` is the root directory of the sweep.  Simplification: the configuration
of every run is read inside the loop's error handling (reading it cannot fail, `C130_sweep`). -/
def runExperiment (env : SchemaEnv) (run : Dict → ExperimentConfig → RunOut) (root : String) (raw : Dict)
    (numRuns : Option Int) : SweepTrace :=
  if numRuns.any (fun n => decide (n ≤ 0)) then ⟨[], none, .error .valueError⟩
  else
    match configFromDict env raw with
    | .error e => ⟨[], none, .error e⟩
    | .ok c =>
      match sweepSeeds (numRuns.map Int.toNat) c.run.seed c.run.seeds with
      | none => ⟨[c.run.seed], none, (run raw c).toExcept⟩
      | some seeds =>
        let (st, err) := sweepLoop (sweepSingle env run c.run.name root raw) (c.run.benchmarkMode || c.run.failFast) seeds
          ⟨[], [], 0⟩
        sweepEnd st err

end ModSSC.Bench
