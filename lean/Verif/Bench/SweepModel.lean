import Verif.Bench.LimitsModel

/-!
# Model of seed sweeps

`bench/seed_sweep.py`, `bench/main.py:1021-1090`, `bench/schema.py:62-80`, `bench/context.py:60-61`.
A configuration is plain Python data without shared parts; `deepcopy` is then the value itself.
-/

namespace ModSSC.Bench
open ModSSC

/-- `_SEEDED_SECTIONS` (seed_sweep.py:7). -/
def seededSections : List String := ["sampling", "preprocess", "views", "graph", "augmentation", "search"]

/-- `if isinstance(block, dict): block["seed"] = int(seed)` (seed_sweep.py:31-33). -/
def setSeed (seed : Int) (v : PyVal) : PyVal :=
  match v with
  | .dict d => .dict (Assoc.set d "seed" (.int seed))
  | v => v

/-- The `run` section of a sweep run (seed_sweep.py:22-28). -/
def sweepRun (seed : Int) (name : Option String) (run : Option PyVal) : Dict :=
  let r := match run with
    | some (.dict r) => r
    | _ => []
  let r := Assoc.set (Assoc.erase r "seeds") "seed" (.int seed)
  match name with
  | some n => Assoc.set r "name" (.str n)
  | none => r

/-- `apply_global_seed` (seed_sweep.py:15-35). -/
def applyGlobalSeed (seed : Int) (name : Option String) (raw : Dict) : Dict :=
  seededSections.foldl (fun out s => modifyKey s (setSeed seed) out)
    (Assoc.set raw "run" (.dict (sweepRun seed name (Assoc.get raw "run"))))

/-- `sweep_run_name` (seed_sweep.py:10-12). -/
def sweepRunName (base : String) (seed : Int) : String := base ++ "-seed" ++ seed.repr

/-- An item of `run.seeds` (schema.py:72-75); `isinstance(True, int)` holds. -/
def seedItem : PyVal → Option Int
  | .int i => some i
  | .bool b => some (if b then 1 else 0)
  | _ => none

/-- The loop of `_optional_seed_list` (schema.py:70-80). -/
def seedLoop : List PyVal → List Int → Except PyErr (List Int)
  | [], out => .ok out
  | v :: vs, out =>
    match seedItem v with
    | none => .error .validation
    | some s => if s ∈ out then .error .validation else seedLoop vs (out ++ [s])

/-- `_optional_seed_list` (schema.py:62-80). -/
def optionalSeedList : Option PyVal → Except PyErr (Option (List Int))
  | none => .ok none
  | some .none => .ok none
  | some (.list []) => .error .validation
  | some (.list l) => (seedLoop l []).map some
  | some _ => .error .validation

/-- The seeds of an experiment, or `none` for a plain run (main.py:1028-1042). -/
def sweepSeeds (numRuns : Option Nat) (seed : Int) (seeds : Option (List Int)) : Option (List Int) :=
  match numRuns with
  | some n => some ((List.range n).map (fun (i : Nat) => seed + (i : Int)))
  | none =>
    match seeds with
    | some (s :: l) => some (s :: l)
    | _ => none

/-- The configuration of one run of a sweep (main.py:1053-1059). -/
def sweepConfig (base outDir : String) (raw : Dict) (seed : Int) : Dict :=
  modifyKey "run" (fun v => match v with
    | .dict r => .dict (Assoc.set r "output_dir" (.str outDir))
    | v => v) (applyGlobalSeed seed (some (sweepRunName base seed)) raw)

/-- `seed_for` (context.py:60-61): the seed of a part of a run; `derive` is `derive_seed`. -/
def seedFor (derive : Int → String → Int) (runSeed : Int) (label : String) (override : Option Int) : Int :=
  match override with
  | some s => s
  | none => derive runSeed label

end ModSSC.Bench
