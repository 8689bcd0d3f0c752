import Verif.Preprocess.Types
import Verif.PyVal

/-!
# Reading and writing preprocessing plans

`src/modssc/preprocess/plan.py`.  YAML itself (`yaml.safe_load`, `yaml.safe_dump`) and `str(x)` are parameters; mappings have
string keys.
-/

namespace ModSSC.Preprocess
open ModSSC

/-- A plan whose step parameters are plain data. -/
abbrev DataPlan := Plan (List (String × PyVal))

/-- One entry of `steps` in `PreprocessPlan.to_dict`, plan.py l.38-44. -/
def stepDict (s : StepConfig (List (String × PyVal))) : PyVal :=
  .dict [("id", .str s.stepId), ("params", .dict s.params), ("modalities", .list (s.modalities.map .str)),
    ("requires_fields", .list (s.requires.map .str)), ("enabled", .bool s.enabled)]

/-- `PreprocessPlan.to_dict`, plan.py l.35-47. -/
def planDict (p : DataPlan) : PyVal :=
  .dict [("output_key", .str p.outputKey), ("steps", .list (p.steps.map stepDict))]

/-- `tuple(str(m) for m in (value or ()))`, plan.py l.77-78: a string is a sequence of characters, a mapping one of keys. -/
def strTuple (text : PyVal → String) (v : PyVal) : Except PyErr (List String) :=
  if v.truthy then
    match v with
    | .list l => .ok (l.map text)
    | .str s => .ok (s.toList.map fun c => String.ofList [c])
    | .dict d => .ok (d.map (·.1))
    | _ => .error .typeError
  else .ok []

/-- `x or y`. -/
def orElse (x y : PyVal) : PyVal := if x.truthy then x else y

/-- One iteration of the loop of `load_plan`, plan.py l.66-88. -/
def loadStep (text : PyVal → String) : PyVal → Except PyErr (StepConfig (List (String × PyVal)))
  | .dict item => do
    let stepId := text (orElse (PyVal.getD item "id" .none) (PyVal.getD item "step_id" .none))
    if stepId = "" then .error .valueError
    else
      match orElse (PyVal.getD item "params" (.dict [])) (.dict []) with
      | .dict params => do
        let modalities ← strTuple text (PyVal.getD item "modalities" .none)
        let requires ← strTuple text (PyVal.getD item "requires_fields" .none)
        .ok ⟨stepId, params, modalities, requires, (PyVal.getD item "enabled" (.bool true)).truthy⟩
      | _ => .error .valueError
  | _ => .error .valueError

/-- `load_plan` after `yaml.safe_load`, plan.py l.53-90. -/
def loadData (text : PyVal → String) : PyVal → Except PyErr DataPlan
  | .dict data =>
    let outputKey := text (PyVal.getD data "output_key" (.str "features.X"))
    match PyVal.getD data "steps" (.list []) with
    | .list l => do
      let steps ← l.mapM (loadStep text)
      .ok ⟨steps, outputKey⟩
    | .str s => if s = "" then .ok ⟨[], outputKey⟩ else .error .valueError
    | _ => .error .valueError
  | _ => .error .valueError

/-- YAML text of plain data and its reader. -/
structure Yaml where
  dump : PyVal → String
  load : String → Except PyErr PyVal

/-- `load_plan`, plan.py l.53-90, on the text of the file. -/
def loadPlan (Y : Yaml) (text : PyVal → String) (file : String) : Except PyErr DataPlan := do
  let data ← Y.load file
  loadData text data

/-- The text written by `dump_plan`, plan.py l.93-95. -/
def dumpPlan (Y : Yaml) (p : DataPlan) : String := Y.dump (planDict p)

end ModSSC.Preprocess
