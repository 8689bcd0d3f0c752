import Verif.Base

/-!
# Model of how a benchmark run settles a method's device, settings and backend

`bench/orchestrators/method_transductive.py` and `bench/orchestrators/method_inductive.py`.  `lower` is `str.lower`, `hasTorch` whether
torch can be imported, `best` the device `resolve_device_name("auto")` finds.  The bundle put into the settings of an inductive method
is modelled in `InjectModel`.
-/

namespace ModSSC.Bench.Resolve

/-- A value of a setting: `None`, a string or something else with its `str`. -/
inductive Val where
  | none
  | str (s : String)
  | other (shown : String)
deriving DecidableEq, Repr

/-- `str(value)`. -/
def Val.shown : Val → String
  | .none => "None"
  | .str s => s
  | .other s => s

/-- The fields of a dataclass, in order. -/
abbrev Settings := List (String × Val)

/-- What calling the method class without arguments does: an exception that is caught (method_transductive.py:40,
method_inductive.py:267), another one, or an object; `spec` is its `spec` if that is a dataclass. -/
inductive Made where
  | caught
  | raised
  | object (spec : Option Settings)
deriving DecidableEq, Repr

/-- The codes of the errors; `typeError` is `replace` with an unknown field, `raised` an exception of the class itself. -/
inductive Err where
  | autoForbidden | introspection | methodSpec | dependency | typeError | raised
deriving DecidableEq, Repr

/-- `_resolve_method_device` (method_transductive.py:22-34). -/
def resolveDevice (best : String) (device : Option String) (supportsGpu strict : Bool) : Except Err (Option String) :=
  match device with
  | none => .ok none
  | some d =>
    if strict ∧ d = "auto" then .error .autoForbidden
    else if d ≠ "auto" then .ok (some d)
    else if ¬ supportsGpu then .ok (some "cpu")
    else .ok (some best)

/-- `_default_spec` (method_transductive.py:37-50; the same in method_inductive.py:264-277). -/
def defaultSpec (made : Made) (strict : Bool) : Except Err (Option Settings) :=
  match made with
  | .raised => .error .raised
  | .caught => if strict then .error .introspection else .ok none
  | .object spec => .ok spec

/-- `replace(spec, **params)` (method_transductive.py:58, method_inductive.py:285). -/
def replaced (spec params : Settings) : Except Err Settings :=
  if params.all (fun p => decide (p.1 ∈ spec.map (·.1))) then .ok (spec.map fun f => (f.1, (params.lookup f.1).getD f.2))
  else .error .typeError

/-- `_build_spec` of method_transductive.py:53-62. -/
def buildTransductive (made : Made) (params : Settings) (strict : Bool) : Except Err (Option Settings) :=
  match defaultSpec made strict with
  | .error e => .error e
  | .ok spec =>
    if params = [] then .ok spec
    else
      match spec with
      | some s =>
        match replaced s params with
        | .error e => .error e
        | .ok s' => .ok (some s')
      | none => .error .methodSpec

/-- The settings in `run` of method_inductive.py:636-638, with `_build_spec` (method_inductive.py:280-289): the class is only looked at if
there are parameters or a model. -/
def buildInductive (made : Made) (params : Settings) (hasModel strict : Bool) : Except Err (Option Settings) :=
  if params = [] then (if hasModel then defaultSpec made strict else .ok none)
  else
    match defaultSpec made strict with
    | .error e => .error e
    | .ok (some s) =>
      match replaced s params with
      | .error e => .error e
      | .ok s' => .ok (some s')
    | .ok none => .error .methodSpec

/-- `params.get("backend")`, then `spec.backend` if that is `None` (method_transductive.py:66-68, method_inductive.py:488-490). -/
def configuredBackend (params : Settings) (spec : Option Settings) : Val :=
  match (params.lookup "backend").getD .none with
  | .none =>
    match spec with
    | some s => (s.lookup "backend").getD .none
    | none => .none
  | v => v

/-- `_resolve_method_backend` of method_transductive.py:65-77. -/
def resolveBackend (lower : String → String) (params : Settings) (spec : Option Settings) (strict : Bool) : Except Err (Option String) :=
  match configuredBackend params spec with
  | .none => .ok none
  | v => if strict ∧ lower v.shown = "auto" then .error .autoForbidden else .ok (some v.shown)

/-- `_ensure_backend_dependencies` (method_transductive.py:80-90). -/
def ensureDependencies (lower : String → String) (hasTorch : Bool) : Option String → Except Err Unit
  | none => .ok ()
  | some b => if lower b = "torch" ∧ ¬ hasTorch then .error .dependency else .ok ()

/-- What a run settles before the fit: the device given to `fit`, the settings given to the class (`none`: none are given) and the
backend it found configured. -/
structure Plan where
  device : Option String
  spec : Option Settings
  backend : Option String
deriving DecidableEq, Repr

/-- The start of `run` of method_transductive.py:200-214. -/
def planTransductive (lower : String → String) (best : String) (hasTorch supportsGpu strict : Bool) (made : Made) (device : Option String)
    (params : Settings) : Except Err Plan :=
  match resolveDevice best device supportsGpu strict with
  | .error e => .error e
  | .ok d =>
    match buildTransductive made params strict with
    | .error e => .error e
    | .ok spec =>
      match resolveBackend lower params spec strict with
      | .error e => .error e
      | .ok b =>
        match ensureDependencies lower hasTorch b with
        | .error e => .error e
        | .ok _ => .ok ⟨d, spec, b⟩

/-- `resolved_backend_final` (method_transductive.py:299-302); `own` is the `_backend` the method has after the fit. -/
def reportTransductive (p : Plan) (own : Option Val) : Option String :=
  match p.backend with
  | some b => some b
  | none =>
    match own with
    | none => none
    | some .none => none
    | some v => some v.shown

/-- The checks of the requested backend in `run` of method_inductive.py:546-560: only a string is looked at. -/
def checkRequested (lower : String → String) (hasTorch strict : Bool) (params : Settings) : Except Err Unit :=
  match (params.lookup "backend").getD .none with
  | .str s =>
    if strict ∧ lower s = "auto" then .error .autoForbidden
    else if lower s = "torch" ∧ ¬ hasTorch then .error .dependency
    else .ok ()
  | _ => .ok ()

/-- `run` of method_inductive.py:546-560,636-650: the device is given to `fit` as it is. -/
def planInductive (lower : String → String) (hasTorch strict hasModel : Bool) (made : Made) (device : Option String) (params : Settings) :
    Except Err Plan :=
  match checkRequested lower hasTorch strict params with
  | .error e => .error e
  | .ok _ =>
    match buildInductive made params hasModel strict with
    | .error e => .error e
    | .ok spec => .ok ⟨device, spec, match configuredBackend params spec with | .none => none | v => some v.shown⟩

/-- `_resolve_method_backend` of method_inductive.py:487-493. -/
def reportInductive (p : Plan) (own : Option Val) : Option String :=
  match p.backend with
  | some b => some b
  | none =>
    match own with
    | none => none
    | some .none => none
    | some v => some v.shown

/-- The backend `poisson_learning` computes with (poisson_learning.py:254-282); `none` is its `ValueError`. -/
def poissonRuns (hasTorch : Bool) (backend : String) : Option String :=
  let b := if backend = "auto" then (if hasTorch then "torch" else "numpy") else backend
  if b = "numpy" ∨ b = "torch" then some b else none

/-- The backend `LabelPropagationMethod.fit` computes with (label_propagation.py:221-247,298); the method has no such setting; `none` is
the `ImportError`. -/
def labelPropagationRuns (hasTorch : Bool) (device : Option String) : Option String :=
  let backend := if device.isSome then "torch" else "auto"
  if backend = "torch" ∨ hasTorch then (if hasTorch then some "torch" else none) else some "numpy"

end ModSSC.Bench.Resolve
