import Verif.Assoc
import Verif.PyVal

/-!
# Model of the classifier registry and of `create_classifier`

`src/modssc/supervised/registry.py`, `api.py`, `optional.py`.
-/

namespace ModSSC.Supervised
open ModSSC

/-- Exceptions of this area (errors.py and builtins). -/
inductive SupErr where
  | unknownClassifier
  | unknownBackend
  | optionalDependency (extra : String)
  | valueError
  | typeError
deriving DecidableEq

/-- `BackendSpec` (types.py:22-28), without notes and GPU flag. -/
structure BackendSpec where
  factory : String
  requiredExtra : Option String
deriving DecidableEq

/-- `ClassifierSpec` (types.py:31-36). -/
structure ClassifierSpec where
  description : String
  backends : List (String × BackendSpec)
  preferred : List String
deriving DecidableEq

/-- `_REGISTRY` and `_BOOTSTRAPPED` (registry.py:10-11). -/
structure Registry where
  specs : List (String × ClassifierSpec)
  bootstrapped : Bool
deriving DecidableEq

/-- A new interpreter. -/
def Registry.empty : Registry := ⟨[], false⟩

/-- `register_classifier` (registry.py:14-30). -/
def registerClassifier (key description : String) (preferred : List String) (r : Registry) : Registry × Except SupErr Unit :=
  match Assoc.get r.specs key with
  | some e => if e.description ≠ description ∨ e.preferred ≠ preferred then (r, .error .valueError) else (r, .ok ())
  | none => ({ r with specs := Assoc.set r.specs key ⟨description, [], preferred⟩ }, .ok ())

/-- `register_backend` (registry.py:33-56). -/
def registerBackend (cid backend : String) (b : BackendSpec) (r : Registry) : Registry × Except SupErr Unit :=
  match Assoc.get r.specs cid with
  | none => (r, .error .unknownClassifier)
  | some spec =>
    if Assoc.has spec.backends backend then (r, .error .valueError)
    else ({ r with specs := Assoc.set r.specs cid { spec with backends := Assoc.set spec.backends backend b } }, .ok ())

/-- An entry of `BUILTIN_CLASSIFIERS` (registry_data.py). -/
structure Entry where
  key : String
  description : String
  preferred : List String
  backends : List (String × BackendSpec)
deriving DecidableEq

/-- The inner loop of `_register_builtin_classifier` (registry.py:65-73). -/
def registerBackends (cid : String) : List (String × BackendSpec) → Registry → Registry × Except SupErr Unit
  | [], r => (r, .ok ())
  | b :: bs, r =>
    match registerBackend cid b.1 b.2 r with
    | (r', .error e) => (r', .error e)
    | (r', .ok _) => registerBackends cid bs r'

/-- `_register_builtin_classifier` (registry.py:59-73). -/
def registerEntry (e : Entry) (r : Registry) : Registry × Except SupErr Unit :=
  match registerClassifier e.key e.description e.preferred r with
  | (r', .error x) => (r', .error x)
  | (r', .ok _) => registerBackends e.key e.backends r'

/-- The loop of `ensure_bootstrap` (registry.py:80-81). -/
def registerEntries : List Entry → Registry → Registry × Except SupErr Unit
  | [], r => (r, .ok ())
  | e :: es, r =>
    match registerEntry e r with
    | (r', .error x) => (r', .error x)
    | (r', .ok _) => registerEntries es r'

/-- `ensure_bootstrap` (registry.py:76-82). -/
def ensureBootstrap (builtins : List Entry) (r : Registry) : Registry × Except SupErr Unit :=
  if r.bootstrapped then (r, .ok ())
  else match registerEntries builtins r with
    | (r', .error x) => (r', .error x)
    | (r', .ok _) => ({ r' with bootstrapped := true }, .ok ())

/-- `get_spec` (registry.py:96-100). -/
def getSpec (builtins : List Entry) (cid : String) (r : Registry) : Registry × Except SupErr ClassifierSpec :=
  match ensureBootstrap builtins r with
  | (r', .error x) => (r', .error x)
  | (r', .ok _) => match Assoc.get r'.specs cid with
    | some s => (r', .ok s)
    | none => (r', .error .unknownClassifier)

/-- `get_backend_spec` (registry.py:103-107), given the classifier's entry. -/
def backendSpec (spec : ClassifierSpec) (backend : String) : Except SupErr BackendSpec :=
  match Assoc.get spec.backends backend with
  | some b => .ok b
  | none => .error .unknownBackend

/-- `_EXTRA_TO_MODULE` (optional.py:10-20). -/
def extraModules : List (String × String) :=
  [("audio", "torchaudio"), ("hf", "datasets"), ("openml", "sklearn"), ("preprocess-text", "transformers"),
   ("sklearn", "sklearn"), ("supervised-torch", "torch"), ("supervised-torch-geometric", "torch_geometric"),
   ("tfds", "tensorflow_datasets"), ("vision", "torchvision")]

/-- `module_for_extra` (optional.py:38-41). -/
def moduleForExtra (extra : String) : String := (Assoc.get extraModules extra).getD extra

/-- The loop over `preferred_backends` (api.py:82-92); `""` if none is available. -/
def chooseBackend (hasModule : String → Bool) (spec : ClassifierSpec) : List String → String
  | [] => ""
  | b :: bs =>
    match Assoc.get spec.backends b with
    | none => chooseBackend hasModule spec bs
    | some s => match s.requiredExtra with
      | none => b
      | some extra => if hasModule (moduleForExtra extra) then b else chooseBackend hasModule spec bs

/-- The error when nothing is available (api.py:93-101). -/
def unavailable (spec : ClassifierSpec) : SupErr :=
  match Assoc.get spec.backends (spec.preferred.headD "unknown") with
  | some s => match s.requiredExtra with
    | some extra => if extra = "" then .unknownBackend else .optionalDependency extra
    | none => .unknownBackend
  | none => .unknownBackend

/-- The chosen backend (api.py:78-103). -/
def resolveBackend (hasModule : String → Bool) (spec : ClassifierSpec) (backend : String) : Except SupErr String :=
  if backend = "auto" then
    let b := chooseBackend hasModule spec spec.preferred
    if b = "" then .error (unavailable spec) else .ok b
  else .ok backend

/-- `int(v)`; `parse` reads a string. -/
def toInt (parse : String → Option Int) : PyVal → Except SupErr Int
  | .int i => .ok i
  | .bool b => .ok (if b then 1 else 0)
  | .flt q => .ok (pyInt q)
  | .str s => match parse s with
    | some i => .ok i
    | none => .error .valueError
  | _ => .error .typeError

/-- Keyword arguments. -/
abbrev Params := List (String × PyVal)

/-- `alias` of api.py:17-21: `None` is `none`. -/
def lstmAlias (params : Params) : Option PyVal :=
  let clean : PyVal → Option PyVal := fun v => match v with
    | .none => none
    | v => some v
  match (Assoc.get params "hidden_size").bind clean with
  | some v => some v
  | none => match Assoc.get params "hidden_sizes" with
    | some (.list []) => none
    | some (.list (v :: _)) => clean v
    | some v => clean v
    | none => none

/-- `_normalize_classifier_params` (api.py:12-27); tuples are lists here. -/
def normalizeParams (parse : String → Option Int) (cid : String) (params : Params) : Except SupErr Params :=
  if cid = "lstm_scratch" then
    match lstmAlias params with
    | some v =>
      if Assoc.has params "hidden_dim" then .ok (Assoc.erase (Assoc.erase params "hidden_sizes") "hidden_size")
      else match toInt parse v with
        | .ok i => .ok (Assoc.erase (Assoc.erase (Assoc.set params "hidden_dim" (.int i)) "hidden_sizes") "hidden_size")
        | .error e => .error e
    | none => .ok (Assoc.erase (Assoc.erase params "hidden_sizes") "hidden_size")
  else .ok params

/-- `ClassifierRuntime` (types.py:9-18), the fields used. -/
structure Runtime where
  seed : Option Int
  nJobs : Option Int
deriving DecidableEq

/-- One injected default (api.py:108-111). -/
def injectOne (key : String) (v : Option Int) (params : Params) : Params :=
  match v with
  | some i => if Assoc.has params key then params else Assoc.set params key (.int i)
  | none => params

/-- Runtime injection (api.py:107-111). -/
def inject (rt : Runtime) (params : Params) : Params := injectOne "n_jobs" rt.nJobs (injectOne "seed" rt.seed params)

/-- `create_classifier` (api.py:61-114) up to the constructor call: the registry, and the factory with the keyword
arguments it is called with. -/
def createClassifier (builtins : List Entry) (hasModule : String → Bool) (parse : String → Option Int) (cid backend : String)
    (params : Params) (rt : Runtime) (r : Registry) : Registry × Except SupErr (String × Params) :=
  match getSpec builtins cid r with
  | (r', .error e) => (r', .error e)
  | (r', .ok spec) => (r', do
    let ps ← normalizeParams parse cid params
    let b ← resolveBackend hasModule spec backend
    let bs ← backendSpec spec b
    .ok (bs.factory, inject rt ps))

end ModSSC.Supervised
