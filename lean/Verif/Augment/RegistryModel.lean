import Verif.Assoc
import Verif.PyVal
import Mathlib.Data.String.Basic

/-!
# Model of the augmentation registry and of `build_pipeline`

`src/modssc/data_augmentation/registry.py`, `api.py:66-90`.  The built-in operations live in modules that are imported
when one of their operations is first requested; importing a module runs its `@register_op` decorators.
-/

namespace ModSSC.Augment
open ModSSC

/-- The identity of a class object: a user's class, or the class of a built-in operation as created by the `n`-th import
in the process. -/
inductive Ident where
  | user (n : Nat)
  | builtin (n : Nat) (opId : String)
deriving DecidableEq

/-- An operation class: its `modality` and the names of its constructor's parameters.  Simplification: classes are
dataclasses whose fields all have defaults, as all built-in ones are. -/
structure Cls where
  ident : Ident
  modality : String
  fields : List String
deriving DecidableEq

/-- A built-in operation: its row in `_BUILTIN_OPS` (registry.py:14-48: module and modality) and what its class says
(ops/*.py: modality and parameters). -/
structure Builtin where
  opId : String
  module : String
  modality : String
  clsModality : String
  fields : List String
deriving DecidableEq

/-- The built-in operations, for each module in the order of its file. -/
def builtinOps : List Builtin :=
  [⟨"audio.add_noise", "audio", "audio", "audio", ["op_id", "modality", "std"]⟩,
   ⟨"audio.time_shift", "audio", "audio", "audio", ["op_id", "modality", "max_frac"]⟩,
   ⟨"core.identity", "core", "any", "any", ["op_id", "modality"]⟩,
   ⟨"core.ensure_float32", "core", "any", "any", ["op_id", "modality"]⟩,
   ⟨"graph.edge_dropout", "graph", "graph", "graph", ["op_id", "modality", "p"]⟩,
   ⟨"graph.feature_mask", "graph", "graph", "graph", ["op_id", "modality", "p"]⟩,
   ⟨"tabular.gaussian_noise", "tabular", "tabular", "tabular", ["op_id", "modality", "std"]⟩,
   ⟨"tabular.feature_dropout", "tabular", "tabular", "tabular", ["op_id", "modality", "p"]⟩,
   ⟨"tabular.swap_noise", "tabular", "tabular", "tabular", ["op_id", "modality", "p"]⟩,
   ⟨"text.lowercase", "text", "text", "text", ["op_id", "modality"]⟩,
   ⟨"text.word_dropout", "text", "text", "text", ["op_id", "modality", "p"]⟩,
   ⟨"text.random_swap", "text", "text", "text", ["op_id", "modality", "n_swaps"]⟩,
   ⟨"text.token_mask", "text", "text", "text", ["op_id", "modality", "p", "mask_token_id", "pad_token_id"]⟩,
   ⟨"text.token_swap", "text", "text", "text", ["op_id", "modality", "n_swaps", "pad_token_id"]⟩,
   ⟨"vision.random_horizontal_flip", "vision", "vision", "vision", ["op_id", "modality", "p"]⟩,
   ⟨"vision.gaussian_noise", "vision", "vision", "vision", ["op_id", "modality", "std"]⟩,
   ⟨"vision.cutout", "vision", "vision", "vision", ["op_id", "modality", "frac", "n_holes", "length", "fill"]⟩,
   ⟨"vision.random_crop_pad", "vision", "vision", "vision", ["op_id", "modality", "pad", "padding"]⟩]

/-- `_RUNTIME_OPS` (registry.py:12), the imported modules (`sys.modules`) and the number of imports so far. -/
structure OpReg where
  runtime : List (String × Cls)
  loaded : List String
  imports : Nat

/-- A new interpreter. -/
def OpReg.empty : OpReg := ⟨[], [], 0⟩

/-- The decorator returned by `register_op` (registry.py:51-66), on a class with `op_id` and `modality`. -/
def registerOp (opId : String) (c : Cls) (r : OpReg) : OpReg × Except PyErr Unit :=
  match Assoc.get r.runtime opId with
  | some e => if e.ident = c.ident then ({ r with runtime := Assoc.set r.runtime opId c }, .ok ()) else (r, .error .validation)
  | none => ({ r with runtime := Assoc.set r.runtime opId c }, .ok ())

/-- The decorators that importing a module runs, in the order of the file; the first error ends the import. -/
def registerAll (n : Nat) : List Builtin → OpReg → OpReg × Except PyErr Unit
  | [], r => (r, .ok ())
  | b :: bs, r =>
    match registerOp b.opId ⟨.builtin n b.opId, b.clsModality, b.fields⟩ r with
    | (r', .error e) => (r', .error e)
    | (r', .ok _) => registerAll n bs r'

/-- `importlib.import_module` for a module of built-in operations: nothing if it is imported already; a failing import
leaves the module out of `sys.modules` but keeps what was registered. -/
def importModule (B : List Builtin) (module : String) (r : OpReg) : OpReg × Except PyErr Unit :=
  if module ∈ r.loaded then (r, .ok ())
  else
    match registerAll r.imports (B.filter (fun b => b.module = module)) { r with imports := r.imports + 1 } with
    | (r', .error e) => (r', .error e)
    | (r', .ok _) => ({ r' with loaded := module :: r'.loaded }, .ok ())

/-- `_get_cls` with `_load_builtin_cls` (registry.py:68-76).  The class found in an imported module is the one its
import created; it is read from the registry here, where the import has put it.  (Should the registry have another
class under that id, `_get_cls` returns that one without a look at the module.) -/
def getCls (B : List Builtin) (opId : String) (r : OpReg) : OpReg × Except PyErr Cls :=
  match Assoc.get r.runtime opId with
  | some c => (r, .ok c)
  | none =>
    match B.find? (fun b => b.opId = opId) with
    | none => (r, .error .validation)
    | some b =>
      match importModule B b.module r with
      | (r', .error e) => (r', .error e)
      | (r', .ok _) => match Assoc.get r'.runtime opId with
        | some c => (r', .ok c)
        | none => (r', .error .validation)

/-- An operation: its class and its own `modality`. -/
structure Inst where
  cls : Cls
  modality : PyVal
  params : List (String × PyVal)
deriving DecidableEq

/-- `get_op` (registry.py:105-113): unknown parameter names are refused; `modality` is a parameter like the others. -/
def getOp (B : List Builtin) (opId : String) (params : List (String × PyVal)) (r : OpReg) : OpReg × Except PyErr Inst :=
  match getCls B opId r with
  | (r', .error e) => (r', .error e)
  | (r', .ok c) =>
    if (Assoc.keys params).all (fun k => k ∈ c.fields) then
      (r', .ok ⟨c, (Assoc.get params "modality").getD (.str c.modality), params⟩)
    else (r', .error .validation)

/-- `op_modality not in ("any", plan.modality)` (api.py:75-77); without a plan modality everything fits. -/
def fits (plan : Option String) (m : PyVal) : Bool :=
  match plan with
  | none => true
  | some p => m = .str "any" || m = .str p

/-- `build_pipeline` (api.py:66-83) on a tuple of `StepConfig`s. -/
def buildPipeline (B : List Builtin) (plan : Option String) : List (String × List (String × PyVal)) → OpReg →
    OpReg × Except PyErr (List Inst)
  | [], r => (r, .ok [])
  | st :: rest, r =>
    match getOp B st.1 st.2 r with
    | (r', .error e) => (r', .error e)
    | (r', .ok i) =>
      if fits plan i.modality then
        match buildPipeline B plan rest r' with
        | (r'', .error e) => (r'', .error e)
        | (r'', .ok l) => (r'', .ok (i :: l))
      else (r', .error .validation)

/-- The modality `available_ops` uses for an id (registry.py:95-99). -/
def listedModality (B : List Builtin) (r : OpReg) (opId : String) : String :=
  match Assoc.get r.runtime opId with
  | some c => c.modality
  | none => match B.find? (fun b => b.opId = opId) with
    | some b => b.modality
    | none => ""

/-- `sorted(set(_BUILTIN_OPS) | set(_RUNTIME_OPS))` (registry.py:89). -/
def allIds (B : List Builtin) (r : OpReg) : List String :=
  ((B.map (·.opId) ++ Assoc.keys r.runtime).dedup).mergeSort (fun a b => decide (a ≤ b))

/-- `available_ops` (registry.py:87-102). -/
def availableOps (B : List Builtin) (modality : Option String) (r : OpReg) : List String :=
  match modality with
  | none => allIds B r
  | some m => (allIds B r).filter (fun i => listedModality B r i = m || listedModality B r i = "any")

/-- What a program does with the registry. -/
inductive OpCall where
  | register (opId : String) (c : Cls)
  | get (opId : String) (params : List (String × PyVal))
  | build (plan : Option String) (steps : List (String × List (String × PyVal)))

/-- One call; exceptions are caught and the program goes on. -/
def OpCall.run (B : List Builtin) (r : OpReg) : OpCall → OpReg
  | .register i c => (registerOp i c r).1
  | .get i p => (getOp B i p r).1
  | .build m s => (buildPipeline B m s r).1

end ModSSC.Augment
