import Verif.Utils.Model

/-!
# Method registries with built-in methods

Models how `src/modssc/utils/registry.py:42-135` combines the registry of `Verif.Utils.Model` with the
function that registers the built-in methods, as `src/modssc/inductive/registry.py:29-164` and
`src/modssc/transductive/registry.py` use it.  The list of built-in methods is a parameter; importing a
class is a parameter.
-/

namespace ModSSC.Utils.Builtin
open ModSSC ModSSC.Utils

variable {C : Type}

/-- `register_builtin_methods` (`inductive/registry.py:33-143`, `transductive/registry.py:33-92`): the
registrations in order, up to the first that raises. -/
def ensure : List Call → Registry → Registry × Option PyErr
  | [], r => (r, none)
  | b :: bs, r => match register r b.id b.path b.status with
    | .ok r' => ensure bs r'
    | .error e => (r, some e)

/-- `mod_name, cls_name = import_path.split(":")`, `import_module`, `getattr`
(`utils/registry.py:50-53`): anything but two parts raises. -/
def importClass (imp : String → String → Except PyErr C) (path : String) : Except PyErr C :=
  match path.toList.splitOn ':' with
  | [m, c] => imp (String.ofList m) (String.ofList c)
  | _ => .error .valueError

/-- What a program does with a registry: `register_method`, `available_methods`,
`get_method_class`. -/
inductive Op where
  | reg (c : Call)
  | list (availableOnly : Bool)
  | load (id : String)

/-- What it gets back. -/
inductive Out (C : Type) where
  | done
  | ids (l : List String)
  | cls (c : C)
  | raised (e : PyErr)
deriving DecidableEq

/-- A result or an exception as an outcome. -/
def Out.ofClass : Except PyErr C → Out C
  | .ok c => .cls c
  | .error e => .raised e

/-- One operation (`utils/registry.py:56-106`). -/
def step (bs : List Call) (imp : String → String → Except PyErr C) (r : Registry) :
    Op → Registry × Out C
  | .reg c => match register r c.id c.path c.status with
    | .ok r' => (r', .done)
    | .error e => (r, .raised e)
  | .list a => match ensure bs r with
    | (r', some e) => (r', .raised e)
    | (r', none) => (r', .ids (availableMethodIds r' a))
  | .load id => match ensure bs r with
    | (r', some e) => (r', .raised e)
    | (r', none) => match Assoc.get r' id with
      | none => (r', .raised .keyError)
      | some ref => (r', .ofClass (importClass imp ref.importPath))

/-- The registry after a history of operations, starting empty. -/
def after (bs : List Call) (imp : String → String → Except PyErr C) : List Op → Registry → Registry
  | [], r => r
  | o :: os, r => after bs imp os (step bs imp r o).1

end ModSSC.Utils.Builtin
