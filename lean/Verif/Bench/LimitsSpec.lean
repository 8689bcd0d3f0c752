import Verif.PyVal
import Verif.Assoc

/-!
# Specification of configuration edits: paths and patterns
-/

namespace ModSSC.Bench.Spec
open ModSSC

/-- One step into a nested configuration. -/
inductive Step where
  | key (k : String)
  | item (i : Nat)
deriving DecidableEq

/-- The value found along a path, if there is one. -/
def lookup : List Step → PyVal → Option PyVal
  | [], v => some v
  | .key k :: p, .dict d => (Assoc.get d k).bind (lookup p)
  | .item i :: p, .list l => l[i]?.bind (lookup p)
  | _, _ => none

/-- A step of a pattern: a key, or any list position. -/
inductive Pat where
  | key (k : String)
  | any
deriving DecidableEq

/-- A path of the form of a pattern. -/
def Matches : List Pat → List Step → Prop
  | [], [] => True
  | .key a :: p, .key b :: q => a = b ∧ Matches p q
  | .any :: p, .item _ :: q => Matches p q
  | _, _ => False

/-- A path that leads to, through or beyond a place of the form of a pattern. -/
def Touches : List Pat → List Step → Prop
  | [], _ => True
  | _, [] => True
  | .key a :: p, .key b :: q => a = b ∧ Touches p q
  | .any :: p, .item _ :: q => Touches p q
  | _, _ => False

/-- The integer an entry stands for: numbers (truncated) and numerals, but not booleans or null. -/
def intValue (parse : String → Option Int) : PyVal → Option Int
  | .int i => some i
  | .flt q => some (if 0 ≤ q then q.floor else -((-q).floor))
  | .str s => parse s
  | _ => none

/-- An entry before and after limiting by `limit`: without limit it stays; a value above the limit becomes the
limit, every other value stays; a missing entry stays missing or becomes the limit. -/
def Limited (parse : String → Option Int) (limit : Option Int) (before after : Option PyVal) : Prop :=
  match limit with
  | none => after = before
  | some L =>
    match before with
    | some v => (∀ n, intValue parse v = some n → L < n → after = some (.int L)) ∧
        ((∀ n, intValue parse v = some n → n ≤ L) → after = some v)
    | none => after = none ∨ after = some (.int L)

/-- The limits of a run. -/
structure Limits where
  preprocess : Option Int
  method : Option Int
  sup : Option Int
  chunk : Option Int
  train : Option Int
  test : Option Int

/-- The limited places of a configuration. -/
def table (r : Limits) : List (List Pat × Option Int) :=
  [([.key "dataset", .key "options", .key "max_train_samples"], r.train),
   ([.key "dataset", .key "options", .key "max_test_samples"], r.test),
   ([.key "preprocess", .key "plan", .key "steps", .any, .key "params", .key "batch_size"], r.preprocess),
   ([.key "views", .key "plan", .key "views", .any, .key "preprocess", .key "steps", .any, .key "params",
     .key "batch_size"], r.preprocess),
   ([.key "method", .key "params", .key "batch_size"], r.method),
   ([.key "method", .key "params", .key "sup_batch_size"], r.sup),
   ([.key "method", .key "params", .key "classifier_params", .key "batch_size"], r.method),
   ([.key "method", .key "model", .key "classifier_params", .key "batch_size"], r.method),
   ([.key "graph", .key "spec", .key "chunk_size"], r.chunk)]

end ModSSC.Bench.Spec
