import Verif.Preprocess.PlanModel

/-!
# Specification of plan files
-/

namespace ModSSC.Preprocess.Spec
open ModSSC ModSSC.Preprocess

/-- `str(x)` of a string is the string, of `None` the word `None`; only the empty string has an empty text. -/
structure TextLaw (text : PyVal → String) : Prop where
  str : ∀ s, text (.str s) = s
  none : text .none = "None"
  empty : ∀ v, text v = "" → v = .str ""

/-- The entry of a mapping; absent and null are the same. -/
def entry (item : List (String × PyVal)) (key : String) : PyVal := (PyVal.lookup item key).getD .none

/-- A list of strings in a plan file: absent, null or otherwise empty, or a list. -/
def IsNames (v : PyVal) : Prop := v.truthy = false ∨ ∃ l, v = .list l

/-- A well-formed step entry: a mapping with a non-empty text under `id`, with a mapping (or nothing) under `params` and lists
(or nothing) under `modalities` and `requires_fields`. -/
def IsStepEntry (v : PyVal) : Prop :=
  ∃ item, v = .dict item ∧ (∃ s, entry item "id" = .str s ∧ s ≠ "") ∧
    ((entry item "params").truthy = false ∨ ∃ d, entry item "params" = .dict d) ∧
    IsNames (entry item "modalities") ∧ IsNames (entry item "requires_fields")

/-- The texts in a list of names. -/
def names (text : PyVal → String) : PyVal → List String
  | .list l => l.map text
  | _ => []

/-- What a step entry means. -/
def Means (text : PyVal → String) (v : PyVal) (s : StepConfig (List (String × PyVal))) : Prop :=
  ∃ item, v = .dict item ∧ entry item "id" = .str s.stepId ∧
    (entry item "params" = .dict s.params ∨ ((entry item "params").truthy = false ∧ s.params = [])) ∧
    s.modalities = names text (entry item "modalities") ∧ s.requires = names text (entry item "requires_fields") ∧
    (s.enabled = true ↔ PyVal.lookup item "enabled" = none ∨ (entry item "enabled").truthy = true)

end ModSSC.Preprocess.Spec
