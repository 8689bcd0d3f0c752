import Verif.Inductive.LoopModel
import Verif.Assoc

/-!
# Model of how self-training finds the group ids (`inductive/methods/self_training.py`)
-/

namespace ModSSC.Inductive.Group
open ModSSC ModSSC.Inductive

/-- An entry of `meta`: a one-dimensional array of ids (whether it is a tensor, whether its dtype is an integer one), or something else. -/
inductive Entry where
  | ids (tensor ints : Bool) (l : List Int)
  | other
deriving DecidableEq

/-- `meta`. -/
inductive MetaArg where
  | missing
  | notMapping
  | entries (l : List (String × Entry))

/-- `_GROUP_KEYS_U` (self_training.py:36-49). -/
def keysU : List String :=
  ["group_u", "groups_u", "group_ids_u", "u_group_ids", "u_groups", "discourse_u", "discourse_ids_u", "u_discourse_ids", "group_ids",
    "groups", "discourse_ids", "discourse"]

/-- `_GROUP_KEYS_L` (self_training.py:50-59). -/
def keysL : List String :=
  ["group_l", "groups_l", "group_ids_l", "l_group_ids", "l_groups", "discourse_l", "discourse_ids_l", "l_discourse_ids"]

/-- `_normalize_group_ids_numpy` and `_normalize_group_ids_torch` (self_training.py:75-104). -/
def normalizeIds (torch : Bool) (n : Nat) : Entry → Except PyErr (List Int)
  | .other => .error .validation
  | .ids tensor ints l =>
    if torch ∧ ¬ tensor then .error .validation
    else if l.length ≠ n then .error .validation
    else if torch ∧ ¬ ints then .error .validation
    else .ok l

/-- The loop over the names (self_training.py:127-137). -/
def firstValid (torch : Bool) (n : Nat) (l : List (String × Entry)) : List String → Option (List Int)
  | [] => none
  | k :: ks => match l.lookup k with
    | none => firstValid torch n l ks
    | some v => match normalizeIds torch n v with
      | .ok g => some g
      | .error _ => firstValid torch n l ks

/-- `_resolve_group_ids` (self_training.py:107-138). -/
def resolveIds (torch : Bool) (n : Nat) (keys : List String) (key : Option String) : MetaArg → Except PyErr (Option (List Int))
  | .missing => .ok none
  | .notMapping => .error .validation
  | .entries l => match key with
    | some k => match l.lookup k with
      | none => .error .validation
      | some v => (normalizeIds torch n v).map some
    | none => .ok (firstValid torch n l keys)

/-- What `fit` uses (self_training.py:278-301, 375-398): whether labels are propagated in groups, the ids of unlabeled and of labeled samples. -/
structure Groups where
  use : Bool
  u : Option (List Int)
  l : Option (List Int)
deriving DecidableEq

/-- The group ids of a fit with `nl` labeled and `nu` unlabeled samples (self_training.py:278-301, 375-398). -/
def fitGroups (torch : Bool) (nl nu : Nat) (use : Option Bool) (key : Option String) (m : MetaArg) : Except PyErr Groups := do
  let u ← resolveIds torch nu keysU key m
  let l ← resolveIds torch nl keysL none m
  let on := use.getD u.isSome
  if on ∧ u = none then .error .validation else .ok ⟨on, u, l⟩

end ModSSC.Inductive.Group
