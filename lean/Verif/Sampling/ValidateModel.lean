import Verif.Base

/-!
# Model of `SamplingResult.validate` and its accessors (`src/modssc/sampling/result.py`)

For results as a user or a stored file may give them: any keys, any element types.  Arrays are one-dimensional.
-/

namespace ModSSC.Sampling.Validate
open ModSSC

/-- A one-dimensional array: integers, booleans or something else. -/
inductive Arr where
  | ints (l : List Int)
  | bools (l : List Bool)
  | other
deriving DecidableEq, Repr

/-- The parts of `SamplingResult` that `validate` reads (result.py:35-37). -/
structure Result where
  indices : List (String × Arr)
  refs : List (String × String)
  masks : List (String × Arr)

/-- `is_graph` (result.py:41-42). -/
def Result.isGraph (r : Result) : Bool := !r.masks.isEmpty

/-- `self.refs.get(name, "train")`. -/
def Result.ref (r : Result) (name : String) : String := (r.refs.lookup name).getD "train"

/-- `_check_idx` (result.py:51-62). -/
def checkIdx (nTrain : Nat) (nTest : Option Nat) (base : String) : Arr → Except PyErr Unit
  | .ints idx =>
    if idx = [] then .ok ()
    else
      match if base = "train" then some nTrain else nTest with
      | none => .error .validation
      | some m =>
        if idx.any (fun i => decide (i < 0) || decide ((m : Int) ≤ i)) then .error .validation
        else if ¬ idx.Nodup then .error .validation
        else .ok ()
  | _ => .error .validation

/-- The loop over all index arrays (result.py:64-66). -/
def checkAll (nTrain : Nat) (nTest : Option Nat) (r : Result) : List (String × Arr) → Except PyErr Unit
  | [] => .ok ()
  | (name, a) :: rest =>
    match checkIdx nTrain nTest (r.ref name) a with
    | .error e => .error e
    | .ok _ => checkAll nTrain nTest r rest

/-- `np.intersect1d(a, b).size`. -/
def meets (a b : List Int) : Bool := a.any (fun x => decide (x ∈ b))

/-- `self.indices.get(name)`, after every array was found to hold integers. -/
def Result.get (r : Result) (name : String) : Option (List Int) :=
  match r.indices.lookup name with
  | some (.ints l) => some l
  | _ => none

/-- `_validate_inductive` (result.py:50-99). -/
def validateInductive (nTrain : Nat) (nTest : Option Nat) (r : Result) : Except PyErr Unit :=
  match checkAll nTrain nTest r r.indices with
  | .error e => .error e
  | .ok _ =>
    match r.get "train", r.get "val", r.get "test" with
    | some train, some val, some test =>
      if r.ref "train" ≠ "train" ∨ r.ref "val" ≠ "train" then .error .validation
      else if meets train val then .error .validation
      else if r.ref "test" = "train" ∧ (meets train test ∨ meets val test) then .error .validation
      else
        match r.get "train_labeled", r.get "train_unlabeled" with
        | some labeled, some unlabeled =>
          if meets labeled unlabeled then .error .validation
          else if npSortInt (labeled ++ unlabeled) ≠ npSortInt train then .error .validation
          else .ok ()
        | _, _ => .error .validation
    | _, _, _ => .error .validation

/-- The mask names (result.py:104). -/
def required : List String := ["train", "val", "test", "labeled", "unlabeled"]

/-- `self.masks[name]`, after every mask was found to hold booleans. -/
def Result.mask (r : Result) (name : String) : List Bool :=
  match r.masks.lookup name with
  | some (.bools l) => l
  | _ => []

/-- `(a & b).any()`. -/
def both (a b : List Bool) : Bool := (List.zipWith (· && ·) a b).any id

/-- Whether a mask has the right type and shape (result.py:108-114). -/
def maskOk (n : Nat) : Arr → Bool
  | .bools l => decide (l.length = n)
  | _ => false

/-- `_validate_graph` (result.py:101-129). -/
def validateGraph (nNodes : Option Nat) (r : Result) : Except PyErr Unit :=
  match nNodes with
  | none => .error .validation
  | some n =>
    if ¬ (r.masks.all (fun p => decide (p.1 ∈ required)) ∧ required.all (fun k => decide (k ∈ r.masks.map (·.1)))) then
      .error .validation
    else if ¬ r.masks.all (fun p => maskOk n p.2) then .error .validation
    else
      let train := r.mask "train"
      let val := r.mask "val"
      let test := r.mask "test"
      let labeled := r.mask "labeled"
      let unlabeled := r.mask "unlabeled"
      if both labeled (train.map (!·)) then .error .validation
      else if unlabeled ≠ List.zipWith (fun t l => t && !l) train labeled then .error .validation
      else if both train val ∨ both train test ∨ both val test then .error .validation
      else .ok ()

/-- `validate` (result.py:44-48). -/
def validate (nTrain : Nat) (nTest nNodes : Option Nat) (r : Result) : Except PyErr Unit :=
  if r.isGraph then validateGraph nNodes r else validateInductive nTrain nTest r

/-- `np.where(mask)[0]`. -/
def positions (m : List Bool) : List Int := ((List.range m.length).filter fun i => m[i]? == some true).map Int.ofNat

/-- `train_idx`, `val_idx`, `test_idx`, `labeled_idx`, `unlabeled_idx` (result.py:131-159): `maskName` in a graph result, `idxName`
otherwise; a missing array is empty. -/
def Result.idx (r : Result) (maskName idxName : String) : List Int :=
  if r.isGraph then positions (r.mask maskName) else (r.get idxName).getD []

end ModSSC.Sampling.Validate
