import Verif.Base
import Verif.Assoc
import Mathlib.Data.List.GetD

/-!
# Model of feature views

`src/modssc/views/plan.py` and `src/modssc/views/services/service.py`.
-/

namespace ModSSC.Views
open ModSSC

/-- `ColumnSelectSpec` (plan.py:11-28); the fraction is an exact rational. -/
structure ColumnSpec where
  mode : String
  indices : List Int := []
  fraction : Rat := 1 / 2
  complementOf : Option String := none
  seedOffset : Int := 0
deriving DecidableEq

/-- `ColumnSelectSpec.validate` (plan.py:30-50). -/
def ColumnSpec.validate (c : ColumnSpec) : Except PyErr Unit :=
  if c.mode ∉ ["all", "indices", "random", "complement"] then .error .validation
  else if c.mode = "indices" ∧ (c.indices = [] ∨ ∃ i ∈ c.indices, i < 0) then .error .validation
  else if c.mode = "random" ∧ ¬ (0 < c.fraction ∧ c.fraction ≤ 1) then .error .validation
  else if c.mode = "complement" ∧ (c.complementOf = none ∨ c.complementOf = some "") then .error .validation
  else .ok ()

/-- `ViewSpec` (plan.py:53-60); `P` is the type of preprocessing plans.  The free-form `meta` is left out. -/
structure ViewSpec (P : Type) where
  name : String
  preprocess : Option P := none
  columns : Option ColumnSpec := none
deriving DecidableEq

variable {P : Type}

/-- `ViewSpec.validate` (plan.py:62-68); `strip` is `str.strip`. -/
def ViewSpec.validate (strip : String → String) (v : ViewSpec P) : Except PyErr Unit :=
  if strip v.name = "" then .error .validation
  else match v.columns with
    | none => .ok ()
    | some c => c.validate

/-- The loop over view validations (plan.py:83-84). -/
def validateAll (strip : String → String) : List (ViewSpec P) → Except PyErr Unit
  | [] => .ok ()
  | v :: vs => match v.validate strip with
    | .error e => .error e
    | .ok _ => validateAll strip vs

/-- Complements refer to earlier views (plan.py:86-96). -/
def validateOrder : List String → List (ViewSpec P) → Except PyErr Unit
  | _, [] => .ok ()
  | seen, v :: vs =>
    match v.columns with
    | some c =>
      if c.mode = "complement" ∧ c.complementOf.getD "None" ∉ seen then .error .validation
      else validateOrder (v.name :: seen) vs
    | none => validateOrder (v.name :: seen) vs

/-- `ViewsPlan.validate` (plan.py:77-96). -/
def validatePlan (strip : String → String) (plan : List (ViewSpec P)) : Except PyErr Unit :=
  if plan.length < 2 then .error .validation
  else if ¬ (plan.map (·.name)).Nodup then .error .validation
  else match validateAll strip plan with
    | .error e => .error e
    | .ok _ => validateOrder [] plan

/-- `two_view_random_feature_split` (plan.py:99-128) before its validation. -/
def twoViews (preprocess : Option P) (fraction : Rat) (seedOffset : Int) (a b : String) : List (ViewSpec P) :=
  [{ name := a, preprocess, columns := some { mode := "random", fraction, seedOffset } },
   { name := b, preprocess, columns := some { mode := "complement", complementOf := some a } }]

/-- `two_view_random_feature_split` (plan.py:99-128). -/
def twoViewPlan (strip : String → String) (preprocess : Option P) (fraction : Rat) (seedOffset : Int) (a b : String) :
    Except PyErr (List (ViewSpec P)) :=
  match validatePlan strip (twoViews preprocess fraction seedOffset a b) with
  | .error e => .error e
  | .ok _ => .ok (twoViews preprocess fraction seedOffset a b)

/-- The number of columns of a random view (service.py:58-60). -/
def randomSize (fraction : Rat) (n : Nat) : Nat := (max 1 (min (n : Int) (pyRound (fraction * n)))).toNat

/-- `_resolve_columns` (service.py:30-88).  `gen name offset` is the generator of line 61-62, from the global seed, the
stable hash of the name and the offset; it fails on a negative seed. -/
def resolveColumns {σ : Type} (R : Rng σ) (gen : String → Int → Except PyErr σ) (spec : Option ColumnSpec) (n : Nat)
    (name : String) (resolved : List (String × List Nat)) (nf : List (String × Nat)) : Except PyErr (List Nat) :=
  if n = 0 then .error .validation
  else match spec with
    | none => .ok (List.range n)
    | some c =>
      if c.mode = "all" then .ok (List.range n)
      else match c.validate with
        | .error e => .error e
        | .ok _ =>
          if c.mode = "indices" then
            if c.indices = [] then .error .validation
            else if ¬ c.indices.Nodup then .error .validation
            else if ∃ i ∈ c.indices, i < 0 ∨ (n : Int) ≤ i then .error .validation
            else .ok (npSort (c.indices.map Int.toNat))
          else if c.mode = "random" then
            match gen name c.seedOffset with
            | .error e => .error e
            | .ok s => .ok (npSort (R.choice s (List.range n) (randomSize c.fraction n)).1)
          else if c.mode = "complement" then
            match Assoc.get resolved (c.complementOf.getD "None") with
            | none => .error .validation
            | some base =>
              if Assoc.get nf (c.complementOf.getD "None") ≠ some n then .error .validation
              else
                let cols := (List.range n).filter (fun j => decide (j ∉ base))
                if cols = [] then .error .validation else .ok cols
          else .error .validation

/-- A feature array: fewer than two dimensions, or rows with a number of columns.  A cell may be an array itself. -/
inductive Arr (V : Type) where
  | flat
  | mat (rows : List (List V)) (ncols : Nat)
deriving DecidableEq

/-- `X` of a split: an array, or a mapping with an array under `"x"` and other entries. -/
inductive Feats (V O : Type) where
  | plain (a : Arr V)
  | dict (x : Arr V) (rest : O)
deriving DecidableEq

variable {V O Y E M : Type}

/-- `_get_feats` (service.py:155-158). -/
def Feats.arr : Feats V O → Arr V
  | .plain a => a
  | .dict a _ => a

/-- `_reconstruct` (service.py:187-192). -/
def Feats.replace (f : Feats V O) (a : Arr V) : Feats V O :=
  match f with
  | .plain _ => .plain a
  | .dict _ r => .dict a r

/-- `Split` (data_loader/types.py). -/
structure Split (V O Y E M : Type) where
  X : Feats V O
  y : Y
  edges : E
  masks : M
deriving DecidableEq

/-- `LoadedDataset`: of the metadata only the reference under `"views"` is kept. -/
structure Dataset (V O Y E M : Type) where
  train : Split V O Y E M
  test : Option (Split V O Y E M)
  metaViews : Option Nat
deriving DecidableEq

/-- An entry of `meta["views"]` (service.py:212-216), without the preprocessing plan. -/
structure ViewMeta where
  columns : List Nat
  mode : String
deriving DecidableEq

/-- The dictionaries found under `meta["views"]`, by reference. -/
abbrev Heap := List (List (String × ViewMeta))

/-- `X[:, cols]` (service.py:183-184). -/
def takeColumns (a : Arr V) (cols : List Nat) : Except PyErr (Arr V) :=
  match a with
  | .flat => .error .validation
  | .mat rows n =>
    if cols.all (fun j => decide (j < n)) then .ok (.mat (rows.map (fun r => cols.filterMap (fun j => r[j]?))) cols.length)
    else .error .indexError

/-- A split with its columns selected (service.py:194-207). -/
def viewSplit (s : Split V O Y E M) (cols : List Nat) : Except PyErr (Split V O Y E M) :=
  match takeColumns s.X.arr cols with
  | .error e => .error e
  | .ok a => .ok { s with X := s.X.replace a }

/-- The test part (service.py:184-207). -/
def viewTest (t : Option (Split V O Y E M)) (cols : List Nat) : Except PyErr (Option (Split V O Y E M)) :=
  match t with
  | none => .ok none
  | some s => match viewSplit s cols with
    | .error e => .error e
    | .ok s' => .ok (some s')

/-- `meta.setdefault("views", {})` then the entry (service.py:210-216): a shallow copy of the metadata shares the
dictionary it already has. -/
def recordMeta (ref : Option Nat) (name : String) (m : ViewMeta) (h : Heap) : Heap × Nat :=
  match ref with
  | some i => (h.modify i (fun d => Assoc.set d name m), i)
  | none => (h ++ [[(name, m)]], h.length)

/-- What the loop of `generate_views` carries. -/
structure Acc (V O Y E M : Type) where
  views : List (String × Dataset V O Y E M) := []
  columns : List (String × List Nat) := []
  nf : List (String × Nat) := []

/-- `ds = run_preprocess(...)` (service.py:144-149). -/
def prepared (run : P → Dataset V O Y E M → Except PyErr (Dataset V O Y E M)) (ds : Dataset V O Y E M)
    (v : ViewSpec P) : Except PyErr (Dataset V O Y E M) :=
  match v.preprocess with
  | none => .ok ds
  | some p => run p ds

/-- The number of columns, after the dimension checks (service.py:159-168). -/
def featureCount (ds : Dataset V O Y E M) : Except PyErr Nat :=
  match ds.train.X.arr with
  | .flat => .error .validation
  | .mat _ n => match ds.test with
    | none => .ok n
    | some t => match t.X.arr with
      | .flat => .error .validation
      | .mat _ _ => .ok n

/-- `columns_mode` (service.py:214). -/
def modeName (c : Option ColumnSpec) : String :=
  match c with
  | none => "all"
  | some c => c.mode

/-- One view (service.py:141-222), up to its metadata. -/
def buildView {σ : Type} (R : Rng σ) (gen : String → Int → Except PyErr σ)
    (run : P → Dataset V O Y E M → Except PyErr (Dataset V O Y E M)) (ds : Dataset V O Y E M) (v : ViewSpec P)
    (acc : Acc V O Y E M) : Except PyErr (Dataset V O Y E M × List Nat × Nat) := do
  let d ← prepared run ds v
  let n ← featureCount d
  let cols ← resolveColumns R gen v.columns n v.name acc.columns acc.nf
  let train ← viewSplit d.train cols
  let test ← viewTest d.test cols
  .ok ({ d with train := train, test := test }, cols, n)

/-- The loop over the views (service.py:141-229). -/
def viewLoop {σ : Type} (R : Rng σ) (gen : String → Int → Except PyErr σ)
    (run : P → Dataset V O Y E M → Except PyErr (Dataset V O Y E M)) (ds : Dataset V O Y E M) :
    List (ViewSpec P) → Acc V O Y E M → Heap → Heap × Except PyErr (Acc V O Y E M)
  | [], acc, h => (h, .ok acc)
  | v :: vs, acc, h =>
    match buildView R gen run ds v acc with
    | .error e => (h, .error e)
    | .ok (d, cols, n) =>
      let r := recordMeta d.metaViews v.name ⟨cols, modeName v.columns⟩ h
      viewLoop R gen run ds vs
        { views := Assoc.set acc.views v.name { d with metaViews := some r.2 }
          columns := Assoc.set acc.columns v.name cols
          nf := Assoc.set acc.nf v.name n } r.1

/-- `generate_views` (service.py:91-243); `run` is the preprocessing with its seed, fit indices and cache.  The heap
holds the dictionaries under `meta["views"]`. -/
def generateViews {σ : Type} (R : Rng σ) (gen : String → Int → Except PyErr σ) (strip : String → String)
    (run : P → Dataset V O Y E M → Except PyErr (Dataset V O Y E M)) (ds : Dataset V O Y E M) (plan : List (ViewSpec P))
    (h : Heap) : Heap × Except PyErr (Acc V O Y E M) :=
  match validatePlan strip plan with
  | .error e => (h, .error e)
  | .ok _ => viewLoop R gen run ds plan {} h

end ModSSC.Views
