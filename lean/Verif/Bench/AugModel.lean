import Verif.Bench.ContractModel
import Verif.Augment.Model

/-!
# Model of the augmentation stage of a benchmark run

`bench/orchestrators/augmentation.py`.  The operations are those of `Verif/Augment/Model.lean`; how operation ids and parameters
become operations (`build_pipeline`, modelled in `Verif/Augment/RegistryModel.lean`) is a parameter.  Number types are not modelled:
the rows of a preallocated array are converted to the number type of the first row, which all built-in operations give to every row.
-/

namespace ModSSC.Bench.Aug
open ModSSC ModSSC.Augment

/-- `str(item.get("id") or item.get("op_id") or "")` (augmentation.py:43). -/
def opIdOf (env : SchemaEnv) (item : Dict) : String :=
  if (getOr item "id" .none).truthy then pyStr env (getOr item "id" .none)
  else if (getOr item "op_id" .none).truthy then pyStr env (getOr item "op_id" .none)
  else ""

/-- `id` and `op_id` may not disagree (augmentation.py:41-42). -/
def opConflict (env : SchemaEnv) (item : Dict) : Bool :=
  match Assoc.get item "id", Assoc.get item "op_id" with
  | some a, some b => decide (pyStr env a ≠ pyStr env b)
  | _, _ => false

/-- One step of `_plan_from_dict` (augmentation.py:33-49). -/
def augStep (env : SchemaEnv) : PyVal → Except PyErr (String × Dict)
  | .dict item => do
    onlyKeys item ["id", "op_id", "params"]
    (if opConflict env item then .error .valueError else .ok ())
    (if opIdOf env item = "" then .error .valueError else .ok ())
    let params ← paramsOf item
    pure (opIdOf env item, params)
  | _ => .error .valueError

/-- `_plan_from_dict` (augmentation.py:24-50): the steps.  The modality of the plan is the caller's, not the one in the dictionary. -/
def augPlan (env : SchemaEnv) : PyVal → Except PyErr (List (String × Dict))
  | .dict obj => do
    onlyKeys obj ["steps", "modality"]
    match getOr obj "steps" (.list []) with
    | .list l => l.mapM (augStep env)
    | _ => .error .valueError
  | _ => .error .valueError

/-- `X_u`: `None`, an object with `x` and `edge_index` (a graph), an array or tensor with its rows, or something without `shape`. -/
inductive Input where
  | missing
  | graph (x : Sample)
  | rows (torch : Bool) (xs : List Sample)
  | other

/-- An array or tensor of augmented rows. -/
structure Stack where
  torch : Bool
  rows : List Sample

/-- What is returned for one of the views: nothing, the input itself, one augmented graph, or augmented rows. -/
inductive Output where
  | nothing
  | same (x : Input)
  | one (x : Sample)
  | many (s : Stack)

/-- An array (`t = false`) or a tensor (`t = true`) (augmentation.py:160, 176-180). -/
def isArr (t : Bool) : Sample → Bool
  | .arr t' _ => t' == t
  | _ => false

/-- The row of an array or tensor that a value becomes when it is assigned. -/
def asKind (t : Bool) : Sample → Sample
  | .arr _ a => .arr t a
  | x => x

/-- `x.shape`; other values have no such attribute (`AttributeError`, here the remaining error class). -/
def shapeAttr : Sample → Except PyErr (List Nat)
  | .arr _ a => .ok a.shape
  | _ => .error .runtimeError

/-- The shape of `np.asanyarray(x)`: texts and other objects are scalars. -/
def npShape : Sample → List Nat
  | .arr _ a => a.shape
  | .strs l => [l.length]
  | _ => []

/-- The views of a sample: weak, strong and, with two strong views, the second strong one. -/
abbrev Views := Sample × Sample × Option Sample

/-- The views collected so far: in preallocated arrays (with the shapes of their rows) or in lists (augmentation.py:138-143). -/
inductive Acc where
  | arr (t : Bool) (shW shS : List Nat) (sh1 : Option (List Nat)) (w s : List Sample) (s1 : Option (List Sample))
  | lists (w s : List Sample) (s1 : Option (List Sample))

/-- The first sample decides (augmentation.py:160-200).  Simplification: the allocation itself does not fail. -/
def firstAcc (v : Views) : Acc :=
  if isArr true v.1 && isArr true v.2.1 && v.2.2.all (isArr true) then
    .arr true (npShape v.1) (npShape v.2.1) (v.2.2.map npShape) [v.1] [v.2.1] (v.2.2.map ([·]))
  else if isArr false v.1 && isArr false v.2.1 && v.2.2.all (isArr false) then
    .arr false (npShape v.1) (npShape v.2.1) (v.2.2.map npShape) [v.1] [v.2.1] (v.2.2.map ([·]))
  else .lists [v.1] [v.2.1] (v.2.2.map ([·]))

/-- A later sample has another shape (augmentation.py:209-213). -/
def mismatch (shW shS : List Nat) (sh1 : Option (List Nat)) (v : Views) : Except PyErr Bool := do
  let a ← shapeAttr v.1
  if a ≠ shW then pure true
  else do
    let b ← shapeAttr v.2.1
    if b ≠ shS then pure true
    else match v.2.2, sh1 with
      | some y, some sh => do
        let c ← shapeAttr y
        pure (decide (c ≠ sh))
      | _, _ => pure false

/-- `out_s1.append(xs1)`. -/
def push1 (s1 : Option (List Sample)) (y : Option Sample) : Option (List Sample) :=
  match s1, y with
  | some l, some y => some (l ++ [y])
  | s1, _ => s1

/-- A later sample (augmentation.py:208-241). -/
def Acc.push (acc : Acc) (v : Views) : Except PyErr Acc :=
  match acc with
  | .lists w s s1 => .ok (.lists (w ++ [v.1]) (s ++ [v.2.1]) (push1 s1 v.2.2))
  | .arr t shW shS sh1 w s s1 => do
    let m ← mismatch shW shS sh1 v
    if m then pure (.lists (w ++ [v.1]) (s ++ [v.2.1]) (push1 s1 v.2.2))
    else pure (.arr t shW shS sh1 (w ++ [asKind t v.1]) (s ++ [asKind t v.2.1]) (push1 s1 (v.2.2.map (asKind t))))

/-- `torch.stack` or `np.stack` of a list that is not empty (augmentation.py:253-271). -/
def stack (torch : Bool) (l : List Sample) : Except PyErr Stack :=
  if torch then
    if l.all (isArr true) then
      if l.all fun x => npShape x == npShape (l.headD (.str "")) then .ok ⟨true, l⟩ else .error .runtimeError
    else .error .typeError
  else if l.all fun x => npShape x == npShape (l.headD (.str "")) then .ok ⟨false, l.map (asKind false)⟩
  else .error .valueError

/-- The optional second strong view. -/
def outOpt : Option Stack → Output
  | none => .nothing
  | some s => .many s

/-- The three results (augmentation.py:243-279). -/
def Acc.finish (torch : Bool) : Acc → Except PyErr (Output × Output × Output)
  | .arr t _ _ _ w s s1 => .ok (.many ⟨t, w⟩, .many ⟨t, s⟩, outOpt (s1.map fun l => ⟨t, l⟩))
  | .lists w s s1 => do
    let a ← stack torch w
    let b ← stack torch s
    match s1 with
    | none => pure (.many a, .many b, .nothing)
    | some l => do
      let c ← stack torch l
      pure (.many a, .many b, .many c)

section run
variable {σ W : Type} (E : Env σ W)

/-- `_ctx(i, view=view)` (augmentation.py:145-151). -/
def ctxOf (seed : Int) (view : Int) (id : Int) : Ctx := ⟨seed + view, 0, id⟩

/-- The views of one sample (augmentation.py:155-158, 204-207, 98-107). -/
def viewsOf (weak strong : List Op) (seed : Int) (two : Bool) (x : Sample) (id : Int) (w : W) : Except PyErr (Views × W) := do
  let r ← applyStrategy E weak strong x (ctxOf seed 0 id) w
  if two then do
    let q ← applyPipeline E strong x (ctxOf seed 1 id) r.2
    pure ((r.1.1, r.1.2, some q.1), q.2)
  else pure ((r.1.1, r.1.2, none), r.2)

/-- `sample_ids[i]`. -/
def idAt (ids : List Int) (i : Nat) : Except PyErr Int :=
  match ids[i]? with
  | some j => .ok j
  | none => .error .indexError

/-- The loop over the samples from position `i` on (augmentation.py:202-241). -/
def loop (weak strong : List Op) (seed : Int) (two : Bool) (ids : List Int) : Nat → List Sample → Acc → W → Except PyErr (Acc × W)
  | _, [], acc, w => .ok (acc, w)
  | i, x :: xs, acc, w => do
    let id ← idAt ids i
    let v ← viewsOf E weak strong seed two x id w
    let acc ← acc.push v.1
    loop weak strong seed two ids (i + 1) xs acc v.2

/-- `build_strategy` (data_augmentation/api.py:86-90) of the two plans (augmentation.py:82-84, 117-132). -/
def plans (env : SchemaEnv) (build : Option String → List (String × Dict) → Except PyErr (List Op)) (modality : Option String)
    (weakPlan strongPlan : PyVal) : Except PyErr (List Op × List Op) := do
  let w ← augPlan env weakPlan
  let s ← augPlan env strongPlan
  let a ← build modality w
  let b ← build modality s
  pure (a, b)

/-- The rows of an array that is not empty (augmentation.py:134-279). -/
def runRows (weak strong : List Op) (seed : Int) (two : Bool) (ids : Option (List Int)) (torch : Bool) (x : Sample) (xs : List Sample)
    (w : W) : Except PyErr ((Output × Output × Output) × W) := do
  let ids := ids.getD ((List.range (xs.length + 1)).map fun (i : Nat) => (i : Int))
  let id ← idAt ids 0
  let v ← viewsOf E weak strong seed two x id w
  let r ← loop E weak strong seed two ids 1 xs (firstAcc v.1) v.2
  let o ← r.1.finish torch
  pure (o, r.2)

/-- A graph: one sample (augmentation.py:81-109). -/
def runGraph (weak strong : List Op) (seed : Int) (two : Bool) (ids : Option (List Int)) (x : Sample) (w : W) :
    Except PyErr ((Output × Output × Output) × W) := do
  let v ← viewsOf E weak strong seed two x ((ids.getD []).headD 0) w
  pure ((.one v.1.1, .one v.1.2.1, match v.1.2.2 with
    | none => .nothing
    | some y => .one y), v.2)

/-- `run` (augmentation.py:59-279). -/
def run (env : SchemaEnv) (build : Option String → List (String × Dict) → Except PyErr (List Op)) (X : Input)
    (weakPlan strongPlan : PyVal) (seed : Int) (mode : String) (modality : Option String) (ids : Option (List Int))
    (strongViews : Int) (w : W) : Except PyErr ((Output × Output × Output) × W) :=
  if mode ≠ "fixed" then .error .valueError
  else if strongViews ≠ 1 ∧ strongViews ≠ 2 then .error .valueError
  else match X with
    | .missing => .ok ((.nothing, .nothing, .nothing), w)
    | .graph x =>
      if modality = some "graph" then do
        let p ← plans env build modality weakPlan strongPlan
        runGraph E p.1 p.2 seed (decide (strongViews > 1)) ids x w
      else do
        let _ ← augPlan env weakPlan
        let _ ← augPlan env strongPlan
        .error .runtimeError
    | .other => do
      let _ ← augPlan env weakPlan
      let _ ← augPlan env strongPlan
      .error .runtimeError
    | .rows torch [] =>
      .ok ((.same (.rows torch []), .same (.rows torch []),
        if strongViews > 1 then .same (.rows torch []) else .nothing), w)
    | .rows torch (x :: xs) => do
      let p ← plans env build modality weakPlan strongPlan
      runRows E p.1 p.2 seed (decide (strongViews > 1)) ids torch x xs w

end run

end ModSSC.Bench.Aug
