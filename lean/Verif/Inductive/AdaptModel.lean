import Verif.Base

/-!
# Model of the checks on inductive datasets

`src/modssc/inductive/validation.py`, `inductive/adapters/numpy.py`, `inductive/adapters/torch.py`,
`backends/torch_common.py` and `runtime/device.py`.

Modelled: every check of the two adapters, in order, with the kind of exception; the devices; the conversion of the
indices in `meta`.  Not modelled: entries of features and labels, messages, dictionaries inside dictionaries.
An `AttributeError` is the exception `typeError`.
-/

namespace ModSSC.Inductive.Adapt
open ModSSC

/-- A torch device: its type and index.  Two devices are equal when both are. -/
structure Device where
  kind : String
  index : Option Nat
deriving DecidableEq

/-- What torch reports about accelerators (runtime/device.py:10-50). -/
structure Accel where
  cuda : Bool
  mps : Bool

/-- `_best_device_from_torch` (runtime/device.py:40-50). -/
def bestDevice (a : Accel) : String := if a.cuda then "cuda" else if a.mps then "mps" else "cpu"

/-- `resolve_device_name` (runtime/device.py:66-73) of a given name. -/
def resolveName (a : Accel) (name : String) : String := if name ≠ "auto" then name else bestDevice a

/-- `resolve_device` (backends/torch_common.py:17-31). -/
def resolveDevice (a : Accel) (name : String) : Except PyErr Device :=
  let r := resolveName a name
  if r = "cpu" then .ok ⟨"cpu", none⟩
  else if r = "cuda" then (if a.cuda then .ok ⟨"cuda", none⟩ else .error .runtimeError)
  else if r = "mps" then (if a.mps then .ok ⟨"mps", none⟩ else .error .runtimeError)
  else .error .valueError

/-- A tensor, as far as the checks look at it. -/
structure Ten where
  shape : List Nat
  device : Device
deriving DecidableEq

/-- A value in a dictionary: a tensor, something else with a shape, or neither. -/
inductive Leaf where
  | ten (t : Ten)
  | arr (shape : List Nat)
  | junk
deriving DecidableEq

/-- What a dataset field may hold. -/
inductive Obj where
  | ten (t : Ten)
  /-- `numpy.ndarray` -/
  | nd (shape : List Nat)
  | dict (kv : List (String × Leaf))
  | other
deriving DecidableEq

/-- `views`: absent, not a mapping, or a mapping whose keys may not be strings. -/
inductive Views where
  | absent
  | bad
  | map (l : List (Option String × Obj))
deriving DecidableEq

/-- A value in `meta`: a tensor of integers, or something numpy reads as integers (or refuses). -/
inductive MetaVal where
  | ten (int64 : Bool) (device : Device) (vals : List Int)
  | plain (vals : Option (List Int))
deriving DecidableEq

/-- `meta`: absent, not a mapping, or a mapping. -/
inductive Meta where
  | absent
  | bad
  | map (l : List (String × MetaVal))
deriving DecidableEq

/-- `InductiveDataset` (inductive/types.py:28-42), and the results of the adapters (adapters/numpy.py:42-52,
adapters/torch.py:103-113). -/
structure Data where
  /-- features and labels of the labeled samples; `info` is the field `meta` -/
  xl : Obj
  yl : Obj
  xu : Option Obj
  xuw : Option Obj
  xus : Option Obj
  views : Views
  info : Meta
deriving DecidableEq

/-! ### numpy -/

/-- The shape of `to_numpy(x)` (utils/numpy.py:8-17); `conv` gives it for what is not an array (a tensor, a list, …), or
an exception. -/
def asNumpy (conv : Obj → Except PyErr (List Nat)) : Obj → Except PyErr (List Nat)
  | .nd s => .ok s
  | o => conv o

/-- `_require_2d` (inductive/validation.py:14-21). -/
def require2d (conv : Obj → Except PyErr (List Nat)) (o : Obj) : Except PyErr (List Nat) := do
  let s ← asNumpy conv o
  if s.length < 2 then .error .validation else .ok s

/-- `_require_y` (inductive/validation.py:24-30). -/
def requireY (conv : Obj → Except PyErr (List Nat)) (o : Obj) (n : Nat) : Except PyErr Unit := do
  let s ← asNumpy conv o
  if s.length ≠ 1 ∧ s.length ≠ 2 then .error .validation
  else if s.getD 0 0 ≠ n then .error .validation
  else .ok ()

/-- One unlabeled field (inductive/validation.py:64-77): the same number of features. -/
def requireSame (conv : Obj → Except PyErr (List Nat)) (f : Nat) : Option Obj → Except PyErr Unit
  | none => .ok ()
  | some o => do
    let s ← require2d conv o
    if s.getD 1 0 ≠ f then .error .validation else .ok ()

/-- The weak and the strong view have the same number of rows (inductive/validation.py:79-83). -/
def requireRows (conv : Obj → Except PyErr (List Nat)) : Option Obj → Option Obj → Except PyErr Unit
  | some a, some b => do
    let s ← asNumpy conv a
    let t ← asNumpy conv b
    if s.getD 0 0 ≠ t.getD 0 0 then .error .validation else .ok ()
  | _, _ => .ok ()

/-- `_validate_views` (inductive/validation.py:33-40). -/
def validateViews : Views → Except PyErr Unit
  | .absent => .ok ()
  | .bad => .error .validation
  | .map l => if l.any (fun kv => kv.1.isNone) then .error .validation else .ok ()

/-- `_validate_meta` (inductive/validation.py:43-47). -/
def validateMeta : Meta → Except PyErr Unit
  | .bad => .error .validation
  | _ => .ok ()

/-- `validate_inductive_dataset` (inductive/validation.py:50-86). -/
def validate (conv : Obj → Except PyErr (List Nat)) : Option Data → Except PyErr Unit
  | none => .error .validation
  | some d => do
    let s ← require2d conv d.xl
    requireY conv d.yl (s.getD 0 0)
    requireSame conv (s.getD 1 0) d.xu
    requireSame conv (s.getD 1 0) d.xuw
    requireSame conv (s.getD 1 0) d.xus
    requireRows conv d.xuw d.xus
    validateViews d.views
    validateMeta d.info

/-- `_require_numpy` (adapters/numpy.py:20-26). -/
def requireNumpy : Obj → Except PyErr Obj
  | .nd s => .ok (.nd s)
  | _ => .error .validation

/-- The same for a field that may be absent (adapters/numpy.py:67-69). -/
def requireNumpy? : Option Obj → Except PyErr (Option Obj)
  | none => .ok none
  | some o => do
    let r ← requireNumpy o
    .ok (some r)

/-- One entry of `views` (adapters/numpy.py:35-38, adapters/torch.py:42-45). -/
def viewEntry (req : Obj → Except PyErr Obj) (kv : Option String × Obj) : Except PyErr (Option String × Obj) :=
  match kv.1 with
  | none => .error .validation
  | some k => do
    let r ← req kv.2
    .ok (some k, r)

/-- `_require_numpy_views` (adapters/numpy.py:29-39), `_require_views` (adapters/torch.py:36-46). -/
def requireViews (req : Obj → Except PyErr Obj) : Views → Except PyErr Views
  | .absent => .ok .absent
  | .bad => .error .validation
  | .map l => do
    let l' ← l.mapM (viewEntry req)
    .ok (.map l')

/-- `to_numpy_dataset` (adapters/numpy.py:55-80). -/
def toNumpy (conv : Obj → Except PyErr (List Nat)) : Option Data → Except PyErr Data
  | none => .error .validation
  | some d => do
    validate conv (some d)
    let xl ← requireNumpy d.xl
    let yl ← requireNumpy d.yl
    let xu ← requireNumpy? d.xu
    let xuw ← requireNumpy? d.xuw
    let xus ← requireNumpy? d.xus
    let views ← requireViews requireNumpy d.views
    .ok ⟨xl, yl, xu, xuw, xus, views, d.info⟩

/-! ### torch -/

/-- Is it a tensor? -/
def Leaf.isTen : Leaf → Bool
  | .ten _ => true
  | _ => false

/-- The shape of a value in a dictionary; without one an `AttributeError`. -/
def Leaf.shape : Leaf → Except PyErr (List Nat)
  | .ten t => .ok t.shape
  | .arr s => .ok s
  | .junk => .error .typeError

/-- `_require_tensor` (adapters/torch.py:24-33): a tensor, or a dictionary that holds one somewhere. -/
def requireTensor : Obj → Except PyErr Obj
  | .ten t => .ok (.ten t)
  | .dict kv => if kv.any (fun e => e.2.isTen) then .ok (.dict kv) else .error .validation
  | _ => .error .validation

/-- The same for a field that may be absent (adapters/torch.py:151-153). -/
def requireTensor? : Option Obj → Except PyErr (Option Obj)
  | none => .ok none
  | some o => do
    let r ← requireTensor o
    .ok (some r)

/-- The shape the checks look at: of `x` in a dictionary; `none` if it has no `x` (adapters/torch.py:50-54, 72-76). -/
def shapeIn : Obj → Except PyErr (Option (List Nat))
  | .ten t => .ok (some t.shape)
  | .nd s => .ok (some s)
  | .dict kv =>
    match kv.lookup "x" with
    | none => .ok none
    | some l => do
      let s ← l.shape
      .ok (some s)
  | .other => .error .typeError

/-- `_check_2d` (adapters/torch.py:49-58). -/
def check2d (o : Obj) : Except PyErr Unit := do
  match ← shapeIn o with
  | none => .ok ()
  | some s => if s.length < 2 then .error .validation else .ok ()

/-- `get_len`, `get_features` (adapters/torch.py:143-146): entry `i` of the shape.  A dictionary has no shape. -/
def sizeAt (i : Nat) (o : Obj) : Except PyErr Nat := do
  match ← shapeIn o with
  | none => .error .typeError
  | some s =>
    match s[i]? with
    | none => .error .indexError
    | some n => .ok n

/-- `_check_y` (adapters/torch.py:61-65): a dictionary has no `ndim`. -/
def checkY (o : Obj) (n : Nat) : Except PyErr Unit :=
  match o with
  | .ten t =>
    if t.shape.length ≠ 1 ∧ t.shape.length ≠ 2 then .error .validation
    else if t.shape.getD 0 0 ≠ n then .error .validation
    else .ok ()
  | _ => .error .typeError

/-- `_check_feature_dim` (adapters/torch.py:68-75): skipped for dictionaries without `x`. -/
def checkFeatures (o : Obj) (f : Nat) : Except PyErr Unit := do
  match ← shapeIn o with
  | none => .ok ()
  | some s =>
    match s[1]? with
    | none => .error .indexError
    | some g => if g ≠ f then .error .validation else .ok ()

/-- One unlabeled field (adapters/torch.py:156-164). -/
def checkField (f : Nat) : Option Obj → Except PyErr Unit
  | none => .ok ()
  | some o => do
    check2d o
    checkFeatures o f

/-- adapters/torch.py:165-166. -/
def checkRows : Option Obj → Option Obj → Except PyErr Unit
  | some a, some b => do
    let m ← sizeAt 0 a
    let n ← sizeAt 0 b
    if m ≠ n then .error .validation else .ok ()
  | _, _ => .ok ()

/-- The values of a field in the order in which the devices are looked at. -/
def Obj.leaves : Obj → List Leaf
  | .ten t => [.ten t]
  | .nd s => [.arr s]
  | .dict kv => kv.map Prod.snd
  | .other => [.junk]

/-- The values of the views. -/
def Views.objs : Views → List Obj
  | .map l => l.map Prod.snd
  | _ => []

/-- adapters/torch.py:170-172. -/
def tensors (xl yl : Obj) (xu xuw xus : Option Obj) (views : Views) : List Leaf :=
  (([xl, yl] ++ xu.toList ++ xuw.toList ++ xus.toList ++ views.objs).map Obj.leaves).flatten

/-- `_check_same_device` (adapters/torch.py:78-100): the device of the first tensor; others are ignored. -/
def sameDevice : Option Device → List Leaf → Except PyErr Unit
  | _, [] => .ok ()
  | none, .ten t :: l => sameDevice (some t.device) l
  | some d, .ten t :: l => if t.device ≠ d then .error .validation else sameDevice (some d) l
  | d, _ :: l => sameDevice d l

/-- `_check_expected_device` (adapters/torch.py:179-190): what is not a tensor has no `device`.  Simplification: the
attribute `device` of arrays in numpy 2 is not modelled. -/
def expectDevice (e : Device) : List Leaf → Except PyErr Unit
  | [] => .ok ()
  | .ten t :: l => if t.device ≠ e then .error .validation else expectDevice e l
  | _ :: _ => .error .typeError

/-- `_device_of` (adapters/torch.py:199-204). -/
def deviceOf : Option Obj → Except PyErr (Option Device)
  | some (.ten t) => .ok (some t.device)
  | some (.dict kv) =>
    match kv.lookup "x" with
    | none => .ok none
    | some (.ten t) => .ok (some t.device)
    | some _ => .error .typeError
  | _ => .ok none

/-- `_device_of(X_u) or _device_of(X_u_w) or …` (adapters/torch.py:206). -/
def firstDevice : List (Option Obj) → Except PyErr (Option Device)
  | [] => .ok none
  | o :: l => do
    match ← deviceOf o with
    | some d => .ok (some d)
    | none => firstDevice l

/-- The keys whose values are converted (adapters/torch.py:208). -/
def idxKeys : List String := ["idx_u", "unlabeled_idx", "unlabeled_indices"]

/-- One entry of `meta` (adapters/torch.py:211-218). -/
def convert (d : Device) (e : String × MetaVal) : Except PyErr (String × MetaVal) :=
  if e.1 ∈ idxKeys then
    match e.2 with
    | .ten _ _ vals => .ok (e.1, .ten true d vals)
    | .plain (some vals) => .ok (e.1, .ten true d vals)
    | .plain none => .error .typeError
  else .ok e

/-- adapters/torch.py:195-218. -/
def convertMeta (xl : Obj) (xu xuw xus : Option Obj) : Meta → Except PyErr Meta
  | .map l => do
    match ← firstDevice [xu, xuw, xus, some xl] with
    | none => .ok (.map l)
    | some d => do
      let l' ← l.mapM (convert d)
      .ok (.map l')
  | m => .ok m

/-- adapters/torch.py:173-174. -/
def checkSame (same : Bool) (ts : List Leaf) : Except PyErr Unit := if same then sameDevice none ts else .ok ()

/-- The device checks (adapters/torch.py:173-190); `name` is the device asked for. -/
def checkDevices (a : Accel) (name : Option String) (same : Bool) (ts : List Leaf) : Except PyErr Unit := do
  checkSame same ts
  match name with
  | none => .ok ()
  | some n =>
    if n = "auto" then .ok ()
    else do
      let e ← resolveDevice a n
      expectDevice e ts

/-- `to_torch_dataset` (adapters/torch.py:116-227). -/
def toTorch (a : Accel) (name : Option String) (same : Bool) : Option Data → Except PyErr Data
  | none => .error .validation
  | some d => do
    let xl ← requireTensor d.xl
    let yl ← requireTensor d.yl
    check2d xl
    let n ← sizeAt 0 xl
    checkY yl n
    let xu ← requireTensor? d.xu
    let xuw ← requireTensor? d.xuw
    let xus ← requireTensor? d.xus
    let f ← sizeAt 1 xl
    checkField f xu
    checkField f xuw
    checkField f xus
    checkRows xuw xus
    let views ← requireViews requireTensor d.views
    checkDevices a name same (tensors xl yl xu xuw xus views)
    let info ← convertMeta xl xu xuw xus d.info
    .ok ⟨xl, yl, xu, xuw, xus, views, info⟩

end ModSSC.Inductive.Adapt
