import Verif.Base

/-!
# How the benchmark hands data to an inductive method

Model of the representation of the data in `bench/orchestrators/method_inductive.py` (what `run` gives to `fit`) and
`bench/orchestrators/evaluation.py` (what `evaluate_inductive` gives to `predict_proba`): numpy arrays, torch tensors
on a device, dictionaries and sequences of them.  The rows are already selected here (see `SliceModel.lean` and
`ProtoModel.lean` for the selection).  `np.asarray` of something that is not an array and the rounding to single
precision are parameters.  Tensors can be moved to every device.
-/

namespace ModSSC.Bench.Convert

/-- Number formats; `unsupported` is one that torch does not take, such as objects or text. -/
inductive Dtype where
  | u8 | i64 | bool | f16 | f32 | f64 | unsupported
deriving DecidableEq

/-- `torch.is_floating_point`. -/
def Dtype.floating : Dtype → Bool
  | .f16 | .f32 | .f64 => true
  | _ => false

/-- The content of an array or tensor. -/
structure Arr where
  dtype : Dtype
  shape : List Nat
  vals : List Rat
deriving DecidableEq

/-- A Python value used as data: `None`, a tensor on a device, a numpy array, a dictionary, a list, tuple or set, and
anything else (numbers, text). -/
inductive Val where
  | nothing
  | tensor (dev : String) (a : Arr)
  | array (a : Arr)
  | dict (items : List (String × Val))
  | seq (items : List Val)
  | other (s : String)

/-- What is left to libraries: `np.asarray` of a sequence or other object, and rounding to single precision. -/
structure Ext where
  asarray : Val → Except PyErr Arr
  f32 : Rat → Rat

/-- `has or child`, for the pair of flags. -/
def both (a b : Bool × Bool) : Bool × Bool := (a.1 || b.1, a.2 || b.2)

mutual
/-- `_array_backend_flags` of method_inductive.py:33-56: whether there are tensors and whether there are arrays. -/
def trainFlags : Val → Bool × Bool
  | .tensor _ _ => (true, false)
  | .array _ => (false, true)
  | .dict l => trainFlagsDict l
  | .seq l => trainFlagsSeq l
  | .nothing => (false, false)
  | .other _ => (false, false)

/-- The loop over the values of a dictionary (method_inductive.py:36-43). -/
def trainFlagsDict : List (String × Val) → Bool × Bool
  | [] => (false, false)
  | (_, v) :: l => both (trainFlags v) (trainFlagsDict l)

/-- The loop over a sequence (method_inductive.py:44-53): an item with neither counts as an array. -/
def trainFlagsSeq : List Val → Bool × Bool
  | [] => (false, false)
  | v :: l =>
    let c := trainFlags v
    both (c.1, c.2 || (!c.1 && !c.2)) (trainFlagsSeq l)
end

mutual
/-- `_array_backend_flags` of evaluation.py:120-141. -/
def evalFlags : Val → Bool × Bool
  | .tensor _ _ => (true, false)
  | .array _ => (false, true)
  | .dict l => evalFlagsDict l
  | .seq l => evalFlagsSeq l
  | .nothing => (false, false)
  | .other _ => (false, false)

/-- The loop over the values of a dictionary (evaluation.py:123-130). -/
def evalFlagsDict : List (String × Val) → Bool × Bool
  | [] => (false, false)
  | (_, v) :: l => both (evalFlags v) (evalFlagsDict l)

/-- The loop over a sequence (evaluation.py:131-138). -/
def evalFlagsSeq : List Val → Bool × Bool
  | [] => (false, false)
  | v :: l => both (evalFlags v) (evalFlagsSeq l)
end

/-- `_is_torch_container` of method_inductive.py:59-65. -/
def trainTorch : Val → Bool
  | .tensor _ _ => true
  | .dict l => (trainFlagsDict l).1 && !(trainFlagsDict l).2
  | _ => false

/-- `_is_torch_container` of evaluation.py:144-150. -/
def evalTorch : Val → Bool
  | .tensor _ _ => true
  | .dict l => (evalFlagsDict l).1 && !(evalFlagsDict l).2
  | _ => false

/-- `x["x"].device` if that entry is a tensor (method_inductive.py:72-73). -/
def xDevice (l : List (String × Val)) : Option String :=
  match l.lookup "x" with
  | some (.tensor d _) => some d
  | _ => none

mutual
/-- `_torch_container_device` (method_inductive.py:68-83). -/
def containerDevice : Val → Option String
  | .tensor d _ => some d
  | .dict l => (xDevice l).or (containerDeviceDict l)
  | .seq l => containerDeviceSeq l
  | _ => none

/-- The loop of method_inductive.py:74-77. -/
def containerDeviceDict : List (String × Val) → Option String
  | [] => none
  | (_, v) :: l => (containerDevice v).or (containerDeviceDict l)

/-- The loop of method_inductive.py:78-82. -/
def containerDeviceSeq : List Val → Option String
  | [] => none
  | v :: l => (containerDevice v).or (containerDeviceSeq l)
end

/-- The tensor made from an array (method_inductive.py:172-178, evaluation.py:113-117). -/
def asTensor (ext : Ext) (dev : String) (a : Arr) : Except PyErr Val :=
  match a.dtype with
  | .u8 => .ok (.tensor dev ⟨.f32, a.shape, a.vals.map fun v => ext.f32 (v / 255)⟩)
  | .f64 => .ok (.tensor dev ⟨.f32, a.shape, a.vals.map ext.f32⟩)
  | .unsupported => .error .typeError
  | _ => .ok (.tensor dev a)

mutual
/-- `_smart_to_torch` of method_inductive.py:161-178; without a device tensors stay and new ones are on the CPU. -/
def trainTo (ext : Ext) (dev : Option String) : Val → Except PyErr Val
  | .nothing => .ok .nothing
  | .dict l => do
    let l' ← trainToItems ext dev l
    .ok (.dict l')
  | .tensor d a => .ok (.tensor (dev.getD d) a)
  | .array a => asTensor ext (dev.getD "cpu") a
  | .seq l => do
    let a ← ext.asarray (.seq l)
    asTensor ext (dev.getD "cpu") a
  | .other s => do
    let a ← ext.asarray (.other s)
    asTensor ext (dev.getD "cpu") a

/-- The comprehension of method_inductive.py:166. -/
def trainToItems (ext : Ext) (dev : Option String) : List (String × Val) → Except PyErr (List (String × Val))
  | [] => .ok []
  | (k, v) :: l => do
    let v' ← trainTo ext dev v
    let l' ← trainToItems ext dev l
    .ok ((k, v') :: l')
end

mutual
/-- `_smart_to_torch` of evaluation.py:99-117. -/
def evalTo (ext : Ext) (dev : String) : Val → Except PyErr Val
  | .nothing => .ok .nothing
  | .dict l => do
    let l' ← evalToItems ext dev l
    .ok (.dict l')
  | .tensor _ a => .ok (.tensor dev a)
  | .array a => asTensor ext dev a
  | .seq l => do
    let a ← ext.asarray (.seq l)
    asTensor ext dev a
  | .other s => do
    let a ← ext.asarray (.other s)
    asTensor ext dev a

/-- The comprehension of evaluation.py:104. -/
def evalToItems (ext : Ext) (dev : String) : List (String × Val) → Except PyErr (List (String × Val))
  | [] => .ok []
  | (k, v) :: l => do
    let v' ← evalTo ext dev v
    let l' ← evalToItems ext dev l
    .ok ((k, v') :: l')
end

/-! ### strict checks -/

/-- `_feature_tensor` (method_inductive.py:86-95). -/
def featureTensor : Val → Val
  | .tensor d a => .tensor d a
  | .array a => .array a
  | .dict l => (l.lookup "x").getD .nothing
  | _ => .nothing

/-- `_validate_strict_tensor_contract` (method_inductive.py:181-197). -/
def strictTensor (v : Val) : Except PyErr Unit :=
  match featureTensor v with
  | .tensor _ a =>
    if a.shape.length < 2 then .error .runtimeError
    else if a.dtype.floating then .ok () else .error .runtimeError
  | .array a => if a.shape.length < 2 then .error .runtimeError else .ok ()
  | _ => .ok ()

/-- One round of the loop of `_validate_strict_inputs` (method_inductive.py:210-224). -/
def strictInput (requiresTorch : Bool) : Val → Except PyErr Unit
  | .nothing => .ok ()
  | v => if requiresTorch && !trainTorch v then .error .runtimeError else strictTensor v

/-- The rows: `_len0` (method_inductive.py:98-109). -/
def len0 (v : Val) : Option Nat :=
  let o := match v with
    | .dict l => (l.lookup "x").getD v
    | _ => v
  match o with
  | .tensor _ a => a.shape.head?
  | .array a => a.shape.head?
  | _ => none

/-- The end of `_validate_strict_inputs` (method_inductive.py:226-232). -/
def strictRows (xl yl : Val) : Except PyErr Unit :=
  match len0 xl, len0 yl with
  | some n, some m => if n = m then .ok () else .error .runtimeError
  | _, _ => .ok ()

/-! ### what `run` gives to `fit` -/

/-- The configuration of the method as far as it is used here; text is compared after `.lower()`.
`model`: a model section is there, with its `classifier_backend`; `classifierBackend` and `backend`: the parameters of
that name if they are text. -/
structure Cfg where
  requiresTorch : Bool
  model : Option (Option String)
  classifierBackend : Option String
  backend : Option String
  device : String

/-- `_should_auto_to_torch` (method_inductive.py:496-507). -/
def autoTorch (c : Cfg) : Bool :=
  if c.requiresTorch then true
  else if c.model = some (some "torch") then true
  else match c.classifierBackend with
    | some b => b = "torch"
    | none => match c.backend with
      | some b => b = "torch"
      | none => false

/-- The data: labeled and unlabeled rows, and the augmented unlabeled rows (`nothing` if absent). -/
structure Inputs where
  xl : Val
  xu : Val
  xuw : Val
  xus : Val
  xus1 : Val

/-- The five inputs in the order of `_validate_strict_inputs` (method_inductive.py:210-216). -/
def Inputs.all (d : Inputs) : List Val := [d.xl, d.xu, d.xuw, d.xus, d.xus1]

/-- `_validate_strict_inputs` (method_inductive.py:200-232). -/
def strictInputs (requiresTorch : Bool) (d : Inputs) (yl : Val) : Except PyErr Unit := do
  let _ ← d.all.mapM (strictInput requiresTorch)
  strictRows d.xl yl

/-- The conversion in `run` (method_inductive.py:569-587); `resolve` is `resolve_device_name`. -/
def convertInputs (ext : Ext) (resolve : String → String) (c : Cfg) (d : Inputs) : Except PyErr Inputs :=
  if autoTorch c then
    if !trainTorch d.xl then do
      let dev := some (resolve c.device)
      let xl ← trainTo ext dev d.xl
      let xu ← trainTo ext dev d.xu
      let xuw ← trainTo ext dev d.xuw
      let xus ← trainTo ext dev d.xus
      let xus1 ← trainTo ext dev d.xus1
      .ok ⟨xl, xu, xuw, xus, xus1⟩
    else do
      let dev := some ((containerDevice d.xl).getD "cpu")
      let xuw ← trainTo ext dev d.xuw
      let xus ← trainTo ext dev d.xus
      let xus1 ← trainTo ext dev d.xus1
      .ok ⟨d.xl, d.xu, xuw, xus, xus1⟩
  else .ok d

/-- The labels made for these features by `_labels_for_backend` (method_inductive.py:133-158): `y` are the selected
labels; labels that are a tensor already are moved to the device of tensor features. -/
def labelsFor (xl : Val) (y : Val) : Val :=
  match y with
  | .tensor d a => if trainTorch xl then .tensor ((containerDevice xl).getD "cpu") a else .tensor d a
  | .array a =>
    let a := { a with dtype := .i64 }
    if trainTorch xl then .tensor ((containerDevice xl).getD "cpu") a else .array a
  | v => v

/-- What `run` says about the conversion (method_inductive.py:667-670): `implicit_method_conversion` and
`strict_contract_validated`. -/
structure Report where
  implicitConversion : Bool
  strictValidated : Bool
deriving DecidableEq

/-- The data part of `run` (method_inductive.py:510-677): what `fit` gets, the labels, and the report. -/
def handOver (ext : Ext) (resolve : String → String) (strict : Bool) (c : Cfg) (d : Inputs) (y : Val) :
    Except PyErr (Inputs × Val × Report) :=
  if strict then
    if c.backend = some "auto" then .error .runtimeError
    else do
      let yl := labelsFor d.xl y
      let _ ← strictInputs c.requiresTorch d yl
      .ok (d, yl, ⟨false, true⟩)
  else do
    let d' ← convertInputs ext resolve c d
    .ok (d', labelsFor d'.xl y, ⟨false, false⟩)

/-- One view of `_build_views` (method_inductive.py:246-260), its labeled or unlabeled rows. -/
def viewPart (ext : Ext) (strict : Bool) (ref : Val) (v : Val) : Except PyErr Val :=
  if trainTorch ref then
    if strict then (if trainTorch v then .ok v else .error .runtimeError)
    else trainTo ext (containerDevice ref) v
  else .ok v

/-- `_build_views` (method_inductive.py:235-261): per view the labeled and unlabeled rows. -/
def buildViews (ext : Ext) (strict : Bool) (ref : Val) (views : List (String × Val × Val)) :
    Except PyErr (List (String × Val × Val)) :=
  views.mapM fun v => do
    let l ← viewPart ext strict ref v.2.1
    let u ← viewPart ext strict ref v.2.2
    .ok (v.1, l, u)

/-! ### what `evaluate_inductive` gives to `predict_proba` -/

/-- An object hanging off a fitted method: `None`, an array, a collection (list, tuple, set, dictionary), or an object
with, possibly, a first parameter, a first buffer, a `device` that is text or a torch device (tensors included), and
attributes. -/
inductive Obj where
  | nothing
  | array
  | coll (l : List Obj)
  | node (param buffer device : Option String) (attrs : List (String × Obj))

mutual
/-- `_first_torch_device` (evaluation.py:187-221). -/
def firstDevice : Obj → Option String
  | .nothing => none
  | .array => none
  | .coll l => firstDeviceList l
  | .node p b d _ => p.or (b.or d)

/-- The loops of evaluation.py:192-203. -/
def firstDeviceList : List Obj → Option String
  | [] => none
  | o :: l => (firstDevice o).or (firstDeviceList l)
end

/-- `getattr(o, name, None)`. -/
def Obj.attr (o : Obj) (name : String) : Obj :=
  match o with
  | .node _ _ _ attrs => (attrs.lookup name).getD .nothing
  | _ => .nothing

/-- The attributes of a method that are looked at (evaluation.py:225). -/
def methodAttrs : List String := ["_svm", "_bundle", "_model", "_clf", "_clf1", "_clf2"]

/-- The attributes of those that are looked at (evaluation.py:230). -/
def nestedAttrs : List String := ["_model", "model", "_bundle", "_svm", "_clf", "_clf1", "_clf2"]

/-- The first device found. -/
def firstSome (l : List (Option String)) : Option String := l.foldr (fun a b => a.or b) none

/-- `_infer_method_device` (evaluation.py:224-234), on the attributes of the method. -/
def inferDevice (attrs : List (String × Obj)) : Option String :=
  firstSome (methodAttrs.map fun a =>
    let c := (attrs.lookup a).getD .nothing
    (firstDevice c).or (firstSome (nestedAttrs.map fun n => firstDevice (c.attr n))))

/-- A fitted method: its `device` (text, or the `device` of a specification), `_backend`, and its attributes. -/
structure Method where
  device : Option String
  backend : Option String
  attrs : List (String × Obj)

/-- `dest_dev` (evaluation.py:259-265). -/
def destDevice (m : Method) : Option String :=
  match m.device with
  | some d => some d
  | none => if m.backend = some "torch" then inferDevice m.attrs else none

/-- The rows given to `predict_proba` (evaluation.py:267-274). -/
def evalInput (ext : Ext) (strict : Bool) (m : Method) (x : Val) : Except PyErr Val :=
  match destDevice m with
  | none => .ok x
  | some d =>
    if strict then (if evalTorch x then .ok x else .error .runtimeError)
    else evalTo ext d x

mutual
/-- `_first_torch_device` (evaluation.py:187-221) of data. -/
def dataDevice : Val → Option String
  | .tensor d _ => some d
  | .dict l => dataDeviceDict l
  | .seq l => dataDeviceSeq l
  | _ => none

/-- The loop over a dictionary (evaluation.py:192-197). -/
def dataDeviceDict : List (String × Val) → Option String
  | [] => none
  | (_, v) :: l => (dataDevice v).or (dataDeviceDict l)

/-- The loop over a sequence (evaluation.py:198-203). -/
def dataDeviceSeq : List Val → Option String
  | [] => none
  | v :: l => (dataDevice v).or (dataDeviceSeq l)
end

/-- One view of `_views_for_split` (evaluation.py:174-183). -/
def evalView (ext : Ext) (strict : Bool) (ref : Val) (v : Val) : Except PyErr Val :=
  match dataDevice ref with
  | none => .ok v
  | some d =>
    if strict then (if evalTorch v then .ok v else .error .runtimeError)
    else evalTo ext d v

/-- `_views_for_split` (evaluation.py:153-184). -/
def evalViews (ext : Ext) (strict : Bool) (ref : Val) (views : List (String × Val)) :
    Except PyErr (List (String × Val)) :=
  views.mapM fun v => do
    let x ← evalView ext strict ref v.2
    .ok (v.1, x)

end ModSSC.Bench.Convert
