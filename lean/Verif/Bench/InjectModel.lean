import Verif.Bench.ProtoModel
import Verif.Deep.BundleModel

/-!
# Model of how a benchmark gives a method its networks

`_inject_model_bundle` of `bench/orchestrators/method_inductive.py`, and the use that TriNet makes of the networks it is
given (`src/modssc/inductive/methods/trinet.py`).
-/

namespace ModSSC.Bench.Inject
open ModSSC ModSSC.Deep.Bundle

/-- The labeled features as `run` hands them over: numpy with a dtype, torch, or a graph mapping with `x`. -/
inductive Feats where
  | numpy (shape : List Nat) (isFloat isByte : Bool) (values : List Int)
  | torch (x : Tensor)
  | graph (x : Tensor) (edges : List (Nat × Nat))

/-- `method.model`.  `loaded` is the result of `load_object(factory)(**params)`. -/
structure ModelCfg where
  factory : Option (Except PyErr Bundle) := none
  classifierId : Option String := none
  classifierBackend : Option String := none
  params : Params := {}
  ema : Option Bool := none

/-- `_smart_to_torch` (method_inductive.py:161-178): bytes and floats become floating, other numbers keep their type. -/
def toTorch (shape : List Nat) (isFloat isByte : Bool) (values : List Int) : Tensor :=
  ⟨shape, isFloat || isByte, values, "cpu"⟩

/-- The sample of `_make_bundle` (method_inductive.py:340-358). -/
def sampleOf (strict : Bool) (X : Feats) : Except PyErr Tensor :=
  match X with
  | .numpy s f u v => if strict then .error .runtimeError else .ok (toTorch s f u v)
  | .torch x => if strict ∧ x.floating = false then .error .runtimeError else .ok x
  | .graph x _ => if strict ∧ x.floating = false then .error .runtimeError else .ok x

/-- The device on which a head's sample lives: the shared network's output. -/
def headSample (b : Bundle) (s : List Nat) : Tensor := ⟨s, true, [], b.device⟩

/-- `ema` (method_inductive.py:371-374). -/
def emaOf (cfg : ModelCfg) (methodId : String) : Bool := cfg.ema.getD (decide (methodId = "mean_teacher"))

/-- `_make_bundle` without overrides (method_inductive.py:318-384). -/
def makeBundle (ext : Ext) (cfg : ModelCfg) (strict : Bool) (X : Feats) (y : List Int) (methodId : String) (seed : Int)
    (offset : Nat) : Except PyErr Bundle :=
  match cfg.factory with
  | some r => r
  | none => do
    let sample ← sampleOf strict X
    match cfg.classifierId with
    | none => .error .runtimeError
    | some id =>
      build ext id cfg.classifierBackend cfg.params sample (some (inferNumClasses y : Int)) (seed + offset)
        (emaOf cfg methodId)

/-- `_make_bundle` for a head of TriNet (method_inductive.py:318-384, 449-459): the factory case is excluded before. -/
def makeHead (ext : Ext) (cfg : ModelCfg) (sample : Tensor) (id : String) (y : List Int) (seed : Int) (offset : Nat) :
    Except PyErr Bundle :=
  build ext id (some "torch") cfg.params sample (some (inferNumClasses y : Int)) (seed + offset) false

/-- `X_l[:1]` or, for a graph, its first node (method_inductive.py:419-426).  With a numpy array TriNet is refused
(method_inductive.py:413-417), after its shared network was built. -/
def trinetSample (X : Feats) : Except PyErr Input :=
  match X with
  | .numpy _ _ _ _ => .error .runtimeError
  | .torch x => .ok (.tensor (takeSample x))
  | .graph x edges => .ok (.graph (takeSample x) (edges.filter (fun e => decide (e.1 = 0 ∧ e.2 = 0))))

/-- What TriNet's heads are built for (method_inductive.py:428-444): the output if it is a tensor, the features of a mapping,
the first component of a tuple. -/
def headShape : Output → List Nat
  | .tensor s => s
  | .mapping _ f => f
  | .pair l _ => l

/-- `head_classifier_id` (method_inductive.py:446-448). -/
def headId (cfg : ModelCfg) : String :=
  match cfg.classifierId with
  | some "mlp" => "mlp"
  | some "logreg" => "logreg"
  | _ => "logreg"

/-- The heads of TriNet (method_inductive.py:406-460). -/
def trinetBundles (ext : Ext) (cfg : ModelCfg) (strict : Bool) (X : Feats) (y : List Int) (methodId : String) (seed : Int) :
    Except PyErr (List (String × Bundle)) :=
  match cfg.factory with
  | some _ => .error .runtimeError
  | none => do
    let shared ← makeBundle ext cfg strict X y methodId seed 0
    let x ← trinetSample X
    let out ← shared.net.forward x
    let s := headSample shared (headShape out)
    let h1 ← makeHead ext cfg s (headId cfg) y seed 1
    let h2 ← makeHead ext cfg s (headId cfg) y seed 2
    let h3 ← makeHead ext cfg s (headId cfg) y seed 3
    pure [("shared_bundle", shared), ("head_bundles", h1), ("head_bundles", h2), ("head_bundles", h3)]

/-- Two networks. -/
def twoBundles (ext : Ext) (cfg : ModelCfg) (strict : Bool) (X : Feats) (y : List Int) (methodId : String) (seed : Int)
    (first second : String) : Except PyErr (List (String × Bundle)) := do
  let a ← makeBundle ext cfg strict X y methodId seed 0
  let b ← makeBundle ext cfg strict X y methodId seed 1
  pure [(first, a), (second, b)]

/-- `_inject_model_bundle` (method_inductive.py:300-465): the fields of the specification that are replaced, with their
networks, in the order in which the networks are made.  `spec` is the field names of the dataclass, if there is one. -/
def inject (ext : Ext) (spec : Option (List String)) (cfg : Option ModelCfg) (strict : Bool) (X : Feats) (y : List Int)
    (methodId : String) (seed : Int) : Except PyErr (List (String × Bundle)) :=
  match cfg with
  | none => .ok []
  | some cfg =>
    match spec with
    | none => .error .runtimeError
    | some fields =>
      let has := fun f : String => decide (f ∈ fields)
      if has "model_bundle" then do
        let b ← makeBundle ext cfg strict X y methodId seed 0
        pure [("model_bundle", b)]
      else if has "teacher_bundle" && has "student_bundle" then
        twoBundles ext cfg strict X y methodId seed "student_bundle" "teacher_bundle"
      else if has "model_bundle_1" && has "model_bundle_2" then
        twoBundles ext cfg strict X y methodId seed "model_bundle_1" "model_bundle_2"
      else if has "pretrain_bundle" && has "finetune_bundle" then
        twoBundles ext cfg strict X y methodId seed "pretrain_bundle" "finetune_bundle"
      else if has "shared_bundle" && has "head_bundles" then trinetBundles ext cfg strict X y methodId seed
      else .error .runtimeError

/-- `_forward_shared` (trinet.py:40-55). -/
def forwardShared (b : Bundle) (x : Tensor) : Except PyErr (List Nat) :=
  match b.features with
  | some f => f x
  | none => do
    let o ← b.net.forward (.tensor x)
    match o with
    | .tensor s => .ok s
    | .mapping _ f => .ok f
    | .pair _ _ => .error .validation

/-- `_forward_head` (trinet.py:58-64) for a network without `forward_head`. -/
def forwardHead (b : Bundle) (s : List Nat) : Except PyErr (List Nat) := do
  let o ← b.net.forward (.tensor (headSample b s))
  pure o.logits

end ModSSC.Bench.Inject
