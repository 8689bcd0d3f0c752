import Verif.Base
import Mathlib.Algebra.Field.Basic
import Mathlib.Algebra.Order.Field.Rat

/-!
# SimCLRv2

`src/modssc/inductive/methods/simclr_v2.py`.  A bundle is named by a number (bundles that wrap the same model have the same
number); the parameters of all models are the memory `W`.  One stage of training is a parameter: parameters before to parameters
after.  Checks of dtypes, devices and shapes are not modelled.
-/

namespace ModSSC.Simclr
open ModSSC

variable {S : Type}

/-- A model: its parameters, and whether they were all taken out of training (`requires_grad_(False)`). -/
structure Net (S : Type) where
  params : S
  frozen : Bool

/-- `SimCLRv2Spec`, simclr_v2.py:180-196, what is used of it here. -/
structure Cfg where
  pre : Option Nat
  fine : Option Nat
  stud : Option Nat
  batch : Int
  preEpochs : Int
  fineEpochs : Int
  distEpochs : Int
  alpha : Rat
  temp : Rat
  distTemp : Rat
  transfer : Bool
  useLabeled : Bool

/-- The sizes of the data: labeled, weak and strong unlabeled rows (`none`: not given). -/
structure Sizes where
  nl : Nat
  nw : Option Nat
  ns : Option Nat

/-- The stages of training: on unlabeled data, on labeled data, and of a student (second argument) with a fixed teacher (first);
`load` is `load_state_dict(…, strict=False)`: source, target. -/
structure Stages (S : Type) where
  pre : S → S
  fine : S → S
  dist : S → S → S
  load : S → S → S

/-- Whether the unlabeled views are missing, empty or of different lengths, `_get_unlabeled_views` and simclr_v2.py:287-302. -/
def viewsBad (n : Sizes) : Bool :=
  match n.nw with
  | none => true
  | some k => k == 0 || (match n.ns with | none => false | some k' => k != k')

/-- The checks before training, simclr_v2.py:266-310. -/
def check (c : Cfg) (n : Sizes) : Except PyErr Unit :=
  if c.batch ≤ 0 then .error .validation
  else if c.preEpochs < 0 ∨ c.fineEpochs < 0 ∨ c.distEpochs < 0 then .error .validation
  else if c.preEpochs = 0 ∧ c.fineEpochs = 0 ∧ c.distEpochs = 0 then .error .validation
  else if ¬ (0 ≤ c.alpha ∧ c.alpha ≤ 1) then .error .validation
  else if c.temp ≤ 0 ∨ c.distTemp ≤ 0 then .error .validation
  else if (c.preEpochs > 0 ∨ c.distEpochs > 0) ∧ viewsBad n = true then .error .validation
  else if (c.fineEpochs > 0 ∨ c.useLabeled = true) ∧ n.nl = 0 then .error .validation
  else .ok ()

/-- A required bundle, simclr_v2.py:317-318 and 327-328. -/
def required (b : Option Nat) : Except PyErr (Option Nat) := if b = none then .error .validation else .ok b

/-- Which bundles are used, simclr_v2.py:312-333: `pretrain_bundle` and `finetune_bundle`. -/
def roles (c : Cfg) : Except PyErr (Option Nat × Option Nat) :=
  (if c.preEpochs > 0 then required (c.pre.or c.fine) else .ok none) >>= fun pre =>
  (if c.fineEpochs > 0 ∨ c.distEpochs > 0 then required (c.fine.or pre) else .ok none) >>= fun fine => .ok (pre, fine)

/-- One stage of training of a bundle: `loss.backward()` of a model out of training is a `RuntimeError`. -/
def train (W : Nat → Net S) (b : Nat) (f : S → S) : Except PyErr (Nat → Net S) :=
  if (W b).frozen then .error .runtimeError
  else .ok fun k => if k = b then ⟨f (W b).params, (W b).frozen⟩ else W k

/-- Pretraining, simclr_v2.py:335-373. -/
def stagePre (T : Stages S) (c : Cfg) (pre : Option Nat) (W : Nat → Net S) : Except PyErr (Nat → Net S) :=
  match pre with
  | some p => if c.preEpochs > 0 then train W p T.pre else .ok W
  | none => .ok W

/-- The transfer of the pretrained parameters, simclr_v2.py:375-389. -/
def stageLoad (T : Stages S) (c : Cfg) (pre fine : Option Nat) (W : Nat → Net S) : Nat → Net S :=
  match pre, fine with
  | some p, some f =>
    if c.transfer = true ∧ p ≠ f ∧ c.preEpochs > 0 then fun k => if k = f then ⟨T.load (W p).params (W f).params, (W f).frozen⟩ else W k else W
  | _, _ => W

/-- Fine-tuning, simclr_v2.py:391-420. -/
def stageFine (T : Stages S) (c : Cfg) (fine : Option Nat) (W : Nat → Net S) : Except PyErr (Nat → Net S) :=
  match fine with
  | some f => if c.fineEpochs > 0 then train W f T.fine else .ok W
  | none => .ok W

/-- Distillation, simclr_v2.py:422-533.  Without a student bundle the teacher is a copy of the model, which is the student; else
the fine-tuned model is the teacher and stays out of training afterwards. -/
def stageDist (T : Stages S) (c : Cfg) (fine : Option Nat) (W : Nat → Net S) : Except PyErr (Nat → Net S) :=
  match fine with
  | some f =>
    if c.distEpochs > 0 then
      match c.stud with
      | none => train W f (T.dist (W f).params)
      | some s =>
        if s = f then .error .validation
        else
          let W' : Nat → Net S := fun k => if k = f then ⟨(W f).params, true⟩ else W k
          train W' s (T.dist (W' f).params)
    else .ok W
  | none => .ok W

/-- Which bundle the method keeps, simclr_v2.py:535-540. -/
def finalBundle (c : Cfg) (pre fine : Option Nat) : Option Nat :=
  if c.distEpochs > 0 ∧ c.stud.isSome = true then c.stud else if c.fineEpochs > 0 then fine else pre

/-- `SimCLRv2Method.fit`, simclr_v2.py:219-546: the memory afterwards and the bundle kept. -/
def fit (T : Stages S) (c : Cfg) (n : Sizes) (W : Nat → Net S) : Except PyErr ((Nat → Net S) × Option Nat) := do
  check c n
  let (pre, fine) ← roles c
  let W ← stagePre T c pre W
  let W := stageLoad T c pre fine W
  let W ← stageFine T c fine W
  let W ← stageDist T c fine W
  return (W, finalBundle c pre fine)

/-- A callable in `meta`: the model it works on, and whether it is a bound method of that model.  Modules (`model.fc`) and
functions that use the model are not. -/
structure Call where
  owner : Nat
  isMethod : Bool
deriving DecidableEq

/-- `_rebind_meta` for one callable, simclr_v2.py:111-127. -/
def rebind (source target : Nat) (c : Call) : Call := if c.isMethod = true ∧ c.owner = source then ⟨target, c.isMethod⟩ else c

/-- The parameters with which the teacher answers while the student (number 0) has parameters `s` and the teacher (number 1, the
copy) `t`: those of the model its callable works on, of the teacher itself without one (`_forward_logits`, simclr_v2.py:92-108). -/
def teacherParams (meta0 : Option Call) (s t : S) : S :=
  match meta0.map (rebind 0 1) with
  | none => t
  | some c => if c.owner = 0 then s else t

/-- The distillation steps without a student bundle, simclr_v2.py:460-530: what the student is compared with in every step. -/
def distTargets (step : S → S → S) (meta0 : Option Call) (t : S) : Nat → S → List S
  | 0, _ => []
  | k + 1, s => teacherParams meta0 s t :: distTargets step meta0 t k (step (teacherParams meta0 s t) s)

/-- `pos_idx`, `_nt_xent_loss`, simclr_v2.py:144-146: the row each row is matched with. -/
def posIdx (n i : Nat) : Nat := if i < n / 2 then i + n / 2 else i - n / 2

/-- Row `i` of the loss, simclr_v2.py:139-148: `sim` are the scaled similarities, the own one replaced by `-1e9`. -/
def ntRow {K : Type} [Ring K] (lse : List K → K) (n : Nat) (sim : Nat → Nat → K) (i : Nat) : K :=
  -((if posIdx n i = i then -1000000000 else sim i (posIdx n i)) - lse ((List.range n).map fun j => if j = i then -1000000000 else sim i j))

/-- `_nt_xent_loss` for `n` rows, simclr_v2.py:130-148. -/
def ntXent {K : Type} [Field K] (lse : List K → K) (n : Nat) (sim : Nat → Nat → K) : Except PyErr K :=
  if n < 2 ∨ n % 2 ≠ 0 then .error .validation
  else .ok (((List.range n).map (ntRow lse n sim)).sum / (n : K))

end ModSSC.Simclr
