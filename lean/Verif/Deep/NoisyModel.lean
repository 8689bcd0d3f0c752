import Verif.Deep.FitModel
import Verif.Deep.ConsModel

/-!
# Noisy Student

Models the whole `fit` of `src/modssc/inductive/methods/noisy_student.py`: the choice of views, the checks, the
supervised training that comes first, the copy of the network that serves as teacher, the batches (`BatchModel`), the
forward passes, the pseudo-labels of the teacher and the optimizer steps.

Networks are states `W` as in `FitModel`; the loss of a step is an `Objective` (a soft target means the divergence
`_kl_divergence(probs_uw, log_probs_us)` here, l.40-42).  Batch norm freezing is part of the network; graph dictionaries
are not modelled.
-/

namespace ModSSC.Deep.Noisy
open ModSSC ModSSC.Deep
open ModSSC.Deep.Fit (Out Feats Input Bundle Ready Batch Net Torch Objective)

variable {X W K σ : Type}

/-- `NoisyStudentSpec`, noisy_student.py l.45-60.  `detach_target` has no effect: the parameters of the teacher need no
gradient. -/
structure Cfg (K : Type) where
  /-- `batch_size`, `max_epochs`, `lambda_u`, `unsup_warm_up` -/
  base : Cons.Cfg K
  /-- `teacher_epochs` -/
  teacherEpochs : Int
  /-- `p_cutoff` -/
  cutoff : K
  /-- `temperature` -/
  temperature : K
  /-- `hard_label` -/
  hard : Bool
  /-- `use_cat` -/
  cat : Bool
  /-- `freeze_bn` -/
  freezeBn : Bool

/-- What is done with whole networks (external). -/
structure Copying (W K : Type) where
  /-- `list(model.parameters())`, each flattened -/
  params : W → List (List K)
  /-- `teacher.load_state_dict(student.state_dict())`: the teacher afterwards, noisy_student.py l.95-101 -/
  load : W → W → W
  /-- `p.requires_grad_(False)` for all parameters, and `teacher.eval()`, l.244-246 -/
  evalMode : W → W

/-- The views, noisy_student.py l.180-181: `xu` is `X_u`. -/
def nsInput (xu : Option (Feats X)) (d : Input X) : Input X :=
  let w := match d.xw with
    | some x => some x
    | none => xu
  { d with xw := w, xs := match d.xs with
    | some x => some x
    | none => w }

variable [Field K] [LinearOrder K]

/-- The checks of the further parameters, noisy_student.py l.219-226. -/
def ranges (cfg : Cfg K) : Bool :=
  decide (0 ≤ cfg.teacherEpochs) && decide (0 ≤ cfg.cutoff ∧ cfg.cutoff ≤ 1) && decide (0 < cfg.temperature)

/-- One step of `_train_teacher`, noisy_student.py l.129-146. -/
def supStep (N : Net X W K) (w : W) (s : List X × List Int) : W × Except PyErr Unit :=
  let l := N.forward w s.1
  if l.1.ndim ≠ 2 then (l.2, .error .validation)
  else if s.2.any (fun c => decide (c < 0 ∨ (l.1.classes : Int) ≤ c)) then (l.2, .error .validation)
  else (N.step l.2 ⟨(s.1.zip s.2).map fun p => (p.1, p.2, 1 / (s.2.length : K)), [], 0, none⟩, .ok ())

/-- The batches of `_train_teacher`, noisy_student.py l.118-128: one generator for all epochs. -/
def supEpochs (G : TorchGen σ) (xl : List X) (yl : List Int) (b : Nat) :
    Nat → σ → Except PyErr (List (List (List X × List Int)))
  | 0, _ => .ok []
  | e + 1, g =>
    match cycleBatches G xl yl b (numBatches xl.length b) g with
    | .error e => .error e
    | .ok (ep, g') =>
      match supEpochs G xl yl b e g' with
      | .error e => .error e
      | .ok rest => .ok (ep :: rest)

/-- `_train_teacher`, noisy_student.py l.103-146; the network is put into training mode only if there are epochs. -/
def trainTeacher (G : TorchGen σ) (N : Net X W K) (xl : List X) (yl : List Int) (b : Nat) (epochs : Int) (seed : Int)
    (w : W) : W × Except PyErr Unit :=
  if epochs ≤ 0 then (w, .ok ())
  else
    match supEpochs G xl yl b epochs.toNat (G.manualSeed seed) with
    | .error e => (w, .error e)
    | .ok eps => Cons.runSteps (supStep N) (N.train w) eps.flatten

/-- `freeze_student_bn`, noisy_student.py l.280-284 with `should_freeze_batchnorm`, torch_support.py l.192-203. -/
def frozen (cfg : Cfg K) (s : Batch X) : Bool :=
  cfg.freezeBn || decide (s.xl.length < 2) || decide (s.xs.length < 2)

/-- The forward passes of the student over labeled rows and strong views, noisy_student.py l.286-302. -/
def look (N : Net X W K) (cat : Bool) (w : W) (s : Batch X) : Except PyErr (Out K × Out K) × W :=
  if cat then
    let r := N.forward w (s.xl ++ s.xs)
    if r.1.ndim ≠ 2 then (.error .validation, r.2)
    else if r.1.rows.length ≠ s.xl.length + s.xs.length then (.error .validation, r.2)
    else (.ok (r.1.slice 0 s.xl.length, r.1.slice s.xl.length s.xs.length), r.2)
  else
    let l := N.forward w s.xl
    let u := N.forward l.2 s.xs
    (.ok (l.1, u.1), u.2)

/-- The checks on the logits of the student, noisy_student.py l.303-317. -/
def agree (s : Batch X) (l u : Out K) : Except PyErr Unit :=
  if l.ndim ≠ 2 ∨ u.ndim ≠ 2 then .error .validation
  else if l.rows.length ≠ s.xl.length then .error .validation
  else if u.rows.length ≠ s.xs.length then .error .validation
  else if l.classes ≠ u.classes then .error .validation
  else if s.yl.any (fun c => decide (c < 0 ∨ (l.classes : Int) ≤ c)) then .error .validation
  else .ok ()

/-- The loss of a step, noisy_student.py l.319 and l.333-353.  `logits` are those of the teacher. -/
def objective (T : Torch K) (cfg : Cfg K) (total k : Nat) (s : Batch X) (logits : List (List K)) : Objective X K :=
  let probs := logits.map fun r => T.softmax (r.map (· / cfg.temperature))
  ⟨(s.xl.zip s.yl).map fun p => (p.1, p.2, 1 / (s.yl.length : K)),
    List.zipWith (fun p q => ⟨p.1, p.2, q.1, q.2⟩) ((s.xw.map (·.1)).zip s.xs)
      ((Fit.targetsOf T cfg.hard probs).zip (Fit.strictNormed (maskOf cfg.cutoff probs))),
    cfg.base.lambdaU * (warmFactor cfg.base.warmUp total k : K), none⟩

/-- One step, noisy_student.py l.277-371.  The state is student and teacher with `step_idx`. -/
def noisyStep (N : Net X W K) (T : Torch K) (cfg : Cfg K) (total : Nat) (st : (W × W) × Nat) (s : Batch X) :
    ((W × W) × Nat) × Except PyErr Unit :=
  match look N (cfg.cat && !frozen cfg s) st.1.1 s with
  | (.error e, w) => (((w, st.1.2), st.2), .error e)
  | (.ok o, w) =>
    match agree s o.1 o.2 with
    | .error e => (((w, st.1.2), st.2), .error e)
    | .ok _ =>
      let v := N.forward st.1.2 (s.xw.map (·.1))
      if v.1.ndim ≠ 2 then (((w, v.2), st.2), .error .validation)
      else if v.1.classes ≠ o.2.classes then (((w, v.2), st.2), .error .validation)
      else (((N.step w (objective T cfg total st.2 s v.1.rows), v.2), st.2 + 1), .ok ())

/-- What the bundle's `ema_model` is afterwards; without one the copy of the student is dropped. -/
def keep (ema : Option W) (t : W) : Option W := ema.map fun _ => t

/-- `fit`, noisy_student.py l.148-376.  `ema` is the bundle's `ema_model`, `same` says that it is its `model`.  Returns
whether `_bundle` is set, the network and the `ema_model`, with or without an error. -/
def fit (G : TorchGen σ) (N : Net X W K) (P : Copying W K) (T : Torch K) (torch : Bool) (cfg : Cfg K)
    (bundle : Option Bundle) (xu : Option (Feats X)) (data : Option (Input X)) (seed : Int) (fitted same : Bool) (w : W)
    (ema : Option W) : (Bool × W × Option W) × Except PyErr Unit :=
  match Cons.check torch cfg.base (ranges cfg) bundle (data.map (nsInput xu)) with
  | .error e => ((fitted, w, ema), .error e)
  | .ok r =>
    match trainTeacher G N r.xl r.yl cfg.base.batchSize.toNat cfg.teacherEpochs seed w with
    | (w1, .error e) => ((fitted, w1, ema), .error e)
    | (w1, .ok _) =>
      match checkTeacher (ema.isSome && same) (P.params w1) (P.params (ema.getD w1)) with
      | .error e => ((fitted, w1, ema), .error e)
      | .ok _ =>
        let t := P.evalMode (P.load w1 (ema.getD w1))
        match fitBatches G r.xl r.yl r.xw r.xs cfg.base.batchSize cfg.base.maxEpochs seed with
        | .error e => ((fitted, w1, keep ema t), .error e)
        | .ok eps =>
          match Cons.runSteps (noisyStep N T cfg (Cons.totalSteps r cfg.base)) ((N.train w1, t), 0) eps.flatten with
          | (st, .error e) => ((fitted, st.1.1, keep ema st.1.2), .error e)
          | (st, .ok _) => ((true, st.1.1, keep ema st.1.2), .ok ())

end ModSSC.Deep.Noisy
