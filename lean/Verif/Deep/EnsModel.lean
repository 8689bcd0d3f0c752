import Verif.Deep.EmaModel
import Verif.Deep.BatchModel

/-!
# Temporal ensembling, warm-up, Mean Teacher and MixUp

Models parts of `src/modssc/inductive/methods/temporal_ensembling.py`, `mean_teacher.py` and `mixmatch.py`.
Matrices are lists of rows.
-/

namespace ModSSC.Deep
open ModSSC

variable {K : Type} [Field K] [LinearOrder K]

/-! ## Temporal ensembling -/

/-- Predictions for one unlabeled sample in a step: its position in the pool and the probabilities of the two views. -/
structure TePred (K : Type) where
  /-- position, an entry of `idx_u` -/
  idx : Nat
  /-- row of `softmax(logits_uw)` -/
  weak : List K
  /-- row of `softmax(logits_us)` -/
  strong : List K

/-- `prob_u = 0.5 * (prob_uw + prob_us)`, temporal_ensembling.py l.206. -/
def teProb (p : TePred K) : List K := List.zipWith (fun a b => 1 / 2 * (a + b)) p.weak p.strong

/-- `epoch_predictions`: zeros overwritten by `epoch_predictions[idx_u] = prob_u` step by step,
temporal_ensembling.py l.161 and l.250. -/
def tePass (n C : Nat) (preds : List (TePred K)) : List (List K) :=
  preds.foldl (fun m p => m.set p.idx (teProb p)) (List.replicate n (List.replicate C 0))

/-- `targets = ensemble_predictions / max(1 - alpha ** (epoch + 1), 1e-12)`, temporal_ensembling.py l.162-164 and
l.215-217 (in the first epoch the zero matrix). -/
def teTargets (alpha : K) (epoch : Nat) (ens : List (List K)) : List (List K) :=
  ens.map fun r => r.map (· / max (1 - alpha ^ (epoch + 1)) (1 / 10 ^ 12))

/-- `alpha * ensemble + (1 - alpha) * epoch`, temporal_ensembling.py l.255-258. -/
def teBlend (alpha : K) (ens ep : List (List K)) : List (List K) :=
  List.zipWith (List.zipWith fun a b => alpha * a + (1 - alpha) * b) ens ep

/-- The epochs from `epoch` on, temporal_ensembling.py l.159-258: the targets used in each and the final ensemble.  The
predictions of an epoch are given in the order in which the steps make them; which they are depends on the model, which
is not modelled. -/
def teRun (n C : Nat) (alpha : K) : Nat → List (List K) → List (List (TePred K)) → List (List (List K)) × List (List K)
  | _, ens, [] => ([], ens)
  | epoch, ens, preds :: rest =>
    let r := teRun n C alpha (epoch + 1) (teBlend alpha ens (tePass n C preds)) rest
    (teTargets alpha epoch ens :: r.1, r.2)

/-- The whole training. -/
def teFit (n C : Nat) (alpha : K) (epochs : List (List (TePred K))) : List (List (List K)) × List (List K) :=
  teRun n C alpha 0 (List.replicate n (List.replicate C 0)) epochs

/-! ## Warm-up of the unlabeled loss -/

/-- `warmup_steps`, mean_teacher.py l.180-183; the same lines in mixmatch.py, pi_model.py, noisy_student.py and
temporal_ensembling.py. -/
def warmupSteps (w : Rat) (total : Nat) : Int := if w ≤ 0 then 0 else max 1 (pyRound (w * total))

/-- `warm`, mean_teacher.py l.242. -/
def warmFactor (w : Rat) (total step : Nat) : Rat :=
  if warmupSteps w total ≤ 0 then 1 else min ((step : Rat) / (warmupSteps w total : Rat)) 1

/-! ## Mean Teacher -/

/-- The comparison of `_check_teacher`, mean_teacher.py l.69-81, on lists of parameter tensors (each a list of numbers;
shapes are lengths, devices are not modelled). -/
def checkTeacher (same : Bool) (student teacher : List (List K)) : Except PyErr Unit :=
  if same then .error .validation
  else if student.length ≠ teacher.length then .error .validation
  else if (List.zipWith (fun s t : List K => decide (s.length = t.length)) student teacher).all id then .ok ()
  else .error .validation

/-- `_update_teacher`, mean_teacher.py l.92-94. -/
def updateTeacher (decay : K) (teacher student : List (List K)) : List (List K) :=
  List.zipWith (List.zipWith fun t s => t * decay + (1 - decay) * s) teacher student

/-- The teacher during `fit`, mean_teacher.py l.175 and l.257-263: a copy of the student, then updated after each step
with the student of that moment.  `decay` must be in `[0, 1]` (l.172). -/
def teacherRun (decay : K) (same : Bool) (student teacher : List (List K)) (later : List (List (List K))) :
    Except PyErr (List (List K)) :=
  match checkTeacher same student teacher with
  | .error e => .error e
  | .ok () =>
    if decay < 0 ∨ 1 < decay then .error .validation
    else .ok (later.foldl (updateTeacher decay) student)

/-! ## MixUp -/

/-- One mixed row. -/
def mixRow (lam : K) (a b : List K) : List K := List.zipWith (fun x y => lam * x + (1 - lam) * y) a b

/-- `_mixup`, mixmatch.py l.44-85, on tensors of rows (higher dimensional inputs are rows of their entries; graph inputs
mix `x` in the same way).  `beta g n` are `n` samples of the Beta distribution from torch's global generator `g`; the
permutation comes from the generator passed in. -/
def mixup {σ τ : Type} (G : TorchGen σ) (beta : K → τ → Nat → List K × τ) (alpha : K) (X Y : List (List K)) (g : σ)
    (global : τ) : Except PyErr ((List (List K) × List (List K)) × σ × τ) :=
  if X.length ≠ Y.length then .error .validation
  else if X.length = 0 then .error .validation
  else
    let draw := if alpha ≤ 0 then (List.replicate X.length 1, global)
      else ((beta alpha global X.length).1.map (fun l => max l (1 - l)), (beta alpha global X.length).2)
    let perm := G.randperm g X.length
    let mix := fun M : List (List K) => (List.range X.length).map fun i =>
      mixRow (draw.1.getD i 0) (M.getD i []) (M.getD (perm.1.getD i 0) [])
    .ok ((mix X, mix Y), perm.2, draw.2)

/-- The targets of MixMatch before mixing, mixmatch.py l.330-333: one-hot labels of the labeled batch, then the
sharpened predictions twice. -/
def mixTargets (C : Nat) (labels : List Nat) (pseudo : List (List K)) : List (List K) :=
  (labels.map fun y => (List.range C).map fun c => if c = y then 1 else 0) ++ pseudo ++ pseudo

end ModSSC.Deep
