import Verif.Deep.FitModel
import Verif.Deep.AdshModel

/-!
# ADSH: training

Models `fit` of `src/modssc/inductive/methods/adsh.py` l.150-356 as a whole: the checks, the probe for the number of classes, the
majority class, the thresholds (`AdshModel`) before each epoch and the optimizer steps (`FitModel`).  Besides what `FitModel` asks
of it, the network has a mode (`model.training`).
-/

namespace ModSSC.Deep.AdshFit
open ModSSC ModSSC.Deep.Fit

variable {X W σ : Type}

/-- A network with a mode. -/
structure ANet (X W : Type) extends Net X W Rat where
  /-- `model.eval()` -/
  eval : W → W
  /-- `model.training` -/
  training : W → Bool

/-- `ADSHSpec`, adsh.py l.110-122; `detach_target` only changes gradients, which belong to the network's step. -/
structure Cfg where
  /-- `lambda_u` -/
  lambdaU : Rat
  /-- `p_cutoff` -/
  cutoff : Rat
  /-- `use_cat` -/
  cat : Bool
  /-- `batch_size` -/
  batchSize : Int
  /-- `max_epochs` -/
  maxEpochs : Int
  /-- `score_warmup_epochs` -/
  warmUp : Int
  /-- `majority_class`, which is an integer or absent -/
  majority : Option Int

/-- The checks before the network is touched, adsh.py l.170-225: those of `FitModel` without a temperature. -/
def check (torch : Bool) (cfg : Cfg) (bundle : Option Bundle) (data : Option (Input X)) : Except PyErr (Ready X) :=
  Fit.check (fun n => .ok ((List.range n).map Int.ofNat)) torch
    ⟨cfg.batchSize, cfg.maxEpochs, cfg.lambdaU, 1, cfg.cat,
      decide (0 ≤ cfg.warmUp) && (decide (0 < cfg.cutoff) && decide (cfg.cutoff ≤ 1))⟩
    bundle data

/-- `if was_training: model.train()`, adsh.py l.73-74, l.231-232: `w` is the network before `model.eval()`. -/
def restore (N : ANet X W) (w w' : W) : W := if N.training w then N.train w' else w'

/-- The probe, the majority class and the first thresholds, adsh.py l.227-246: one labeled row in evaluation mode. -/
def begin (N : ANet X W) (T : Torch Rat) (cfg : Cfg) (r : Ready X) (w : W) : Except PyErr (Nat × List Rat) × W :=
  let p := N.forward (N.eval w) (r.xl.take 1)
  let w' := restore N w p.2
  if p.1.ndim ≠ 2 then (.error .validation, w')
  else if r.yl.any (fun c => decide (c < 0 ∨ (p.1.classes : Int) ≤ c)) then (.error .validation, w')
  else
    match adshMajority T.argmax cfg.majority p.1.classes (r.yl.map Int.toNat) with
    | .error e => (.error e, w')
    | .ok m => (.ok (m, List.replicate p.1.classes cfg.cutoff), w')

/-- The slices of `range(0, n, batch_size)`, adsh.py l.59-60. -/
def pieces {α : Type} (b : Nat) (rows : List α) : List (List α) :=
  (List.range ((rows.length + b - 1) / b)).map fun k => (rows.drop (k * b)).take b

/-- The loop over the pool, adsh.py l.58-72: confidence and predicted class of each row. -/
def survey (N : ANet X W) (T : Torch Rat) (C : Nat) : W → List (List X) → Except PyErr (List (Rat × Nat)) × W
  | w, [] => (.ok [], w)
  | w, c :: cs =>
    let r := N.forward w c
    if r.1.ndim ≠ 2 then (.error .validation, r.2)
    else if r.1.classes ≠ C then (.error .validation, r.2)
    else
      match survey N T C r.2 cs with
      | (.error e, w') => (.error e, w')
      | (.ok ps, w') => (.ok ((r.1.rows.map fun l => (rowMax (T.softmax l), T.argmax (T.softmax l))) ++ ps), w')

/-- `_update_scores`, adsh.py l.39-107: an error leaves the network in evaluation mode.  That scores and data are on the same
device follows from `ensure_model_device` and `ensure_torch_data`. -/
def refresh (N : ANet X W) (T : Torch Rat) (cfg : Cfg) (m : Nat) (xw : List X) (score : List Rat) (w : W) :
    Except PyErr (List Rat) × W :=
  match survey N T score.length (N.eval w) (pieces cfg.batchSize.toNat xw) with
  | (.error e, w') => (.error e, w')
  | (.ok ps, w') => (.ok (adshScores cfg.cutoff m ps score), restore N w w')

/-- The thresholds of epoch `e`, adsh.py l.257-266. -/
def thresholds (N : ANet X W) (T : Torch Rat) (cfg : Cfg) (m : Nat) (xw : List X) (e : Nat) (score : List Rat) (w : W) :
    Except PyErr (List Rat) × W :=
  if cfg.warmUp ≤ (e : Int) then refresh N T cfg m xw score w else (.ok score, w)

/-- The pseudo-labels and weights of a batch, adsh.py l.308-326: the class with the largest ratio of probability and threshold, if
it reaches one; the mean is over all rows of the batch. -/
def adshSaid (T : Torch Rat) (score : List Rat) (s : Seen Rat) : Said Rat :=
  let sel := adshSelect T.argmax score (s.weak.map T.softmax)
  ⟨evenly s.labels.length, sel.map fun p => .hard p.1, sel.map fun p => if p.2 then 1 / (s.weak.length : Rat) else 0, none⟩

/-- The rule of ADSH: the state are the thresholds, which the steps of an epoch only read. -/
def adsh (T : Torch Rat) : Rule (List Rat) Rat :=
  ⟨id, fun score s => (score, if s.classes ≠ score.length then .error .validation else .ok (adshSaid T score s))⟩

/-- The epochs, adsh.py l.255-350, with the batches of each; `e` is the number of the first. -/
def epochs (N : ANet X W) (T : Torch Rat) (cfg : Cfg) (m : Nat) (xw : List X) :
    Nat → List Rat × W → List (List (Batch X)) → (List Rat × W) × Except PyErr Unit
  | _, st, [] => (st, .ok ())
  | e, st, b :: bs =>
    match thresholds N T cfg m xw e st.1 st.2 with
    | (.error er, w) => ((st.1, w), .error er)
    | (.ok score, w) =>
      match trainSteps N.toNet (adsh T) cfg.cat cfg.lambdaU (score, w) b with
      | (st', .error er) => (st', .error er)
      | (st', .ok _) => epochs N T cfg m xw (e + 1) st' bs

/-- `fit`, adsh.py l.150-356.  Returns whether the bundle is set and the network, with or without an error.  The two generators
are used for the batches only, so the batches are those of `BatchModel`. -/
def fit (G : TorchGen σ) (N : ANet X W) (T : Torch Rat) (torch : Bool) (cfg : Cfg) (bundle : Option Bundle)
    (data : Option (Input X)) (seed : Int) (fitted : Bool) (w : W) : (Bool × W) × Except PyErr Unit :=
  match check torch cfg bundle data with
  | .error e => ((fitted, w), .error e)
  | .ok r =>
    match begin N T cfg r w with
    | (.error e, w') => ((fitted, w'), .error e)
    | (.ok p, w') =>
      match fitBatches G r.xl r.yl r.xw r.xs cfg.batchSize cfg.maxEpochs seed with
      | .error e => ((fitted, w'), .error e)
      | .ok eps =>
        match epochs N T cfg p.1 (r.xw.map (·.1)) 0 (p.2, N.train w') eps with
        | (st, .error e) => ((fitted, st.2), .error e)
        | (st, .ok _) => ((true, st.2), .ok ())

end ModSSC.Deep.AdshFit
