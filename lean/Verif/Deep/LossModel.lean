import Verif.Deep.EmaModel

/-!
# Losses of UDA, Noisy Student, DeFixMatch and Meta Pseudo Labels

Models `src/modssc/inductive/methods/uda.py` l.37-52 and l.221-255, `noisy_student.py` l.333-350, `defixmatch.py`
l.246-315 and `meta_pseudo_labels.py` l.44-66, l.137-153 and l.276-372.  Networks and optimisers are outside the model:
probabilities and per-sample losses are inputs.  The exponential function is a parameter.
-/

namespace ModSSC.Deep
open ModSSC

variable {K : Type} [Field K] [LinearOrder K]

/-! ## Training signal annealing -/

/-- `_tsa_threshold`, uda.py l.37-52; schedules are their names. -/
def tsaThreshold (exp : K → K) (schedule : String) (step total : Nat) (C : Nat) : Except PyErr K :=
  if schedule = "none" then .ok 1
  else if total ≤ 0 then .ok 1
  else
    let progress : K := (step : K) / (total : K)
    let scale := fun t : K => t * (1 - 1 / (C : K)) + 1 / (C : K)
    if schedule = "linear" then .ok (scale progress)
    else if schedule = "exp" then .ok (scale (exp ((progress - 1) * 5)))
    else if schedule = "log" then .ok (scale (1 - exp (-progress * 5)))
    else .error .validation

/-- Supervised loss of one step, uda.py l.221-235: `ce` and `pTrue` are cross entropy and probability of the true class of
each sample of the labeled batch. -/
def udaSup (exp : K → K) (schedule : String) (step total C : Nat) (ce pTrue : List K) : Except PyErr K :=
  if schedule ≠ "none" then
    match tsaThreshold exp schedule step total C with
    | .error e => .error e
    | .ok tsa => .ok (mean (List.zipWith (· * ·) ce (pTrue.map fun p => if p < tsa then 1 else 0)))
  else .ok (mean ce)

/-! ## Confident samples -/

/-- `loss.mean() * 0.0` if no sample counts, else `(loss * mask).sum() / mask.sum()`: uda.py l.246-249, noisy_student.py
l.340-343 and l.347-350, meta_pseudo_labels.py l.151-153. -/
def maskedMeanStrict (loss mask : List K) : K :=
  if mask.length = 0 ∨ mask.sum = 0 then mean loss * 0 else (List.zipWith (· * ·) loss mask).sum / mask.sum

/-- Unlabeled loss of UDA (uda.py l.240-249) and Noisy Student. `loss i` is the divergence of sample `i`. -/
def confidentLoss (cutoff : K) (probs : List (List K)) (loss : Nat → K) : K :=
  maskedMeanStrict ((List.range probs.length).map loss) (maskOf cutoff probs)

/-- `_uda_loss` of Meta Pseudo Labels, meta_pseudo_labels.py l.137-153: no mask for a threshold of zero or less. -/
def mplUda (threshold : K) (probs : List (List K)) (loss : Nat → K) : K :=
  maskedMeanStrict ((List.range probs.length).map loss)
    (if threshold ≤ 0 then probs.map fun _ => 1 else maskOf threshold probs)

/-- Loss of DeFixMatch, defixmatch.py l.246-312: `lossU`, `lossL` are the pseudo-label losses of unlabeled and labeled
samples, `ceW`, `ceS` the supervised losses of the weak and strong labeled views. -/
def defixLoss (cutoff lambdaU ceW ceS : K) (probsU probsL : List (List K)) (lossU lossL : Nat → K) : K :=
  1 / 2 * (ceW + ceS) + lambdaU *
    (maskedMean ((List.range probsU.length).map lossU) (maskOf cutoff probsU) -
      maskedMean ((List.range probsL.length).map lossL) (maskOf cutoff probsL))

/-! ## Meta Pseudo Labels -/

/-- One row of `true_dist`, meta_pseudo_labels.py l.58-65: filled with `s / C`, then the entry of the label is set.  The
code takes plain cross entropy, that is the one-hot row, for `s ≤ 0` (l.54-55). -/
def smoothLabel (s : K) (C y : Nat) : Except PyErr (List K) :=
  if s ≤ 0 then .ok ((List.range C).map fun c => if c = y then 1 else 0)
  else if 1 ≤ s then .error .validation
  else .ok ((List.replicate C (s / (C : K))).set y (1 - s + s / (C : K)))

/-- Feedback of the steps of a training: `dot_product_ma` (start 0) and `dot_product_adj`, meta_pseudo_labels.py l.276 and
l.358-363.  `dots` are the changes of the student's labeled loss. -/
def mplFeedback (m : K) : K → List K → List K
  | _, [] => []
  | ma, d :: ds =>
    let ma' := m * ma + (1 - m) * d
    (d - ma') :: mplFeedback m ma' ds

/-- Loss of the teacher in one step, meta_pseudo_labels.py l.366-372. -/
def mplTeacherLoss (sup udaWeight uda mplWeight mpl adj : K) : K :=
  let l := sup
  let l := if udaWeight ≠ 0 then l + udaWeight * uda else l
  if mplWeight ≠ 0 then l + mplWeight * mpl * adj else l

end ModSSC.Deep
