import Verif.Deep.EmaModel
import Mathlib.Data.List.Sort

/-!
# ADSH: adaptive thresholds per class

Models `src/modssc/inductive/methods/adsh.py` l.39-107, l.138-148 and the selection step l.318-324.  Probabilities are
exact rationals.
-/

namespace ModSSC.Deep
open ModSSC

/-- Confidences of the samples predicted as class `c`, largest first: `sorted_lists[c]`, adsh.py l.58-83 (an empty list is
the code's `None`).  `preds` are confidence and predicted class of each sample of the pool; the batches the code goes
through only change the order before sorting. -/
def classConf (preds : List (Rat × Nat)) (c : Nat) : List Rat :=
  ((preds.filter fun p => p.2 = c).map (·.1)).insertionSort (· ≥ ·)

/-- `rho`, adsh.py l.85-90. -/
def adshRho (cutoff : Rat) (vals : List Rat) : Rat :=
  if 0 < vals.length then
    let count := (vals.filter fun v => cutoff ≤ v).length
    if 0 < count then (count : Rat) / (vals.length : Rat) else 1
  else 1

/-- The position chosen in the sorted list, adsh.py l.98-102. -/
def adshPos (n : Nat) (rho : Rat) : Nat :=
  let idx := pyRound ((n : Rat) * rho - 1)
  let idx := if idx < 0 then 0 else idx
  let idx := if (n : Int) ≤ idx then (n : Int) - 1 else idx
  idx.toNat

/-- `_update_scores`, adsh.py l.39-107. -/
def adshScores (cutoff : Rat) (majority : Nat) (preds : List (Rat × Nat)) (score : List Rat) : List Rat :=
  let rho := adshRho cutoff (classConf preds majority)
  (List.range score.length).map fun c =>
    if c = majority then cutoff
    else
      let vals := classConf preds c
      if vals.length = 0 then score.getD c 0
      else min (vals.getD (adshPos vals.length rho) 0) cutoff

/-- The majority class: explicit, or the most frequent label (`bincount(y_l).argmax()`; `argmax` is a parameter),
adsh.py l.138-148.  Only the range check of the explicit class is modelled. -/
def adshMajority (argmax : List Rat → Nat) (explicit : Option Int) (C : Nat) (y : List Nat) : Except PyErr Nat :=
  match explicit with
  | some m => if 0 ≤ m ∧ m < C then .ok m.toNat else .error .validation
  | none => .ok (argmax ((bincount y C).map fun c : Nat => (c : Rat)))

/-- The selection of a batch, adsh.py l.318-324: `probs / score`, the largest ratio and its class, used if it reaches
one. -/
def adshSelect (argmax : List Rat → Nat) (score : List Rat) (probs : List (List Rat)) : List (Nat × Bool) :=
  probs.map fun r =>
    let ratio := List.zipWith (· / ·) r score
    (argmax ratio, decide (1 ≤ rowMax ratio))

/-- The scores over the epochs, adsh.py l.245-266: from the start equal to the cutoff, then updated before each epoch from
epoch `warm` on. -/
def adshEpochs (cutoff : Rat) (majority C warm : Nat) (epochs : List (List (Rat × Nat))) : List Rat :=
  (epochs.drop warm).foldl (fun s p => adshScores cutoff majority p s) (List.replicate C cutoff)

end ModSSC.Deep
