import Verif.Base
import Batteries.Lean.Except
import Mathlib.Algebra.Order.Field.Basic

/-!
# Temperature sharpening and the confidence mask of FixMatch

Models `sharpen_probs` (torch_support.py l.62-71) and the unlabeled loss of
`src/modssc/inductive/methods/fixmatch.py` l.203-223.  Probability tensors are lists of rows over an
ordered field; the power function, `argmax` and the per-sample loss are parameters.
-/

namespace ModSSC.Deep
open ModSSC

variable {K : Type} [Field K] [LinearOrder K]

/-- One row of `sharpened / denom.clamp_min(1e-12)`, torch_support.py l.67-71. -/
def sharpenRow (pow : K → K → K) (T : K) (row : List K) : List K :=
  (row.map fun p => pow p (1 / T)).map (· / max (row.map fun p => pow p (1 / T)).sum (1 / 10 ^ 12))

/-- `sharpen_probs`, torch_support.py l.62-71. -/
def sharpen (pow : K → K → K) (T : K) (rows : List (List K)) : Except PyErr (List (List K)) :=
  if T ≤ 0 then .error .validation
  else if T = 1 then .ok rows
  else .ok (rows.map (sharpenRow pow T))

/-- `row.max()`; rows of logits are never empty, the default does not matter. -/
def rowMax (row : List K) : K := row.foldl max (row.headD 0)

/-- `mask = probs_uw.max(dim=1).values >= p_cutoff`, fixmatch.py l.208. -/
def maskOf (cutoff : K) (rows : List (List K)) : List K :=
  rows.map fun row => if cutoff ≤ rowMax row then 1 else 0

/-- `(loss_u * mask).sum() / mask.sum().clamp_min(1.0)`, fixmatch.py l.218-222 (0 for an empty batch). -/
def maskedMean (loss mask : List K) : K :=
  if mask.length = 0 then 0 else (List.zipWith (· * ·) loss mask).sum / max mask.sum 1

/-- Unlabeled loss with hard labels, fixmatch.py l.203-222.  `ce i c` is the cross entropy of the strong
view of the `i`-th sample of the batch with label `c`, `argmax` is `argmax(dim=1)`. -/
def fixmatchHard (pow : K → K → K) (argmax : List K → Nat) (ce : Nat → Nat → K) (cutoff T : K)
    (probs : List (List K)) : Except PyErr K :=
  match sharpen pow T probs with
  | .error e => .error e
  | .ok soft =>
    .ok (maskedMean ((List.range soft.length).map fun i => ce i (argmax (soft.getD i []))) (maskOf cutoff probs))

end ModSSC.Deep
