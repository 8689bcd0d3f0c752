import Verif.Base
import Verif.Deep.BatchModel
import Mathlib.Analysis.SpecialFunctions.Log.Basic

/-!
# Adversarial examples (`modssc/inductive/methods/vat.py`, `deep_co_training.py`)

The perturbations of VAT and of deep co-training, the warm-up weight, the targets and the divergences.  Gradients are parameters
(functions of the perturbed batch), as is the norm; numbers are exact.
-/

namespace ModSSC.Adv
open ModSSC ModSSC.Deep

section
variable {K : Type} [Field K] [LinearOrder K]

/-- `x * s` for one flattened row. -/
def scale (s : K) (v : List K) : List K := v.map fun x => x * s

/-- One row of `_l2_normalize`, vat.py:54-63 (`norm`: `torch.norm`, `tiny`: 1e-12). -/
def normalize (norm : List K → K) (tiny : K) (v : List K) : List K := v.map fun x => x / max tiny (norm v)

/-- The settings of VAT, vat.py:71-84. -/
structure Vat (K : Type) where
  xi : K
  eps : K
  iters : Int
  warmUp : Rat

/-- The power iteration of `_vat_loss`, vat.py:152-185: `grad` gives the gradient of the divergence at a perturbation of the batch, or
nothing if the perturbation does not reach the loss. -/
def power (norm : List K → K) (tiny xi : K) (grad : List (List K) → Option (List (List K))) : Nat → List (List K) → Except PyErr (List (List K))
  | 0, d => .ok d
  | k + 1, d =>
    match grad (d.map fun v => scale xi (normalize norm tiny v)) with
    | none => .error .validation
    | some g => power norm tiny xi grad k g

/-- The perturbation `r_adv` of `_vat_loss`, vat.py:122-123 and 149-187, from the random start `d`. -/
def perturbation (norm : List K → K) (tiny : K) (c : Vat K) (grad : List (List K) → Option (List (List K))) (d : List (List K)) :
    Except PyErr (List (List K)) :=
  if c.iters ≤ 0 then .error .validation
  else power norm tiny c.xi grad c.iters.toNat d >>= fun g => .ok (g.map fun v => scale c.eps (normalize norm tiny v))

/-- `torch.sign`. -/
def sign (x : K) : K := if 0 < x then 1 else if x < 0 then -1 else 0

/-- `torch.clamp` with both bounds: the upper one wins. -/
def clamp2 (lo hi x : K) : K := min (max x lo) hi

/-- The clipping of a tensor, deep_co_training.py:147-152. -/
def clipTensor (lo hi : Option K) (x : K) : K :=
  match lo, hi with
  | some l, some h => clamp2 l h x
  | some l, none => max x l
  | none, some h => min x h
  | none, none => x

/-- The clipping of the features of a graph, deep_co_training.py:135-138. -/
def clipDict (lo hi : Option K) (x : K) : K :=
  let a := match lo with | some l => max x l | none => x
  match hi with | some h => min a h | none => a

/-- One entry of `_fgsm_adversarial`, deep_co_training.py:126-154; a missing gradient counts as 0. -/
def fgsm (dict : Bool) (eps : K) (lo hi : Option K) (x : K) (g : Option K) : K :=
  (if dict then clipDict lo hi else clipTensor lo hi) (x + eps * sign (g.getD 0))

end

/-- The targets of `_fgsm_adversarial`, deep_co_training.py:111-122: the labels, then the predictions of the model. -/
def fgsmTargets (nl : Nat) (y pred : List Nat) : Except PyErr (List Nat) :=
  if 0 < nl then if y.length ≠ nl then .error .validation else .ok (y ++ pred.drop nl)
  else .ok pred

/-- `warmup_steps`, vat.py:277-280. -/
def warmupSteps (u : Rat) (total : Nat) : Int := if u ≤ 0 then 0 else max 1 (pyRound (u * total))

/-- The weight of the unsupervised loss at a step, vat.py:330. -/
def warm (w : Int) (step : Nat) : Rat := if w ≤ 0 then 1 else min ((step : Rat) / (w : Rat)) 1

noncomputable section

/-- One row of `_kl_divergence`, vat.py:66-68 (`c` is 1e-12). -/
def klRow (c : ℝ) (p logq : List ℝ) : ℝ := (List.zipWith (fun a b => a * (Real.log (a + c) - b)) p logq).sum

/-- One row of `_entropy`, deep_co_training.py:36-38. -/
def entropy (c : ℝ) (p : List ℝ) : ℝ := -(p.map fun x => x * Real.log (x + c)).sum

/-- One row of `_js_divergence`, deep_co_training.py:41-43. -/
def jsRow (c : ℝ) (p q : List ℝ) : ℝ :=
  entropy c (List.zipWith (fun a b => (1 / 2) * (a + b)) p q) - (1 / 2) * entropy c p - (1 / 2) * entropy c q

end

/-- One row of `predict_proba`, deep_co_training.py:551-554. -/
def predictRow {K : Type} [Field K] (a b : List K) : Except PyErr (List K) :=
  if a.length ≠ b.length then .error .validation else .ok (List.zipWith (fun x y => (x + y) * (1 / 2)) a b)

end ModSSC.Adv
