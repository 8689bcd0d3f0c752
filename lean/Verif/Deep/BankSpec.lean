import Verif.Deep.BankModel
import Verif.Deep.EmaSpec
import Verif.Transductive.LazySpec

/-!
# Specification of CoMatch's memory
-/

namespace ModSSC.Deep.Spec
open ModSSC ModSSC.Deep

variable {K : Type} [Field K] [LinearOrder K]

/-- The last `n` entries of a list (all of them if there are fewer). -/
def lastN {α : Type} (n : Nat) (l : List α) : List α := l.drop (l.length - n)

/-- Non-negative entries, `C` of them, with sum at most one. -/
def IsSubDist (C : Nat) (p : List K) : Prop := p.length = C ∧ (∀ x ∈ p, 0 ≤ x) ∧ p.sum ≤ 1

/-- What the network returns in a step: distributions over `C` classes for at least one unlabeled and one labeled
sample, features of width `D`, labels below `C`. -/
structure CoOutputs (C D : Nat) (i : CoInput K) : Prop where
  unlabeled : IsBatch C i.probsU
  labeled : IsBatch C i.probsL
  featsU : i.featsU.length = i.probsU.length ∧ ∀ f ∈ i.featsU, f.length = D
  featsL : i.featsL.length = i.labels.length ∧ ∀ f ∈ i.featsL, f.length = D
  labels : i.labels.length = i.probsL.length ∧ ∀ y ∈ i.labels, y < C

/-- Features scaled to length one (or less, if their norm is below `1e-12`). -/
def unitRow (sqrt : K → K) (f : List K) : List K := f.map fun x => x / max (sqrt (f.map fun y => y * y).sum) (1 / 10 ^ 12)

/-- Label the memory `M` proposes for features `f`: average of the stored labels with weights `exp (similarity / T)`, the
total weight counted as at least `1e-12`. -/
def memoryLabel (exp : K → K) (T : K) (M : List (CoRow K)) (f : List K) (c : Nat) : K :=
  (M.map fun r => exp (dotRow f r.1 / T) * r.2.getD c 0).sum / max (M.map fun r => exp (dotRow f r.1 / T)).sum (1 / 10 ^ 12)

/-- Factor of class `c` in the alignment of a step: target over average of the mean predictions of the last `da_len` steps,
this one included, the latter at least `1e-6`. -/
def coFactor (cfg : CoCfg K) (past : List (CoInput K)) (i : CoInput K) (c : Nat) : K :=
  (if cfg.uniform then 1 / (cfg.classes : K) else meanProb c i.probsL) /
    max (((lastN cfg.daLen (past ++ [i])).map fun i => meanProb c i.probsU).sum / ((lastN cfg.daLen (past ++ [i])).length : K))
      (1 / 10 ^ 6)

/-- `A` are the aligned predictions of step `i` after the steps `past`. -/
def IsAligned (cfg : CoCfg K) (past : List (CoInput K)) (i : CoInput K) (A : List (List K)) : Prop :=
  A.length = i.probsU.length ∧ ∀ (j : Nat) (r : List K), i.probsU[j]? = some r → ∃ a, A[j]? = some a ∧ IsSubDist cfg.classes a ∧
    if cfg.distAlign = true ∧ 0 < cfg.daLen then
      ∃ z, 0 < z ∧ ∀ c < cfg.classes, a.getD c 0 = r.getD c 0 * coFactor cfg past i c / z
    else a = r

/-- Rows that a step puts into the memory: the unlabeled samples with their aligned predictions, then the labeled samples
with their labels. -/
def storedRows (sqrt : K → K) (C : Nat) (i : CoInput K) (A : List (List K)) : List (CoRow K) :=
  (i.featsU.map (unitRow sqrt)).zip A ++
    (i.featsL.map (unitRow sqrt)).zip (i.labels.map fun y => (List.range C).map fun c => if c = y then 1 else 0)

end ModSSC.Deep.Spec
