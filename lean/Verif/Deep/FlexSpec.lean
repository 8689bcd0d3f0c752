import Verif.Deep.FlexModel

/-!
# Specification of FlexMatch's curriculum

Stated on the history of the training: the list of all predictions made on the weak views so far.
-/

namespace ModSSC.Deep.Spec
open ModSSC ModSSC.Deep

variable {K : Type} [Field K] [LinearOrder K]

/-- The label of the last confident prediction for sample `s` of the pool. -/
def confidentLabel (cutoff : K) (hist : List (FlexPred K)) (s : Nat) : Option Nat :=
  ((hist.filter fun p => p.idx = (s : Int) ∧ cutoff ≤ p.prob).getLast?).map (·.cls)

/-- Number of samples of the pool whose last confident label is `c`. -/
def learned (cutoff : K) (hist : List (FlexPred K)) (pool c : Nat) : Nat :=
  ((List.range pool).filter fun s => confidentLabel cutoff hist s = some c).length

/-- Number of samples of the pool without a confident label. -/
def unlearned (cutoff : K) (hist : List (FlexPred K)) (pool : Nat) : Nat :=
  ((List.range pool).filter fun s => confidentLabel cutoff hist s = none).length

/-- `beta` is the learning effect of class `c`: the samples learned for it, relative to the class with the most, or
with warm-up to the number of samples not learned yet if that is larger; zero when nothing has been learned. -/
def IsEffect (cfg : FlexCfg K) (hist : List (FlexPred K)) (pool : Nat) (c : Nat) (beta : K) : Prop :=
  ∃ M : Nat, (∀ c' < cfg.classes, learned cfg.cutoff hist pool c' ≤ M) ∧
    (cfg.warmup = true → unlearned cfg.cutoff hist pool ≤ M) ∧
    ((∃ c' < cfg.classes, learned cfg.cutoff hist pool c' = M) ∨
      (cfg.warmup = true ∧ unlearned cfg.cutoff hist pool = M)) ∧
    beta = (learned cfg.cutoff hist pool c : K) / (M : K)

end ModSSC.Deep.Spec
