import Verif.Deep.EmaModel
import Verif.Deep.SharpSpec
import Verif.Transductive.PLaplaceSpec

/-!
# Specification of the running averages
-/

namespace ModSSC.Deep.Spec
open ModSSC ModSSC.Deep

variable {K : Type} [Field K] [LinearOrder K]

/-- A distribution over `C` classes. -/
def IsDistN (C : Nat) (p : List K) : Prop := p.length = C ∧ IsDist p

/-- Exponentially weighted average of the values of `t = vals.length` steps, starting from `init`: the value of step `s`
has weight `(1 - m) m^(t-1-s)`, the start `m^t`. -/
def weightedAverage (m init : K) (vals : List K) : K :=
  m ^ vals.length * init + ((List.range vals.length).map fun s => (1 - m) * m ^ (vals.length - 1 - s) * vals.getD s 0).sum

/-- `quantile` returns a value between two values of a non-empty list. -/
def QuantileLaw (quantile : List K → K) : Prop :=
  ∀ l : List K, l ≠ [] → (∃ x ∈ l, x ≤ quantile l) ∧ ∃ x ∈ l, quantile l ≤ x

/-- A batch of predictions: at least one row, each a distribution over `C` classes. -/
def IsBatch (C : Nat) (probs : List (List K)) : Prop := probs ≠ [] ∧ ∀ r ∈ probs, IsDistN C r

/-- Mean over the rows of a batch of the probability of class `c`. -/
def meanProb (c : Nat) (batch : List (List K)) : K := (batch.map fun r => r.getD c 0).sum / (batch.length : K)

/-- Share of the rows of a batch whose predicted class is `c`. -/
def predictedShare (argmax : List K → Nat) (c : Nat) (batch : List (List K)) : K :=
  ((batch.filter fun r => argmax r = c).length : K) / (batch.length : K)

/-- Confidence of a batch: quantile or mean of the largest probabilities of its rows. -/
def batchConfidence (quantile : List K → K) (useQuantile : Bool) (batch : List (List K)) : K :=
  if useQuantile then quantile (batch.map rowMax) else (batch.map rowMax).sum / (batch.length : K)

/-- FreeMatch's global threshold after a history of batches: moving average from `1 / C`, cut at 0.95 after each batch
if asked for. -/
def globalThreshold (quantile : List K → K) (cfg : FreeCfg K) (bs : List (List (List K))) : K :=
  bs.foldl (fun t b => let v := cfg.m * t + (1 - cfg.m) * batchConfidence quantile cfg.useQuantile b
    if cfg.clip then min (max v 0) (95 / 100) else v) (1 / (cfg.classes : K))

/-- FreeMatch's average predicted probability of class `c` after a history of batches. -/
def classAverage (cfg : FreeCfg K) (bs : List (List (List K))) (c : Nat) : K :=
  weightedAverage cfg.m (1 / (cfg.classes : K)) (bs.map (meanProb c))

/-- `w c` is the factor of class `c` after the batches `bs`: target over average prediction, the latter at least
`1e-6`. -/
def IsWeight (uniform : Bool) (m : K) (C : Nat) (bs : List (List (List K) × List (List K))) (w : Nat → K) : Prop :=
  ∀ c < C, w c = (if uniform then 1 / (C : K) else weightedAverage m (1 / (C : K)) (bs.map fun b => meanProb c b.2)) /
    max (weightedAverage m (1 / (C : K)) (bs.map fun b => meanProb c b.1)) (1 / 10 ^ 6)

end ModSSC.Deep.Spec
