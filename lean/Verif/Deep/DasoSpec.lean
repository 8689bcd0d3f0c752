import Verif.Deep.DasoModel
import Verif.Deep.BankSpec

/-!
# Specification of DASO
-/

namespace ModSSC.Deep.Spec
open ModSSC ModSSC.Deep

variable {K : Type} [Field K] [LinearOrder K]

/-- Features of the labeled samples with label `k` seen in the steps `is`, in order. -/
def seenFeatures (k : Nat) (is : List (DasoInput K)) : List (List K) :=
  (is.map fun i => ((List.range i.labels.length).filter fun j => i.labels.getD j 0 = k).map fun j => i.featsL.getD j []).flatten

/-- `c` is the prototype of class `k` after the steps `is`: the mean of the last `queue_size` features of the class, zero
if none was seen. -/
def IsPrototype (cfg : DasoCfg K) (is : List (DasoInput K)) (k : Nat) (c : List K) : Prop :=
  let recent := lastN cfg.queueSize (seenFeatures k is)
  c.length = cfg.width ∧
    (recent = [] → ∀ d < cfg.width, c.getD d 0 = 0) ∧
    (recent ≠ [] → ∀ d < cfg.width, c.getD d 0 = (recent.map fun f => f.getD d 0).sum / (recent.length : K))

/-- Predicted classes in the steps `outs`. -/
def predictedIn (argmax : List K → Nat) (outs : List (List (List K))) : List Nat := outs.flatten.map argmax

/-- The pseudo-labels of the last complete period among the steps `outs`. -/
def lastPeriod (period : Nat) (outs : List (List (List K))) : List (List (List K)) :=
  (outs.take (outs.length / period * period)).drop ((outs.length / period - 1) * period)

/-- Share of class `c` after the steps `outs`: uniform before the first period is complete, then the share among the
predictions of the last complete period. -/
def classShare (argmax : List K → Nat) (cfg : DasoCfg K) (outs : List (List (List K))) (c : Nat) : K :=
  if outs.length < cfg.period then 1 / (cfg.classes : K)
  else ((predictedIn argmax (lastPeriod cfg.period outs)).count c : K) /
    ((predictedIn argmax (lastPeriod cfg.period outs)).length : K)

/-- What the networks return in a step. -/
structure DasoOutputs (C D : Nat) (i : DasoInput K) : Prop where
  batch : IsBatch C i.probs
  featsU : i.featsU.length = i.probs.length ∧ ∀ f ∈ i.featsU, f.length = D
  featsL : i.featsL.length = i.labels.length ∧ ∀ f ∈ i.featsL, f.length = D
  labels : ∀ y ∈ i.labels, y < C

/-- `q` is the softmax of the scaled cosine similarities of `f` with the prototypes `c 0, c 1, …`. -/
def IsProtoLabel (sqrt exp : K → K) (cfg : DasoCfg K) (c : Nat → List K) (f q : List K) : Prop :=
  q.length = cfg.classes ∧ Transductive.Spec.IsSoftmax exp cfg.classes
    (fun k => dotRow (unitRow sqrt f) (unitRow sqrt (c k)) / cfg.tProto) (fun k => q.getD k 0)

end ModSSC.Deep.Spec
