import Verif.Deep.BankModel

/-!
# DASO: class queues, prototypes, distribution-aware blending

Models `src/modssc/inductive/methods/daso.py` l.70-76, l.355-359 and l.426-557.  The networks are outside the model: their
probabilities and features are inputs of a step.  Power and exponential function, square root and `argmax` are parameters.
-/

namespace ModSSC.Deep
open ModSSC

variable {K : Type} [Field K] [LinearOrder K]

/-- Parameters of DASO that matter here. -/
structure DasoCfg (K : Type) where
  /-- `queue_size` -/
  queueSize : Nat
  /-- `pretrain_steps` -/
  pretrain : Nat
  /-- `dist_update_period` -/
  period : Nat
  /-- `t_proto` -/
  tProto : K
  /-- `t_dist` -/
  tDist : K
  /-- `dist_aware` -/
  aware : Bool
  /-- `interp_alpha` -/
  alpha : K
  /-- number of classes -/
  classes : Nat
  /-- width of the features -/
  width : Nat

/-- `queue`, `m_hat`, `dist_accum`, `step_idx`. -/
structure DasoState (K : Type) where
  /-- features of labeled samples, per class -/
  queues : List (List (List K))
  /-- estimated class shares -/
  mHat : List K
  /-- counts of predicted classes -/
  accum : List Nat
  /-- number of steps done -/
  step : Nat
deriving DecidableEq, Repr

/-- State before the first step, daso.py l.355-359 and l.427-439. -/
def dasoInit (cfg : DasoCfg K) : DasoState K :=
  ⟨List.replicate cfg.classes [], uniformVec cfg.classes, List.replicate cfg.classes 0, 0⟩

/-- Network outputs in one step: features (of the averaged network) and labels of the labeled batch, probabilities and
features of the weak views. -/
structure DasoInput (K : Type) where
  /-- `feat_lb` -/
  featsL : List (List K)
  /-- `y_lb` -/
  labels : List Nat
  /-- `softmax(logits_uw)` -/
  probs : List (List K)
  /-- `feats_uw` -/
  featsU : List (List K)

/-- `feat_lb[y_lb == k]`. -/
def classRows (i : DasoInput K) (k : Nat) : List (List K) := ((i.featsL.zip i.labels).filter fun r => r.2 = k).map (·.1)

/-- Update of one queue, daso.py l.449-458. -/
def queueAdd (size : Nat) (q new : List (List K)) : List (List K) :=
  if new.length = 0 then q
  else if (q ++ new).length > size then (q ++ new).drop ((q ++ new).length - size) else q ++ new

/-- Prototype of one class, daso.py l.460-468 (features have at least one column). -/
def prototype (width : Nat) (q : List (List K)) : List K :=
  if q.length = 0 then List.replicate width 0 else colMean width q

/-- `torch.softmax` of one row, computed with the largest entry subtracted. -/
def softmaxRow (exp : K → K) (x : List K) : List K :=
  (x.map fun v => exp (v - rowMax x)).map (· / (x.map fun v => exp (v - rowMax x)).sum)

/-- One row of `softmax(cosine_similarity(feats, C) / t_proto)`, daso.py l.70-76 and l.473-475. -/
def protoLabel (sqrt exp : K → K) (t : K) (protos : List (List K)) (f : List K) : List K :=
  softmaxRow exp (protos.map fun c => dotRow (l2Row sqrt f) (l2Row sqrt c) / t)

/-- `v`, daso.py l.486-487. -/
def blendWeights (pow : K → K → K) (tDist : K) (mHat : List K) : List K :=
  let v := mHat.map fun m => pow (max m (1 / 10 ^ 12)) (1 / tDist)
  v.map (· / max (rowMax v) (1 / 10 ^ 12))

/-- `p_hat_prime` for one sample, daso.py l.481-493. -/
def dasoBlend (pow : K → K → K) (argmax : List K → Nat) (cfg : DasoCfg K) (st : DasoState K) (p q : List K) : List K :=
  if st.step < cfg.pretrain then p
  else
    let a := if cfg.aware then (blendWeights pow cfg.tDist st.mHat).getD (argmax p) 0 else cfg.alpha
    List.zipWith (fun x y => (1 - a) * x + a * y) p q

/-- The counts of predicted classes and the class shares at the end of a step, daso.py l.546-555. -/
def dasoCount (argmax : List K → Nat) (cfg : DasoCfg K) (st : DasoState K) (out : List (List K)) : List K × List Nat :=
  let acc := List.zipWith (· + ·) st.accum (bincount (out.map argmax) cfg.classes)
  if (st.step + 1) % cfg.period = 0 then
    (if 0 < acc.sum then acc.map fun n : Nat => (n : K) / ((acc.sum : Nat) : K) else st.mHat, acc.map fun _ => 0)
  else (st.mHat, acc)

/-- One step: pseudo-labels and new state, daso.py l.449-493, l.546-557. -/
def dasoStep (sqrt exp : K → K) (pow : K → K → K) (argmax : List K → Nat) (cfg : DasoCfg K) (st : DasoState K)
    (i : DasoInput K) : List (List K) × DasoState K :=
  let queues := st.queues.mapIdx fun k q => queueAdd cfg.queueSize q (classRows i k)
  let protos := queues.map (prototype cfg.width)
  let out := List.zipWith (dasoBlend pow argmax cfg st) i.probs (i.featsU.map (protoLabel sqrt exp cfg.tProto protos))
  let c := dasoCount argmax cfg st out
  (out, ⟨queues, c.1, c.2, st.step + 1⟩)

/-- The steps of a training. -/
def dasoRun (sqrt exp : K → K) (pow : K → K → K) (argmax : List K → Nat) (cfg : DasoCfg K) :
    DasoState K → List (DasoInput K) → List (List (List K)) × DasoState K
  | st, [] => ([], st)
  | st, i :: is =>
    let r := dasoStep sqrt exp pow argmax cfg st i
    let rest := dasoRun sqrt exp pow argmax cfg r.2 is
    (r.1 :: rest.1, rest.2)

end ModSSC.Deep
