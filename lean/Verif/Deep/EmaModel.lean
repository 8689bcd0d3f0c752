import Verif.Deep.FlexModel

/-!
# Running averages: FreeMatch, SoftMatch, AdaMatch

Models the state updates of `src/modssc/inductive/methods/free_match.py` l.80-112 and l.279-286, `softmatch.py`
l.79-140 and l.287-302, `adamatch.py` l.74-93 and l.271-281.  Probability tensors are lists of rows; quantile and
exponential function are parameters.
-/

namespace ModSSC.Deep
open ModSSC

variable {K : Type} [Field K] [LinearOrder K]

/-- `values.mean()`. -/
def mean (l : List K) : K := l.sum / (l.length : K)

/-- `probs.mean(dim=0)` for `C` columns. -/
def colMean (C : Nat) (rows : List (List K)) : List K :=
  (List.range C).map fun c => mean (rows.map fun r => r.getD c 0)

/-- `old * m + (1 - m) * new`. -/
def ema (m old new : K) : K := old * m + (1 - m) * new

/-- `ema` entry by entry. -/
def emaVec (m : K) (old new : List K) : List K := List.zipWith (ema m) old new

/-- `torch.full((C,), 1 / C)`, `init_alignment_uniform` (torch_support.py l.81-84), `_init_state` (free_match.py
l.80-85). -/
def uniformVec (C : Nat) : List K := List.replicate C (1 / (C : K))

/-! ## FreeMatch -/

/-- Parameters of FreeMatch that matter here. -/
structure FreeCfg (K : Type) where
  /-- `ema_p` -/
  m : K
  /-- `use_quantile` -/
  useQuantile : Bool
  /-- `clip_thresh` -/
  clip : Bool
  /-- number of classes -/
  classes : Nat

/-- `_p_model`, `_label_hist`, `_time_p`. -/
structure FreeState (K : Type) where
  /-- average predicted distribution -/
  pModel : List K
  /-- average histogram of predicted classes -/
  hist : List K
  /-- average confidence -/
  timeP : K
deriving DecidableEq, Repr

/-- `_init_state`, free_match.py l.80-85. -/
def freeInit (C : Nat) : FreeState K := ⟨uniformVec C, uniformVec C, mean (uniformVec C)⟩

/-- Normalised histogram of the predicted classes, free_match.py l.101-110. -/
def histOf (C : Nat) (idx : List Nat) : List K :=
  let h := if idx.length = 0 then List.replicate C 0 else bincount idx C
  if 0 < h.sum then h.map fun c : Nat => (c : K) / ((h.sum : Nat) : K) else h.map fun c : Nat => (c : K)

/-- `_update_state`, free_match.py l.87-112.  `argmax` is the index part of `probs.max(dim=1)`. -/
def freeUpdate (quantile : List K → K) (argmax : List K → Nat) (cfg : FreeCfg K) (st : FreeState K)
    (probs : List (List K)) : FreeState K :=
  let value := if cfg.useQuantile then quantile (probs.map rowMax) else mean (probs.map rowMax)
  let t := ema cfg.m st.timeP value
  ⟨emaVec cfg.m st.pModel (colMean cfg.classes probs),
   emaVec cfg.m st.hist (histOf cfg.classes (probs.map argmax)),
   if cfg.clip then min (max t 0) (95 / 100) else t⟩

/-- `time_p * (p_model / p_model.max().clamp_min(1e-12))[c]`, free_match.py l.286-287. -/
def freeThreshold (st : FreeState K) (c : Nat) : K :=
  st.timeP * (st.pModel.getD c 0 / max (rowMax st.pModel) (1 / 10 ^ 12))

/-- The mask of one batch and the new state, free_match.py l.279-288: the state is updated first. -/
def freeStep (quantile : List K → K) (argmax : List K → Nat) (cfg : FreeCfg K) (st : FreeState K)
    (probs : List (List K)) : List Bool × FreeState K :=
  let st' := freeUpdate quantile argmax cfg st probs
  (probs.map fun r => decide (freeThreshold st' (argmax r) ≤ rowMax r), st')

/-- The steps of a training; `none` is a fresh object, whose state is created at the first update (free_match.py
l.89-90); a second `fit` goes on with the old state. -/
def freeRun (quantile : List K → K) (argmax : List K → Nat) (cfg : FreeCfg K) :
    Option (FreeState K) → List (List (List K)) → List (List Bool) × Option (FreeState K)
  | st, [] => ([], st)
  | st, b :: bs =>
    let r := freeStep quantile argmax cfg (st.getD (freeInit cfg.classes)) b
    let rest := freeRun quantile argmax cfg (some r.2) bs
    (r.1 :: rest.1, rest.2)

/-! ## Distribution alignment (AdaMatch, SoftMatch) -/

/-- `_p_model`, `_p_target`. -/
structure AlignState (K : Type) where
  /-- average distribution predicted for unlabeled samples -/
  pModel : List K
  /-- target distribution -/
  pTarget : List K
deriving DecidableEq, Repr

/-- `init_alignment_uniform`, torch_support.py l.81-84. -/
def alignInit (C : Nat) : AlignState K := ⟨uniformVec C, uniformVec C⟩

/-- One row of `probs_u * ratio`, adamatch.py l.90-91, softmatch.py l.98-99. -/
def rawAligned (st : AlignState K) (row : List K) : List K :=
  List.zipWith (· * ·) row (List.zipWith (fun t p => t / max p (1 / 10 ^ 6)) st.pTarget st.pModel)

/-- `aligned / aligned.sum(dim=1).clamp_min(1e-12)`, adamatch.py l.92, softmatch.py l.100. -/
def alignedRow (st : AlignState K) (row : List K) : List K :=
  (rawAligned st row).map (· / max (rawAligned st row).sum (1 / 10 ^ 12))

/-- The new state: `dist_uniform` keeps the target (SoftMatch, softmatch.py l.90-97); otherwise it follows the labeled
predictions (AdaMatch always, adamatch.py l.82-88). -/
def alignUpdate (uniform : Bool) (m : K) (C : Nat) (st : AlignState K) (probsU probsL : List (List K)) : AlignState K :=
  ⟨emaVec m st.pModel (colMean C probsU), if uniform then st.pTarget else emaVec m st.pTarget (colMean C probsL)⟩

/-- `_update_alignment` / `_dist_align`: aligned rows and new state. -/
def alignStep (uniform : Bool) (m : K) (C : Nat) (st : AlignState K) (probsU probsL : List (List K)) :
    List (List K) × AlignState K :=
  let st' := alignUpdate uniform m C st probsU probsL
  (probsU.map (alignedRow st'), st')

/-- The steps of a training (a fresh object starts with `none`). -/
def alignRun (uniform : Bool) (m : K) (C : Nat) :
    Option (AlignState K) → List (List (List K) × List (List K)) → List (List (List K)) × Option (AlignState K)
  | st, [] => ([], st)
  | st, b :: bs =>
    let r := alignStep uniform m C (st.getD (alignInit C)) b.1 b.2
    let rest := alignRun uniform m C (some r.2) bs
    (r.1 :: rest.1, rest.2)

/-- AdaMatch's mask: the aligned confidence against `p_cutoff` times the mean confidence on the labeled batch,
adamatch.py l.280-281. -/
def adaMask (cutoff : K) (aligned probsL : List (List K)) : List Bool :=
  aligned.map fun r => decide (mean (probsL.map rowMax) * cutoff ≤ rowMax r)

/-! ## SoftMatch weights -/

/-- Unbiased variance of a list with at least two entries. -/
def unbiasedVar (l : List K) : K := (l.map fun x => (x - mean l) * (x - mean l)).sum / ((l.length : K) - 1)

/-- Mean and variance of the confidences of a batch, softmatch.py l.121-128. -/
def batchStats (l : List K) : K × K := (mean l, if l.length > 1 then unbiasedVar l else 0)

/-- Same for one class in the per-class mode, softmatch.py l.132-139: classes with fewer than two samples count as
mean 0, variance 1. -/
def classStats (l : List K) : K × K := if l.length > 1 then (mean l, unbiasedVar l) else (0, 1)

/-- `_update_stats` without per-class mode, softmatch.py l.116-129: state is mean and variance. -/
def softUpdate (m : K) (st : K × K) (maxs : List K) : K × K :=
  (ema m st.1 (batchStats maxs).1, ema m st.2 (batchStats maxs).2)

/-- `_update_stats` in per-class mode, softmatch.py l.130-141. -/
def softUpdateClass (m : K) (C : Nat) (st : List (K × K)) (maxs : List (K × Nat)) : List (K × K) :=
  (List.range C).map fun c =>
    let s := classStats ((maxs.filter fun p => p.2 = c).map (·.1))
    (ema m (st.getD c (0, 0)).1 s.1, ema m (st.getD c (0, 0)).2 s.2)

/-- `_init_stats`, softmatch.py l.104-114. -/
def softInit (C : Nat) : K × K := (1 / (C : K), 1)

/-- `exp(-(min(max_p - mu, 0) ** 2) / (2 var / n_sigma ** 2).clamp_min(1e-12))`, softmatch.py l.299-301. -/
def softWeight (exp : K → K) (nSigma : K) (st : K × K) (maxp : K) : K :=
  exp (-(min (maxp - st.1) 0 * min (maxp - st.1) 0) / max (2 * st.2 / (nSigma * nSigma)) (1 / 10 ^ 12))

end ModSSC.Deep
