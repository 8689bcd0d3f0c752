import Verif.Deep.FitModel
import Verif.Deep.BankModel

/-!
# Training with CoMatch

Models the whole `fit` of `src/modssc/inductive/methods/comatch.py`: the choice of views, the checks, the batches
(`BatchModel`), the forward passes, the pseudo-labels (`BankModel`), the loss and the optimizer steps.  Conventions are those
of `FitModel`; the loss is a description of rows, targets and weights, and graph dictionaries are not modelled here.
-/

namespace ModSSC.Deep.CoFit
open ModSSC ModSSC.Deep.Fit

variable {X W K σ : Type}

/-- A tensor of features: rows, whether the dtype is accepted, and `shape[1]` (comatch.py l.324-330). -/
structure Wide (X : Type) where
  /-- rows -/
  rows : List X
  /-- accepted by `ensure_float_tensor` -/
  float : Bool
  /-- `shape[1]` -/
  width : Nat

/-- A dataset after `ensure_torch_data`, comatch.py l.264-270; `views` without the entries that are `None`. -/
structure CInput (X : Type) where
  /-- `X_l` -/
  xl : Feats X
  /-- `y_l` -/
  yl : List Int
  /-- `y_l.ndim` -/
  yDims : Nat
  /-- `y_l.dtype == torch.int64` -/
  yInt64 : Bool
  /-- `X_u_w` -/
  xw : Option (Wide X)
  /-- `X_u_s` -/
  xs : Option (Wide X)
  /-- `views` -/
  views : List (String × Wide X)

/-- The first strong view, comatch.py l.270-283. -/
def firstStrong (d : CInput X) : Option (Wide X) :=
  match d.xs with
  | some v => some v
  | none => ["X_u_s0", "X_u_s_0", "X_u_s", "X_u_strong0"].findSome? fun k => d.views.lookup k

/-- The second strong view, comatch.py l.285-295. -/
def secondStrong (d : CInput X) : Option (Wide X) :=
  ["X_u_s1", "X_u_s_1", "X_u_strong1", "X_u_s2", "X_u_s_2"].findSome? fun k => d.views.lookup k

/-- `CoMatchSpec`, comatch.py l.98-118, without the bundle. -/
structure CCfg (K : Type) where
  /-- `batch_size` -/
  batchSize : Int
  /-- `max_epochs` -/
  maxEpochs : Int
  /-- `lambda_u` -/
  lambdaU : K
  /-- `lambda_c` -/
  lambdaC : K
  /-- `p_cutoff` -/
  cutoff : K
  /-- `temperature` -/
  temp : K
  /-- `contrast_p_cutoff` -/
  contrast : K
  /-- `smoothing_alpha` -/
  alpha : K
  /-- `queue_size` -/
  queueSize : Int
  /-- `min_queue_fill` -/
  minFill : Int
  /-- `da_len` -/
  daLen : Int
  /-- `dist_align` -/
  distAlign : Bool
  /-- `dist_uniform` -/
  uniform : Bool
  /-- `hard_label` -/
  hard : Bool
  /-- `use_cat` -/
  cat : Bool
  /-- `detach_target` -/
  detach : Bool

/-- The rows `fit` works with, comatch.py l.267-295. -/
structure CReady (X : Type) where
  /-- `X_l` -/
  xl : List X
  /-- `y_l` -/
  yl : List Int
  /-- `X_u_w` -/
  xw : List X
  /-- both strong views -/
  xs : List (X × X)

variable [Field K] [LinearOrder K]

/-- The checks of the parameters, comatch.py l.348-371. -/
def checkSpec (cfg : CCfg K) : Except PyErr Unit :=
  if cfg.batchSize ≤ 0 then .error .validation
  else if cfg.maxEpochs ≤ 0 then .error .validation
  else if cfg.lambdaU < 0 then .error .validation
  else if cfg.lambdaC < 0 then .error .validation
  else if ¬ (0 ≤ cfg.cutoff ∧ cfg.cutoff ≤ 1) then .error .validation
  else if cfg.temp ≤ 0 then .error .validation
  else if ¬ (0 ≤ cfg.contrast ∧ cfg.contrast ≤ 1) then .error .validation
  else if ¬ (0 ≤ cfg.alpha ∧ cfg.alpha ≤ 1) then .error .validation
  else if cfg.queueSize < 0 then .error .validation
  else if cfg.minFill < 0 then .error .validation
  else if cfg.minFill > cfg.queueSize then .error .validation
  else if cfg.daLen < 0 then .error .validation
  else .ok ()

/-- The checks, comatch.py l.257-371, in this order; all failures are `InductiveValidationError`.  That `X_l` and `y_l` have equally
many rows is checked by `ensure_torch_data`. -/
def check (torch : Bool) (cfg : CCfg K) (bundle : Option Bundle) (data : Option (CInput X)) : Except PyErr (CReady X) :=
  match data with
  | none => .error .validation
  | some d =>
    if torch = false then .error .validation
    else if d.xl.rows.length ≠ d.yl.length then .error .validation
    else if d.yDims ≠ 1 ∨ d.yl.length = 0 then .error .validation
    else
      match d.xw, firstStrong d, secondStrong d with
      | some xw, some s0, some s1 =>
        if d.xl.rows.length = 0 then .error .validation
        else if xw.rows.length = 0 then .error .validation
        else if s0.rows.length = 0 ∨ s1.rows.length = 0 then .error .validation
        else if xw.rows.length ≠ s0.rows.length ∨ xw.rows.length ≠ s1.rows.length then .error .validation
        else if d.xl.float = false ∨ xw.float = false ∨ s0.float = false ∨ s1.float = false then .error .validation
        else if s0.width ≠ xw.width ∨ s1.width ≠ xw.width then .error .validation
        else if d.yInt64 = false then .error .validation
        else
          match bundle with
          | none => .error .validation
          | some b =>
            if b.valid = false ∨ b.placed = false then .error .validation
            else
              match checkSpec cfg with
              | .error e => .error e
              | .ok _ => .ok ⟨d.xl.rows, d.yl, xw.rows, s0.rows.zip s1.rows⟩
      | _, _, _ => .error .validation

/-- One batch: labeled rows, labels, weak views, both strong views; comatch.py l.428-431 slices all three unlabeled tensors with
the same indices. -/
abbrev CBatch (X : Type) := Step X Int X (X × X)

/-- `_extract_logits_and_features(model(x))`, comatch.py l.34-55: whether the output has logits and features that are tensors, and
the two (of the features `classes` is the width). -/
structure Both (K : Type) where
  /-- no error -/
  valid : Bool
  /-- `logits` -/
  logits : Out K
  /-- `feat` -/
  feats : Out K

/-- The loss of a step, comatch.py l.498-573: `Σ share * CE(x, y) + scale * Σ weight * loss(strong, target) +
contrastScale * Σ weight * -log(similarity(anchor, row))`, similarities being `exp(cosine / temperature)` normalised over all
second strong views of the batch. -/
structure CObjective (X K : Type) where
  /-- labeled rows, labels, weights -/
  labeled : List (X × Int × K)
  /-- unlabeled rows -/
  unlabeled : List (Term X K)
  /-- `lambda_u` -/
  scale : K
  /-- first strong views, each with all second strong views and their weights -/
  pairs : List (X × List (X × K))
  /-- `lambda_c` -/
  contrastScale : K
  /-- `temperature` -/
  temp : K
  /-- whether gradients flow through the pseudo-labels -/
  through : Bool
deriving DecidableEq, Repr

/-- A network with its optimizer (external), comatch.py l.412, l.435, l.455-459, l.575-577. -/
structure CNet (X W K : Type) where
  /-- `model.train()` -/
  train : W → W
  /-- `model(x)` -/
  forward : W → List X → Both K × W
  /-- `optimizer.zero_grad(); loss.backward(); optimizer.step()` -/
  step : W → CObjective X K → W

/-- The outputs of a step, comatch.py l.445-459: labeled rows, weak, first strong, second strong views. -/
structure Outs (K : Type) where
  /-- `logits_lb`, `feats_lb` -/
  l : Both K
  /-- `logits_uw`, `feats_uw` -/
  w : Both K
  /-- `logits_us0`, `feats_us0` -/
  s0 : Both K
  /-- `logits_us1`, `feats_us1` -/
  s1 : Both K

/-- `logits[a:a+n], feats[a:a+n]`, comatch.py l.445-453. -/
def Both.slice (b : Both K) (a n : Nat) : Both K := ⟨b.valid, b.logits.slice a n, b.feats.slice a n⟩

/-- The forward passes, comatch.py l.433-459: one pass over the concatenated rows, or four, in the order labeled, first strong,
second strong, weak. -/
def look (N : CNet X W K) (cat : Bool) (w : W) (s : CBatch X) : Except PyErr (Outs K) × W :=
  let n := s.xl.length
  let m := s.xw.length
  if cat then
    let r := N.forward w (s.xl ++ s.xw ++ s.xs.map (·.1) ++ s.xs.map (·.2))
    if r.1.valid = false then (.error .validation, r.2)
    else if r.1.logits.ndim ≠ 2 ∨ r.1.feats.ndim ≠ 2 then (.error .validation, r.2)
    else if r.1.logits.rows.length ≠ n + m + s.xs.length + s.xs.length ∨
        r.1.feats.rows.length ≠ n + m + s.xs.length + s.xs.length then (.error .validation, r.2)
    else (.ok ⟨r.1.slice 0 n, r.1.slice n m, r.1.slice (n + m) m, r.1.slice (n + m + m) s.xs.length⟩, r.2)
  else
    let a := N.forward w s.xl
    if a.1.valid = false then (.error .validation, a.2)
    else
      let b := N.forward a.2 (s.xs.map (·.1))
      if b.1.valid = false then (.error .validation, b.2)
      else
        let c := N.forward b.2 (s.xs.map (·.2))
        if c.1.valid = false then (.error .validation, c.2)
        else
          let d := N.forward c.2 s.xw
          if d.1.valid = false then (.error .validation, d.2)
          else (.ok ⟨a.1, d.1, b.1, c.1⟩, d.2)

/-- The checks on the outputs, comatch.py l.461-489.  The last line stands for the errors torch raises later when a network does not
return one row of logits and of features per input row (that torch may broadcast a single row is not modelled). -/
def agree (s : CBatch X) (o : Outs K) : Except PyErr Unit :=
  if o.l.logits.ndim ≠ 2 ∨ o.w.logits.ndim ≠ 2 ∨ o.s0.logits.ndim ≠ 2 ∨ o.s1.logits.ndim ≠ 2 then .error .validation
  else if o.l.feats.ndim ≠ 2 ∨ o.w.feats.ndim ≠ 2 ∨ o.s0.feats.ndim ≠ 2 ∨ o.s1.feats.ndim ≠ 2 then .error .validation
  else if (o.w.logits.rows.length ≠ o.s0.logits.rows.length ∨ o.w.logits.classes ≠ o.s0.logits.classes) ∨
      (o.w.logits.rows.length ≠ o.s1.logits.rows.length ∨ o.w.logits.classes ≠ o.s1.logits.classes) then .error .validation
  else if o.w.logits.classes ≠ o.l.logits.classes then .error .validation
  else if o.w.feats.classes ≠ o.s0.feats.classes ∨ o.w.feats.classes ≠ o.s1.feats.classes then .error .validation
  else if o.l.feats.classes ≠ o.w.feats.classes then .error .validation
  else if s.yl.any (fun c => decide (c < 0 ∨ (o.l.logits.classes : Int) ≤ c)) then .error .validation
  else if o.l.logits.rows.length ≠ s.yl.length ∨ o.l.feats.rows.length ≠ s.yl.length ∨
      o.w.logits.rows.length ≠ o.w.feats.rows.length ∨ o.w.logits.rows.length ≠ o.s0.feats.rows.length ∨
      o.w.logits.rows.length ≠ o.s1.feats.rows.length then .error .runtimeError
  else .ok ()

/-- `self.spec` (comatch.py l.98-118) with the number of classes and the width of the features, as `BankModel` wants it. -/
def memCfg (cfg : CCfg K) (classes width : Nat) : CoCfg K :=
  ⟨cfg.queueSize.toNat, cfg.minFill.toNat, cfg.alpha, cfg.temp, cfg.daLen.toNat, cfg.distAlign, cfg.uniform, classes, width⟩

/-- What the pseudo-labels are made of, comatch.py l.500-508, l.527-530. -/
def seenOf (T : Torch K) (temp : K) (s : CBatch X) (o : Outs K) : CoInput K :=
  ⟨o.w.logits.rows.map fun r => T.softmax (r.map (· / temp)), o.l.logits.rows.map T.softmax, o.w.feats.rows, o.l.feats.rows,
    s.yl.map Int.toNat⟩

/-- The loss, from the smoothed rows `sm`, comatch.py l.498 and l.509-573. -/
def objective (T : Torch K) (cfg : CCfg K) (s : CBatch X) (sm : List (List K)) : CObjective X K :=
  ⟨List.zipWith (fun p k => (p.1, p.2, k)) (s.xl.zip s.yl) (evenly s.yl.length),
    List.zipWith (fun (p : X × X × X) q => ⟨p.1, p.2.1, q.1, q.2⟩) (s.xw.zip s.xs)
      ((targetsOf T cfg.hard sm).zip (normed (maskOf cfg.cutoff sm))),
    cfg.lambdaU,
    List.zipWith (fun (x : X × X) row => (x.1, (s.xs.map (·.2)).zip (row.map (· / (s.xs.length : K))))) s.xs
      (pseudoGraph cfg.contrast sm),
    cfg.lambdaC, cfg.temp, cfg.cat && !cfg.detach⟩

/-- Memory and window of the object, comatch.py l.373-380, l.491-496: `None` before the first step (with its numbers of classes and features afterwards). -/
abbrev Mem (K : Type) := Option (Nat × Nat × CoState K)

/-- A memory made for other numbers of classes or features: torch refuses to store the rows (comatch.py l.531). -/
def misfit (cfg : CCfg K) (m : Mem K) (classes width : Nat) : Bool :=
  match m with
  | none => false
  | some q => decide (0 < cfg.queueSize ∧ (q.1 ≠ classes ∨ q.2.1 ≠ width)) ||
      decide (cfg.distAlign = true ∧ 0 < cfg.daLen ∧ q.1 ≠ classes)

/-- One training step, comatch.py l.428-577. -/
def trainStep (N : CNet X W K) (T : Torch K) (sqrt : K → K) (cfg : CCfg K) (st : Mem K × W) (s : CBatch X) :
    (Mem K × W) × Except PyErr Unit :=
  match look N cfg.cat st.2 s with
  | (.error e, w) => ((st.1, w), .error e)
  | (.ok o, w) =>
    match agree s o with
    | .error e => ((st.1, w), .error e)
    | .ok _ =>
      let classes := o.l.logits.classes
      let width := o.w.feats.classes
      if misfit cfg st.1 classes width then ((st.1, w), .error .runtimeError)
      else
        let c := memCfg cfg classes width
        let r := coStep sqrt T.exp c ((st.1.map (·.2.2)).getD (coInit c)) (seenOf T cfg.temp s o)
        ((some (classes, width, r.2), N.step w (objective T cfg s r.1)), .ok ())

/-- The steps of all epochs, comatch.py l.413-577; the first error ends the training. -/
def trainSteps (N : CNet X W K) (T : Torch K) (sqrt : K → K) (cfg : CCfg K) :
    Mem K × W → List (CBatch X) → (Mem K × W) × Except PyErr Unit
  | st, [] => (st, .ok ())
  | st, s :: ss =>
    match trainStep N T sqrt cfg st s with
    | (st', .error e) => (st', .error e)
    | (st', .ok _) => trainSteps N T sqrt cfg st' ss

/-- `fit`, comatch.py l.230-582: the memory is emptied after the checks (l.373-380).  Returns object and network as they are
afterwards, with or without an error. -/
def fit (G : TorchGen σ) (N : CNet X W K) (T : Torch K) (sqrt : K → K) (torch : Bool) (cfg : CCfg K)
    (bundle : Option Bundle) (data : Option (CInput X)) (seed : Int) (o : Obj (Mem K)) (w : W) :
    (Obj (Mem K) × W) × Except PyErr Unit :=
  match check torch cfg bundle data with
  | .error e => ((o, w), .error e)
  | .ok r =>
    match fitBatches G r.xl r.yl r.xw r.xs cfg.batchSize cfg.maxEpochs seed with
    | .error e => ((⟨none, o.fitted⟩, w), .error e)
    | .ok eps =>
      match trainSteps N T sqrt cfg (none, N.train w) eps.flatten with
      | (st, .error e) => ((⟨st.1, o.fitted⟩, st.2), .error e)
      | (st, .ok _) => ((⟨st.1, true⟩, st.2), .ok ())

end ModSSC.Deep.CoFit
