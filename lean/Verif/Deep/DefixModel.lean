import Verif.Deep.FitModel

/-!
# DeFixMatch

Models `fit` of `src/modssc/inductive/methods/defixmatch.py` l.83-321.  It is FixMatch (`FitModel`) with a strong view of the labeled
rows as well, whose loss subtracts from the pseudo-label loss of the unlabeled rows the one of the labeled rows.  Subtracted terms
are terms with negative weights here.
-/

namespace ModSSC.Deep.Defix
open ModSSC ModSSC.Deep.Fit

variable {X W K σ : Type}

/-- A view of the labeled rows with the shape of a row (`_non_batch_shape`, defixmatch.py l.40-46). -/
structure View (X : Type) where
  /-- rows and dtype -/
  feats : Feats X
  /-- `x.shape[1:]` -/
  shape : List Nat

/-- A dataset: that of `FitModel`, the shape of `X_l`, and the entries of `views` that are not `None`. -/
structure DInput (X : Type) where
  /-- everything else -/
  base : Input X
  /-- `X_l.shape[1:]` -/
  shape : List Nat
  /-- `views` -/
  views : List (String × View X)

/-- The strong view of the labeled rows, defixmatch.py l.116-123: the first of three names, or `X_l` itself. -/
def strongView (d : DInput X) : View X :=
  (["X_l_s", "X_l_strong", "labeled_strong"].findSome? fun k => d.views.lookup k).getD ⟨d.base.xl, d.shape⟩

/-- Rows with both views of the labeled ones. -/
structure DReady (X : Type) where
  /-- `X_l` with `X_l_s` -/
  xl : List (X × X)
  /-- `y_l` -/
  yl : List Int
  /-- `X_u_w` -/
  xw : List X
  /-- `X_u_s` -/
  xs : List X

variable [Field K] [LinearOrder K]

/-- The checks, defixmatch.py l.102-176; all failures are `InductiveValidationError`. -/
def check (torch : Bool) (cfg : Fit.Cfg K) (bundle : Option Bundle) (data : Option (DInput X)) : Except PyErr (DReady X) :=
  match Fit.check (fun n => .ok ((List.range n).map Int.ofNat)) torch cfg bundle (data.map (·.base)), data with
  | .error e, _ => .error e
  | .ok _, none => .error .validation
  | .ok r, some d =>
    let s := strongView d
    if s.feats.float = false then .error .validation
    else if s.shape.length + 1 < 2 then .error .validation
    else if s.shape.length ≠ d.shape.length then .error .validation
    else if s.feats.rows.length ≠ d.base.xl.rows.length then .error .validation
    else if s.shape ≠ d.shape then .error .validation
    else .ok ⟨r.xl.zip s.feats.rows, r.yl, r.xw.map (·.1), r.xs⟩

/-- One batch: labeled rows (both views), labels, weak and strong views of unlabeled rows. -/
abbrev DBatch (X : Type) := Step (X × X) Int X X

/-- The four logits of a step: labeled weak, labeled strong, unlabeled weak, unlabeled strong. -/
structure Four (K : Type) where
  /-- `logits_lb` -/
  lw : Out K
  /-- `logits_lb_s` -/
  ls : Out K
  /-- `logits_uw` -/
  uw : Out K
  /-- `logits_us` -/
  us : Out K

/-- The forward passes, defixmatch.py l.209-239: one pass over the concatenated rows, or four, in the order labeled, labeled strong,
strong, weak. -/
def look (N : Net X W K) (cat : Bool) (w : W) (s : DBatch X) : Except PyErr (Four K) × W :=
  let n := s.xl.length
  if cat then
    let r := N.forward w (s.xl.map (·.1) ++ s.xl.map (·.2) ++ s.xw ++ s.xs)
    if r.1.ndim ≠ 2 then (.error .validation, r.2)
    else if r.1.rows.length ≠ n + n + s.xw.length + s.xs.length then (.error .validation, r.2)
    else
      (.ok ⟨r.1.slice 0 n, r.1.slice n n, r.1.slice (n + n) s.xw.length, r.1.slice (n + n + s.xw.length) s.xs.length⟩, r.2)
  else
    let a := N.forward w (s.xl.map (·.1))
    let b := N.forward a.2 (s.xl.map (·.2))
    let c := N.forward b.2 s.xs
    let d := N.forward c.2 s.xw
    (.ok ⟨a.1, b.1, d.1, c.1⟩, d.2)

/-- The checks on the logits, defixmatch.py l.241-255. -/
def agree (y : List Int) (o : Four K) : Except PyErr Unit :=
  if o.lw.ndim ≠ 2 ∨ o.ls.ndim ≠ 2 ∨ o.uw.ndim ≠ 2 ∨ o.us.ndim ≠ 2 then .error .validation
  else if o.lw.rows.length ≠ o.ls.rows.length ∨ o.lw.classes ≠ o.ls.classes then .error .validation
  else if o.uw.rows.length ≠ o.us.rows.length ∨ o.uw.classes ≠ o.us.classes then .error .validation
  else if o.uw.classes ≠ o.lw.classes then .error .validation
  else if y.any (fun c => decide (c < 0 ∨ (o.lw.classes : Int) ≤ c)) then .error .validation
  else .ok ()

/-- Pseudo-labels of weak views for their strong views, with the sign of the part they belong to, defixmatch.py l.268-303. -/
def terms (T : Torch K) (cutoff : K) (hard : Bool) (sign : K) (probs soft : List (List K)) (rows : List (X × X)) : List (Term X K) :=
  List.zipWith (fun (p : X × X) q => ⟨p.1, p.2, q.1, sign * q.2⟩) rows
    ((targetsOf T hard soft).zip (normed (maskOf cutoff probs)))

/-- The loss, defixmatch.py l.257-319. -/
def objective (T : Torch K) (cutoff temp scale : K) (hard : Bool) (s : DBatch X) (o : Four K) : Except PyErr (Objective X K) := do
  let pu := o.uw.rows.map T.softmax
  let pl := o.lw.rows.map T.softmax
  let su ← sharpen T.pow temp pu
  let sl ← sharpen T.pow temp pl
  let half := 1 / (2 * (s.yl.length : K))
  .ok ⟨(((s.xl.map (·.1)).zip s.yl) ++ ((s.xl.map (·.2)).zip s.yl)).map fun p => (p.1, p.2, half),
    terms T cutoff hard 1 pu su (s.xw.zip s.xs) ++ terms T cutoff hard (-1) pl sl s.xl, scale, none⟩

/-- One training step, defixmatch.py l.202-323. -/
def trainStep (N : Net X W K) (T : Torch K) (cutoff : K) (hard : Bool) (cfg : Fit.Cfg K) (w : W) (s : DBatch X) :
    W × Except PyErr Unit :=
  match look N cfg.cat w s with
  | (.error e, w) => (w, .error e)
  | (.ok o, w) =>
    match agree s.yl o with
    | .error e => (w, .error e)
    | .ok _ =>
      match objective T cutoff cfg.temperature cfg.lambdaU hard s o with
      | .error e => (w, .error e)
      | .ok ob => (N.step w ob, .ok ())

/-- The steps of all epochs; the first error ends the training. -/
def trainSteps (N : Net X W K) (T : Torch K) (cutoff : K) (hard : Bool) (cfg : Fit.Cfg K) :
    W → List (DBatch X) → W × Except PyErr Unit
  | w, [] => (w, .ok ())
  | w, s :: ss =>
    match trainStep N T cutoff hard cfg w s with
    | (w', .error e) => (w', .error e)
    | (w', .ok _) => trainSteps N T cutoff hard cfg w' ss

/-- `fit`, defixmatch.py l.83-328.  Returns whether the bundle is set and the network,
with or without an error. -/
def fit (G : TorchGen σ) (N : Net X W K) (T : Torch K) (cutoff : K) (hard : Bool) (torch : Bool) (cfg : Fit.Cfg K)
    (bundle : Option Bundle) (data : Option (DInput X)) (seed : Int) (fitted : Bool) (w : W) : (Bool × W) × Except PyErr Unit :=
  match check torch { cfg with ranges := decide (0 ≤ cutoff ∧ cutoff ≤ 1) } bundle data with
  | .error e => ((fitted, w), .error e)
  | .ok r =>
    match fitBatches G r.xl r.yl r.xw r.xs cfg.batchSize cfg.maxEpochs seed with
    | .error e => ((fitted, w), .error e)
    | .ok eps =>
      match trainSteps N T cutoff hard cfg (N.train w) eps.flatten with
      | (w', .error e) => ((fitted, w'), .error e)
      | (w', .ok _) => ((true, w'), .ok ())

end ModSSC.Deep.Defix
