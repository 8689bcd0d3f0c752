import Verif.Deep.SharpModel

/-!
# FlexMatch: curriculum thresholds

Models `src/modssc/inductive/methods/flexmatch.py` l.76-150 and the parts of its training step that read and write
the curriculum state (l.285-333).  The network is a parameter: a batch is given by the positions of its samples in the
unlabeled pool, their largest probabilities and the classes attaining them.
-/

namespace ModSSC.Deep
open ModSSC

variable {K : Type} [Field K] [LinearOrder K]

/-- `_selected_label` and `_classwise_acc`. -/
structure FlexState (K : Type) where
  /-- last confident label of each sample of the pool, -1 for none -/
  selected : List Int
  /-- learning effect of each class -/
  acc : List K
deriving DecidableEq, Repr

/-- The parameters of the method that matter here. -/
structure FlexCfg (K : Type) where
  /-- `p_cutoff` -/
  cutoff : K
  /-- `thresh_warmup` -/
  warmup : Bool
  /-- number of classes of the network -/
  classes : Nat

/-- One unlabeled sample of a batch: `idx_global`, `max_probs`, `max_idx`. -/
structure FlexPred (K : Type) where
  /-- position in the pool -/
  idx : Int
  /-- largest probability -/
  prob : K
  /-- class attaining it -/
  cls : Nat

/-- `_init_state`, flexmatch.py l.77-83. -/
def flexInit (cfg : FlexCfg K) (pool : Nat) : FlexState K :=
  ⟨List.replicate pool (-1), List.replicate cfg.classes 0⟩

/-- `torch.bincount(v, minlength)`. -/
def bincount (v : List Nat) (minlength : Nat) : List Nat :=
  (List.range (max minlength ((v.map (· + 1)).foldl max 0))).map fun c => v.count c

/-- `_update_classwise_acc`, flexmatch.py l.85-103.  Counts are integers in the code until the division; negative
entries of `selected + 1` cannot occur. -/
def flexAcc (warmup : Bool) (classes : Nat) (selected : List Int) : List K :=
  let counts := bincount (selected.map fun s => (s + 1).toNat) (classes + 1)
  if warmup then counts.tail.map fun c : Nat => (c : K) / max ((counts.foldl max 0 : Nat) : K) 1
  else
    if counts.tail.foldl max 0 ≤ 0 then List.replicate classes 0
    else counts.tail.map fun c : Nat => (c : K) / ((counts.tail.foldl max 0 : Nat) : K)

/-- `selected[i] = v` for one index tensor entry; negative positions count from the end. -/
def setWrap (l : List Int) (i : Int) (v : Int) : Except PyErr (List Int) :=
  if 0 ≤ i ∧ i < l.length then .ok (l.set i.toNat v)
  else if i < 0 ∧ 0 ≤ i + l.length then .ok (l.set (i + l.length).toNat v)
  else .error .indexError

/-- `selected[idx_global[select]] = max_idx[select]`, flexmatch.py l.332; with repeated positions the last one wins. -/
def writeSelected (l : List Int) (ps : List (FlexPred K)) : Except PyErr (List Int) :=
  ps.foldlM (fun l p => setWrap l p.idx p.cls) l

/-- `p_cutoff * (class_acc / (2.0 - class_acc))`, flexmatch.py l.297-298. -/
def flexThreshold (cutoff a : K) : K := cutoff * (a / (2 - a))

/-- One training step: the mask of the batch and the new state, flexmatch.py l.294-333. -/
def flexStep (cfg : FlexCfg K) (st : FlexState K) (batch : List (FlexPred K)) :
    Except PyErr (List Bool × FlexState K) :=
  let mask := batch.map fun p => decide (flexThreshold cfg.cutoff (st.acc.getD p.cls 0) ≤ p.prob)
  let select := batch.filter fun p => cfg.cutoff ≤ p.prob
  if select.length > 0 then
    match writeSelected st.selected select with
    | .error e => .error e
    | .ok sel => .ok (mask, ⟨sel, flexAcc cfg.warmup cfg.classes sel⟩)
  else .ok (mask, st)

/-- The steps of a whole training, over all epochs. -/
def flexSteps (cfg : FlexCfg K) : FlexState K → List (List (FlexPred K)) → Except PyErr (List (List Bool) × FlexState K)
  | st, [] => .ok ([], st)
  | st, b :: bs =>
    match flexStep cfg st b with
    | .error e => .error e
    | .ok (m, st') =>
      match flexSteps cfg st' bs with
      | .error e => .error e
      | .ok (ms, st'') => .ok (m :: ms, st'')

/-- The curriculum of one `fit`, flexmatch.py l.285-289: the state is created only when there is none, so a second
`fit` of the same object goes on with the state of the first. -/
def flexFit (cfg : FlexCfg K) (pool : Nat) (st : Option (FlexState K)) (bs : List (List (FlexPred K))) :
    Except PyErr (List (List Bool) × FlexState K) :=
  flexSteps cfg (st.getD (flexInit cfg pool)) bs

/-- `meta.get("ulb_size") or meta.get("unlabeled_size")`, flexmatch.py l.130: zero counts as missing in the first. -/
def poolEntry (ulbSize unlabeledSize : Option Int) : Option Int :=
  match ulbSize with
  | some u => if u = 0 then unlabeledSize else some u
  | none => unlabeledSize

/-- `_get_idx_u`, flexmatch.py l.105-150: the pool size.  `n` is the number of unlabeled rows (at least one); the checks
of types, devices and of the presence of `idx_u` are not modelled. -/
def poolSize (n : Nat) (idx : List Int) (ulbSize unlabeledSize : Option Int) : Except PyErr Int :=
  if idx.length ≠ n then .error .validation
  else
    match poolEntry ulbSize unlabeledSize with
    | none =>
      if idx.foldl min (idx.headD 0) ≠ 0 ∨ idx.foldl max (idx.headD 0) ≠ (n : Int) - 1 then .error .validation
      else if idx.dedup.length ≠ n then .error .validation
      else .ok n
    | some u =>
      if u < n then .error .validation
      else if idx.foldl max (idx.headD 0) ≥ u then .error .validation
      else .ok u

end ModSSC.Deep
