import Verif.Inductive.SelectModel
import Verif.DataLoader.UriModel

/-!
# Model of `inductive/methods/pseudo_label.py` and `inductive/methods/self_training.py`

The numpy and the torch branches of both methods run the same steps; they differ in `top`.
-/

namespace ModSSC.Inductive
open ModSSC DataLoader

/-- `keep = np.ones(n); keep[idx] = False` (pseudo_label.py:124-125, self_training.py:345-346). -/
def keepMask (n : Nat) (idx : List Nat) : List Bool := (List.range n).map fun i => decide (i ∉ idx)

/-- `group_u_curr = group_u_curr[keep]` if there are groups (self_training.py:348-349). -/
def keepGroups (groups : Option (List Int)) (keep : List Bool) : Except PyErr (Option (List Int)) :=
  match groups with
  | none => .ok none
  | some g => (boolIndex g keep).map some

/-- What a loop leaves behind: the classifier, the last training set and pool, the data of every
`clf.fit` call in order, and the number of completed rounds. -/
structure Result (M α : Type) where
  model : M
  last : Round α
  calls : List (List α × List Int)
  rounds : Nat

/-- The loop of `PseudoLabelMethod.fit` (pseudo_label.py:97-130, 165-197) and of
`SelfTrainingMethod.fit` (self_training.py:303-352, 412-469).  `choose` is the part in which they
differ: it returns nothing to stop, or the chosen pool positions and their labels.  `groups` is
`group_u_curr`, filtered with the pool. -/
def selfLabelLoop {M α : Type} (C : Clf M α)
    (choose : M → Round α → Option (List Int) → Except PyErr (Option (List Nat × List Int))) :
    Nat → M → Round α → Option (List Int) → List (List α × List Int) → Nat → Except PyErr (Result M α)
  | 0, m, s, _, calls, t => .ok ⟨m, s, calls, t⟩
  | fuel + 1, m, s, groups, calls, t => do
    let m1 ← C.fit m s.X s.y
    let calls1 := calls ++ [(s.X, s.y)]
    if s.pool = [] then .ok ⟨m1, s, calls1, t⟩
    else do
      let picked ← choose m1 s groups
      match picked with
      | none => .ok ⟨m1, s, calls1, t⟩
      | some (idx, labels) => do
        let new ← takeIdx s.pool idx
        let rest ← boolIndex s.pool (keepMask s.pool.length idx)
        let groups' ← keepGroups groups (keepMask s.pool.length idx)
        selfLabelLoop C choose fuel m1 ⟨s.X ++ new, s.y ++ labels, rest⟩ groups' calls1 (t + 1)

/-- The loop and the final `clf.fit` (pseudo_label.py:132-135, self_training.py:354-357). -/
def selfLabelFit {M α : Type} (C : Clf M α)
    (choose : M → Round α → Option (List Int) → Except PyErr (Option (List Nat × List Int)))
    (maxIter : Int) (m : M) (s : Round α) (groups : Option (List Int)) : Except PyErr (Result M α) := do
  let r ← selfLabelLoop C choose maxIter.toNat m s groups [] 0
  let m' ← C.fit r.model r.last.X r.last.y
  .ok ⟨m', r.last, r.calls ++ [(r.last.X, r.last.y)], r.rounds⟩

/-- Checks common to both methods (classifier_bridge.py:82-90, validation.py:22-29, 57-58). -/
def checkLabeled {α : Type} (X : List α) (y : List Int) : Except PyErr Unit :=
  if X.length ≠ y.length then .error .validation
  else if y = [] then .error .validation
  else .ok ()

/-- `PseudoLabelSpec` (pseudo_label.py:39-43). -/
structure PLSpec where
  maxIter : Int
  threshold : Rat
  maxNew : Option Int
  minNew : Int

/-- Selection and labelling in pseudo-labeling (pseudo_label.py:103-120). -/
def plChoose {M α : Type} (C : Clf M α) (top : Top) (P : PLSpec) (m : M) (s : Round α) (_ : Option (List Int)) :
    Except PyErr (Option (List Nat × List Int)) := do
  let sc ← C.scores m s.pool
  let idx ← selectConfident top sc (some P.threshold) P.maxNew
  if (idx.length : Int) < P.minNew then .ok none
  else do
    let new ← takeIdx s.pool idx
    let labels ← C.predict m new
    .ok (some (idx, labels))

/-- `PseudoLabelMethod.fit` (pseudo_label.py:65-137).  Without unlabeled samples the classifier is fitted
once.  Simplification: `X_u` with zero features also takes that branch in numpy. -/
def pseudoLabelFit {M α : Type} (C : Clf M α) (top : Top) (P : PLSpec) (m : M) (X : List α) (y : List Int)
    (Xu : Option (List α)) : Except PyErr (Result M α) := do
  checkLabeled X y
  if Xu.getD [] = [] then do
    let m' ← C.fit m X y
    .ok ⟨m', ⟨X, y, []⟩, [(X, y)], 0⟩
  else selfLabelFit C (plChoose C top P) P.maxIter m ⟨X, y, Xu.getD []⟩ none

/-- A candidate: position, label, confidence (the dictionary of self_training.py:161-163, in insertion
order). -/
abbrev Cand := Nat × (Int × Rat)

/-- The votes of a group (self_training.py:176-189). -/
def groupVotes (groupL : Option (List Int)) (y : List Int) (groupU : List Int) (pred : List Int)
    (conf : List Rat) (direct : Nat → Bool) (gid : Int) : List (Int × Rat) :=
  let fromL := match groupL with
    | none => []
    | some gl => ((List.range gl.length).filter fun i => decide (gl.getD i 0 = gid)).map
        fun i => (y.getD i 0, (1 : Rat))
  let groupIdx := (List.range groupU.length).filter fun i => decide (groupU.getD i 0 = gid)
  fromL ++ (groupIdx.filter direct).map fun i => (pred.getD i 0, conf.getD i 0)

/-- The majority label of a group and its mean confidence, if it is accepted
(self_training.py:191-205). -/
def groupWinner (P : STSpec) (vs : List (Int × Rat)) : Option (Int × Rat) :=
  if (vs.length : Int) < P.minCount then none
  else
    let labels := npUnique (vs.map (·.1))
    let counts := labels.map fun l => ((vs.countP fun v => decide (v.1 = l) : Nat) : Rat)
    let pos := Evaluation.argmax counts
    let major := labels.getD pos 0
    if counts.getD pos 0 / counts.sum < P.minFraction then none
    else
      let cs := (vs.filter fun v => decide (v.1 = major)).map (·.2)
      let majorConf := cs.sum / cs.length
      if (P.groupThreshold.or P.threshold).any fun t => decide (majorConf < t) then none
      else some (major, majorConf)

/-- Propagation within one group (self_training.py:171-211). -/
def addGroup (P : STSpec) (groupL : Option (List Int)) (y : List Int) (groupU : List Int) (pred : List Int)
    (conf : List Rat) (direct : Nat → Bool) (cands : List Cand) (gid : Int) : List Cand :=
  match groupWinner P (groupVotes groupL y groupU pred conf direct gid) with
  | none => cands
  | some w =>
    let groupIdx := (List.range groupU.length).filter fun i => decide (groupU.getD i 0 = gid)
    cands ++ (groupIdx.filter fun i => decide (i ∉ cands.map (·.1))).map fun i => (i, w)

/-- Propagation within every group, if enabled (self_training.py:166-211). -/
def addGroups (P : STSpec) (groupL : Option (List Int)) (y : List Int) (groupU : Option (List Int))
    (pred : List Int) (conf : List Rat) (direct : Nat → Bool) (start : List Cand) : List Cand :=
  match P.useGroup, groupU with
  | true, some g => (npUnique g).foldl (addGroup P groupL y g pred conf direct) start
  | _, _ => start

/-- `_select_candidates_numpy` (self_training.py:140-223).  Python's sort is stable and `reverse=True`
keeps equal items in order.  Simplification: a label array shorter than the group ids would raise. -/
def selectCandidates (P : STSpec) (s : Scores) (pred : List Int) (groupU groupL : Option (List Int))
    (y : List Int) : Except PyErr (List Cand) := do
  let conf ← confidences s
  let direct : Nat → Bool := fun i => meets P.threshold (conf.getD i 0)
  let start : List Cand := ((List.range conf.length).filter direct).map
    fun i => (i, (pred.getD i 0, conf.getD i 0))
  let cands := addGroups P groupL y groupU pred conf direct start
  let items := cands.insertionSort fun a b => b.2.2 ≤ a.2.2
  match P.maxNew with
  | some m => if m < items.length then .ok (pyTake m items) else .ok items
  | none => .ok items

/-- Selection and labelling in self-training (self_training.py:308-341). -/
def stChoose {M α : Type} (C : Clf M α) (P : STSpec) (groupL : Option (List Int)) (m : M) (s : Round α)
    (groups : Option (List Int)) : Except PyErr (Option (List Nat × List Int)) := do
  let sc ← C.scores m s.pool
  let pred ← C.predict m s.pool
  let items ← selectCandidates P sc pred groups groupL s.y
  if (items.length : Int) < P.minNew then .ok none
  else .ok (some (items.map (·.1), items.map (·.2.1)))

/-- `SelfTrainingMethod.fit` (self_training.py:245-359) after the group ids were resolved: their lengths
are checked there (self_training.py:76-85). -/
def selfTrainingFit {M α : Type} (C : Clf M α) (P : STSpec) (m : M) (X : List α) (y : List Int)
    (Xu : Option (List α)) (groupU groupL : Option (List Int)) : Except PyErr (Result M α) := do
  if P.minCount < 1 then .error .validation
  else if ¬ (0 ≤ P.minFraction ∧ P.minFraction ≤ 1) then .error .validation
  else do
    checkLabeled X y
    if Xu.getD [] = [] then do
      let m' ← C.fit m X y
      .ok ⟨m', ⟨X, y, []⟩, [(X, y)], 0⟩
    else if P.useGroup ∧ groupU = none then .error .validation
    else selfLabelFit C (stChoose C P groupL) P.maxIter m ⟨X, y, Xu.getD []⟩ groupU

end ModSSC.Inductive
