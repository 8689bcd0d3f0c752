import Verif.Inductive.LoopModel

/-!
# Model of `inductive/methods/democratic_co_learning.py`

The numpy branch; the torch branch runs the same steps except that it looks labels up with `searchsorted`, which does not
notice unknown ones.  Classifiers are the external objects of `Types.lean`; `classesOf m` is `getattr(clf, "classes_", None)`.
Numbers are exact rationals; the normal quantile and the square root are parameters.
-/

namespace ModSSC.Inductive
open ModSSC

/-- External numbers: `NormalDist().inv_cdf` and `math.sqrt`. -/
structure Normal where
  inv : Rat → Rat
  sqrt : Rat → Rat

/-- The parameters of `DemocraticCoLearningSpec` (democratic_co_learning.py l.228-233) that matter here. -/
structure DemSpec where
  maxIter : Int
  confidence : Rat
  minConfidence : Rat

/-- `_z_value`, democratic_co_learning.py l.37-40. -/
def zValue (N : Normal) (c : Rat) : Except PyErr Rat :=
  if 0 < c ∧ c < 1 then .ok (N.inv (1 / 2 + c / 2)) else .error .validation

/-- `_accuracy_confidence_interval`, democratic_co_learning.py l.43-53. -/
def accInterval (N : Normal) (c : Rat) (correct total : Nat) : Except PyErr (Rat × Rat) :=
  if total ≤ 0 then .error .validation
  else do
    let z ← zValue N c
    let p : Rat := (correct : Rat) / (total : Rat)
    let se := N.sqrt (max (p * (1 - p)) 0 / (total : Rat))
    .ok (max 0 (p - z * se), min 1 (p + z * se))

/-- `_confidence_interval_numpy(y, clf.predict(X))`, democratic_co_learning.py l.56-62, l.314-320, l.439-442. -/
def labelInterval {M α : Type} (C : Clf M α) (N : Normal) (c : Rat) (m : M) (X : List α) (y : List Int) :
    Except PyErr (Rat × Rat) := do
  let p ← C.predict m X
  accInterval N c ((y.zip p).countP fun r => decide (r.1 = r.2)) y.length

/-- One entry of `_weights_from_labeled_numpy`, democratic_co_learning.py l.436-444. -/
def demWeight {M α : Type} (C : Clf M α) (N : Normal) (c : Rat) (X : List α) (y : List Int) (m : M) : Except PyErr Rat := do
  let r ← labelInterval C N c m X y
  .ok ((r.1 + r.2) / 2)

/-- `_resolve_classes_numpy`, democratic_co_learning.py l.90-105: every classifier that has classes has those of the first. -/
def resolveClasses (cs : List (Option (List Int))) (y : List Int) : Except PyErr (List Int) :=
  match cs.filterMap id with
  | [] => .ok (npUnique y)
  | c :: rest => if rest.all fun c' => decide (c' = c) then .ok c else .error .validation

/-- `_encode_predictions_numpy` for one classifier, democratic_co_learning.py l.132-139 (classes are different): an unknown
label becomes `None`, which is no integer. -/
def encodeLabels (classes pred : List Int) : Except PyErr (List Nat) :=
  pred.mapM fun v => if v ∈ classes then .ok (classes.idxOf v) else .error .typeError

/-- One row of `scores` in `_weighted_majority_numpy`, democratic_co_learning.py l.160-161; `votes` are the predictions
of the learners for one sample. -/
def voteScores (k : Nat) (w : List Rat) (votes : List Nat) : List Rat :=
  (List.range k).map fun c => ((votes.zip w).map fun r => if r.1 = c then r.2 else 0).sum

/-- `_weighted_majority_numpy` for one sample, democratic_co_learning.py l.154-167.  The second largest score
(`np.partition(scores, -2)[-2]`) is the largest one at the other positions. -/
def majority (k : Nat) (w : List Rat) (votes : List Nat) : Nat × Bool :=
  let s := voteScores k w votes
  (Evaluation.argmax s, if k ≤ 1 then true else decide (rowMax (s.eraseIdx (Evaluation.argmax s)) < rowMax s))

/-- A learner: its classifier, its training set `X_l_i`, `y_l_i`, `e_i` and the positions set in `added_mask`. -/
structure Learner (M α : Type) where
  m : M
  X : List α
  y : List Int
  err : Rat
  added : List Nat

/-- `float(n) * (1.0 - 2.0 * (e / float(n))) ** 2`, democratic_co_learning.py l.325 and l.328. -/
def quality (n : Nat) (e : Rat) : Rat := (n : Rat) * (1 - 2 * (e / (n : Rat))) ^ 2

/-- The update of one learner, democratic_co_learning.py l.325-338; the flag is `changed`. -/
def demUpdate {M α : Type} (pool : List α) (label : Nat → Int) (avg : Rat) (idx : List Nat) (L : Learner M α) :
    Learner M α × Bool :=
  if idx.length = 0 then (L, false)
  else
    let e' := (1 - avg) * (idx.length : Rat)
    if quality L.y.length L.err < quality (L.y.length + idx.length) (L.err + e') then
      (⟨L.m, L.X ++ idx.filterMap (fun j => pool[j]?), L.y ++ idx.map label, L.err + e', L.added ++ idx⟩, true)
    else (L, false)

/-- `clf.fit(X_l_i[i], y_l_i[i])`, democratic_co_learning.py l.297-298 and l.345-346. -/
def demRefit {M α : Type} (C : Clf M α) (L : Learner M α) : Except PyErr (Learner M α) := do
  let m ← C.fit L.m L.X L.y
  .ok { L with m := m }

/-- One iteration, democratic_co_learning.py l.296-338. -/
def demRound {M α : Type} (C : Clf M α) (classesOf : M → Option (List Int)) (N : Normal) (S : DemSpec) (X : List α)
    (y : List Int) (pool : List α) (Ls : List (Learner M α)) : Except PyErr (List (Learner M α) × Bool) := do
  let Ls ← Ls.mapM (demRefit C)
  let w ← Ls.mapM fun L => demWeight C N S.confidence X y L.m
  let cs ← resolveClasses (Ls.map fun L => classesOf L.m) y
  let preds ← Ls.mapM fun L => do
    let p ← C.predict L.m pool
    encodeLabels cs p
  let maj := fun j => majority cs.length w (preds.map fun p => p.getD j 0)
  let lows ← Ls.mapM fun L => do
    let r ← labelInterval C N S.confidence L.m L.X L.y
    .ok r.1
  let avg := min (max (lows.sum / (lows.length : Rat)) 0) 1
  let r := Ls.mapIdx fun i L =>
    demUpdate pool (fun j => cs.getD (maj j).1 0) avg
      ((List.range pool.length).filter fun j =>
        (maj j).2 && decide ((preds.getD i []).getD j 0 ≠ (maj j).1) && decide (j ∉ L.added)) L
  .ok (r.map (·.1), r.any (·.2))

/-- The loop, democratic_co_learning.py l.295-343. -/
def demLoop {M α : Type} (C : Clf M α) (classesOf : M → Option (List Int)) (N : Normal) (S : DemSpec) (X : List α)
    (y : List Int) (pool : List α) : Nat → List (Learner M α) → Except PyErr (List (Learner M α))
  | 0, Ls => .ok Ls
  | fuel + 1, Ls => do
    let r ← demRound C classesOf N S X y pool Ls
    if r.2 then demLoop C classesOf N S X y pool fuel r.1 else .ok r.1

/-- What `fit` leaves behind: `_clfs`, `_weights`, `_classes`. -/
structure DemFitted (M : Type) where
  clfs : List M
  weights : List Rat
  classes : List Int

/-- `_finalize_numpy`, democratic_co_learning.py l.456-461. -/
def demFinalize {M α : Type} (C : Clf M α) (classesOf : M → Option (List Int)) (N : Normal) (S : DemSpec) (X : List α)
    (y : List Int) (ms : List M) : Except PyErr (DemFitted M) := do
  let w ← ms.mapM (demWeight C N S.confidence X y)
  let cs ← resolveClasses (ms.map classesOf) y
  .ok ⟨ms, w, cs⟩

/-- `DemocraticCoLearningMethod.fit`, democratic_co_learning.py l.258-348.  `ms` are the new classifiers, one per learner
(l.73-87, l.275).  No unlabeled array and an empty one are the same (l.276); arrays without columns are not modelled. -/
def demFit {M α : Type} (C : Clf M α) (classesOf : M → Option (List Int)) (N : Normal) (S : DemSpec) (ms : List M)
    (X : List α) (y : List Int) (Xu : Option (List α)) : Except PyErr (DemFitted M) := do
  if ms.length < 3 then .error .validation
  else do
    checkLabeled X y
    let start := ms.map fun m => (⟨m, X, y, 0, []⟩ : Learner M α)
    let Ls ← if (Xu.getD []).length = 0 then .ok start
      else demLoop C classesOf N S X y (Xu.getD []) S.maxIter.toNat start
    let Ls ← Ls.mapM (demRefit C)
    demFinalize C classesOf N S X y (Ls.map (·.m))

/-- One row of `_combine_scores_numpy`, democratic_co_learning.py l.186-205. -/
def combineScores (minConf : Rat) (k : Nat) (w : List Rat) (votes : List Nat) : List Rat :=
  let eligible : Rat → Bool := if w.any fun v => decide (minConf < v) then fun v => decide (minConf < v) else fun _ => true
  let vs := (votes.zip w).filter fun r => eligible r.2
  (List.range k).map fun c =>
    let count : Rat := ((vs.countP fun r => decide (r.1 = c) : Nat) : Rat)
    let score := (vs.map fun r => if r.1 = c then r.2 else 0).sum
    if count = 0 then 0 else score / max count 1 * ((count + 1 / 2) / (count + 1))

/-- One row of `predict_proba`, democratic_co_learning.py l.479-496. -/
def demProbaRow (minConf : Rat) (k : Nat) (w : List Rat) (votes : List Nat) : List Rat :=
  let s := combineScores minConf k w votes
  s.map fun v => v / (if s.sum = 0 then 1 else s.sum)

/-- `predict_proba`, democratic_co_learning.py l.470-511. -/
def demProba {M α : Type} (C : Clf M α) (S : DemSpec) (F : DemFitted M) (X : List α) : Except PyErr (List (List Rat)) := do
  let preds ← F.clfs.mapM fun m => do
    let p ← C.predict m X
    encodeLabels F.classes p
  .ok ((List.range X.length).map fun j =>
    demProbaRow S.minConfidence F.classes.length F.weights (preds.map fun p => p.getD j 0))

/-- `predict`, democratic_co_learning.py l.513-524. -/
def demPredict {M α : Type} (C : Clf M α) (S : DemSpec) (F : DemFitted M) (X : List α) : Except PyErr (List Int) := do
  let p ← demProba C S F X
  .ok (p.map fun row => F.classes.getD (Evaluation.argmax row) 0)

end ModSSC.Inductive
