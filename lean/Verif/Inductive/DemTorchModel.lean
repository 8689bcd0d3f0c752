import Verif.Inductive.DemModel

/-!
# The torch branch of `inductive/methods/democratic_co_learning.py`

Numbers are exact rationals here as in `DemModel` (torch computes votes with 32-bit floats).  The steps that are written the same
in both branches (intervals, weights, update of a learner) are those of `DemModel`.
-/

namespace ModSSC.Inductive
open ModSSC

/-- `_resolve_classes_torch`, democratic_co_learning.py l.108-129: `ts` are the `classes_t_`, `ns` the `classes_` of the classifiers. -/
def resolveClassesT (ts ns : List (Option (List Int))) (y : List Int) : Except PyErr (List Int) :=
  if (ts.filterMap id).any fun c => decide (c ≠ npUnique y) then .error .validation
  else
    match ns.filterMap id with
    | [] => .ok (npUnique y)
    | c :: rest =>
      if rest.all (fun c' => decide (c' = c)) = true ∧ c = npUnique y then .ok (npUnique y) else .error .validation

/-- `_encode_predictions_torch` for one classifier, democratic_co_learning.py l.142-151: `torch.searchsorted` (left) gives the number
of classes below the label. -/
def encodeT (classes pred : List Int) : List Nat := pred.map fun v => classes.countP fun c => decide (c < v)

/-- `torch.nn.functional.one_hot` (l.171, l.213) refuses a position beyond the classes. -/
def checkHot (k : Nat) (preds : List (List Nat)) : Except PyErr Unit :=
  if preds.any fun p => p.any fun i => decide (k ≤ i) then .error .runtimeError else .ok ()

/-- A row of `one_hot`. -/
def hotRow (k i : Nat) : List Rat := (List.range k).map fun c => if c = i then 1 else 0

/-- `(one_hot * weights.view(...)).sum(dim=0)` for one sample, democratic_co_learning.py l.174, l.217-218. -/
def hotSum (k : Nat) (w : List Rat) (votes : List Nat) : List Rat :=
  (List.range k).map fun c => ((votes.zip w).map fun r => (hotRow k r.1).getD c 0 * r.2).sum

/-- `_weighted_majority_torch` for one sample, democratic_co_learning.py l.168-181 (`topk` as in `majority`). -/
def majorityT (k : Nat) (w : List Rat) (votes : List Nat) : Nat × Bool :=
  let s := hotSum k w votes
  (Evaluation.argmax s, if k ≤ 1 then true else decide (rowMax (s.eraseIdx (Evaluation.argmax s)) < rowMax s))

/-- `_combine_scores_torch` for one sample, democratic_co_learning.py l.208-225. -/
def combineT (minConf : Rat) (k : Nat) (w : List Rat) (votes : List Nat) : List Rat :=
  let above := w.map fun v => decide (minConf < v)
  let eligible : List Bool := if above.any id then above else w.map fun _ => true
  let mask : List Rat := eligible.map fun b => if b then 1 else 0
  let scores := hotSum k (List.zipWith (· * ·) w mask) votes
  let counts := hotSum k mask votes
  (List.range k).map fun c =>
    let count := counts.getD c 0
    if count = 0 then 0 else scores.getD c 0 / (if count = 0 then 1 else count) * ((count + 1 / 2) / (count + 1))

/-- One iteration, democratic_co_learning.py l.376-419; `classesT` is `classes_t_`, `classesOf` is `classes_`. -/
def demRoundT {M α : Type} (C : Clf M α) (classesT classesOf : M → Option (List Int)) (N : Normal) (S : DemSpec) (X : List α)
    (y : List Int) (pool : List α) (Ls : List (Learner M α)) : Except PyErr (List (Learner M α) × Bool) := do
  let Ls ← Ls.mapM (demRefit C)
  let w ← Ls.mapM fun L => demWeight C N S.confidence X y L.m
  let cs ← resolveClassesT (Ls.map fun L => classesT L.m) (Ls.map fun L => classesOf L.m) y
  let preds ← Ls.mapM fun L => do
    let p ← C.predict L.m pool
    .ok (encodeT cs p)
  checkHot cs.length preds
  let maj := fun j => majorityT cs.length w (preds.map fun p => p.getD j 0)
  let lows ← Ls.mapM fun L => do
    let r ← labelInterval C N S.confidence L.m L.X L.y
    .ok r.1
  let avg := min (max (lows.sum / (lows.length : Rat)) 0) 1
  let r := Ls.mapIdx fun i L =>
    demUpdate pool (fun j => cs.getD (maj j).1 0) avg
      ((List.range pool.length).filter fun j =>
        (maj j).2 && decide ((preds.getD i []).getD j 0 ≠ (maj j).1) && decide (j ∉ L.added)) L
  .ok (r.map (·.1), r.any (·.2))

/-- The loop, democratic_co_learning.py l.375-424. -/
def demLoopT {M α : Type} (C : Clf M α) (classesT classesOf : M → Option (List Int)) (N : Normal) (S : DemSpec) (X : List α)
    (y : List Int) (pool : List α) : Nat → List (Learner M α) → Except PyErr (List (Learner M α))
  | 0, Ls => .ok Ls
  | fuel + 1, Ls => do
    let r ← demRoundT C classesT classesOf N S X y pool Ls
    if r.2 then demLoopT C classesT classesOf N S X y pool fuel r.1 else .ok r.1

/-- `_finalize_torch`, democratic_co_learning.py l.462-468. -/
def demFinalizeT {M α : Type} (C : Clf M α) (classesT classesOf : M → Option (List Int)) (N : Normal) (S : DemSpec) (X : List α)
    (y : List Int) (ms : List M) : Except PyErr (DemFitted M) := do
  let w ← ms.mapM (demWeight C N S.confidence X y)
  let cs ← resolveClassesT (ms.map classesT) (ms.map classesOf) y
  .ok ⟨ms, w, cs⟩

/-- `DemocraticCoLearningMethod.fit` with torch data, democratic_co_learning.py l.349-431. -/
def demFitT {M α : Type} (C : Clf M α) (classesT classesOf : M → Option (List Int)) (N : Normal) (S : DemSpec) (ms : List M)
    (X : List α) (y : List Int) (Xu : Option (List α)) : Except PyErr (DemFitted M) := do
  if ms.length < 3 then .error .validation
  else do
    checkLabeled X y
    let start := ms.map fun m => (⟨m, X, y, 0, []⟩ : Learner M α)
    let Ls ← if (Xu.getD []).length = 0 then .ok start
      else demLoopT C classesT classesOf N S X y (Xu.getD []) S.maxIter.toNat start
    let Ls ← Ls.mapM (demRefit C)
    demFinalizeT C classesT classesOf N S X y (Ls.map (·.m))

/-- `predict_proba` with torch data, democratic_co_learning.py l.498-511. -/
def demProbaT {M α : Type} (C : Clf M α) (S : DemSpec) (F : DemFitted M) (X : List α) : Except PyErr (List (List Rat)) := do
  let preds ← F.clfs.mapM fun m => do
    let p ← C.predict m X
    .ok (encodeT F.classes p)
  checkHot F.classes.length preds
  .ok ((List.range X.length).map fun j =>
    let s := combineT S.minConfidence F.classes.length F.weights (preds.map fun p => p.getD j 0)
    s.map fun v => v / (if s.sum = 0 then 1 else s.sum))

/-- `predict` with torch data, democratic_co_learning.py l.521-524. -/
def demPredictT {M α : Type} (C : Clf M α) (S : DemSpec) (F : DemFitted M) (X : List α) : Except PyErr (List Int) := do
  let p ← demProbaT C S F X
  .ok (p.map fun row => F.classes.getD (Evaluation.argmax row) 0)

end ModSSC.Inductive
