import Verif.Inductive.SelectModel
import Verif.DataLoader.UriModel

/-!
# Model of `predict_proba` and `predict` of the self-labelling methods

The input is what the fitted classifiers return for the samples: their scores and their `classes_`.
The numpy and torch branches compute the same; the torch branch maps columns with `classes_t_`, taken to
be the same list.  Numbers are exact.
-/

namespace ModSSC.Inductive
open ModSSC DataLoader

/-- What a fitted classifier returns for the samples to predict. -/
structure Out where
  classes : Option (List Int)
  scores : Scores

/-- `row_sum[row_sum == 0.0] = 1.0; scores / row_sum`, one row (co_training.py:463-469,
tri_training.py:371-389, self_training.py:476-483, pseudo_label.py:213-220, setred.py:508-515). -/
def normRow (r : List Rat) : List Rat := r.map fun v => v / (if r.sum = 0 then 1 else r.sum)

/-- `PseudoLabelMethod.predict_proba`, `SelfTrainingMethod.predict_proba`, `SetredMethod.predict_proba`. -/
def singleProba (o : Out) : Scores := ⟨o.scores.cols, o.scores.rows.map normRow⟩

/-- `s1 + s2` for two arrays with as many columns: numpy repeats a single row. -/
def addRows (a b : List (List Rat)) : Except PyErr (List (List Rat)) :=
  if a.length = b.length then .ok (List.zipWith (List.zipWith (· + ·)) a b)
  else if a.length = 1 then .ok (b.map (List.zipWith (· + ·) (a.getD 0 [])))
  else if b.length = 1 then .ok (a.map fun r => List.zipWith (· + ·) r (b.getD 0 []))
  else .error .valueError

/-- `c1 is not None and c2 is not None and not np.array_equal(c1, c2)` (co_training.py:436-438). -/
def disagree (a b : Option (List Int)) : Bool :=
  match a, b with
  | some c1, some c2 => decide (c1 ≠ c2)
  | _, _ => false

/-- `CoTrainingMethod.predict_proba` from the two classifiers' outputs (co_training.py:441-469). -/
def coProba (o1 o2 : Out) : Except PyErr Scores :=
  if o1.scores.cols ≠ o2.scores.cols then .error .validation
  else if disagree o1.classes o2.classes then .error .validation
  else do
    let s ← addRows o1.scores.rows o2.scores.rows
    .ok ⟨o1.scores.cols, (s.map fun r => r.map fun v => v / 2).map normRow⟩

/-- `scores.argmax(axis=1)` and the mapping to class labels (co_training.py:474-486,
tri_training.py:391-404). -/
def decodeBest (classes : Option (List Int)) (p : Scores) : Except PyErr (List Int) :=
  if p.cols = 0 then .error .valueError
  else
    let idx := p.rows.map Evaluation.argmax
    match classes with
    | none => .ok (idx.map fun (i : Nat) => (i : Int))
    | some cs => takeIdx cs idx

/-- `CoTrainingMethod.predict` (co_training.py:471-486). -/
def coPredict (o1 o2 : Out) : Except PyErr (List Int) := do
  let p ← coProba o1 o2
  decodeBest o1.classes p

/-- `_resolve_score_classes` raises (tri_training.py:297-312). -/
def badClasses (o : Out) : Bool :=
  match o.classes with
  | none => false
  | some cs => decide (cs.length ≠ o.scores.cols)

/-- One row of `target` (tri_training.py:342-347): `target[:, global_map[label]] = s[:, local]` in turn. -/
def alignRow (g : List Int) (classes : List Int) (r : List Rat) : List Rat :=
  (classes.zip r).foldl (fun t p => t.set (g.idxOf p.1) p.2) (List.replicate g.length 0)

/-- `np.mean(np.stack(list, axis=0), axis=0)` of arrays with as many columns (tri_training.py:350, 380). -/
def meanStack (cols : Nat) (l : List (List (List Rat))) : Except PyErr (List (List Rat)) :=
  let n := (l.headD []).length
  if l.any fun s => decide (s.length ≠ n) then .error .valueError
  else .ok ((List.range n).map fun i => (List.range cols).map fun j =>
    (l.map fun s => (s.getD i []).getD j 0).sum / (l.length : Rat))

/-- `TriTrainingMethod.predict_proba` from the classifiers' outputs (tri_training.py:279-389). -/
def triProba (outs : List Out) : Except PyErr Scores :=
  match outs with
  | [] => .error .runtimeError
  | o0 :: _ =>
    if outs.any badClasses then .error .validation
    else
      let allKnown := outs.all fun o => o.classes.isSome
      let align := (outs.any fun o => decide (o.scores.cols ≠ o0.scores.cols)) ||
        (allKnown && outs.any fun o => decide (o.classes ≠ o0.classes))
      if align then
        if allKnown then do
          let g := npUnique (outs.flatMap fun o => o.classes.getD [])
          let avg ← meanStack g.length (outs.map fun o => o.scores.rows.map (alignRow g (o.classes.getD [])))
          .ok ⟨g.length, avg.map normRow⟩
        else .error .validation
      else do
        let avg ← meanStack o0.scores.cols (outs.map fun o => o.scores.rows)
        .ok ⟨o0.scores.cols, avg.map normRow⟩

/-- `TriTrainingMethod.predict` (tri_training.py:391-404). -/
def triPredict (outs : List Out) : Except PyErr (List Int) := do
  let p ← triProba outs
  decodeBest ((outs.head?).bind fun o => o.classes) p

end ModSSC.Inductive
