import Verif.Evaluation.Model
import Verif.Inductive.Types

/-!
# Model of `src/modssc/inductive/methods/helpers/classifier_bridge.py`, selection helpers

Scores are exact rationals without NaN.  `np.argsort` and `torch.topk` are parameters with the
contracts `IsArgsortQ` and `IsTopk`.
-/

namespace ModSSC.Inductive
open ModSSC

/-- Python slicing `l[:k]`. -/
def pyTake {α : Type} (k : Int) (l : List α) : List α :=
  if 0 ≤ k then l.take k.toNat else l.take (l.length - (-k).toNat)

/-- Maximum of one row (external: `np.max`). -/
def rowMax : List Rat → Rat
  | [] => 0
  | [a] => a
  | a :: b :: rest => max a (rowMax (b :: rest))

/-- `scores.max(axis=1)`: numpy and torch refuse to reduce an axis of length 0. -/
def confidences (s : Scores) : Except PyErr (List Rat) :=
  if s.cols = 0 then .error .valueError else .ok (s.rows.map rowMax)

/-- Contract of `np.argsort` on float keys: any permutation of the positions sorted by key. -/
def IsArgsortQ (f : List Rat → List Nat) : Prop :=
  ∀ ks : List Rat, (f ks).Perm (List.range ks.length) ∧
    (f ks).Pairwise (fun i j => ks.getD i 0 ≤ ks.getD j 0)

/-- Contract of `torch.topk(ks, k).indices` for `k ≤ len(ks)`: `k` different positions, none of them
with a smaller key than a position left out. -/
def IsTopk (f : Nat → List Rat → List Nat) : Prop :=
  ∀ (k : Nat) (ks : List Rat), k ≤ ks.length →
    (f k ks).Nodup ∧ (f k ks).length = k ∧ (∀ i ∈ f k ks, i < ks.length) ∧
    ∀ j, j < ks.length → j ∉ f k ks → ∀ i ∈ f k ks, ks.getD j 0 ≤ ks.getD i 0

/-- The positions of the `k` largest keys: how the two backends compute them. -/
abbrev Top := Int → List Rat → Except PyErr (List Nat)

/-- numpy: `np.argsort(ks)[::-1][:k]` (classifier_bridge.py:204, 227-228). -/
def npTop (argsort : List Rat → List Nat) : Top := fun k ks => .ok (pyTake k (argsort ks).reverse)

/-- torch: `torch.topk(ks, k=min(k, n)).indices` (classifier_bridge.py:247, 271-272); a negative `k` is
refused by torch.  Line 247 passes `k` itself, which is below `n` there. -/
def torchTop (topk : Nat → List Rat → List Nat) : Top := fun k ks =>
  if k < 0 then .error .runtimeError else .ok (topk (min k.toNat ks.length) ks)

/-- `conf >= threshold`; no condition without a threshold (classifier_bridge.py:200-202). -/
def meets (threshold : Option Rat) (c : Rat) : Bool :=
  match threshold with
  | none => true
  | some t => decide (t ≤ c)

/-- `select_confident` (classifier_bridge.py:192-206) and `select_confident_torch` (:234-249). -/
def selectConfident (top : Top) (s : Scores) (threshold : Option Rat) (maxNew : Option Int) :
    Except PyErr (List Nat) := do
  let conf ← confidences s
  let idx := (List.range conf.length).filter fun i => meets threshold (conf.getD i 0)
  let kept := conf.filter (meets threshold)
  match maxNew with
  | none => .ok idx
  | some m =>
    if m < idx.length then do
      let order ← top m kept
      .ok (order.map fun p => idx.getD p 0)
    else .ok idx

/-- `scores[cls_idx, cls]`. -/
def scoreAt (s : Scores) (i c : Nat) : Rat := (s.rows.getD i []).getD c 0

/-- The picks of one class (classifier_bridge.py:217-229, 262-273). -/
def topOfClass (top : Top) (s : Scores) (pred : List Nat) (k : Int) (threshold : Option Rat) (c : Nat) :
    Except PyErr (List Nat) := do
  let clsIdx := (List.range pred.length).filter fun i => decide (pred.getD i 0 = c)
  let kept := clsIdx.filter fun i => meets threshold (scoreAt s i c)
  if kept = [] then .ok []
  else do
    let order ← top k (kept.map fun i => scoreAt s i c)
    .ok (order.map fun p => kept.getD p 0)

/-- `select_top_per_class` (classifier_bridge.py:209-231) and `select_top_per_class_torch` (:252-278):
`scores.argmax(axis=1)` refuses zero columns; the union is sorted without repetitions. -/
def selectTopPerClass (top : Top) (s : Scores) (k : Int) (threshold : Option Rat) :
    Except PyErr (List Nat) := do
  if s.cols = 0 then .error .valueError
  else do
    let pred := s.rows.map Evaluation.argmax
    let picks ← (List.range s.cols).mapM (topOfClass top s pred k threshold)
    .ok (npSort picks.flatten.dedup)

end ModSSC.Inductive
