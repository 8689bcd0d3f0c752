import Verif.Inductive.LoopModel
import Verif.Assoc

/-!
# Model of `TriTrainingMethod.fit` (inductive/methods/tri_training.py:64-277)

The numpy and torch branches run the same steps; they differ in `top`.
-/

namespace ModSSC.Inductive
open ModSSC DataLoader

/-- Three values, one per classifier. -/
def three {β : Type} (a b c : β) (i : Fin 3) : β :=
  match i with
  | 0 => a
  | 1 => b
  | 2 => c

/-- `j, k = [x for x in range(3) if x != i]` (tri_training.py:122). -/
def others (i : Fin 3) : Fin 3 × Fin 3 :=
  match [(0 : Fin 3), 1, 2].filter (fun x => x ≠ i) with
  | [j, k] => (j, k)
  | _ => (i, i)

/-- `TriTrainingSpec` without the bootstrap ratio (tri_training.py:38-42). -/
structure TriParams where
  maxIter : Int
  threshold : Option Rat
  maxNew : Option Int

/-- `_train(i)` (tri_training.py:104-112, 198-212): bootstrap sample and pseudo-labeled samples in
increasing order.  `added` is `added_labels[i]` as an association list. -/
def triTrain {M α : Type} (C : Clf M α) (X : List α) (y : List Int) (Xu : List α) (boot : List Nat)
    (added : List (Nat × Int)) (m : M) : Except PyErr M := do
  let Xb ← takeIdx X boot
  let yb ← takeIdx y boot
  let idx := npSort (added.map (·.1))
  let Xa ← takeIdx Xu idx
  let ya := idx.map fun p => (Assoc.get added p).getD 0
  C.fit m (Xb ++ Xa) (yb ++ ya)

/-- `for i in range(3): _train(i)`. -/
def triTrainAll {M α : Type} (C : Clf M α) (X : List α) (y : List Int) (Xu : List α) (boot : Fin 3 → List Nat)
    (added : Fin 3 → List (Nat × Int)) (models : Fin 3 → M) : Except PyErr (Fin 3 → M) := do
  let m0 ← triTrain C X y Xu (boot 0) (added 0) (models 0)
  let m1 ← triTrain C X y Xu (boot 1) (added 1) (models 1)
  let m2 ← triTrain C X y Xu (boot 2) (added 2) (models 2)
  .ok (three m0 m1 m2)

/-- What classifier `i` receives from its peers in a round (tri_training.py:121-156): positions with
`pred_j`, which is a column number. -/
def triPick {M α : Type} (C : Clf M α) (top : Top) (P : TriParams) (Xu : List α) (added : List (Nat × Int))
    (mj mk : M) : Except PyErr (List (Nat × Int)) := do
  let sj ← C.scores mj Xu
  let sk ← C.scores mk Xu
  if sj.cols = 0 ∨ sk.cols = 0 then .error .valueError
  else do
    let predJ := sj.rows.map Evaluation.argmax
    let predK := sk.rows.map Evaluation.argmax
    let confJ := sj.rows.map rowMax
    let confK := sk.rows.map rowMax
    let agree := (List.range predJ.length).filter fun i => decide (predJ.getD i 0 = predK.getD i 0) &&
      (meets P.threshold (confJ.getD i 0) && meets P.threshold (confK.getD i 0))
    let fresh := agree.filter fun i => decide (i ∉ added.map (·.1))
    if fresh = [] then .ok []
    else
      match P.maxNew with
      | none => .ok (fresh.map fun i => (i, ((predJ.getD i 0 : Nat) : Int)))
      | some k => do
        let order ← top k (fresh.map fun i => (confJ.getD i 0 + confK.getD i 0) / 2)
        .ok ((order.map fun p => fresh.getD p 0).map fun i => (i, ((predJ.getD i 0 : Nat) : Int)))

/-- What tri-training leaves behind: the classifiers, the pseudo-labels of each, the completed rounds. -/
structure TriResult (M : Type) where
  models : Fin 3 → M
  added : Fin 3 → List (Nat × Int)
  rounds : Nat

/-- The loop (tri_training.py:114-160). -/
def triLoop {M α : Type} (C : Clf M α) (top : Top) (P : TriParams) (X : List α) (y : List Int) (Xu : List α)
    (boot : Fin 3 → List Nat) :
    Nat → (Fin 3 → M) → (Fin 3 → List (Nat × Int)) → Nat → Except PyErr (TriResult M)
  | 0, models, added, t => .ok ⟨models, added, t⟩
  | fuel + 1, models, added, t => do
    let models ← triTrainAll C X y Xu boot added models
    let p0 ← triPick C top P Xu (added 0) (models (others 0).1) (models (others 0).2)
    let p1 ← triPick C top P Xu (added 1) (models (others 1).1) (models (others 1).2)
    let p2 ← triPick C top P Xu (added 2) (models (others 2).1) (models (others 2).2)
    if p0.length + p1.length + p2.length = 0 then .ok ⟨models, added, t⟩
    else triLoop C top P X y Xu boot fuel models (three (added 0 ++ p0) (added 1 ++ p1) (added 2 ++ p2)) (t + 1)

/-- `TriTrainingMethod.fit` (tri_training.py:64-277) with the drawn bootstrap samples `boot`
(tri_training.py:94-99; each is a list of `max(1, round(ratio * n))` positions below `n`). -/
def triFit {M α : Type} (C : Clf M α) (top : Top) (P : TriParams) (m : Fin 3 → M) (X : List α) (y : List Int)
    (Xu : Option (List α)) (boot : Fin 3 → List Nat) : Except PyErr (TriResult M) := do
  checkLabeled X y
  match Xu with
  | none => .error .validation
  | some Xu => do
    let r ← triLoop C top P X y Xu boot P.maxIter.toNat m (fun _ => []) 0
    let models ← triTrainAll C X y Xu boot r.added r.models
    .ok ⟨models, r.added, r.rounds⟩

end ModSSC.Inductive
