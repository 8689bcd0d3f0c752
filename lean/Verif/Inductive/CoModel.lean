import Verif.Inductive.LoopModel
import Verif.Assoc

/-!
# Model of `inductive/methods/co_training.py`
-/

namespace ModSSC.Inductive
open ModSSC DataLoader

/-- The loop variables `X1_l, y1_l, X2_l, y2_l, X1_u, X2_u` (co_training.py:321-327). -/
structure CoState (α : Type) where
  X1 : List α
  y1 : List Int
  X2 : List α
  y2 : List Int
  u1 : List α
  u2 : List α

/-- What co-training leaves behind: both classifiers, the last loop variables, the completed rounds. -/
structure CoResult (M α : Type) where
  m1 : M
  m2 : M
  last : CoState α
  rounds : Nat

/-- `CoTrainingSpec` (co_training.py:34-38). -/
structure CoParams where
  maxIter : Int
  k : Int
  threshold : Option Rat

/-- One classifier labels its picks and hands them over in the other view (co_training.py:369-376,
386-393): `u` is the pool in the classifier's view, `u'` in the other one, `X'`, `y'` the other training
set. -/
def handOver {M α : Type} (C : Clf M α) (m : M) (u : List α) (idx : List Nat) (u' X' : List α) (y' : List Int) :
    Except PyErr (List α × List Int) :=
  if idx = [] then .ok (X', y')
  else do
    let mine ← takeIdx u idx
    let labels ← C.predict m mine
    let other ← takeIdx u' idx
    .ok (X' ++ other, y' ++ labels)

/-- The loop of `CoTrainingMethod.fit` (co_training.py:329-414).  The torch branch runs the same steps. -/
def coLoop {M α : Type} (C : Clf M α) (top : Top) (P : CoParams) :
    Nat → M → M → CoState α → Nat → Except PyErr (CoResult M α)
  | 0, m1, m2, s, t => .ok ⟨m1, m2, s, t⟩
  | fuel + 1, m1, m2, s, t => do
    let m1 ← C.fit m1 s.X1 s.y1
    let m2 ← C.fit m2 s.X2 s.y2
    if s.u1 = [] then .ok ⟨m1, m2, s, t⟩
    else do
      let sc1 ← C.scores m1 s.u1
      let sc2 ← C.scores m2 s.u2
      let idx1 ← selectTopPerClass top sc1 P.k P.threshold
      let idx2 ← selectTopPerClass top sc2 P.k P.threshold
      if idx1 = [] ∧ idx2 = [] then .ok ⟨m1, m2, s, t⟩
      else do
        let two ← handOver C m1 s.u1 idx1 s.u2 s.X2 s.y2
        let one ← handOver C m2 s.u2 idx2 s.u1 s.X1 s.y1
        let u1 ← boolIndex s.u1 (keepMask s.u1.length (idx1 ++ idx2))
        let u2 ← boolIndex s.u2 (keepMask s.u1.length (idx1 ++ idx2))
        coLoop C top P fuel m1 m2 ⟨one.1, one.2, two.1, two.2, u1, u2⟩ (t + 1)

/-- The two view names: as given, or the first two in sorted order (co_training.py:267-271). -/
def viewKeys {β : Type} (keys : Option (List String)) (views : List (String × β)) : List String :=
  keys.getD (((views.map (·.1)).insertionSort fun a b => decide (a ≤ b)).take 2)

/-- `CoTrainingMethod.fit` (co_training.py:232-423).  Simplification: a view is given as its labeled and
unlabeled samples, the payload shape checks are in `ViewModel.lean`; the given `view_keys` may name any views. -/
def coFit {M α : Type} (C : Clf M α) (top : Top) (P : CoParams) (m : M) (keys : Option (List String))
    (views : Option (List (String × (List α × List α)))) (y : List Int) : Except PyErr (CoResult M α) := do
  match views with
  | none => .error .validation
  | some vs =>
    if y = [] then .error .validation
    else
      match viewKeys keys vs with
      | [k1, k2] =>
        match vs.lookup k1, vs.lookup k2 with
        | some v1, some v2 =>
          if v1.1.length ≠ y.length ∨ v2.1.length ≠ y.length then .error .validation
          else if v1.2.length ≠ v2.2.length then .error .validation
          else do
            let r ← coLoop C top P P.maxIter.toNat m m ⟨v1.1, y, v2.1, y, v1.2, v2.2⟩ 0
            let m1 ← C.fit r.m1 r.last.X1 r.last.y1
            let m2 ← C.fit r.m2 r.last.X2 r.last.y2
            .ok ⟨m1, m2, r.last, r.rounds⟩
        | _, _ => .error .keyError
      | _ => .error .validation

end ModSSC.Inductive
