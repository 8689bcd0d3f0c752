import Verif.Inductive.LoopModel

/-!
# Model of `inductive/methods/s4vm.py`

The numpy branch (l.63-128) and the torch branch (l.130-191) run the same steps.  A classifier is the external object
of `Types.lean`; `build s` is `build_classifier(spec, seed=s)`.  Scores and rates are exact rationals.
-/

namespace ModSSC.Inductive
open ModSSC

/-- `y_u = pred.copy(); y_u[order] = np.where(y_u[order] == a, b, a)`, s4vm.py l.108-110 and l.164-166, for different
positions `order`. -/
def flipAt (a b : Int) (pred : List Int) (order : List Nat) : List Int :=
  (List.range pred.length).map fun i =>
    if i ∈ order then (if pred.getD i 0 = a then b else a) else pred.getD i 0

/-- `int(round(min(flip_rate * (i + 1), 0.5) * n))`, s4vm.py l.102-103 and l.158-159. -/
def flipCount (rate : Rat) (i n : Nat) : Int := pyRound (min (rate * ((i : Rat) + 1)) (1 / 2) * (n : Rat))

/-- The labels of the pool for the `i`-th candidate, s4vm.py l.102-110 and l.158-166. -/
def candidateLabels (argsort : List Rat → List Nat) (rate : Rat) (i : Nat) (a b : Int) (pred : List Int)
    (conf : List Rat) : List Int :=
  if flipCount rate i pred.length ≤ 0 then pred
  else flipAt a b pred ((argsort conf).take (flipCount rate i pred.length).toNat)

/-- `accuracy_score(y_l, pred)`, s4vm.py l.92 and l.117 (l.148 and l.175); the labels are never empty there. -/
def labelScore (y pred : List Int) : Rat := (Evaluation.accuracy y pred).getD 0

/-- One candidate: trained on all samples, then scored on the labeled ones, s4vm.py l.112-117 and l.168-175. -/
def s4Candidate {M α : Type} (C : Clf M α) (build : Int → M) (argsort : List Rat → List Nat) (rate : Rat) (seed : Int)
    (X : List α) (y : List Int) (pool : List α) (a b : Int) (pred : List Int) (conf : List Rat) (i : Nat) :
    Except PyErr (M × List Int) := do
  let m ← C.fit (build (seed + i + 1)) (X ++ pool) (y ++ candidateLabels argsort rate i a b pred conf)
  let p ← C.predict m X
  .ok (m, p)

/-- The loop over the candidates, s4vm.py l.101-120 and l.157-178; `is` are the remaining values of `i`. -/
def s4Loop {M α : Type} (C : Clf M α) (build : Int → M) (argsort : List Rat → List Nat) (rate : Rat) (seed : Int)
    (X : List α) (y : List Int) (pool : List α) (a b : Int) (pred : List Int) (conf : List Rat) (base : Rat) :
    List Nat → M → Rat → Except PyErr M
  | [], best, _ => .ok best
  | i :: is, best, improve => do
    let c ← s4Candidate C build argsort rate seed X y pool a b pred conf i
    if labelScore y c.2 - base > improve then
      s4Loop C build argsort rate seed X y pool a b pred conf base is c.1 (labelScore y c.2 - base)
    else s4Loop C build argsort rate seed X y pool a b pred conf base is best improve

/-- `S4VMMethod.fit`, s4vm.py l.58-183: the classifier that `predict` uses afterwards. -/
def s4vmFit {M α : Type} (C : Clf M α) (build : Int → M) (argsort : List Rat → List Nat) (k : Int) (rate : Rat)
    (seed : Int) (X : List α) (y : List Int) (Xu : Option (List α)) : Except PyErr M := do
  checkLabeled X y
  match Xu with
  | none => .error .validation
  | some pool =>
    match npUnique y with
    | [a, b] => do
      let m ← C.fit (build seed) X y
      let bp ← C.predict m X
      let s ← C.scores m pool
      let pred ← C.predict m pool
      let conf ← confidences s
      s4Loop C build argsort rate seed X y pool a b pred conf (labelScore y bp) (List.range k.toNat) m 0
    | _ => .error .validation

end ModSSC.Inductive
