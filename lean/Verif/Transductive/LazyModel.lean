import Verif.Transductive.LaplaceModel

/-!
# Model of lazy random walks

`methods/classic/lazy_random_walk.py` and `build_affinity_matrix` (`methods/classic/common.py:12-21`).  The torch
computation (lazy_random_walk.py:107-168) is the same in exact arithmetic.
-/

namespace ModSSC.Transductive
open ModSSC

variable {K : Type} [Field K] [LinearOrder K]

/-- `build_affinity_matrix` (common.py:12-21): `W = 0.5 * (W + W.T)`, diagonal zero. -/
def symAffinity (es : List (WEdge K)) (i j : Nat) : K :=
  if i = j then 0 else (affinity es i j + affinity es j i) / 2

/-- `W.sum(axis=1)` (lazy_random_walk.py:86; dynamic_label_propagation.py:86). -/
def symDegree (n : Nat) (es : List (WEdge K)) (i : Nat) : K := ((List.range n).map (symAffinity es i)).sum

/-- Exactly two classes, or `ValueError` (lazy_random_walk.py:45-48). -/
def pairOf : List Int → Except PyErr (Int × Int)
  | [a, b] => .ok (a, b)
  | _ => .error .valueError

/-- The two classes, smaller first (`_encode_binary`, lazy_random_walk.py:33-48). -/
def binaryClasses (y : List Int) (mask : List Bool) : Except PyErr (Int × Int) :=
  let labeled := npUnique (labeledClasses y mask)
  pairOf (if labeled.length ≠ 2 then npUnique (y.filter fun c => decide (0 ≤ c)) else labeled)

/-- `y_vec` (lazy_random_walk.py:49-51, 81-83): -1 and 1 at the labeled nodes, 0 elsewhere. -/
def signedLabels (y : List Int) (mask : List Bool) (cls : Int × Int) (i : Nat) : K :=
  if mask.getD i false then
    if y.getD i (-1) = cls.2 then 1 else if y.getD i (-1) = cls.1 then -1 else 0
  else 0

/-- `A = I - alpha * S` with `S = D^-1/2 W D^-1/2` (lazy_random_walk.py:90-92, 153-155). -/
def walkMatrix (sqrt : K → K) (alpha : K) (n : Nat) (es : List (WEdge K)) : Mat K :=
  tab n n fun i j => (if i = j then 1 else 0) -
    alpha * ((1 / sqrt (symDegree n es i)) * symAffinity es i j * (1 / sqrt (symDegree n es j)))

/-- lazy_random_walk.py:85-104. -/
def lazySolve (sqrt : K → K) (solve : LinSolve K) (alpha : K) (n : Nat) (es : List (WEdge K)) (yv : Nat → K) :
    Except PyErr (Diffusion K) :=
  if (List.range n).any (fun i => decide (symDegree n es i ≤ 0)) then .error .valueError
  else match solve (walkMatrix sqrt alpha n es) (tab n 1 fun i _ => yv i) with
    | none => .error .valueError
    | some f => .ok ⟨tab n 2 fun i c => if c = (if 0 ≤ f.get i 0 then 1 else 0) then 1 else 0, 1, some 0⟩

/-- `lazy_random_walk_numpy` (lazy_random_walk.py:56-104). -/
def lazyRandomWalk (sqrt : K → K) (solve : LinSolve K) (alpha : K) (n : Int) (ei : List (Int × Int))
    (ew : Option (List K)) (y : List Int) (mask : List Bool) : Except PyErr (Diffusion K) :=
  if ¬ (0 < alpha ∧ alpha < 1) then .error .valueError
  else do
    let es ← validateGraph n ei ew
    if (y.length : Int) ≠ n then .error .valueError
    else if (mask.length : Int) ≠ n then .error .valueError
    else if mask.any id = false then .error .valueError
    else do
      let cls ← binaryClasses y mask
      lazySolve sqrt solve alpha y.length es (signedLabels y mask cls)

/-- `LazyRandomWalkMethod.fit` (lazy_random_walk.py:239-272). -/
def fitLazy (sqrt : K → K) (solve : LinSolve K) (alpha : K) (d : NodeData K) : Except PyErr (Diffusion K) :=
  fitWith (fun n ei ew y mask => lazyRandomWalk sqrt solve alpha n ei ew y mask) d

end ModSSC.Transductive
