import Verif.Transductive.LazyModel

/-!
# Model of dynamic label propagation

`methods/classic/dynamic_label_propagation.py`.  The torch computation (dynamic_label_propagation.py:113-201) is the
same in exact arithmetic; it does not check that the edges are in range, which the fit method has done before
(validation.py:55-70).
-/

namespace ModSSC.Transductive
open ModSSC

variable {K : Type} [Field K] [LinearOrder K]

/-- `np.argpartition(row, -k)[-k:]` (dynamic_label_propagation.py:46) and the positions of `torch.topk`
(dynamic_label_propagation.py:121): positions of `k` largest entries; `none` is the entry minus infinity. -/
abbrev TopK (K : Type) := Nat → List (Option K) → List Nat

/-- `A @ B` for an `n` by `m` and an `m` by `d` array (dynamic_label_propagation.py:101, 104). -/
def mmul (n m d : Nat) (A B : Mat K) : Mat K :=
  tab n d fun i c => ((List.range m).map fun j => A.get i j * B.get j c).sum

/-- `A.T` of an `n` by `m` array. -/
def transp (n m : Nat) (A : Mat K) : Mat K := tab m n fun i j => A.get j i

/-- `P0 = W / deg[:, None]` (dynamic_label_propagation.py:90, 178). -/
def stepMatrix (n : Nat) (es : List (WEdge K)) : Mat K := tab n n fun i j => symAffinity es i j / symDegree n es i

/-- One row of `_knn_matrix_numpy` (dynamic_label_propagation.py:43-51). -/
def knnRow (top : TopK K) (n k : Nat) (P0 : Mat K) (i : Nat) : Except PyErr (List K) :=
  let row := (List.range n).map fun j => if j = i then none else some (P0.get i j)
  let idx := top k row
  let s := (idx.map fun j => P0.get i j).sum
  if s ≤ 0 then .error .valueError
  else .ok ((List.range n).map fun j => if j ∈ idx then P0.get i j / s else 0)

/-- `_knn_matrix_numpy` (dynamic_label_propagation.py:36-52) and `_knn_matrix_torch` (115-130). -/
def knnMatrix (top : TopK K) (n : Nat) (P0 : Mat K) (k : Int) : Except PyErr (Mat K) :=
  if k ≤ 0 ∨ (n : Int) ≤ k then .ok P0
  else (List.range n).mapM (knnRow top n k.toNat P0)

/-- `DynamicLabelPropagationSpec` (dynamic_label_propagation.py:28-35). -/
structure DynamicSpec (K : Type) where
  kNeighbors : Int
  alpha : K
  lambda : K
  maxIter : Int

/-- `Y_next` (dynamic_label_propagation.py:101-102). -/
def dynLabels (n d : Nat) (mask : List Bool) (Y0 Pt Yt : Mat K) : Mat K :=
  clampRows n d mask (mmul n n d Pt Yt) Y0

/-- The new `P_t` (dynamic_label_propagation.py:104-106). -/
def dynMatrix (n d : Nat) (P : Mat K) (alpha lambda : K) (Pt Yt : Mat K) : Mat K :=
  let YY := mmul n d n Yt (transp n d Yt)
  let M := tab n n fun i j => Pt.get i j + alpha * YY.get i j
  let Q := mmul n n n (mmul n n n P M) (transp n n P)
  if lambda ≠ 0 then tab n n fun i j => Q.get i j + lambda * (if i = j then 1 else 0) else Q

/-- The loop (dynamic_label_propagation.py:100-109). -/
def dynLoop (n d : Nat) (mask : List Bool) (Y0 P : Mat K) (alpha lambda : K) :
    Nat → Mat K → Mat K → Option K → Mat K × Option K
  | 0, _, Yt, res => (Yt, res)
  | fuel + 1, Pt, Yt, _ =>
    let Y' := dynLabels n d mask Y0 Pt Yt
    dynLoop n d mask Y0 P alpha lambda fuel (dynMatrix n d P alpha lambda Pt Yt) Y' (some (maxDiff n d Y' Yt))

/-- `dynamic_label_propagation_numpy` (dynamic_label_propagation.py:55-111). -/
def dynamicPropagation (top : TopK K) (n : Int) (ei : List (Int × Int)) (ew : Option (List K)) (y : List Int)
    (mask : List Bool) (spec : DynamicSpec K) : Except PyErr (Diffusion K) :=
  if spec.kNeighbors ≤ 0 then .error .valueError
  else if ¬ 0 ≤ spec.alpha then .error .valueError
  else do
    let es ← validateGraph n ei ew
    if (y.length : Int) ≠ n then .error .valueError
    else if (mask.length : Int) ≠ n then .error .valueError
    else if mask.any id = false then .error .valueError
    else do
      let d := inferNumClasses y
      let Y0 ← seedMatrix y mask d
      if (List.range y.length).any (fun i => decide (symDegree y.length es i ≤ 0)) then .error .valueError
      else do
        let P0 := stepMatrix y.length es
        let P ← knnMatrix top y.length P0 spec.kNeighbors
        let r := dynLoop y.length d mask Y0 P spec.alpha spec.lambda spec.maxIter.toNat P0 Y0 none
        .ok ⟨r.1, spec.maxIter, r.2⟩

/-- `DynamicLabelPropagationMethod.fit` (dynamic_label_propagation.py:277-312). -/
def fitDynamic (top : TopK K) (spec : DynamicSpec K) (d : NodeData K) : Except PyErr (Diffusion K) :=
  fitWith (fun n ei ew y mask => dynamicPropagation top n ei ew y mask spec) d

end ModSSC.Transductive
