import Verif.Base

/-!
# Model of `graph/masks.py`

Index arrays are lists of integers (one-dimensional `int64` arrays); a boolean array is a `List Bool`.
Not modelled: arrays with another number of dimensions (the code raises `GraphValidationError`).
-/

namespace ModSSC.Graph
open ModSSC

/-- `Masks` (masks.py:11-25). -/
structure Masks where
  train : List Bool
  val : List Bool
  test : List Bool
  unlabeled : List Bool
deriving DecidableEq, Repr

/-- The range check on one index array (masks.py:42-46, 62-63):
`idx.size and (idx.min() < 0 or idx.max() >= n)`. -/
def outside (n : Int) (idx : List Int) : Bool := idx.any (fun i => decide (i < 0) || decide (n ≤ i))

/-- `m = np.zeros(n, dtype=bool); m[idx] = True` (masks.py:48-54, 64-65); the indices have been
checked to be in range. -/
def maskAt (n : Int) (idx : List Int) : List Bool :=
  idx.foldl (fun m i => m.set i.toNat true) (List.replicate n.toNat false)

/-- `masks_from_indices` (masks.py:27-69). -/
def masksFromIndices (n : Int) (train val test : List Int) (labeled : Option (List Int)) :
    Except PyErr Masks :=
  if n ≤ 0 then .error .validation
  else if outside n train then .error .validation
  else if outside n val then .error .validation
  else if outside n test then .error .validation
  else match labeled with
    | none => .ok ⟨maskAt n train, maskAt n val, maskAt n test, (maskAt n train).map (!·)⟩
    | some l =>
      if outside n l then .error .validation
      else .ok ⟨maskAt n train, maskAt n val, maskAt n test,
        List.zipWith (fun t b => t && !b) (maskAt n train) (maskAt n l)⟩

end ModSSC.Graph
