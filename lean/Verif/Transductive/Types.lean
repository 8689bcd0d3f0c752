import Verif.Base
import Mathlib.Algebra.Order.Field.Rat
import Mathlib.Algebra.Order.Field.Basic
import Mathlib.Algebra.Order.BigOperators.Group.List

/-!
# Shared vocabulary of the transductive area

Floats are exact numbers of an ordered field `K`; a two-dimensional array is a list of rows.
-/

namespace ModSSC.Transductive
open ModSSC

/-- A two-dimensional array. -/
abbrev Mat (K : Type) := List (List K)

/-- A weighted edge: source, target, weight (`edge_index[0, e]`, `edge_index[1, e]`, `edge_weight[e]`). -/
structure WEdge (K : Type) where
  src : Nat
  dst : Nat
  w : K
deriving DecidableEq, Repr

/-- `F[i, c]`; zero outside the array. -/
def Mat.get {K : Type} [Zero K] (F : Mat K) (i c : Nat) : K := (F.getD i []).getD c 0

/-- `DiffusionResult` (methods/utils.py:19-36); `none` is an infinite residual. -/
structure Diffusion (K : Type) where
  F : Mat K
  nIter : Int
  residual : Option K
deriving DecidableEq

end ModSSC.Transductive
