import Mathlib.Data.Rat.Defs
import Mathlib.Order.Defs.LinearOrder

/-!
# What encoding labels means (C36, C38, C72)
-/

namespace ModSSC.Labels.Spec

/-- `enc` numbers the labels `y` by their rank among the values that occur: `classes` lists those
values in increasing order, and entry `i` of `enc` is the position of `y i` in it. -/
structure IsEncoding {α : Type} [LinearOrder α] (y : List α) (enc : List Nat) (classes : List α) :
    Prop where
  increasing : classes.Pairwise (· < ·)
  occurs : ∀ a, a ∈ classes ↔ a ∈ y
  length : enc.length = y.length
  decode : ∀ i (h : i < enc.length), classes[enc[i]]? = y[i]?

/-- `M` is the one-hot matrix of `y` with `n` columns: one row per label, a one in column `c` exactly
if the label is `c`. -/
structure IsOneHot (n : Nat) (y : List Int) (M : List (List Rat)) : Prop where
  rows : M.length = y.length
  cols : ∀ r ∈ M, r.length = n
  entry : ∀ i c, (hi : i < M.length) → (hy : i < y.length) → (hc : c < M[i].length) →
    M[i][c] = if y[i] = (c : Int) then 1 else 0

end ModSSC.Labels.Spec
