import Verif.Base

/-!
# Specification of feature views
-/

namespace ModSSC.Views.Spec

/-- A selection of columns of an `n`-column matrix: at least one, in increasing order. -/
def ColumnSet (n : Nat) (cols : List Nat) : Prop :=
  cols ≠ [] ∧ cols.Pairwise (· < ·) ∧ ∀ j ∈ cols, j < n

/-- The two selections split the columns. -/
def Partition (n : Nat) (a b : List Nat) : Prop :=
  ColumnSet n a ∧ ColumnSet n b ∧ (∀ j, j ∈ a → j ∉ b) ∧ ∀ j, j < n → j ∈ a ∨ j ∈ b

/-- `rows'` has the same rows in the same order, each restricted to `cols` in order. -/
def Restricts {V : Type} (rows rows' : List (List V)) (cols : List Nat) : Prop :=
  rows'.length = rows.length ∧ ∀ (i : Nat) r r', rows[i]? = some r → rows'[i]? = some r' →
    r'.length = cols.length ∧ ∀ (k c : Nat), cols[k]? = some c → r'[k]? = r[c]?

end ModSSC.Views.Spec
