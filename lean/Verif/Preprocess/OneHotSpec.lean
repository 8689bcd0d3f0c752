import Verif.Preprocess.OneHotModel

/-!
# Specification of one-hot encoding
-/

namespace ModSSC.Preprocess.OneHot.Spec
open ModSSC ModSSC.Preprocess.OneHot

/-- The encoder lists every text of the column once. -/
structure EncoderLaw {F : Type} (E : Ext F) : Prop where
  nodup : ∀ col, (E.categories col).Nodup
  mem : ∀ col t, t ∈ E.categories col ↔ t ∈ col
  differ : E.one ≠ E.zero

/-- A value that is read as a number. -/
def Numeric {F : Type} (E : Ext F) (v : Cell F) : Prop := isMissing E v = true ∨ ∃ x, toFloat E v = some x

/-- The rows of the table that the step was fitted on. -/
def fitRows {F : Type} (table : List (List (Cell F))) (idx : List Nat) : List (List (Cell F)) := idx.filterMap fun i => table[i]?

/-- A column is numeric if all its values in the fit rows are read as numbers. -/
def NumericColumn {F : Type} (E : Ext F) (rows : List (List (Cell F))) (j : Nat) : Prop :=
  ∀ r ∈ rows, Numeric E (r.getD j .none)

/-- `feat` is the number of a value: NaN if missing. -/
def IsNumber {F : Type} (E : Ext F) (v : Cell F) (feat : F) : Prop :=
  (isMissing E v = true ∧ feat = E.nan) ∨ (isMissing E v = false ∧ toFloat E v = some feat)

/-- `block` marks the category `t` in the list of categories: a one there, zeros elsewhere. -/
def Marks {F : Type} (E : Ext F) (cats : List (List Char)) (t : List Char) (block : List F) : Prop :=
  block.length = cats.length ∧ ∀ (k : Nat) (c : List Char), cats[k]? = some c →
    block[k]? = some (if c = t then E.one else E.zero)

/-- The features of a row: numbers of the numeric columns, then one block per categorical column. -/
def IsEncoding {F : Type} (E : Ext F) (T : Fitted) (row : List (Cell F)) (feat : List F) : Prop :=
  ∃ (nums : List F) (blocks : List (List F)), feat = nums ++ blocks.flatten ∧
    List.Forall₂ (fun j x => IsNumber E (row.getD j .none) x) T.numeric nums ∧
    List.Forall₂ (fun p b => Marks E p.2 (categoricalCell E (row.getD p.1 .none)) b) T.categorical blocks

/-- The number of features. -/
def width (T : Fitted) : Nat := T.numeric.length + (T.categorical.map fun p => p.2.length).sum

end ModSSC.Preprocess.OneHot.Spec
