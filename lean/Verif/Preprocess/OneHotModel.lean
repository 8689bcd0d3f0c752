import Verif.Base

/-!
# One-hot encoding of tables

`src/modssc/preprocess/steps/tabular/one_hot.py`.  A table is the list of its rows, all of the same length (l.18-27 make the
array two-dimensional).  Floats are an arbitrary type with a test for NaN; `float(text)`, `str(value)` and
`sklearn.preprocessing.OneHotEncoder` (the list of different texts of every column) are parameters.
-/

namespace ModSSC.Preprocess.OneHot
open ModSSC

/-- A value of the table: `None`, a number, or a text (bytes are decoded, l.38-39). -/
inductive Cell (F : Type) where
  | none
  | num (x : F)
  | str (s : List Char)

/-- What is external: NaN, `0.0`, `1.0`, `float(text)`, `str(number)`, and the categories that the encoder finds in a column. -/
structure Ext (F : Type) where
  isNan : F → Bool
  nan : F
  zero : F
  one : F
  parse : List Char → Option F
  text : F → List Char
  categories : List (List Char) → List (List Char)

/-- `_MISSING_TOKENS`, one_hot.py l.12. -/
def missingTokens : List (List Char) :=
  ["", "?", "nan", "NaN", "NA", "N/A", "null", "None"].map String.toList

/-- White space removed by `str.strip` (the ASCII part). -/
def isSpace (c : Char) : Bool := c ∈ [' ', '\t', '\n', '\r', '\x0b', '\x0c']

/-- `value.strip()`. -/
def strip (s : List Char) : List Char := ((s.dropWhile isSpace).reverse.dropWhile isSpace).reverse

/-- `_is_missing`, one_hot.py l.33-42. -/
def isMissing {F : Type} (E : Ext F) : Cell F → Bool
  | .none => true
  | .num x => E.isNan x
  | .str s => decide (strip s ∈ missingTokens)

/-- `float(val)`; `none` is an exception. -/
def toFloat {F : Type} (E : Ext F) : Cell F → Option F
  | .none => Option.none
  | .num x => some x
  | .str s => E.parse s

/-- `str(val)`. -/
def toText {F : Type} (E : Ext F) : Cell F → List Char
  | .none => "None".toList
  | .num x => E.text x
  | .str s => s

/-- `_is_numeric_column`, one_hot.py l.45-53. -/
def isNumericColumn {F : Type} (E : Ext F) (col : List (Cell F)) : Bool :=
  col.all fun v => isMissing E v || (toFloat E v).isSome

/-- One value of `_to_numeric_column`, one_hot.py l.56-63. -/
def numericCell {F : Type} (E : Ext F) (v : Cell F) : Except PyErr F :=
  if isMissing E v then .ok E.nan
  else match toFloat E v with
    | some x => .ok x
    | none => .error .valueError

/-- One value of `_to_categorical_column`, one_hot.py l.66-73. -/
def categoricalCell {F : Type} (E : Ext F) (v : Cell F) : List Char :=
  if isMissing E v then "__missing__".toList else toText E v

/-- The fitted step: numeric columns and categorical columns with their categories. -/
structure Fitted where
  numeric : List Nat
  categorical : List (Nat × List (List Char))

/-- Column `j` of the rows. -/
def column {F : Type} (rows : List (List (Cell F))) (j : Nat) : List (Cell F) := rows.map fun r => r.getD j .none

/-- One row of `np.take(arr, idx, axis=0)`; positions outside the table are refused. -/
def rowAt {F : Type} (table : List (List (Cell F))) (i : Nat) : Except PyErr (List (Cell F)) :=
  match table[i]? with
  | some r => .ok r
  | none => .error .indexError

/-- `TabularOneHotStep.fit`, one_hot.py l.85-130; `d` is the number of columns. -/
def fit {F : Type} (E : Ext F) (d : Nat) (table : List (List (Cell F))) (idx : List Nat) : Except PyErr Fitted := do
  let rows ← idx.mapM (rowAt table)
  .ok ⟨(List.range d).filter fun j => isNumericColumn E (column rows j),
    ((List.range d).filter fun j => !isNumericColumn E (column rows j)).map fun j =>
      (j, E.categories ((column rows j).map (categoricalCell E)))⟩

/-- The block of one categorical column in `OneHotEncoder.transform`. -/
def encodeCell {F : Type} (E : Ext F) (ignoreUnknown : Bool) (cats : List (List Char)) (t : List Char) : Except PyErr (List F) :=
  if t ∈ cats ∨ ignoreUnknown then .ok (cats.map fun c => if c = t then E.one else E.zero) else .error .valueError

/-- One row of `TabularOneHotStep.transform`, one_hot.py l.139-158: numeric columns, then the blocks of the categorical ones. -/
def encodeRow {F : Type} (E : Ext F) (ignoreUnknown : Bool) (T : Fitted) (row : List (Cell F)) : Except PyErr (List F) := do
  let nums ← T.numeric.mapM fun j => numericCell E (row.getD j .none)
  let blocks ← T.categorical.mapM fun p => encodeCell E ignoreUnknown p.2 (categoricalCell E (row.getD p.1 .none))
  .ok (nums ++ blocks.flatten)

/-- `TabularOneHotStep.transform`, one_hot.py l.132-158.  The code builds the features column by column; every row depends
only on the row of the table. -/
def transform {F : Type} (E : Ext F) (ignoreUnknown : Bool) (T : Fitted) (table : List (List (Cell F))) :
    Except PyErr (List (List F)) :=
  if T.numeric = [] ∧ T.categorical = [] then .error .validation
  else table.mapM (encodeRow E ignoreUnknown T)

end ModSSC.Preprocess.OneHot
