import Verif.Base
import Verif.ExceptLemmas
import Verif.Assoc

/-!
# Model of row selection

`bench/orchestrators/slicing.py`.  Index vectors are lists of integers; arrays and tensors are lists of rows
(first axis), or 0-dimensional.
-/

namespace ModSSC.Bench
open ModSSC

/-- `_as_idx` (slicing.py:13-17). -/
def asIdx (idx : List Int) : Except PyErr (List Nat) :=
  if idx.any (fun i => decide (i < 0)) then .error .runtimeError else .ok (idx.map Int.toNat)

/-- A value: an array or tensor with at least one axis, a 0-dimensional one, a list, `None` or anything else. -/
inductive Item (α : Type) where
  | array (rows : List α)
  | scalar (v : α)
  | list (l : List α)
  | none
  | other (v : α)
deriving DecidableEq

/-- `x[idx]` for an array, `[x[int(i)] for i in idx]` for a list (slicing.py:77-86): `IndexError` out of range. -/
def takeRows {α : Type} (rows : List α) (idx : List Nat) : Except PyErr (List α) :=
  idx.mapM (fun i => match rows[i]? with
    | some r => .ok r
    | none => .error .indexError)

/-- `_should_slice_by_dim0` for something with `n` rows (slicing.py:89-100). -/
def shouldSlice (n : Nat) (idx : List Nat) : Bool := idx.all (fun i => decide (i < n))

/-- An entry of a mapping other than `edge_index` (slicing.py:118-139).  With no indices a 0-dimensional array is
indexed as well, which is an `IndexError`. -/
def sliceEntry {α : Type} (idx : List Nat) (v : Item α) : Except PyErr (Item α) :=
  match v with
  | .array rows => if shouldSlice rows.length idx then (takeRows rows idx).map .array else .ok (.array rows)
  | .scalar v => if idx = [] then .error .indexError else .ok (.scalar v)
  | .list l => if shouldSlice l.length idx then (takeRows l idx).map .list else .ok (.list l)
  | .none => .ok .none
  | .other v => .ok (.other v)

/-- `subgraph(subset, edge_index, relabel_nodes=True)` of torch_geometric (slicing.py:58-65), the external contract:
the edges between nodes of the subset, in their order, with the positions of their ends in the subset. -/
def subgraph (idx : List Nat) (edges : List (Nat × Nat)) : List (Nat × Nat) :=
  (edges.filter (fun e => decide (e.1 ∈ idx) && decide (e.2 ∈ idx))).map (fun e => (idx.idxOf e.1, idx.idxOf e.2))

/-- A mapping, with its `edge_index` apart. -/
structure Mapping (α : Type) where
  edgeIndex : Option (List (Nat × Nat))
  entries : List (String × Item α)
deriving DecidableEq

/-- `select_rows` on a mapping (slicing.py:103-140). -/
def selectMapping {α : Type} (m : Mapping α) (idx : List Int) : Except PyErr (Mapping α) := do
  let idx ← asIdx idx
  let entries ← m.entries.mapM (fun kv => (sliceEntry idx kv.2).map (fun v => (kv.1, v)))
  pure ⟨m.edgeIndex.map (subgraph idx), entries⟩

/-- `select_rows` on anything else (slicing.py:109-111, 142-155). -/
def selectRows {α : Type} (x : Item α) (idx : List Int) : Except PyErr (Item α) :=
  match asIdx idx with
  | .error e => .error e
  | .ok idx =>
    match x with
    | .none => .ok .none
    | .array rows => (takeRows rows idx).map .array
    | .list l => (takeRows l idx).map .list
    | .scalar _ => .error .indexError
    | .other _ => .error .runtimeError

end ModSSC.Bench
