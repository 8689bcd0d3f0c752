import Verif.Deep.GraphModel

/-!
# The views of co-training (`modssc/inductive/methods/co_training.py`)

What a view may be when fitting and when predicting, and how samples of a view are taken and joined, graphs included.
-/

namespace ModSSC.Inductive.Views
open ModSSC ModSSC.Deep

/-- An array or tensor: its rows, number of axes and device. -/
structure Ten (α : Type) where
  rows : List α
  ndim : Nat
  dev : Nat
deriving DecidableEq

/-- A dict with `"x"`: node rows, `"edge_index"` if present, the other entries. -/
structure Gr (α β : Type) where
  x : Ten α
  edges : Option (List (Nat × Nat))
  rest : List (String × List β)
deriving DecidableEq

/-- Samples: an array of the backend (numpy or torch), a graph dict, or anything else. -/
inductive Obj (α β : Type) where
  | arr (t : Ten α)
  | graph (g : Gr α β)
  | other
deriving DecidableEq

/-- An entry of `data.views`: a mapping, a tuple of two, or a single object.  A graph dict is a mapping, too; here it is given as
`plain (graph g)`, its keys being none of `X`, `X_l`, `X_u`. -/
inductive View (α β : Type) where
  | map (entries : List (String × Obj α β))
  | pair (a b : Obj α β)
  | plain (o : Obj α β)
deriving DecidableEq

/-- The backend. -/
inductive Kind where
  | numpy
  | torch
deriving DecidableEq

section
variable {α β : Type}

/-- The array in it: `_is_valid_torch` and `unwrap_torch_x` (co_training.py:84-88), or an array only (54, 77). -/
def tensorOf : Kind → Obj α β → Option (Ten α)
  | _, .arr t => some t
  | .torch, .graph g => some g.x
  | _, _ => none

/-- The labeled and unlabeled part of a view (co_training.py:42-52, 112-122). -/
def parts : View α β → Except PyErr (Obj α β × Obj α β)
  | .map es =>
    match es.lookup "X_l", es.lookup "X_u" with
    | some l, some u => .ok (l, u)
    | _, _ => .error .validation
  | .pair a b => .ok (a, b)
  | .plain _ => .error .validation

/-- `_view_payload_numpy`, `_view_payload_torch` (co_training.py:41-60, 110-136). -/
def fitView (k : Kind) (v : View α β) : Except PyErr (Obj α β × Obj α β) := do
  let p ← parts v
  match tensorOf k p.1, tensorOf k p.2 with
  | some tl, some tu =>
    if tl.ndim < 2 ∨ tu.ndim < 2 then .error .validation
    else if k = .torch ∧ tl.dev ≠ tu.dev then .error .validation
    else .ok p
  | _, _ => .error .validation

/-- What to predict for (co_training.py:64-76, 141-153). -/
def target : View α β → Except PyErr (Obj α β)
  | .map es =>
    match es.lookup "X", es.lookup "X_u", es.lookup "X_l" with
    | some x, _, _ => .ok x
    | none, some u, _ => .ok u
    | none, none, some l => .ok l
    | none, none, none => .error .validation
  | .plain (.graph _) => .error .validation
  | .pair _ _ => .ok .other
  | .plain o => .ok o

/-- `_view_predict_payload_numpy`, `_view_predict_payload_torch` (co_training.py:63-81, 139-160). -/
def predictView (k : Kind) (v : View α β) : Except PyErr (Obj α β) := do
  let o ← target v
  match tensorOf k o with
  | some t => if t.ndim < 2 then .error .validation else .ok o
  | none => .error .validation

/-- `_index_torch` (co_training.py:163-189) by positions (of a mask: those where it holds), with `torch_geometric` installed; numpy's
indexing of arrays.  Entries of a graph other than nodes and edges are kept. -/
def takeObj (o : Obj α β) (idx : List Nat) : Except PyErr (Obj α β) :=
  match o with
  | .arr t => do
    let r ← takeRows t.rows idx
    .ok (.arr { t with rows := r })
  | .graph g => do
    let r ← takeRows g.x.rows idx
    .ok (.graph ⟨{ g.x with rows := r }, g.edges.map (subgraphEdges idx), g.rest⟩)
  | .other => .error .typeError

/-- `_cat_torch` of two (co_training.py:192-208); a tensor cannot be indexed by `"x"` nor a dict be concatenated. -/
def catObj : Obj α β → Obj α β → Except PyErr (Obj α β)
  | .arr a, .arr b => .ok (.arr { a with rows := a.rows ++ b.rows })
  | .graph a, .graph b =>
    match a.edges, b.edges with
    | none, _ => .ok (.graph { a with x := { a.x with rows := a.x.rows ++ b.x.rows } })
    | some _, none => .error .keyError
    | some ea, some eb => .ok (.graph ⟨{ a.x with rows := a.x.rows ++ b.x.rows },
        some (ea ++ eb.map fun e => (e.1 + a.x.rows.length, e.2 + a.x.rows.length)), a.rest⟩)
  | .graph _, .arr _ => .error .indexError
  | _, _ => .error .typeError

/-- The training samples of one view with the samples picked by the other classifier (co_training.py:372, 376, 389, 393). -/
def enlarge (labeled unlabeled : Obj α β) (idx : List Nat) : Except PyErr (Obj α β) := do
  let p ← takeObj unlabeled idx
  catObj labeled p

end

end ModSSC.Inductive.Views
