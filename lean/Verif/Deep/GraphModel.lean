import Verif.Deep.BatchModel

/-!
# Graph inputs of the deep methods: slicing, concatenation, batched prediction

Models `slice_data`, `concat_data`, `freeze_batchnorm`, `predict_proba_from_bundle` and the predict
mix-ins of `src/modssc/inductive/methods/helpers/torch_support.py`.
-/

namespace ModSSC.Deep
open ModSSC

/-- A graph dict: node rows `x`, optional `edge_index` (pairs source, target), optional `edge_weight`, other tensors
by name (only their first dimension matters, entries of type `β`). -/
structure GDict (α β : Type) where
  /-- `X["x"]` -/
  x : List α
  /-- `X["edge_index"]` -/
  edges : Option (List (Nat × Nat))
  /-- `X["edge_weight"]` -/
  weight : Option (List β)
  /-- the other tensors -/
  extra : List (String × List β)
deriving DecidableEq, Repr

/-- `torch_geometric.utils.subgraph(idx, edge_index, relabel_nodes=True)` (external, by its documentation): the edges
with both ends in `idx`, in order, their ends replaced by their positions in `idx`. -/
def subgraphEdges (idx : List Nat) (es : List (Nat × Nat)) : List (Nat × Nat) :=
  (es.filter fun e => e.1 ∈ idx ∧ e.2 ∈ idx).map fun e => (idx.idxOf e.1, idx.idxOf e.2)

/-- `v[idx] if v.shape[0] == n else v`, torch_support.py l.373-379. -/
def sliceTensor {β : Type} (n : Nat) (idx : List Nat) (v : List β) : Except PyErr (List β) :=
  if v.length = n then takeRows v idx else .ok v

/-- `sliceTensor` on an optional tensor. -/
def sliceOpt {β : Type} (n : Nat) (idx : List Nat) : Option (List β) → Except PyErr (Option (List β))
  | none => .ok none
  | some v => (sliceTensor n idx v).map some

/-- `sliceTensor` on a named tensor. -/
def sliceNamed {β : Type} (n : Nat) (idx : List Nat) (kv : String × List β) : Except PyErr (String × List β) :=
  (sliceTensor n idx kv.2).map fun v => (kv.1, v)

/-- `slice_data` of a graph dict, torch_support.py l.341-380, `torch_geometric` being installed.  `edge_weight` is
not special there: it goes through the loop over the other keys. -/
def sliceGraph {α β : Type} (X : GDict α β) (idx : List Nat) : Except PyErr (GDict α β) := do
  let x ← takeRows X.x idx
  let w ← sliceOpt X.x.length idx X.weight
  let extra ← X.extra.mapM (sliceNamed X.x.length idx)
  pure ⟨x, X.edges.map (subgraphEdges idx), w, extra⟩

/-- The edges of the blocks, each shifted by the number of nodes before it, torch_support.py l.260-276. -/
def shiftEdges {α β : Type} : Nat → List (GDict α β) → List (Nat × Nat)
  | _, [] => []
  | off, g :: gs =>
    ((g.edges.getD []).map fun e => (e.1 + off, e.2 + off)) ++ shiftEdges (off + g.x.length) gs

/-- `torch.cat` of the edge weights present, `None` when no block has any, torch_support.py l.269-278. -/
def catWeights {α β : Type} (gs : List (GDict α β)) : Option (List β) :=
  if gs.all (fun g => g.weight.isNone) then none else some (gs.filterMap (·.weight)).flatten

/-- One shared key: concatenated when node-wise in every block, else the first block's value,
torch_support.py l.282-292. -/
def catExtra {α β : Type} (gs : List (GDict α β)) (key : String) : List β :=
  if gs.all (fun g => (((g.extra.find? (·.1 = key)).map (·.2)).getD []).length = g.x.length) then
    (gs.map fun g => ((g.extra.find? (·.1 = key)).map (·.2)).getD []).flatten
  else (((gs.headD ⟨[], none, none, []⟩).extra.find? (·.1 = key)).map (·.2)).getD []

/-- `concat_data` when at least one item is a dict, torch_support.py l.245-293; plain tensors are the dicts
`{"x": x}`.  Without `edge_index` in every block neither edges nor weights are returned. -/
def concatGraphs {α β : Type} (gs : List (GDict α β)) : GDict α β :=
  let withEdges := gs.all (fun g => g.edges.isSome)
  let shared := ((gs.headD ⟨[], none, none, []⟩).extra.map (·.1)).filter fun k =>
    gs.all fun g => g.extra.any (·.1 = k)
  ⟨(gs.map (·.x)).flatten, if withEdges then some (shiftEdges 0 gs) else none,
    if withEdges then catWeights gs else none, shared.map fun k => (k, catExtra gs k)⟩

/-! ## Prediction -/

/-- A matrix: number of columns and rows (torch keeps the number of columns of a matrix without rows). -/
structure Mat (K : Type) where
  /-- `shape[1]` -/
  cols : Nat
  /-- rows -/
  rows : List (List K)
deriving DecidableEq, Repr

/-- The start positions of `range(0, n, batch_size)`. -/
def starts (n b : Nat) : List Nat := (List.range ((n + b - 1) / b)).map (· * b)

/-- The loop over batches, torch_support.py l.115-127: `batch start` builds the input, `net` is
`extract_logits(model(batch))` including the check that the logits are 2D. -/
def logitsLoop {I K : Type} (batch : Nat → Except PyErr I) (net : I → Except PyErr (Mat K)) (ss : List Nat) :
    Except PyErr (List (Mat K)) :=
  ss.mapM fun s => do
    let B ← batch s
    net B

/-- `torch.empty((0, 0))` or `torch.cat(all_logits, dim=0)`, torch_support.py l.129-133; torch raises when the numbers
of columns differ. -/
def catLogits {K : Type} : List (Mat K) → Except PyErr (Mat K)
  | [] => .ok ⟨0, []⟩
  | m :: ms =>
    if ms.all (fun m' => m'.cols = m.cols) then .ok ⟨m.cols, ((m :: ms).map (·.rows)).flatten⟩
    else .error .runtimeError

/-- `predict_proba_from_bundle`, torch_support.py l.87-139: the probabilities or the exception, and `model.training`
afterwards.  `model.eval()` comes first and `model.train()` is not in a `finally`.  `range` raises `ValueError` for
step 0. -/
def predictProba {I K : Type} (fitted : Bool) (batch : Nat → Except PyErr I) (net : I → Except PyErr (Mat K))
    (softmax : List K → List K) (n b : Nat) (training : Bool) : Except PyErr (Mat K) × Bool :=
  if ¬ fitted then (.error .runtimeError, training)
  else if b = 0 then (.error .valueError, false)
  else
    match logitsLoop batch net (starts n b) with
    | .error e => (.error e, false)
    | .ok ms =>
      match catLogits ms with
      | .error e => (.error e, false)
      | .ok m => (.ok ⟨m.cols, m.rows.map softmax⟩, training)

/-- `X[start:end]` for a plain tensor, torch_support.py l.117-122. -/
def tensorBatch {α : Type} (X : List α) (b s : Nat) : Except PyErr (List α) := .ok ((X.drop s).take b)

/-- `slice_data(X, torch.arange(start, end))` for a graph dict, torch_support.py l.118-120. -/
def graphBatch {α β : Type} (X : GDict α β) (b s : Nat) : Except PyErr (GDict α β) :=
  sliceGraph X (List.range' s (min (s + b) X.x.length - s))

/-- `proba.argmax(dim=1)`, `ArgmaxPredictMixin.predict`, torch_support.py l.146-148; torch raises `IndexError` when the
reduced dimension has size 0, also for a tensor without rows. -/
def predictLabels {K : Type} (argmax : List K → Nat) : Except PyErr (Mat K) → Except PyErr (List Nat)
  | .error e => .error e
  | .ok m => if m.cols = 0 then .error .indexError else .ok (m.rows.map argmax)

/-- A module of the network: batch normalisation or not, and its training flag. -/
structure Mod where
  /-- `isinstance(m, _BatchNorm)` -/
  bn : Bool
  /-- `m.training` -/
  training : Bool
deriving DecidableEq, Repr

/-- Entering `freeze_batchnorm`, torch_support.py l.301-308: batch normalisation modules go to eval mode; their flags
are remembered. -/
def freezeEnter (ms : List Mod) : List Mod × List Bool :=
  (ms.map fun m => if m.bn then ⟨true, false⟩ else m, (ms.filter (·.bn)).map (·.training))

/-- Leaving it, torch_support.py l.311-313 (in a `finally`, so also when the body raises): the remembered flags are
given back in order. -/
def freezeLeave : List Mod → List Bool → List Mod
  | [], _ => []
  | m :: ms, st =>
    if m.bn then
      match st with
      | s :: st => ⟨true, s⟩ :: freezeLeave ms st
      | [] => m :: freezeLeave ms []
    else m :: freezeLeave ms st

/-- `with freeze_batchnorm(model, enabled): body`, torch_support.py l.295-313; `body` maps the modules to the modules
it leaves behind. -/
def withFreeze (enabled : Bool) (body : List Mod → List Mod) (ms : List Mod) : List Mod :=
  if enabled then freezeLeave (body (freezeEnter ms).1) (freezeEnter ms).2 else body ms

end ModSSC.Deep
