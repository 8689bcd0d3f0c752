import Verif.Base

/-!
# Options, inputs and layers of the GraphSAGE classifier

Model of `src/modssc/supervised/backends/torch/graphsage_inductive.py`, what `NetModel.lean` leaves out: the constructor, the forms of
input, the layers and what a forward pass does with them.  The convolutions and activations themselves are parameters.
-/

namespace ModSSC.Supervised.Sage
open ModSSC

/-- `hidden_sizes` as given. -/
inductive Sizes where
  | none
  | int (n : Int)
  | seq (l : List Int)
  | other

/-- `_normalize_hidden_sizes` (graphsage_inductive.py:45-52). -/
def normalizeSizes : Sizes → Except PyErr (Option (List Int))
  | .none => .ok none
  | .int n => .ok (some [n])
  | .seq l => .ok (some l)
  | .other => .error .valueError

/-- The attributes of a classifier (graphsage_inductive.py:118-121). -/
structure Conf where
  sizes : Option (List Int)
  hidden : Int
  layers : Int
  activation : String
deriving DecidableEq

/-- `TorchGraphSAGEClassifier.__init__` (graphsage_inductive.py:83-128): the options that shape the network. -/
def construct (hidden : Option Int) (sizes : Sizes) (layers : Option Int) (activation : String) : Except PyErr Conf := do
  let s ← normalizeSizes sizes
  match s with
  | some (h :: t) =>
    if (h :: t).any fun a => decide (a ≤ 0) then .error .valueError
    else
      let n : Int := ((h :: t).length : Nat) + 1
      match layers with
      | some l => if l ≠ n then .error .valueError else .ok ⟨some (h :: t), h, n, activation⟩
      | none => .ok ⟨some (h :: t), h, n, activation⟩
  | s => .ok ⟨s, hidden.getD 128, layers.getD 2, activation⟩

/-- `_resolve_activation` (graphsage_inductive.py:34-42); `lower` is `str.lower`. -/
def resolveActivation (lower : String → String) (name : String) : Except PyErr String :=
  if lower name = "relu" then .ok "relu"
  else if lower name = "gelu" then .ok "gelu"
  else if lower name = "tanh" then .ok "tanh"
  else .error .valueError

/-- The widths from input to output (graphsage_inductive.py:184-190); a list times a negative number is empty. -/
def layerSizes (c : Conf) (features classes : Int) : List Int :=
  match c.sizes with
  | some (h :: t) => features :: (h :: t) ++ [classes]
  | _ => features :: List.replicate (c.layers - 1).toNat c.hidden ++ [classes]

/-- The layers, inputs and outputs of each (graphsage_inductive.py:165-172). -/
def convs (sizes : List Int) : List (Int × Int) := sizes.dropLast.zip sizes.tail

/-- `GNN.forward` in evaluation mode (graphsage_inductive.py:177-183): layer `i`, counted from `i₀`, of `n`. -/
def forwardFrom {L X : Type} (conv : L → X → X) (act : X → X) (n : Nat) : Nat → List L → X → X
  | _, [], x => x
  | i, l :: ls, x =>
    let y := conv l x
    forwardFrom conv act n (i + 1) ls (if i < n - 1 then act y else y)

/-- `GNN.forward` (graphsage_inductive.py:177-183). -/
def forward {L X : Type} (conv : L → X → X) (act : X → X) (ls : List L) (x : X) : X := forwardFrom conv act ls.length 0 ls x

/-- An array. -/
structure Ten (K : Type) where
  dims : List Nat
  cell : List Nat → K

/-- What may be given as `X`: a dict with or without `x`, `edge_index` and `edge_weight`; an array; anything else. -/
inductive Inp (K : Type) where
  | dict (x : Option (Ten K)) (edges : Option (Ten Int)) (weights : Option (Ten K))
  | array (t : Ten K)
  | other

/-- Features and edges before their shapes are checked (graphsage_inductive.py:56-70). -/
def entries {K : Type} (allowFeatures : Bool) : Inp K → Except PyErr (Ten K × Ten Int)
  | .dict (some x) (some e) _ => .ok (x, e)
  | .dict _ _ _ => .error .valueError
  | .array t => if allowFeatures then .ok (t, ⟨[2, 0], fun _ => 0⟩) else .error .valueError
  | .other => .error .valueError

/-- `_coerce_graph_input` (graphsage_inductive.py:55-76). -/
def coerce {K : Type} (allowFeatures : Bool) (X : Inp K) : Except PyErr (Ten K × Ten Int) := do
  let p ← entries allowFeatures X
  if p.1.dims.length ≠ 2 then .error .valueError
  else if p.2.dims.length ≠ 2 ∨ p.2.dims.head? ≠ some 2 then .error .valueError
  else .ok p

/-- The part of `fit` before training (graphsage_inductive.py:140-163): input, labels, the classes, which are stored, then the
activation.  `classes` are the stored classes; the largest label is that of `y`, whose maximum torch refuses to take if it is empty. -/
def prepareFit {K : Type} (lower : String → String) (c : Conf) (classes : Option (List Int)) (X : Inp K) (y : List Int) :
    Option (List Int) × Except PyErr ((Ten K × Ten Int) × String) :=
  match coerce false X with
  | .error e => (classes, .error e)
  | .ok p =>
    if y.length ≠ p.1.dims.headD 0 then (classes, .error .valueError)
    else match y.max? with
      | none => (classes, .error .runtimeError)
      | some m =>
        let cs := (List.range (m + 1).toNat).map fun (i : Nat) => (i : Int)
        if m + 1 < 0 then (classes, .error .runtimeError)
        else match resolveActivation lower c.activation with
        | .error e => (some cs, .error e)
        | .ok a => (some cs, .ok (p, a))

end ModSSC.Supervised.Sage
