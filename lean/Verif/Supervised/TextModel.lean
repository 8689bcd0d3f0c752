import Verif.Supervised.NetModel
import Mathlib.Algebra.BigOperators.Group.Finset.Basic
import Mathlib.Algebra.Order.Ring.Defs

/-!
# The text CNN classifier

Model of `src/modssc/supervised/backends/torch/text_cnn.py`: the checks of `fit`, the layouts, which kernel sizes are used, training (as in
`Verif.Supervised.NetModel`, the optimiser being a parameter), scoring, and the forward pass of the network in exact arithmetic.
-/

namespace ModSSC.Supervised.TextCnn
open ModSSC Supervised Supervised.Net

/-- One text: so many channels at so many positions. -/
structure Text (K : Type) where
  channels : Nat
  len : Nat
  at_ : Nat → Nat → K

/-- A tensor: device, axes and cells (of two axes, the last index is 0). -/
structure Tensor (K : Type) where
  device : Nat
  dims : List Nat
  cell : Nat → Nat → Nat → K

/-- `_prepare_X` (text_cnn.py:105-121): number of texts, channels, positions and the texts. -/
def prepare {K : Type} (layout : String) (X : Tensor K) : Except PyErr (Nat × Nat × Nat × List (Text K)) :=
  match X.dims with
  | [n, a, b] =>
    if layout = "channels_last" then .ok (n, b, a, (List.range n).map fun i => ⟨b, a, fun c t => X.cell i t c⟩)
    else if layout = "channels_first" then .ok (n, a, b, (List.range n).map fun i => ⟨a, b, fun c t => X.cell i c t⟩)
    else .error .validation
  | [n, d] => .ok (n, 1, d, (List.range n).map fun i => ⟨1, d, fun _ t => X.cell i t 0⟩)
  | _ => .error .validation

/-- The constructor arguments (text_cnn.py:76-103); those of training are in `base`. -/
structure TextHyper where
  base : Hyper
  layout : String
  kernels : List Int
  filters : Int

/-- The attributes that `fit` sets (text_cnn.py:101-103). -/
structure TextState (α P : Type) where
  classes : Option (Nat × List α)
  model : Option P
  kernels : Option (List Nat)
deriving DecidableEq

/-- A new classifier. -/
def TextState.fresh {α P : Type} : TextState α P := ⟨none, none, none⟩

/-- The checks of the parameters (text_cnn.py:160-174). -/
def checkHyper (h : TextHyper) : Except PyErr Unit :=
  if h.kernels = [] then .error .validation
  else if h.filters ≤ 0 then .error .validation
  else if h.base.batchSize ≤ 0 then .error .validation
  else if h.base.maxEpochs ≤ 0 then .error .validation
  else if h.base.lrPositive = false then .error .validation
  else if h.base.dropoutOk = false then .error .validation
  else if h.kernels.any (fun k => decide (k ≤ 0)) then .error .validation
  else .ok ()

/-- `usable` (text_cnn.py:176-177). -/
def usable (h : TextHyper) (len : Nat) : List Nat := (h.kernels.filter fun k => decide (k ≤ (len : Int))).map Int.toNat

/-- All checks of `fit` (text_cnn.py:143-179): number of texts, channels, positions, the texts, the kernels used. -/
def checkFit {K α : Type} (h : TextHyper) (X : Option (Tensor K)) (y : Option (Targets α)) :
    Except PyErr (Nat × (Nat × Nat × Nat × List (Text K)) × List α × List Nat) :=
  match y, X with
  | none, _ => .error .validation
  | some y, X =>
    if h.layout ≠ "channels_last" ∧ h.layout ≠ "channels_first" then .error .validation
    else match X with
      | none => .error .validation
      | some X => do
        let b ← prepare h.layout X
        if b.1 ≠ y.flat.length then .error .validation
        else if b.1 * b.2.1 * b.2.2.1 = 0 then .error .validation
        else if X.device ≠ y.device then .error .validation
        else do
          checkHyper h
          if usable h b.2.2.1 = [] then .error .validation
          else .ok (X.device, b, y.flat, usable h b.2.2.1)

/-- `TorchTextCNNClassifier.fit` (text_cnn.py:123-224).  `nn ks` is the network with kernels `ks`.  The classes are stored before
training, the network and its kernels after it. -/
def fit {K P W α : Type} [LinearOrder α] (nn : List Nat → Nn (Text K) P W K) (h : TextHyper) (st : TextState α P) (w : W)
    (X : Option (Tensor K)) (y : Option (Targets α)) : (TextState α P × W) × Except PyErr (Nat × Nat × Nat) :=
  match checkFit h X y with
  | .error e => ((st, w), .error e)
  | .ok (dev, b, ys, ks) =>
    let classes := (Labels.encodeLabels ys).2
    let st1 := { st with classes := some (dev, classes) }
    match (nn ks).init b.2.1 classes.length ((nn ks).manualSeed h.base.seedOr0) with
    | (.error e, w1) => ((st1, w1), .error e)
    | (.ok p, w1) =>
      match trainEpochs (nn ks) (encoded b.2.2.2 ys) h.base.batchSize.toNat h.base.maxEpochs.toNat p w1 with
      | ((_, w2), some e) => ((st1, w2), .error e)
      | ((p1, w2), none) =>
        (({ st1 with model := some p1, kernels := some ks }, w2), .ok (b.1, b.2.1 * b.2.2.1, classes.length))

/-- `_scores` (text_cnn.py:226-238); the convolutions refuse another number of channels. -/
def scores {K P W α : Type} (nn : List Nat → Nn (Text K) P W K) (h : TextHyper) (st : TextState α P) (X : Option (Tensor K)) :
    Except PyErr (List (List K)) :=
  match st.model, st.classes, st.kernels with
  | some p, some (dev, _), some ks =>
    match X with
    | none => .error .validation
    | some X => do
      let b ← prepare h.layout X
      if X.device ≠ dev then .error .validation
      else if b.2.2.1 < ks.foldl max 0 then .error .validation
      else if b.2.1 ≠ (nn ks).inputs p then .error .runtimeError
      else .ok (b.2.2.2.map fun r => (nn ks).softmax ((nn ks).logits p r))
  | _, _, _ => .error .runtimeError

/-- `predict` (torch/common.py:25-29, 89-90). -/
def predict {K P W α : Type} [Field K] [LinearOrder K] (nn : List Nat → Nn (Text K) P W K) (h : TextHyper) (st : TextState α P)
    (X : Option (Tensor K)) : Except PyErr (List α) := do
  let s ← scores nn h st X
  decode st.classes s

/-! ### The network -/

/-- One filter of a convolution. -/
structure Filter (K : Type) where
  bias : K
  w : Nat → Nat → K

/-- The weights of `_TextCNN` (text_cnn.py:29-55): the filters of each kernel size, and bias and weights of each class. -/
structure Weights (K : Type) where
  convs : List (Nat × List (Filter K))
  fc : List (K × List K)

section
variable {K : Type} [Field K] [LinearOrder K]

/-- The convolution at position `t` (`Conv1d`, text_cnn.py:61). -/
def conv (C k : Nat) (f : Filter K) (x : Nat → Nat → K) (t : Nat) : K :=
  f.bias + ∑ c ∈ Finset.range C, ∑ s ∈ Finset.range k, f.w c s * x c (t + s)

/-- The largest entry of a list that is not empty. -/
def maxOf : List K → K
  | [] => 0
  | a :: l => l.foldl max a

/-- `torch.max(act(conv(x)), dim=2)` (text_cnn.py:61-63): over all positions where the kernel fits. -/
def feature (act : K → K) (k : Nat) (f : Filter K) (x : Text K) : K :=
  maxOf ((List.range (x.len + 1 - k)).map fun t => act (conv x.channels k f x.at_ t))

/-- `_TextCNN.forward` of one text in evaluation mode (text_cnn.py:57-67). -/
def forward (act : K → K) (W : Weights K) (x : Text K) : List K :=
  let feats := W.convs.flatMap fun kf => kf.2.map fun f => feature act kf.1 f x
  W.fc.map fun bw => bw.1 + (List.zipWith (· * ·) bw.2 feats).sum

end

end ModSSC.Supervised.TextCnn
