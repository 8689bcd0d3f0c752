import Verif.Base
import Mathlib.Data.Rat.Defs
import Mathlib.Algebra.Order.Ring.Rat
import Mathlib.Algebra.BigOperators.Group.List.Basic

/-!
# Model of the networks built for a dataset

`src/modssc/inductive/deep/bundle_factories/factory.py`, with the network classes of
`src/modssc/supervised/backends/torch/image_cnn.py`, `audio_cnn.py` and `text_cnn.py`.

A tensor is its shape, whether it is floating, and its values read as integers (only token ids are looked at); a network
is its layers, and running it computes the shape of its outputs or fails.  The rules of the torch layers (`Linear`,
`Conv1d`, `Conv2d`, adaptive pooling, `flatten`, `Embedding`, `LSTM`, `SAGEConv`, and the arguments their constructors and
`AdamW` refuse) are contracts of torch, written down below; weights and numbers are left out.
-/

namespace ModSSC.Deep.Bundle
open ModSSC

structure Tensor where
  shape : List Nat
  floating : Bool
  values : List Int
  device : String
deriving DecidableEq

/-- What a network is called on: a tensor, or a graph mapping with `x` and `edge_index`. -/
inductive Input where
  | tensor (x : Tensor)
  | graph (x : Tensor) (edges : List (Nat × Nat))

/-- A result as the factory's networks return it (factory.py:151-154, 209-213, 661-664, 771-773). -/
inductive Output where
  | tensor (s : List Nat)
  | pair (logits feat : List Nat)
  | mapping (logits feat : List Nat)
deriving DecidableEq, Repr

/-- `extract_logits` (helpers/torch_support.py:31-47). -/
def Output.logits : Output → List Nat
  | .tensor s => s
  | .pair l _ => l
  | .mapping l _ => l

/-- The features that come with the scores, if there are any. -/
def Output.feat : Output → Option (List Nat)
  | .tensor _ => none
  | .pair _ f => some f
  | .mapping _ f => some f

inductive Layer where
  | linear (i o : Nat)
  | act
  | dropout
  | conv2 (i o k p : Nat)
  | conv1 (i o k p : Nat)
  | pool2
  | pool1
  | flat
deriving DecidableEq, Repr

/-- The length of an axis after a convolution of stride 1. -/
def convLen (k p l : Nat) : Except PyErr Nat :=
  if 1 ≤ k ∧ k ≤ l + 2 * p ∧ 0 < l then .ok (l + 2 * p - k + 1) else .error .runtimeError

/-- What a torch layer does to a shape.  A convolution or pooling reads a tensor with one axis less as a single unbatched
example, so its first axis is then the channels. -/
def Layer.run : Layer → List Nat → Except PyErr (List Nat)
  | .linear i o, s =>
    match s.getLast? with
    | none => .error .runtimeError
    | some d => if d = i then .ok (s.dropLast ++ [o]) else .error .runtimeError
  | .act, s => .ok s
  | .dropout, s => .ok s
  | .conv2 i o k p, [n, c, h, w] =>
    if c = i ∧ 0 < c then do
      let h' ← convLen k p h
      let w' ← convLen k p w
      pure [n, o, h', w']
    else .error .runtimeError
  | .conv2 i o k p, [c, h, w] =>
    if c = i ∧ 0 < c then do
      let h' ← convLen k p h
      let w' ← convLen k p w
      pure [o, h', w']
    else .error .runtimeError
  | .conv2 _ _ _ _, _ => .error .runtimeError
  | .conv1 i o k p, [n, c, l] =>
    if c = i ∧ 0 < c then do
      let l' ← convLen k p l
      pure [n, o, l']
    else .error .runtimeError
  | .conv1 i o k p, [c, l] =>
    if c = i ∧ 0 < c then do
      let l' ← convLen k p l
      pure [o, l']
    else .error .runtimeError
  | .conv1 _ _ _ _, _ => .error .runtimeError
  | .pool2, [n, c, h, w] => if 0 < c ∧ 0 < h ∧ 0 < w then .ok [n, c, 1, 1] else .error .runtimeError
  | .pool2, [c, h, w] => if 0 < h ∧ 0 < w then .ok [c, 1, 1] else .error .runtimeError
  | .pool2, _ => .error .runtimeError
  | .pool1, [n, c, l] => if 0 < c ∧ 0 < l then .ok [n, c, 1] else .error .runtimeError
  | .pool1, [c, l] => if 0 < l then .ok [c, 1] else .error .runtimeError
  | .pool1, _ => .error .runtimeError
  | .flat, n :: d :: rest => .ok [n, (d :: rest).prod]
  | .flat, _ => .error .indexError

/-- `torch.nn.Sequential`. -/
def runLayers : List Layer → List Nat → Except PyErr (List Nat)
  | [], s => .ok s
  | l :: ls, s => do
    let s' ← l.run s
    runLayers ls s'

/-- The part of a pretrained network in front of its head: the channels of its first convolution, the width of the
features the head reads (`in_features`), and the features of an input. -/
structure Backbone where
  inChannels : Option Nat
  width : Nat
  feats : List Nat → Except PyErr (List Nat)

/-- The networks of the factory. -/
inductive Net where
  /-- factory.py:88-102 -/
  | seq (layers : List Layer)
  /-- factory.py:135-161; `backbone` may be empty -/
  | feat (backbone : List Layer) (head : Layer)
  /-- `_InductiveImageCNN` (factory.py:208-213) and `_AudioCNN` (audio_cnn.py:46-93) -/
  | cnn (conv : List Layer) (pool : Layer) (head : List Layer) (withFeat : Bool)
  /-- `_TextCNN` (text_cnn.py:29-67): `(in, filters, kernel)` per convolution -/
  | text (convs : List (Nat × Nat × Nat)) (fc : Layer)
  /-- `_LSTMClassifier` (factory.py:620-664) -/
  | lstm (vocab embed hidden : Nat) (bidirectional withFeat : Bool) (classes : Nat)
  /-- `_GraphSAGEWrapper` (factory.py:748-773) -/
  | sage (sizes : List Nat)
  /-- `_ImagePretrainedWrapper` (factory.py:366-454) -/
  | image (b : Backbone) (layout : String) (shape : Option (Nat × Nat × Nat)) (repeatGray withFeat : Bool) (classes : Nat)
  /-- `_AudioPretrainedWrapper` (factory.py:525-549) -/
  | audio (b : Backbone) (width : Nat) (withFeat : Bool) (classes : Nat)

/-- `torch.max(out, dim=2).values` (text_cnn.py:63). -/
def maxDim2 : List Nat → Except PyErr (List Nat)
  | [n, f, l] => if 0 < l then .ok [n, f] else .error .indexError
  | _ => .error .indexError

/-- Concatenation of two 2D tensors along dimension 1. -/
def catTwo : List Nat → List Nat → Except PyErr (List Nat)
  | [n, f], [m, g] => if m = n then .ok [n, f + g] else .error .runtimeError
  | _, _ => .error .runtimeError

/-- `torch.cat(feats, dim=1)` (text_cnn.py:65). -/
def catCols : List (List Nat) → Except PyErr (List Nat)
  | [] => .error .runtimeError
  | a :: rest => rest.foldlM catTwo a

/-- One convolution of `_TextCNN.forward` (text_cnn.py:60-64). -/
def textConv (c : Nat × Nat × Nat) (s : List Nat) : Except PyErr (List Nat) := do
  let out ← (Layer.conv1 c.1 c.2.1 c.2.2 0).run s
  maxDim2 out

/-- `_TextCNN.forward` (text_cnn.py:57-67). -/
def textForward (convs : List (Nat × Nat × Nat)) (fc : Layer) (s : List Nat) : Except PyErr (List Nat) := do
  let feats ← convs.mapM (fun c => textConv c s)
  let merged ← catCols feats
  fc.run merged

/-- `torch.nn.LSTM(batch_first=True)` and the choice of the last hidden state (factory.py:648-659, 668-672): the shape of
`h`.  On an unbatched sequence the two directions are vectors and cannot be concatenated along dimension 1. -/
def lstmState (embed hidden : Nat) (bidirectional : Bool) : List Nat → Except PyErr (List Nat)
  | [n, l, e] =>
    if e = embed ∧ 0 < l then .ok [n, if bidirectional then 2 * hidden else hidden] else .error .runtimeError
  | [l, e] =>
    if e = embed ∧ 0 < l then
      if bidirectional then .error .indexError else .ok [hidden]
    else .error .runtimeError
  | _ => .error .runtimeError

/-- `x` is already an embedding: `x.ndim == 3 and x.shape[-1] == embed_dim` (factory.py:642, 667). -/
def isEmbedded (embed : Nat) (s : List Nat) : Bool := decide (s.length = 3 ∧ s.getLast? = some embed)

/-- The embedding step (factory.py:636-646): a token id outside the table is refused. -/
def embedded (vocab embed : Nat) (x : Tensor) : Except PyErr (List Nat) :=
  if isEmbedded embed x.shape then .ok x.shape
  else if x.values.all (fun v => decide (0 ≤ v ∧ v < vocab)) then .ok (x.shape ++ [embed])
  else .error .indexError

/-- `meta["forward_features"]` of the LSTM bundle (factory.py:666-672). -/
def lstmFeatures (vocab embed hidden : Nat) (bidirectional : Bool) (x : Tensor) : Except PyErr (List Nat) := do
  let e ← embedded vocab embed x
  lstmState embed hidden bidirectional e

/-- One `SAGEConv` on node features `[n, d]`. -/
def sageConv (i o : Nat) (edges : List (Nat × Nat)) : List Nat → Except PyErr (List Nat)
  | [n, d] =>
    if d = i ∧ edges.all (fun e => decide (e.1 < n ∧ e.2 < n)) then .ok [n, o] else .error .runtimeError
  | _ => .error .runtimeError

/-- The convolutions of `_GraphSAGEWrapper.forward` (factory.py:756-773): the features before the last and the scores. -/
def sageRun (edges : List (Nat × Nat)) : List Nat → List Nat → Except PyErr (List Nat × List Nat)
  | i :: o :: [], h => do
    let logits ← sageConv i o edges h
    pure (h, logits)
  | i :: o :: rest, h => do
    let h' ← sageConv i o edges h
    sageRun edges (o :: rest) h'
  | _, _ => .error .indexError

/-- The axes of `_prepare` (factory.py:389-412). -/
def imageAxes (layout : String) (shape : Option (Nat × Nat × Nat)) :
    List Nat → Except PyErr (Nat × Nat × Nat × Nat)
  | [n, a, b, c] =>
    if layout = "channels_last" then .ok (n, c, a, b)
    else if layout = "channels_first" then .ok (n, a, b, c)
    else .error .validation
  | [n, h, w] => .ok (n, 1, h, w)
  | [n, d] =>
    match shape with
    | none => .error .validation
    | some (c, h, w) => if d = c * h * w then .ok (n, c, h, w) else .error .validation
  | _ => .error .validation

/-- The channels of `_prepare` (factory.py:414-422). -/
def imageFix (inChannels : Option Nat) (repeatGray : Bool) (n c h w : Nat) : Except PyErr (List Nat) :=
  match inChannels with
  | none => .ok [n, c, h, w]
  | some e =>
    if c = e then .ok [n, c, h, w]
    else if repeatGray ∧ c = 1 ∧ e = 3 then .ok [n, 3, h, w]
    else .error .validation

/-- `_ImagePretrainedWrapper._prepare` (factory.py:386-422): the shape given to the pretrained network. -/
def prepareImage (b : Backbone) (layout : String) (shape : Option (Nat × Nat × Nat)) (repeatGray : Bool)
    (s : List Nat) : Except PyErr (List Nat) := do
  let x4 ← imageAxes layout shape s
  imageFix b.inChannels repeatGray x4.1 x4.2.1 x4.2.2.1 x4.2.2.2

/-- `_prepare_audio_input` (factory.py:496-510). -/
def prepareAudio : List Nat → Except PyErr (List Nat)
  | [l] => .ok [1, l]
  | [n, l] => .ok [n, l]
  | [n, c, l] => if c = 1 then .ok [n, l] else .error .validation
  | [n, c, h, w] => if c = 1 then .ok [n, h, w] else .error .validation
  | _ => .error .validation

/-- The average over time (audio_pretrained.py:61-65). -/
def overTime : List Nat → Except PyErr (List Nat)
  | [n, _, d] => .ok [n, d]
  | [n, d] => .ok [n, d]
  | _ => .error .validation

/-- `_extract_features` (audio_pretrained.py:47-65): the features of the last layer, averaged over time. -/
def audioFeats (b : Backbone) (s : List Nat) : Except PyErr (List Nat) := do
  let f ← b.feats s
  overTime f

/-- The scores, with or without the features. -/
def bothOr (withFeat : Bool) (logits feat : List Nat) : Output :=
  if withFeat then .mapping logits feat else .tensor logits

/-- `forward`. -/
def Net.forward : Net → Input → Except PyErr Output
  | .seq layers, .tensor x => do
    let s ← runLayers layers x.shape
    pure (.tensor s)
  | .feat backbone head, .tensor x => do
    let f ← runLayers backbone x.shape
    let s ← head.run f
    pure (.mapping s f)
  | .cnn conv pool head withFeat, .tensor x => do
    let a ← runLayers conv x.shape
    let p ← pool.run a
    let f ← Layer.flat.run p
    let s ← runLayers head f
    pure (if withFeat then .pair s f else .tensor s)
  | .text convs fc, .tensor x => do
    let s ← textForward convs fc x.shape
    pure (.tensor s)
  | .lstm vocab embed hidden bidirectional withFeat classes, .tensor x => do
    let h ← lstmFeatures vocab embed hidden bidirectional x
    let d := if bidirectional then 2 * hidden else hidden
    let s ← (Layer.linear d classes).run h
    pure (if withFeat then .pair s h else .tensor s)
  | .sage sizes, .graph x edges => do
    let r ← sageRun edges sizes x.shape
    pure (.mapping r.2 r.1)
  | .sage _, .tensor _ => .error .valueError
  | .image b layout shape repeatGray withFeat classes, .tensor x => do
    let x4 ← prepareImage b layout shape repeatGray x.shape
    let f ← b.feats x4
    let s ← (Layer.linear b.width classes).run f
    pure (bothOr withFeat s f)
  | .audio b width withFeat classes, .tensor x => do
    let x2 ← prepareAudio x.shape
    let f ← audioFeats b x2
    let s ← (Layer.linear width classes).run f
    pure (bothOr withFeat s f)
  | _, .graph _ _ => .error .typeError

/-- Which parameters the optimizer was given (factory.py:484-493, 573-583). -/
inductive Trained where
  | all
  | head
deriving DecidableEq, Repr

/-- `TorchModelBundle`; `features` is `meta["forward_features"]` (factory.py:680-691). -/
structure Bundle where
  net : Net
  ema : Option Net
  seed : Int
  device : String
  trained : Trained
  features : Option (Tensor → Except PyErr (List Nat))

/-- A value of `hidden_sizes`. -/
inductive HiddenArg where
  | int (n : Int)
  | seq (l : List Int)
  | other
deriving DecidableEq, Repr

/-- `classifier_params`, with `none` for an absent key. -/
structure Params where
  returnFeatures : Bool := false
  hiddenSizes : Option HiddenArg := none
  hiddenDim : Option Int := none
  hiddenSize : Option Int := none
  hiddenChannels : Option Int := none
  activation : String := "relu"
  dropout : Option Rat := none
  lr : Option Rat := none
  weightDecay : Option Rat := none
  convChannels : Option (List Int) := none
  kernelSize : Option Int := none
  fcDim : Option Int := none
  inputShape : Option (List Int) := none
  kernelSizes : Option (List Int) := none
  numFilters : Option Int := none
  inputLayout : Option String := none
  vocabSize : Option Int := none
  embedDim : Option Int := none
  numLayers : Option Int := none
  bidirectional : Option Bool := none
  modelName : String := "resnet18"
  audioBundle : String := "WAV2VEC2_BASE"
  freeze : Bool := true
  repeatGray : Bool := true

/-- A size handed to a torch layer: negative sizes are refused. -/
def size (z : Int) : Except PyErr Nat := if z < 0 then .error .runtimeError else .ok z.toNat

/-- `torch.nn.Dropout(p=p)`. -/
def mkDropout (p : Rat) : Except PyErr Layer := if p < 0 ∨ 1 < p then .error .valueError else .ok .dropout

/-- `if float(dropout) > 0.0: layers.append(Dropout(p=...))`. -/
def dropoutIf (p : Rat) : Except PyErr (List Layer) :=
  if 0 < p then do
    let d ← mkDropout p
    pure [d]
  else .ok []

/-- `torch.optim.AdamW(..., lr, weight_decay)`. -/
def adamw (lr wd : Rat) : Except PyErr Unit := if lr < 0 ∨ wd < 0 then .error .valueError else .ok ()

/-- `_make_activation` (factory.py:27-34). -/
def mkAct (name : String) : Except PyErr Layer :=
  if name = "relu" ∨ name = "gelu" ∨ name = "tanh" then .ok .act else .error .validation

/-- `_normalize_hidden_sizes` (factory.py:15-24). -/
def normalizeHidden (sizes : Option HiddenArg) (dim : Option Int) (default : List Int) : Except PyErr (List Int) :=
  match sizes with
  | none =>
    match dim with
    | none => .ok default
    | some d => .ok [d]
  | some (.int n) => .ok [n]
  | some (.seq l) => .ok l
  | some .other => .error .validation

/-- `_take_sample` (factory.py:48-54). -/
def takeSample (x : Tensor) : Tensor :=
  match x.shape with
  | n :: rest => if 1 < n then { x with shape := 1 :: rest, values := x.values.take rest.prod } else x
  | [] => x

/-- `_infer_input_dim` (factory.py:37-45). -/
def inputDim : List Nat → Except PyErr Nat
  | [] => .error .validation
  | [d] => .ok d
  | n :: rest => if n = 0 then .error .indexError else .ok rest.prod

/-- The hidden layers (factory.py:91-100, 139-148), with the width of the last. -/
def hiddenLayers (act : String) (dropout : Rat) : Nat → List Int → Except PyErr (List Layer × Nat)
  | i, [] => .ok ([], i)
  | i, h :: hs =>
    if h ≤ 0 then .error .validation
    else do
      let a ← mkAct act
      let d ← dropoutIf dropout
      let r ← hiddenLayers act dropout h.toNat hs
      pure (Layer.linear i h.toNat :: a :: d ++ r.1, r.2)

/-- A bundle whose optimizer has every parameter (factory.py:104-108). -/
def bundleAll (net : Net) (ema : Bool) (seed : Int) (device : String) (lr wd : Rat) : Except PyErr Bundle := do
  adamw lr wd
  pure ⟨net, if ema then some net else none, seed, device, .all, none⟩

/-- The hidden sizes (factory.py:77-84, 122-129); `forced` is `force_hidden_sizes`. -/
def mlpHidden (p : Params) : Option (List Int) → Except PyErr (List Int)
  | none => normalizeHidden p.hiddenSizes p.hiddenDim [256, 128]
  | some f => .ok f

/-- `_build_mlp_bundle` and `_build_mlp_feature_bundle` (factory.py:66-162). -/
def buildMlp (sample : Tensor) (classes : Nat) (p : Params) (seed : Int) (ema : Bool) (forced : Option (List Int))
    (withFeat : Bool) : Except PyErr Bundle := do
  let d ← inputDim sample.shape
  let hidden ← mlpHidden p forced
  let r ← hiddenLayers p.activation (p.dropout.getD (1 / 10)) d hidden
  let net := if withFeat then Net.feat r.1 (.linear r.2 classes) else Net.seq (r.1 ++ [.linear r.2 classes])
  bundleAll net ema seed sample.device (p.lr.getD (1 / 1000)) (p.weightDecay.getD 0)

/-- `_infer_image_shape` (factory.py:165-182): the channels. -/
def imageChannels (s : List Nat) (inputShape : Option (List Int)) : Except PyErr Nat :=
  match s with
  | [_, c, _, _] => .ok c
  | [_, _, _] => .ok 1
  | [_, _] =>
    match inputShape with
    | none => .error .validation
    | some [_, _] => .ok 1
    | some [c, _, _] => size c
    | some _ => .error .validation
  | _ => .error .validation

/-- `_infer_audio_channels` (factory.py:231-245). -/
def audioChannels (s : List Nat) (inputShape : Option (List Int)) : Except PyErr Nat :=
  match s with
  | [_, c, _] => .ok c
  | [_] => match inputShape with
    | some [c, _] => size c
    | _ => .ok 1
  | [_, _] => match inputShape with
    | some [c, _] => size c
    | _ => .ok 1
  | _ => .error .validation

/-- The convolutions of `_ImageCNN` and `_AudioCNN` (image_cnn.py:61-74, audio_cnn.py:61-74), with the last channels. -/
def convLayers (conv : Nat → Nat → Nat → Nat → Layer) (act : String) (k : Nat) :
    Nat → List Int → Except PyErr (List Layer × Nat)
  | i, [] => .ok ([], i)
  | i, c :: cs => do
    let o ← size c
    let a ← mkAct act
    let r ← convLayers conv act k o cs
    pure (conv i o k (k / 2) :: a :: r.1, r.2)

/-- The head of `_ImageCNN` and `_AudioCNN` (image_cnn.py:77-86). -/
def cnnHead (act : String) (dropout : Rat) (current : Nat) (fc : Int) (classes : Nat) : Except PyErr (List Layer) :=
  if 0 < fc then do
    let a ← mkAct act
    let d ← dropoutIf dropout
    pure (Layer.linear current fc.toNat :: a :: d ++ [Layer.linear fc.toNat classes])
  else .ok [.linear current classes]

/-- `_build_image_cnn_bundle` (factory.py:185-228). -/
def buildImageCnn (sample : Tensor) (classes : Nat) (p : Params) (seed : Int) (ema : Bool) : Except PyErr Bundle := do
  let c ← imageChannels sample.shape p.inputShape
  let k ← size (p.kernelSize.getD 3)
  let r ← convLayers .conv2 p.activation k c (p.convChannels.getD [32, 64])
  let head ← cnnHead p.activation (p.dropout.getD (1 / 5)) r.2 (p.fcDim.getD 128) classes
  bundleAll (.cnn r.1 .pool2 head true) ema seed sample.device (p.lr.getD (1 / 1000)) (p.weightDecay.getD 0)

/-- `_build_audio_cnn_bundle` (factory.py:248-283). -/
def buildAudioCnn (sample : Tensor) (classes : Nat) (p : Params) (seed : Int) (ema : Bool) : Except PyErr Bundle := do
  let c ← audioChannels sample.shape p.inputShape
  let k ← size (p.kernelSize.getD 5)
  let r ← convLayers .conv1 p.activation k c (p.convChannels.getD [16, 32])
  let head ← cnnHead p.activation (p.dropout.getD (1 / 5)) r.2 (p.fcDim.getD 64) classes
  bundleAll (.cnn r.1 .pool1 head false) ema seed sample.device (p.lr.getD (1 / 1000)) (p.weightDecay.getD 0)

/-- `_infer_text_shape` (factory.py:286-298): channels and sequence length. -/
def textShape (s : List Nat) (layout : String) : Except PyErr (Nat × Nat) :=
  match s with
  | [_, a, b] =>
    if layout = "channels_last" then .ok (b, a)
    else if layout = "channels_first" then .ok (a, b)
    else .error .validation
  | [_, l] => .ok (1, l)
  | _ => .error .validation

/-- `_build_text_cnn_bundle` (factory.py:301-337). -/
def buildTextCnn (sample : Tensor) (classes : Nat) (p : Params) (seed : Int) (ema : Bool) : Except PyErr Bundle := do
  let cl ← textShape sample.shape (p.inputLayout.getD "channels_last")
  let usable := (p.kernelSizes.getD [3, 4, 5]).filter (fun k => decide (k ≤ (cl.2 : Int)))
  if usable = [] then .error .validation
  else do
    let f ← size (p.numFilters.getD 100)
    let ks ← usable.mapM size
    let _ ← mkAct p.activation
    let _ ← mkDropout (p.dropout.getD (1 / 2))
    bundleAll (.text (ks.map (fun k => (cl.1, f, k))) (.linear (f * ks.length) classes)) ema seed sample.device
      (p.lr.getD (1 / 1000)) (p.weightDecay.getD 0)

/-- `vocab_size` (factory.py:597-600). -/
def vocabOf (p : Params) (sample : Tensor) : Except PyErr Int :=
  let v := p.vocabSize.getD 0
  if v ≤ 0 then
    if sample.floating then .ok 20000
    else match sample.values with
      | [] => .error .runtimeError
      | a :: l => .ok (l.foldl max a + 1)
  else .ok v

/-- `hidden_dim` (factory.py:602-612). -/
def lstmHidden (p : Params) : Except PyErr Int :=
  match p.hiddenDim with
  | some h => .ok h
  | none =>
    match p.hiddenSize with
    | some h => .ok h
    | none =>
      match p.hiddenSizes with
      | none => .ok 128
      | some (.int h) => .ok h
      | some (.seq (h :: _)) => .ok h
      | some _ => .error .typeError

/-- `_build_lstm_bundle` (factory.py:586-690).  `torch.nn.LSTM` refuses a hidden size or a number of layers that is not
positive. -/
def buildLstm (sample0 : Tensor) (classes : Nat) (p : Params) (seed : Int) (ema : Bool) : Except PyErr Bundle := do
  let sample := takeSample sample0
  let v ← vocabOf p sample
  let vocab ← size v
  let embed ← size (p.embedDim.getD 128)
  let h ← lstmHidden p
  if h ≤ 0 ∨ p.numLayers.getD 1 ≤ 0 then .error .valueError
  else do
    let _ ← mkDropout (p.dropout.getD 0)
    let bi := p.bidirectional.getD true
    let b ← bundleAll (.lstm vocab embed h.toNat bi p.returnFeatures classes) ema seed sample.device
      (p.lr.getD (1 / 1000)) (p.weightDecay.getD 0)
    pure { b with features := some (lstmFeatures vocab embed h.toNat bi) }

/-- The sizes between input and output (factory.py:716-731, 779-782). -/
def sageHidden (p : Params) : Except PyErr (List Int) :=
  match p.hiddenSizes with
  | none => .ok (List.replicate (p.numLayers.getD 2 - 1).toNat (p.hiddenChannels.getD 128))
  | some .other => .error .validation
  | some a =>
    let l := match a with
      | .int n => [n]
      | .seq l => l
      | .other => []
    if l.any (fun h => decide (h ≤ 0)) then .error .validation
    else match p.numLayers with
      | none => .ok l
      | some n => if n ≠ (l.length : Int) + 1 then .error .validation else .ok l

/-- `sample.shape[-1]`. -/
def lastDim (s : List Nat) : Except PyErr Nat :=
  match s.getLast? with
  | none => .error .indexError
  | some d => .ok d

/-- `_build_graphsage_bundle` (factory.py:693-786) on node features. -/
def buildSage (sample : Tensor) (classes : Nat) (p : Params) (seed : Int) (ema : Bool) : Except PyErr Bundle := do
  let l ← sageHidden p
  let i ← lastDim sample.shape
  let hs ← l.mapM size
  bundleAll (.sage (i :: hs ++ [classes])) ema seed sample.device (p.lr.getD (1 / 100)) (p.weightDecay.getD (1 / 2000))

/-- What the pretrained backends provide: `_load_model` with `_replace_classifier` and `_infer_in_channels`
(image_pretrained.py:82-150), and `_load_bundle(...).get_model()` (audio_pretrained.py:24-44). -/
structure Ext where
  image : String → Except PyErr Backbone
  audio : String → Except PyErr Backbone

/-- `_parse_image_input_shape` (factory.py:340-350). -/
def parseShape : Option (List Int) → Except PyErr (Option (Nat × Nat × Nat))
  | none => .ok none
  | some [h, w] => .ok (some (1, h.toNat, w.toNat))
  | some [c, h, w] => .ok (some (c.toNat, h.toNat, w.toNat))
  | some _ => .error .validation

/-- A bundle whose optimizer has the head only when the rest is frozen. -/
def bundleFrozen (net : Net) (ema : Bool) (seed : Int) (device : String) (freeze : Bool) (lr wd : Rat) :
    Except PyErr Bundle := do
  adamw lr wd
  pure ⟨net, if ema then some net else none, seed, device, if freeze then .head else .all, none⟩

/-- `_build_image_pretrained_bundle` (factory.py:353-493). -/
def buildImagePre (ext : Ext) (sample : Tensor) (classes : Nat) (p : Params) (seed : Int) (ema : Bool) :
    Except PyErr Bundle := do
  let shape ← parseShape p.inputShape
  let b ← ext.image p.modelName
  bundleFrozen (.image b (p.inputLayout.getD "channels_first") shape p.repeatGray p.returnFeatures classes) ema seed
    sample.device p.freeze (p.lr.getD (1 / 10000)) (p.weightDecay.getD (1 / 10000))

/-- `_build_audio_pretrained_bundle` (factory.py:513-583): the width of the head is read off the features of the sample. -/
def buildAudioPre (ext : Ext) (sample : Tensor) (classes : Nat) (p : Params) (seed : Int) (ema : Bool) :
    Except PyErr Bundle := do
  let b ← ext.audio p.audioBundle
  let x ← prepareAudio (takeSample sample).shape
  let f ← audioFeats b x
  bundleFrozen (.audio b (f.getD 1 0) p.returnFeatures classes) ema seed sample.device p.freeze
    (p.lr.getD (1 / 10000)) (p.weightDecay.getD (1 / 10000))

/-- The choice of the builder (factory.py:826-911). -/
def dispatch (ext : Ext) (id : String) (sample : Tensor) (classes : Nat) (p : Params) (seed : Int) (ema : Bool) :
    Except PyErr Bundle :=
  if id = "mlp" then buildMlp sample classes p seed ema none p.returnFeatures
  else if id = "logreg" then buildMlp sample classes p seed ema (some []) p.returnFeatures
  else if id = "image_cnn" then buildImageCnn sample classes p seed ema
  else if id = "audio_cnn" then buildAudioCnn sample classes p seed ema
  else if id = "text_cnn" then buildTextCnn sample classes p seed ema
  else if id = "image_pretrained" then buildImagePre ext sample classes p seed ema
  else if id = "audio_pretrained" then buildAudioPre ext sample classes p seed ema
  else if id = "lstm_scratch" then buildLstm sample classes p seed ema
  else if id = "graphsage_inductive" then buildSage sample classes p seed ema
  else .error .validation

/-- The resolved backend (factory.py:799-801). -/
def backendOf : Option String → String
  | none => "torch"
  | some b => if b = "" ∨ b = "auto" then "torch" else b

/-- `build_torch_bundle_from_classifier` (factory.py:789-916) on a tensor sample. -/
def build (ext : Ext) (id : String) (backend : Option String) (p : Params) (sample : Tensor) (classes : Option Int)
    (seed : Int) (ema : Bool) : Except PyErr Bundle :=
  if backendOf backend ≠ "torch" then .error .validation
  else match classes with
    | none => .error .validation
    | some c =>
      if c ≤ 0 then .error .validation
      else dispatch ext id (takeSample sample) c.toNat p seed ema

end ModSSC.Deep.Bundle
