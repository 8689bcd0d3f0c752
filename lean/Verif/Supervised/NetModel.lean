import Verif.Supervised.KnnModel
import Verif.Deep.BatchModel

/-!
# Model of the torch classifiers that are trained by gradient steps

`src/modssc/supervised/backends/torch/`: `logreg.py`, `mlp.py`, `image_cnn.py`, `image_pretrained.py`,
`lstm_scratch.py`, `graphsage_inductive.py` and `common.py`.

Modelled: the checks of `fit`, the label encoding, when the random generator of torch is seeded, the order of the rows
in the epochs, what is written to the classifier and when, and predicting.  The network is a parameter: how its weights
are initialised, what one optimiser step does to them (it may raise), and its output.  Not modelled: number types,
logging and timing.
-/

namespace ModSSC.Supervised.Net
open ModSSC Supervised

/-- A network and torch's global generator.  `R` is a sample, `P` the weights with the optimiser's state, `W` a
generator's state. -/
structure Nn (R P W K : Type) where
  /-- `torch.manual_seed` -/
  manualSeed : Int → W
  /-- The layers for this many inputs and classes, or an exception (an unknown activation, say). -/
  init : Nat → Nat → W → Except PyErr P × W
  /-- `torch.randperm` -/
  randperm : W → Nat → List Nat × W
  /-- Forward pass, loss, backward pass and `optimizer.step()` on one batch of samples and class positions. -/
  step : P → List (R × Nat) → W → Except PyErr P × W
  /-- The number of inputs the layers expect. -/
  inputs : P → Nat
  /-- The output for one sample in evaluation mode. -/
  logits : P → R → List K
  /-- `torch.softmax` of one row. -/
  softmax : List K → List K

/-- The constructor arguments that `fit` checks or uses itself. -/
structure Hyper where
  batchSize : Int
  maxEpochs : Int
  seed : Option Int
  /-- `lr > 0` -/
  lrPositive : Bool
  /-- `0 <= dropout < 1` -/
  dropoutOk : Bool
  hiddenSizes : List Int

/-- `int(self.seed or 0)` (torch/logreg.py:95, mlp.py:122). -/
def Hyper.seedOr0 (h : Hyper) : Int := h.seed.getD 0

/-- The attributes that `fit` sets (mlp.py:63-64, image_cnn.py:129-131): the classes with their device, the trained
network, and the sample shape of the image classifiers. -/
structure NetState (α P : Type) where
  classes : Option (Nat × List α)
  model : Option P
  shape : Option (Nat × Nat × Nat)
deriving DecidableEq

/-- A new classifier. -/
def NetState.fresh {α P : Type} : NetState α P := ⟨none, none, none⟩

/-- A tensor with at most two axes after flattening, on a device. -/
structure Dense (K : Type) where
  device : Nat
  arr : ArrIn K

/-- Labels on a device, read in order as `view(-1)` does. -/
structure Targets (α : Type) where
  device : Nat
  flat : List α

section
variable {R P W K α : Type} [LinearOrder α]

/-- The batches of one epoch: `range(0, n, batch_size)` and the optimiser steps (mlp.py:146-152, torch/logreg.py:100-106,
image_cnn.py:240-246).  The weights when it ends, also when a step raises. -/
def trainBatches (nn : Nn R P W K) (data : List (R × Nat)) : List (List Nat) → P → W → (P × W) × Option PyErr
  | [], p, w => ((p, w), none)
  | B :: Bs, p, w =>
    match nn.step p (B.filterMap fun i => data[i]?) w with
    | (.error e, w1) => ((p, w1), some e)
    | (.ok p1, w1) => trainBatches nn data Bs p1 w1

/-- The epochs (mlp.py:142-152, torch/logreg.py:96-106, image_cnn.py:236-246). -/
def trainEpochs (nn : Nn R P W K) (data : List (R × Nat)) (b : Nat) : Nat → P → W → (P × W) × Option PyErr
  | 0, p, w => ((p, w), none)
  | e + 1, p, w =>
    let order := nn.randperm w data.length
    match trainBatches nn data (Deep.iterBatchIndices data.length b order.1) p order.2 with
    | ((p1, w1), some err) => ((p1, w1), some err)
    | ((p1, w1), none) => trainEpochs nn data b e p1 w1

/-- The checks of `X` and `y` in torch/logreg.py:57-76 and mlp.py:84-103. -/
def denseIn (X : Option (Dense K)) (y : Option (Targets α)) : Except PyErr (Arr2 K × Nat × List α) :=
  match X, y with
  | none, _ => .error .validation
  | some _, none => .error .validation
  | some X, some y =>
    match ensure2d X.arr with
    | .error e => .error e
    | .ok X2 =>
      if X2.rows.length ≠ y.flat.length then .error .validation
      else if X2.rows.length * X2.width = 0 then .error .validation
      else if X.device ≠ y.device then .error .validation
      else .ok (X2, X.device, y.flat)

/-- torch/logreg.py:78-81. -/
def hyperLogreg (h : Hyper) : Except PyErr Unit :=
  if h.batchSize ≤ 0 then .error .validation else if h.maxEpochs ≤ 0 then .error .validation else .ok ()

/-- mlp.py:105-116. -/
def hyperMlp (h : Hyper) : Except PyErr Unit :=
  if h.batchSize ≤ 0 then .error .validation
  else if h.maxEpochs ≤ 0 then .error .validation
  else if h.lrPositive = false then .error .validation
  else if h.dropoutOk = false then .error .validation
  else if h.hiddenSizes.any (fun s => decide (s ≤ 0)) then .error .validation
  else .ok ()

/-- Samples with the position of their label among the classes: `torch.unique(y, return_inverse=True)`. -/
def encoded (rows : List R) (y : List α) : List (R × Nat) := rows.zip (Labels.encodeLabels y).1

/-- `TorchMLPClassifier.fit` (mlp.py:66-161): the attributes and torch's generator afterwards, and the sizes it
returns or the exception it raises.  The classes are stored before training, the network after it. -/
def fitMlp (nn : Nn (List K) P W K) (h : Hyper) (st : NetState α P) (w : W) (X : Option (Dense K))
    (y : Option (Targets α)) : (NetState α P × W) × Except PyErr (Nat × Nat × Nat) :=
  match (do let d ← denseIn X y; hyperMlp h; Except.ok d) with
  | .error e => ((st, w), .error e)
  | .ok (X2, dev, ys) =>
    let classes := (Labels.encodeLabels ys).2
    let st1 := { st with classes := some (dev, classes) }
    match nn.init X2.width classes.length (nn.manualSeed h.seedOr0) with
    | (.error e, w1) => ((st1, w1), .error e)
    | (.ok p, w1) =>
      match trainEpochs nn (encoded X2.rows ys) h.batchSize.toNat h.maxEpochs.toNat p w1 with
      | ((_, w2), some e) => ((st1, w2), .error e)
      | ((p1, w2), none) => (({ st1 with model := some p1 }, w2), .ok (X2.rows.length, X2.width, classes.length))

/-- `TorchLogRegClassifier.fit` (torch/logreg.py:43-115).  The layer is created before the generator is seeded. -/
def fitLogreg (nn : Nn (List K) P W K) (h : Hyper) (st : NetState α P) (w : W) (X : Option (Dense K))
    (y : Option (Targets α)) : (NetState α P × W) × Except PyErr (Nat × Nat × Nat) :=
  match (do let d ← denseIn X y; hyperLogreg h; Except.ok d) with
  | .error e => ((st, w), .error e)
  | .ok (X2, dev, ys) =>
    let classes := (Labels.encodeLabels ys).2
    let st1 := { st with classes := some (dev, classes) }
    match nn.init X2.width classes.length w with
    | (.error e, w1) => ((st1, w1), .error e)
    | (.ok p, _) =>
      match trainEpochs nn (encoded X2.rows ys) h.batchSize.toNat h.maxEpochs.toNat p (nn.manualSeed h.seedOr0) with
      | ((_, w2), some e) => ((st1, w2), .error e)
      | ((p1, w2), none) => (({ st1 with model := some p1 }, w2), .ok (X2.rows.length, X2.width, classes.length))

/-- `_scores` of both (torch/logreg.py:117-134, mlp.py:163-180); a layer refuses another number of inputs. -/
def denseScores (nn : Nn (List K) P W K) (st : NetState α P) (X : Option (Dense K)) : Except PyErr (List (List K)) :=
  match st.model, st.classes with
  | some p, some (dev, _) =>
    match X with
    | none => .error .validation
    | some X => do
      let X2 ← ensure2d X.arr
      if X.device ≠ dev then .error .validation
      else if X2.width ≠ nn.inputs p then .error .runtimeError
      else .ok (X2.rows.map fun r => nn.softmax (nn.logits p r))
  | _, _ => .error .runtimeError

/-- The class at the position of the largest score of one row (torch/common.py:27-29); positions beyond the classes raise. -/
def classAt [Field K] [LinearOrder K] (cs : List α) (row : List K) : Except PyErr α :=
  match cs[argmax row]? with
  | some c => .ok c
  | none => .error .indexError

/-- `predict_from_scores` (torch/common.py:25-29): `argmax` per row, then the class at this position. -/
def decode [Field K] [LinearOrder K] (classes : Option (Nat × List α)) (scores : List (List K)) : Except PyErr (List α) :=
  match classes with
  | none => .error .runtimeError
  | some (_, cs) => scores.mapM (classAt cs)

/-- `TorchArgmaxPredictMixin.predict` (torch/common.py:40-41) of the dense classifiers. -/
def densePredict [Field K] [LinearOrder K] (nn : Nn (List K) P W K) (st : NetState α P) (X : Option (Dense K)) :
    Except PyErr (List α) := do
  let s ← denseScores nn st X
  decode st.classes s

/-! ### Images -/

/-- An image tensor: its axes, and the entries of each sample in order.  `reshape` and `unsqueeze` keep them. -/
structure Img (K : Type) where
  device : Nat
  dims : List Nat
  rows : List (List K)

/-- A sample with its channels, height and width. -/
abbrev Pic (K : Type) := (Nat × Nat × Nat) × List K

/-- How `_prepare_X` reads the axes (image_cnn.py:136-153, image_pretrained.py:200-235): the fitted shape, or else the
one given to the constructor, is used for rows. -/
def shapeOf (cfg fitted : Option (Nat × Nat × Nat)) (dims : List Nat) : Except PyErr (Nat × Nat × Nat) :=
  match dims with
  | [_, c, h, w] => .ok (c, h, w)
  | [_, h, w] => .ok (1, h, w)
  | [_, f] =>
    match fitted.or cfg with
    | none => .error .validation
    | some s => if f ≠ s.1 * s.2.1 * s.2.2 then .error .validation else .ok s
  | _ => .error .validation

/-- The end of `_prepare_X` (image_cnn.py:155-159, image_pretrained.py:237-240): store the shape, or compare with it. -/
def settle (fitted : Option (Nat × Nat × Nat)) (infer : Bool) (s : Nat × Nat × Nat) (rows : List (List K)) :
    Option (Nat × Nat × Nat) × Except PyErr ((Nat × Nat × Nat) × List (List K)) :=
  if infer then (some s, .ok (s, rows))
  else if fitted.any (fun s' => decide (s ≠ s')) then (fitted, .error .validation)
  else (fitted, .ok (s, rows))

/-- `_prepare_X` (image_cnn.py:133-159, image_pretrained.py:195-257): the attribute `_input_shape` afterwards, and the
samples or an exception.  `cfg` is the shape given to the constructor, already parsed.  Simplification for
image_pretrained: channels first, as many channels as the network expects. -/
def prepareImg (cfg fitted : Option (Nat × Nat × Nat)) (infer : Bool) (X : Img K) :
    Option (Nat × Nat × Nat) × Except PyErr ((Nat × Nat × Nat) × List (List K)) :=
  match shapeOf cfg fitted X.dims with
  | .error e => (fitted, .error e)
  | .ok s => settle fitted infer s X.rows

/-- The checks of the parameters, image_cnn.py:195-211 (those of the layer sizes: `hiddenSizes` positive and given). -/
def hyperConv (h : Hyper) : Except PyErr Unit :=
  if h.hiddenSizes = [] then .error .validation
  else if h.batchSize ≤ 0 then .error .validation
  else if h.maxEpochs ≤ 0 then .error .validation
  else if h.lrPositive = false then .error .validation
  else if h.dropoutOk = false then .error .validation
  else if h.hiddenSizes.any (fun s => decide (s ≤ 0)) then .error .validation
  else .ok ()

/-- The number of entries of a shape. -/
def volume (s : Nat × Nat × Nat) : Nat := s.1 * s.2.1 * s.2.2

/-- `TorchImageCNNClassifier.fit` (image_cnn.py:161-258; the same skeleton in audio_cnn.py:170-266).  The shape is
stored before any other check, the classes before training, the network after it. -/
def fitConv (nn : Nn (Pic K) P W K) (h : Hyper) (cfg : Option (Nat × Nat × Nat)) (st : NetState α P) (w : W)
    (X : Option (Img K)) (y : Option (Targets α)) : (NetState α P × W) × Except PyErr (Nat × Nat × Nat) :=
  match y, X with
  | none, _ => ((st, w), .error .validation)
  | some _, none => ((st, w), .error .validation)
  | some y, some X =>
    match prepareImg cfg st.shape true X with
    | (sh, .error e) => (({ st with shape := sh }, w), .error e)
    | (sh, .ok (s, rows)) =>
      let st0 := { st with shape := sh }
      if rows.length ≠ y.flat.length then ((st0, w), .error .validation)
      else if rows.length * volume s = 0 then ((st0, w), .error .validation)
      else if X.device ≠ y.device then ((st0, w), .error .validation)
      else match hyperConv h with
        | .error e => ((st0, w), .error e)
        | .ok () =>
          let classes := (Labels.encodeLabels y.flat).2
          let st1 := { st0 with classes := some (X.device, classes) }
          match nn.init s.1 classes.length (nn.manualSeed h.seedOr0) with
          | (.error e, w1) => ((st1, w1), .error e)
          | (.ok p, w1) =>
            match trainEpochs nn (encoded (rows.map fun r => (s, r)) y.flat) h.batchSize.toNat h.maxEpochs.toNat p w1 with
            | ((_, w2), some e) => ((st1, w2), .error e)
            | ((p1, w2), none) => (({ st1 with model := some p1 }, w2), .ok (rows.length, volume s, classes.length))

/-- The checks of the parameters in image_pretrained.py:302-307. -/
def hyperPre (h : Hyper) : Except PyErr Unit :=
  if h.batchSize ≤ 0 then .error .validation
  else if h.maxEpochs ≤ 0 then .error .validation
  else if h.lrPositive = false then .error .validation
  else .ok ()

/-- `TorchImagePretrainedClassifier.fit` (image_pretrained.py:267-379).  Classes and network are stored before the
samples are looked at, and the stored network is the one that is trained. -/
def fitPre (nn : Nn (Pic K) P W K) (h : Hyper) (cfg : Option (Nat × Nat × Nat)) (st : NetState α P) (w : W)
    (X : Option (Img K)) (y : Option (Targets α)) : (NetState α P × W) × Except PyErr (Nat × Nat × Nat) :=
  match X, y with
  | none, _ => ((st, w), .error .validation)
  | some _, none => ((st, w), .error .validation)
  | some X, some y =>
    match hyperPre h with
    | .error e => ((st, w), .error e)
    | .ok () =>
      if X.dims.prod = 0 then ((st, w), .error .validation)
      else if X.device ≠ y.device then ((st, w), .error .validation)
      else
        let classes := (Labels.encodeLabels y.flat).2
        let st1 := { st with classes := some (X.device, classes) }
        match nn.init 0 classes.length (nn.manualSeed h.seedOr0) with
        | (.error e, w1) => ((st1, w1), .error e)
        | (.ok p, w1) =>
          let st2 := { st1 with model := some p }
          match prepareImg cfg st.shape true X with
          | (sh, .error e) => (({ st2 with shape := sh }, w1), .error e)
          | (sh, .ok (s, rows)) =>
            let st3 := { st2 with shape := sh }
            if rows.length ≠ y.flat.length then ((st3, w1), .error .validation)
            else match trainEpochs nn (encoded (rows.map fun r => (s, r)) y.flat) h.batchSize.toNat h.maxEpochs.toNat
                p w1 with
              | ((p1, w2), some e) => (({ st3 with model := some p1 }, w2), .error e)
              | ((p1, w2), none) => (({ st3 with model := some p1 }, w2), .ok (rows.length, volume s, classes.length))

/-- `make_softmax_scores_method` (torch/common.py:123-135). -/
def imgScores (nn : Nn (Pic K) P W K) (cfg : Option (Nat × Nat × Nat)) (st : NetState α P) (X : Option (Img K)) :
    Except PyErr (List (List K)) :=
  match st.model, st.classes with
  | some p, some (dev, _) =>
    match X with
    | none => .error .validation
    | some X => do
      let d ← (prepareImg cfg st.shape false X).2
      if X.device ≠ dev then .error .validation
      else .ok (d.2.map fun r => nn.softmax (nn.logits p (d.1, r)))
  | _, _ => .error .runtimeError

/-- `predict` of the image classifiers (torch/common.py:40-41). -/
def imgPredict [Field K] [LinearOrder K] (nn : Nn (Pic K) P W K) (cfg : Option (Nat × Nat × Nat)) (st : NetState α P)
    (X : Option (Img K)) : Except PyErr (List α) := do
  let s ← imgScores nn cfg st X
  decode st.classes s

/-! ### Training with a `DataLoader` -/

/-- The epochs of a `DataLoader(shuffle=True, generator=g)` (lstm_scratch.py:160-178, audio_cnn_scratch.py:172-190):
the order of each epoch comes from the loader's own generator `g`, or from torch's if there is none. -/
def loaderEpochs (nn : Nn R P W K) (data : List (R × Nat)) (b : Nat) :
    Nat → P → Option W → W → (P × W) × Option PyErr
  | 0, p, _, w => ((p, w), none)
  | e + 1, p, g, w =>
    let order := nn.randperm (g.getD w) data.length
    let g1 := g.map fun _ => order.2
    let w0 := if g.isSome then w else order.2
    match trainBatches nn data (Deep.iterBatchIndices data.length b order.1) p w0 with
    | ((p1, w1), some err) => ((p1, w1), some err)
    | ((p1, w1), none) => loaderEpochs nn data b e p1 g1 w1

/-- `TorchLSTMClassifier.fit` on tensors (lstm_scratch.py:98-185; the same skeleton in audio_cnn_scratch.py:99-201).
The seed is used when there is one; classes and network are stored before training; `DataLoader` refuses a batch size
below one; the number of epochs is not checked. -/
def fitLoader (nn : Nn R P W K) (h : Hyper) (st : NetState α P) (w : W) (device : Nat) (width : Nat) (rows : List R)
    (y : Targets α) : (NetState α P × W) × Except PyErr (Nat × Nat × Nat) :=
  let w0 := (h.seed.map nn.manualSeed).getD w
  if rows.length = 0 then ((st, w0), .error .validation)
  else if y.flat.length = 0 then ((st, w0), .error .validation)
  else if rows.length ≠ y.flat.length then ((st, w0), .error .validation)
  else if device ≠ y.device then ((st, w0), .error .validation)
  else
    let classes := (Labels.encodeLabels y.flat).2
    let st1 := { st with classes := some (device, classes) }
    match nn.init width classes.length w0 with
    | (.error e, w1) => ((st1, w1), .error e)
    | (.ok p, w1) =>
      if h.batchSize ≤ 0 then (({ st1 with model := some p }, w1), .error .valueError)
      else match loaderEpochs nn (encoded rows y.flat) h.batchSize.toNat h.maxEpochs.toNat p (h.seed.map nn.manualSeed)
          w1 with
        | ((p1, w2), some e) => (({ st1 with model := some p1 }, w2), .error e)
        | ((p1, w2), none) => (({ st1 with model := some p1 }, w2), .ok (rows.length, width, classes.length))

/-- `_scores` of the same classifiers on a tensor (lstm_scratch.py:187-203). -/
def loaderScores (nn : Nn R P W K) (st : NetState α P) (device : Nat) (rows : List R) : Except PyErr (List (List K)) :=
  match st.model, st.classes with
  | some p, some (dev, _) =>
    if rows.length = 0 then .error .validation
    else if device ≠ dev then .error .validation
    else .ok (rows.map fun r => nn.softmax (nn.logits p r))
  | _, _ => .error .runtimeError

end

/-! ### GraphSAGE -/

/-- A graph network: `Gr` is a graph with node features. -/
structure GraphNn (Gr P W K : Type) where
  manualSeed : Int → W
  nodes : Gr → Nat
  init : Gr → Nat → W → Except PyErr P × W
  /-- One full-batch step with a label per node. -/
  step : P → Gr → List Int → W → Except PyErr P × W
  logits : P → Gr → List (List K)
  softmax : List K → List K

section
variable {Gr P W K : Type}

/-- The full-batch epochs (graphsage_inductive.py:200-207). -/
def sageEpochs (nn : GraphNn Gr P W K) (g : Gr) (y : List Int) : Nat → P → W → (P × W) × Option PyErr
  | 0, p, w => ((p, w), none)
  | e + 1, p, w =>
    match nn.step p g y w with
    | (.error err, w1) => ((p, w1), some err)
    | (.ok p1, w1) => sageEpochs nn g y e p1 w1

/-- The largest label (graphsage_inductive.py:153). -/
def maxLabel : List Int → Option Int
  | [] => none
  | a :: l => some (l.foldl max a)

/-- `TorchGraphSAGEClassifier.fit` (graphsage_inductive.py:132-213).  The classes are `0, 1, …, max`. -/
def fitSage (nn : GraphNn Gr P W K) (h : Hyper) (st : NetState Int P) (w : W) (g : Gr) (y : List Int) :
    (NetState Int P × W) × Except PyErr (Nat × Nat) :=
  let w0 := (h.seed.map nn.manualSeed).getD w
  if y.length ≠ nn.nodes g then ((st, w0), .error .valueError)
  else match maxLabel y with
    | none => ((st, w0), .error .runtimeError)
    | some m =>
      let n := m + 1
      if n < 0 then ((st, w0), .error .runtimeError)
      else
        let classes := (List.range n.toNat).map fun (i : Nat) => (i : Int)
        let st1 := { st with classes := some (0, classes) }
        match nn.init g n.toNat w0 with
        | (.error e, w1) => ((st1, w1), .error e)
        | (.ok p, w1) =>
          match sageEpochs nn g y h.maxEpochs.toNat p w1 with
          | ((p1, w2), some e) => (({ st1 with model := some p1 }, w2), .error e)
          | ((p1, w2), none) => (({ st1 with model := some p1 }, w2), .ok (nn.nodes g, n.toNat))

/-- `predict` (graphsage_inductive.py:215-246). -/
def sagePredict [Field K] [LinearOrder K] (nn : GraphNn Gr P W K) (st : NetState Int P) (g : Gr) :
    Except PyErr (List Int) :=
  match st.model with
  | none => .error .typeError
  | some p => decode st.classes ((nn.logits p g).map nn.softmax)

end

end ModSSC.Supervised.Net
