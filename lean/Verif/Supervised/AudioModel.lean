import Verif.Supervised.NetModel

/-!
# The pretrained audio classifier

Model of `src/modssc/supervised/backends/torch/audio_pretrained.py`.  The pretrained backbone, the linear head, their optimiser and torch's
generator are parameters.  Not modelled: downloads, floating point, running statistics of layers of the backbone.
-/

namespace ModSSC.Supervised.AudioPre
open ModSSC Supervised Supervised.Net

/-- What a backbone may return for a batch: a tensor with three axes (waveform, time, feature), with two, with another number, or something
else, alone or in a tuple or a list. -/
inductive Out (K : Type) where
  | t3 (x : List (List (List K)))
  | t2 (x : List (List K))
  | other
  | noTensor
  | tuple (l : List (Out K))
  | list (l : List (Out K))

section
variable {K : Type} [Field K]

/-- `feats.mean(dim=1)` for one waveform (audio_pretrained.py:61-62): frames of `F` features. -/
def meanTime (frames : List (List K)) : List K :=
  (List.range (frames.headD []).length).map fun j => (frames.map fun f => f.getD j 0).sum / (frames.length : K)

/-- The tensor taken out of tuples and lists (audio_pretrained.py:53-56). -/
def unwrap (o : Out K) : Except PyErr (Out K) := do
  let o1 ← match o with
    | .tuple l => match l with
      | [] => .error .indexError
      | a :: _ => .ok a
    | o => .ok o
  match o1 with
  | .tuple l | .list l => match l.getLast? with
    | none => .error .indexError
    | some a => .ok a
  | o => .ok o

/-- `_extract_features` after the call of the backbone (audio_pretrained.py:53-65). -/
def features (o : Out K) : Except PyErr (List (List K)) := do
  match ← unwrap o with
  | .t3 x => .ok (x.map meanTime)
  | .t2 x => .ok x
  | _ => .error .validation

end

/-- The parts that are not modelled: `B` is a backbone, `H` a linear head (each with the optimiser's state). -/
structure Audio (B H W K : Type) where
  manualSeed : Int → W
  randperm : W → Nat → List Nat × W
  /-- `_load_bundle` and `_load_bundle_model` (audio_pretrained.py:24-44). -/
  pretrained : Except PyErr B
  /-- The call of the backbone (audio_pretrained.py:48-51); the flag is its training mode. -/
  out : B → Bool → List (List K) → Out K
  headInit : Nat → Nat → W → H × W
  headInputs : H → Nat
  headLogits : H → List K → List K
  /-- An optimiser step of the head on features, or of both on waveforms (audio_pretrained.py:205-209). -/
  stepHead : H → List (List K × Nat) → H
  stepBoth : B → H → List (List K × Nat) → B × H
  softmax : List K → List K

/-- A tensor: device, axes and cells. -/
structure Waves (K : Type) where
  device : Nat
  dims : List Nat
  cell : List Nat → K

/-- `_prepare_X` (audio_pretrained.py:98-113). -/
def prepare {K : Type} (X : Waves K) : Except PyErr (List (List K)) :=
  match X.dims with
  | [t] => .ok [(List.range t).map fun j => X.cell [j]]
  | [n, t] => .ok ((List.range n).map fun i => (List.range t).map fun j => X.cell [i, j])
  | [n, c, t] => if c ≠ 1 then .error .validation else .ok ((List.range n).map fun i => (List.range t).map fun j => X.cell [i, 0, j])
  | _ => .error .validation

/-- The attributes that `fit` sets (audio_pretrained.py:93-95). -/
structure AudioState (α B H : Type) where
  classes : Option (Nat × List α)
  backbone : Option B
  head : Option H
deriving DecidableEq

/-- A new classifier. -/
def AudioState.fresh {α B H : Type} : AudioState α B H := ⟨none, none, none⟩

section
variable {B H W K α : Type} [Field K] [LinearOrder α]

/-- The features of a batch, which the head must have as many inputs for (audio_pretrained.py:200-205). -/
def headIn (A : Audio B H W K) (b : B) (h : H) (train : Bool) (waves : List (List K)) : Except PyErr (List (List K)) := do
  let fs ← features (A.out b train waves)
  if fs.any fun f => decide (f.length ≠ A.headInputs h) then .error .runtimeError else .ok fs

/-- One optimiser step (audio_pretrained.py:199-209).  A frozen backbone stays in evaluation mode (118-121). -/
def step (A : Audio B H W K) (frozen : Bool) (p : B × H) (batch : List (List K × Nat)) : Except PyErr (B × H) := do
  let fs ← headIn A p.1 p.2 (!frozen) (batch.map Prod.fst)
  if frozen then .ok (p.1, A.stepHead p.2 (fs.zip (batch.map Prod.snd))) else .ok (A.stepBoth p.1 p.2 batch)

/-- Backbone and head as one network, for `Net.trainEpochs`. -/
def nnOf (A : Audio B H W K) (frozen : Bool) : Nn (List K) (B × H) W K where
  manualSeed := A.manualSeed
  init f c w := match A.pretrained with
    | .error e => (.error e, w)
    | .ok b => (.ok (b, (A.headInit f c w).1), (A.headInit f c w).2)
  randperm := A.randperm
  step p batch w := (step A frozen p batch, w)
  inputs p := A.headInputs p.2
  logits p r := A.headLogits p.2 r
  softmax := A.softmax

/-- The checks before anything is stored (audio_pretrained.py:141-160). -/
def checkFit (h : Hyper) (X : Option (Waves K)) (y : Option (Targets α)) : Except PyErr (Waves K × List α) :=
  match X, y with
  | none, _ => .error .validation
  | some _, none => .error .validation
  | some X, some y =>
    if h.batchSize ≤ 0 then .error .validation
    else if h.maxEpochs ≤ 0 then .error .validation
    else if h.lrPositive = false then .error .validation
    else if X.dims.prod = 0 then .error .validation
    else if X.device ≠ y.device then .error .validation
    else .ok (X, y.flat)

/-- `TorchAudioPretrainedClassifier.fit` (audio_pretrained.py:125-217).  The classes, the backbone and the head are stored before they
are trained, and trained in place. -/
def fit (A : Audio B H W K) (frozen : Bool) (h : Hyper) (st : AudioState α B H) (w : W) (X : Option (Waves K)) (y : Option (Targets α)) :
    (AudioState α B H × W) × Except PyErr (Nat × Nat × Nat) :=
  match checkFit h X y with
  | .error e => ((st, w), .error e)
  | .ok (X, ys) =>
    let classes := (Labels.encodeLabels ys).2
    let st1 := { st with classes := some (X.device, classes) }
    let w1 := A.manualSeed h.seedOr0
    match A.pretrained with
    | .error e => ((st1, w1), .error e)
    | .ok b =>
      let st2 := { st1 with backbone := some b }
      match (do
          let rows ← prepare X
          if rows.length ≠ ys.length then .error .validation
          else do
            let fs ← features (A.out b false (rows.take 1))
            Except.ok (rows, (fs.headD []).length)) with
      | .error e => ((st2, w1), .error e)
      | .ok (rows, width) =>
        let r := A.headInit width classes.length w1
        match trainEpochs (nnOf A frozen) (encoded rows ys) h.batchSize.toNat h.maxEpochs.toNat (b, r.1) r.2 with
        | ((p, w2), some e) => ((⟨st1.classes, some p.1, some p.2⟩, w2), .error e)
        | ((p, w2), none) => ((⟨st1.classes, some p.1, some p.2⟩, w2), .ok (rows.length, width, classes.length))

/-- `_scores` (audio_pretrained.py:219-231). -/
def scores (A : Audio B H W K) (st : AudioState α B H) (X : Option (Waves K)) : Except PyErr (List (List K)) :=
  match st.backbone, st.head, st.classes with
  | some b, some hd, some (dev, _) =>
    match X with
    | none => .error .validation
    | some X => do
      let rows ← prepare X
      if X.device ≠ dev then .error .validation
      else do
        let fs ← headIn A b hd false rows
        .ok (fs.map fun f => A.softmax (A.headLogits hd f))
  | _, _, _ => .error .runtimeError

/-- `predict` (torch/common.py:25-29, 89-90). -/
def predict [LinearOrder K] (A : Audio B H W K) (st : AudioState α B H) (X : Option (Waves K)) : Except PyErr (List α) := do
  let s ← scores A st X
  decode st.classes s

end

end ModSSC.Supervised.AudioPre
