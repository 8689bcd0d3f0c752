import Verif.Base

/-!
# Embedding steps

`src/modssc/preprocess/models_backends/{stub,open_clip,torchvision_image,sentence_transformers,torchaudio_wav2vec2}.py`,
`src/modssc/preprocess/steps/embeddings/{auto,common}.py`.

Arrays are elements of a type `A` of which the shape and the items along the first axis are known.  A network in evaluation mode
is a parameter `net`: batch to rows.  Casts to float32 and the device are not modelled.
-/

namespace ModSSC.Encode
open ModSSC

/-- What is used of an array: its shape, and `[X[i] for i in range(X.shape[0])]`. -/
structure ArrOps (A : Type) where
  shape : A → List Nat
  rows : A → List A

/-- What `encode` can be given. -/
inductive Input (A : Type)
  /-- An `np.ndarray`. -/
  | arr (a : A)
  /-- A list (or another iterable, which is listed). -/
  | list (xs : List A)

/-- The batches of `for start in range(0, len(samples), bs)`, open_clip.py:61-63 and torchvision_image.py:153-156: a step of 0 is a
`ValueError`, a negative one gives no batch. -/
def batches {A : Type} (bs : Int) (xs : List A) : Except PyErr (List (List A)) :=
  if bs = 0 then .error .valueError
  else if bs < 0 then .ok []
  else .ok ((List.range ((xs.length + bs.toNat - 1) / bs.toNat)).map fun b => (xs.drop (b * bs.toNat)).take bs.toNat)

/-- The samples of `OpenClipEncoder.encode`, open_clip.py:53-58. -/
def clipSamples {A : Type} (o : ArrOps A) (X : Input A) : List A :=
  match X with
  | .arr a => if (o.shape a).length = 4 then o.rows a else if 3 ≤ (o.shape a).length then [a] else o.rows a
  | .list xs => xs

/-- `OpenClipEncoder.encode`, open_clip.py:48-83. -/
def clipEncode {A R : Type} (o : ArrOps A) (net : List A → List R) (bs : Int) (X : Input A) : Except PyErr (List R) := do
  let bsl ← batches bs (clipSamples o X)
  return (bsl.map net).flatten

/-- `_is_single_image_3d`, torchvision_image.py:53-58. -/
def isSingle3 (sh : List Nat) : Bool :=
  match sh with
  | [a, _, c] => (decide (a ∈ [1, 3, 4]) && !decide (c ∈ [1, 3, 4])) || decide (c ∈ [1, 3, 4])
  | _ => false

/-- `TorchvisionImageEncoder._split_samples` and the other inputs, torchvision_image.py:125-136. -/
def tvSamples {A : Type} (o : ArrOps A) (X : Input A) : List A :=
  match X with
  | .arr a =>
    if (o.shape a).length ≤ 2 then [a]
    else if (o.shape a).length = 4 then o.rows a
    else if (o.shape a).length ≠ 3 then [a]
    else if isSingle3 (o.shape a) then [a] else o.rows a
  | .list xs => xs

/-- `TorchvisionImageEncoder.encode`, torchvision_image.py:138-158; `np.concatenate` of nothing is a `ValueError`. -/
def tvEncode {A R : Type} (o : ArrOps A) (net : List A → List R) (bs : Int) (X : Input A) : Except PyErr (List R) :=
  let xs := tvSamples o X
  if xs = [] then .ok []
  else do
    let bsl ← batches bs xs
    if bsl = [] then .error .valueError else .ok (bsl.map net).flatten

/-- What the stub encoder can be given as one sample. -/
inductive Sample
  | bytes (b : List UInt8)
  | str (utf8 : List UInt8)
  /-- An array: the text of its shape and dtype, and its bytes. -/
  | array (head : List UInt8) (data : List UInt8)

/-- The byte of the character `|`. -/
def bar : UInt8 := 124

/-- `_sample_bytes`, stub.py:12-21. -/
def sampleBytes (s : Sample) : List UInt8 :=
  match s with
  | .bytes b => b
  | .str b => b
  | .array h d => h ++ [bar] ++ d.take 1024

/-- The decimal digits of a number as bytes. -/
def digits (i : Nat) : List UInt8 := (Nat.toDigits 10 i).map fun c => UInt8.ofNat c.toNat

/-- What is hashed for sample `i`, stub.py:43. -/
def stubKey (i : Nat) (s : Sample) : List UInt8 := sampleBytes s ++ [bar] ++ digits i

/-- `StubEncoder.encode`, stub.py:30-47: the hash seeds a generator, which gives the row; `batch_size` and `rng` are not used. -/
def stubEncode {R σ : Type} (row : List UInt8 → R) (_bs : Int) (_rng : σ) (xs : List Sample) : List R :=
  xs.mapIdx fun i s => row (stubKey i s)

/-- `self._encoder`, `self._encoder_device` of an embedding step. -/
structure Cached (E : Type) where
  enc : Option E
  device : Option String

/-- `get_cached_encoder`, common.py:11-22; the number of loads is counted beside it. -/
def getCached {E : Type} (load : String → Option String → E) (c : Cached E) (model : String) (dev : Option String) : E × Cached E × Nat :=
  match c.enc with
  | none => (load model dev, ⟨some (load model dev), dev⟩, 1)
  | some e => if c.device ≠ dev then (load model dev, ⟨some (load model dev), dev⟩, 1) else (e, c, 0)

/-- A history of transforms, each with the step's `model_id` and `device` at that time: the encoders used and the number of loads. -/
def runCached {E : Type} (load : String → Option String → E) : Cached E → List (String × Option String) → List E × Nat
  | _, [] => ([], 0)
  | c, (m, d) :: cs =>
    let (e, c', n) := getCached load c m d
    let (es, n') := runCached load c' cs
    (e :: es, n + n')

/-- What `_first_item` finds, auto.py:17-24. -/
inductive First
  /-- Nothing, or a value that is neither text nor a sequence. -/
  | other
  /-- A `str`; whether it ends like the name of an audio file. -/
  | str (audio : Bool)
  /-- `bytes` or a `Path`. -/
  | pathLike (audio : Bool)
  /-- A list, tuple or array with that many axes. -/
  | seq (ndim : Nat)

/-- What is looked at of `raw.X`. -/
structure Raw where
  isArray : Bool
  ndim : Nat
  /-- `dtype.kind in {"U", "S"}`. -/
  textDtype : Bool
  nonEmpty : Bool
  first : First

/-- `_is_audio_path`, auto.py:27-34. -/
def isAudioPath : First → Bool
  | .str a => a
  | .pathLike a => a
  | _ => false

/-- `_looks_like_text`, auto.py:37-45. -/
def looksText (r : Raw) : Bool :=
  match r.first with
  | .str a => !a
  | f => if r.isArray && r.textDtype then (if r.nonEmpty then !isAudioPath f else false) else false

/-- `_looks_like_images`, auto.py:48-49. -/
def looksImages (r : Raw) : Bool := r.isArray && (r.ndim == 3 || r.ndim == 4)

/-- `_looks_like_audio`, auto.py:52-59. -/
def looksAudio (r : Raw) : Bool :=
  if isAudioPath r.first then true
  else match r.first with
    | .seq n => n == 1 || n == 2
    | _ => false

/-- Which way `AutoEmbeddingStep.transform` takes, auto.py:93-121. -/
inductive Route
  | text | vision | audio | numeric
deriving DecidableEq

/-- `AutoEmbeddingStep.transform`, auto.py:93-113. -/
def autoRoute (r : Raw) : Route :=
  if looksText r then .text else if looksImages r then .vision else if looksAudio r then .audio else .numeric

end ModSSC.Encode
