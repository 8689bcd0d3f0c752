import Verif.DataLoader.UriModel
import Verif.DataLoader.IndexModel
import Mathlib.Data.Nat.Digits.Defs

/-!
# Model of the dataset providers: from a reference to an identity, from an identity to rows

`src/modssc/data_loader/providers/hf.py`, `tfds.py`, `openml.py`, `torchvision.py`, `torchaudio.py`,
`toy.py`.  Strings are lists of characters, `ws` is `str.isspace` on one character.  Modality and task
texts, `required_extra`, the `meta` dictionary and directory creation are not modelled.
-/

namespace ModSSC.DataLoader.Provider
open ModSSC ModSSC.DataLoader

/-! ## References -/

/-- `s.split(d, 1)` when `d in s`; `none` when the character does not occur. -/
def splitOnce (d : Char) : List Char → Option (List Char × List Char)
  | [] => none
  | c :: s => if c = d then some ([], s) else (splitOnce d s).map (fun p => (c :: p.1, p.2))

/-- `s or None` for a string. -/
def orNone (s : List Char) : Option (List Char) := if s = [] then none else some s

/-- `src/modssc/data_loader/providers/hf.py:36-43` `_split_ref`, and the same text in
`src/modssc/data_loader/providers/tfds.py:15-22` `_split_name_version`. -/
def splitRef (ws : Char → Bool) (ref : List Char) : List Char × Option (List Char) :=
  match splitOnce '/' (strip ws ref) with
  | some (n, c) => (strip ws n, orNone (strip ws c))
  | none => (strip ws ref, none)

/-- What a provider is going to load: the canonical URI, and the arguments of the library call. -/
structure Named where
  canonical : List Char
  name : List Char
  /-- the configuration (`hf`) or the version (`tfds`) -/
  variant : Option (List Char)
deriving DecidableEq, Repr

/-- `f"/{x}" if x else ""` (`hf.py:70`, `tfds.py:36`). -/
def slashed : Option (List Char) → List Char
  | none => []
  | some c => if c = [] then [] else '/' :: c

/-- `src/modssc/data_loader/providers/hf.py:50-77` `resolve` (the naming part): the configuration of
the reference wins over `options["config"]`. -/
def hfResolve (ws : Char → Bool) (ref : List Char) (config : Option (List Char)) : Named :=
  let v := match (splitRef ws ref).2 with | some c => some c | none => config
  { canonical := "hf:".toList ++ (splitRef ws ref).1 ++ slashed v, name := (splitRef ws ref).1, variant := v }

/-- `src/modssc/data_loader/providers/tfds.py:29-46` `resolve` (the naming part). -/
def tfdsResolve (ws : Char → Bool) (ref : List Char) : Named :=
  { canonical := "tfds:".toList ++ (splitRef ws ref).1 ++ slashed (splitRef ws ref).2,
    name := (splitRef ws ref).1, variant := (splitRef ws ref).2 }

/-- `src/modssc/data_loader/providers/torchvision.py:40-58` `resolve` (the naming part). -/
def tvResolve (ws : Char → Bool) (ref : List Char) : Named :=
  { canonical := "torchvision:".toList ++ strip ws ref, name := strip ws ref, variant := none }

/-- `src/modssc/data_loader/providers/torchaudio.py:51-73` `resolve` (the naming part):
`options["dataset_class"]` wins over the reference unless it is empty. -/
def taResolve (ws : Char → Bool) (ref : List Char) (cls : Option (List Char)) : Named :=
  let raw := match cls with | some c => (if c = [] then ref else c) | none => ref
  let c := if strip ws raw = [] then ref else strip ws raw
  { canonical := "torchaudio:".toList ++ c, name := c, variant := none }

/-! ### OpenML -/

/-- `int(s)` of a string of ASCII digits. -/
def readNat (s : List Char) : Option Nat :=
  if s ≠ [] ∧ s.all Char.isDigit then some (s.reverse.foldr (fun c acc => (c.toNat - 48) + 10 * acc) 0) else none

/-- `str(n)`. -/
def showNat (n : Nat) : List Char :=
  if n = 0 then ['0'] else ((Nat.digits 10 n).map (fun d => Char.ofNat (48 + d))).reverse

/-- A version: a number or a word such as `active`. -/
inductive Ver where
  | num (n : Nat)
  | word (s : List Char)
deriving DecidableEq, Repr

/-- The keys of `{**base, **options}` that `resolve` reads (`openml.py:51-53`).  A key that is present
with the value `None` counts as absent. -/
structure OmlCfg where
  dataId : Option Nat := none
  name : Option (List Char) := none
  dataset : Option (List Char) := none
  dataName : Option (List Char) := none
  version : Option Ver := none
deriving DecidableEq, Repr

/-- `s.split(d)`. -/
def splitAll (d : Char) : List Char → List (List Char)
  | [] => [[]]
  | c :: s =>
    if c = d then [] :: splitAll d s
    else match splitAll d s with
      | [] => [[c]]
      | p :: ps => (c :: p) :: ps

/-- `openml.py:29-35`: the `key=value` parts, in order. -/
def omlPairs (ws : Char → Bool) (ref : List Char) : List (List Char × List Char) :=
  (((splitAll ',' ref).map (strip ws)).filter (fun p => decide (p ≠ []))).filterMap
    (fun p => (splitOnce '=' p).map (fun kv => (strip ws kv.1, strip ws kv.2)))

/-- `out[k]` of the dictionary built from the pairs: the last one wins. -/
def omlGet (pairs : List (List Char × List Char)) (k : List Char) : Option (List Char) :=
  (pairs.reverse.find? (fun p => decide (p.1 = k))).map (·.2)

/-- `openml.py:38-42`: a version made of digits becomes a number. -/
def toVer (s : List Char) : Ver := match readNat s with | some n => .num n | none => .word s

/-- `openml.py:36-37` `int(out["data_id"])`: `ValueError` on a text that is not a number. -/
def omlDataId (v : Option (List Char)) : Except PyErr (Option Nat) :=
  match v with
  | none => .ok none
  | some s => match readNat s with | some n => .ok (some n) | none => .error .valueError

/-- `src/modssc/data_loader/providers/openml.py:24-43` `_parse_openml_ref` (ASCII digits). -/
def omlParse (ws : Char → Bool) (ref : List Char) : Except PyErr OmlCfg :=
  match readNat (strip ws ref) with
  | some n => .ok { dataId := some n }
  | none =>
    let ps := omlPairs ws (strip ws ref)
    (omlDataId (omlGet ps "data_id".toList)).map (fun d =>
      { dataId := d, name := omlGet ps "name".toList, dataset := omlGet ps "dataset".toList,
        dataName := omlGet ps "data_name".toList, version := (omlGet ps "version".toList).map toVer })

/-- `{**base, **options}` (`openml.py:53`). -/
def OmlCfg.over (base o : OmlCfg) : OmlCfg :=
  { dataId := o.dataId.or base.dataId, name := o.name.or base.name, dataset := o.dataset.or base.dataset,
    dataName := o.dataName.or base.dataName, version := o.version.or base.version }

/-- The resolved identity of an OpenML dataset (`openml.py:69-90`). -/
structure OmlIdent where
  canonical : List Char
  datasetId : List Char
  dataId : Option Nat
  name : Option (List Char)
  version : Option Ver
deriving DecidableEq, Repr

/-- `openml.py:59` the first non-empty of the three names, `""` when there is none. -/
def OmlCfg.label (c : OmlCfg) : List Char :=
  match c.name.bind orNone with
  | some n => n
  | none => match c.dataset.bind orNone with
    | some n => n
    | none => (c.dataName.bind orNone).getD []

/-- `src/modssc/data_loader/providers/openml.py:54-90`: the identity of a configuration. -/
def omlIdent (ref : List Char) (c : OmlCfg) : OmlIdent :=
  match c.dataId with
  | some n => { canonical := "openml:".toList ++ showNat n, datasetId := showNat n, dataId := some n,
                name := c.name, version := c.version }
  | none =>
    let n := if c.label = [] then ref else c.label
    { canonical := "openml:name=".toList ++ n, datasetId := n, dataId := none, name := c.name,
      version := c.version }

/-- `src/modssc/data_loader/providers/openml.py:50-90` `resolve`. -/
def omlResolve (ws : Char → Bool) (ref : List Char) (o : OmlCfg) : Except PyErr OmlIdent :=
  (omlParse ws ref).map (fun b => omlIdent ref (b.over o))

/-- `openml.py:107-115`: the arguments of `fetch_openml`: a number or a name, and a version. -/
def omlFetch (i : OmlIdent) : (Nat ⊕ List Char) × Option Ver :=
  match i.dataId with
  | some n => (.inl n, i.version)
  | none => (.inr ((i.name.bind orNone).getD i.datasetId), i.version)

/-! ## Rows -/

/-- A split as stored: features and labels (integers stand for label values). -/
structure Part (α : Type) where
  X : List α
  y : List Int
deriving DecidableEq, Repr

/-- `LoadedDataset` without `meta`. -/
structure Loaded (α : Type) where
  train : Part α
  test : Option (Part α)
deriving DecidableEq, Repr

/-- The limiting options stored in the identity (`hf.py:61-64`, `torchvision.py:44-47`,
`torchaudio.py:59-62`). -/
structure Limits where
  classFilter : Option (List Int) := none
  maxTrain : Option Int := none
  maxTest : Option Int := none
  seed : Option Int := none

/-- `apply_limits` on a split (`common.py:57-75`). -/
def limitPart {α : Type} (shuffle : Int → List Nat → List Nat) (p : Part α) (cf : Option (List Int))
    (m seed : Option Int) : Except PyErr (Part α) :=
  (applyLimits shuffle p.X p.y cf m seed).map (fun r => { X := r.1, y := r.2 })

/-- The tail every limiting provider shares (`hf.py:105-118`, `torchvision.py:75-90`,
`torchaudio.py:89-110`): the test split is limited with `seed + 1`. -/
def limitBoth {α : Type} (shuffle : Int → List Nat → List Nat) (l : Limits) (train : Part α)
    (test : Option (Part α)) : Except PyErr (Loaded α) := do
  let tr ← limitPart shuffle train l.classFilter l.maxTrain l.seed
  match test with
  | none => return { train := tr, test := none }
  | some t => do
    let te ← limitPart shuffle t l.classFilter l.maxTest (l.seed.map (· + 1))
    return { train := tr, test := some te }

/-! ### Hugging Face -/

/-- One split of the library's dataset: its columns by name. -/
structure HfSplit (α : Type) where
  text : List (String × List α)
  label : List (String × List Int)

/-- `src/modssc/data_loader/providers/hf.py:142-146` `_extract_split` on a split object. -/
def hfExtract {α : Type} (s : HfSplit α) (textCol labelCol : String) : Except PyErr (Part α) :=
  match Assoc.get s.text textCol, Assoc.get s.label labelCol with
  | some X, some y => .ok { X := X, y := y }
  | _, _ => .error .keyError

/-- `hf.py:135-139`: the first of the candidates that the dataset has. -/
def hfPick {α : Type} (ds : List (String × HfSplit α)) (preferTest : Bool) : Option (HfSplit α) :=
  let a := if preferTest then "test" else "validation"
  let b := if preferTest then "validation" else "test"
  match Assoc.get ds a with
  | some s => some s
  | none => Assoc.get ds b

/-- `src/modssc/data_loader/providers/hf.py:130-139` `_extract_official_test`. -/
def hfTest {α : Type} (ds : List (String × HfSplit α)) (textCol labelCol : String) (preferTest : Bool) :
    Except PyErr (Option (Part α)) :=
  match hfPick ds preferTest with
  | none => .ok none
  | some s => (hfExtract s textCol labelCol).map some

/-- `ds["train"]`. -/
def hfTrain {α : Type} (ds : List (String × HfSplit α)) (textCol labelCol : String) :
    Except PyErr (Part α) :=
  match Assoc.get ds "train" with
  | none => .error .keyError
  | some s => hfExtract s textCol labelCol

/-- `src/modssc/data_loader/providers/hf.py:79-127` `load_canonical`; `ds` is what
`datasets.load_dataset` returned (a dictionary of splits). -/
def hfLoad {α : Type} (shuffle : Int → List Nat → List Nat) (ds : List (String × HfSplit α))
    (textCol labelCol : String) (preferTest : Bool) (l : Limits) : Except PyErr (Loaded α) := do
  let train ← hfTrain ds textCol labelCol
  let test ← hfTest ds textCol labelCol preferTest
  limitBoth shuffle l train test

/-! ### TFDS -/

/-- What iterating a TFDS dataset yields: a pair (`as_supervised=True`), or a dictionary of features. -/
inductive Item (α : Type) where
  | pair (x : α) (y : Int)
  | dict (entries : List (String × α))

/-- One element of a materialised column: a value of the dataset, or a piece of text that is no value
of it. -/
inductive Cell (α : Type) where
  | value (a : α)
  | label (y : Int)
  | key (s : String)
deriving DecidableEq, Repr

/-- `for x, y in items` (`tfds.py:95-97`): a pair is unpacked into its members; a dictionary is
unpacked into its *keys*, with `ValueError` unless there are two. -/
def unpack {α : Type} : Item α → Except PyErr (Cell α × Cell α)
  | .pair x y => .ok (.value x, .label y)
  | .dict [a, b] => .ok (.key a.1, .key b.1)
  | .dict _ => .error .valueError

/-- `src/modssc/data_loader/providers/tfds.py:88-98` `_materialize_tfds`. -/
def tfdsMaterialize {α : Type} (items : List (Item α)) : Except PyErr (List (Cell α × Cell α)) :=
  items.mapM unpack

/-- `tfds.py:76-82` after both downloads. -/
def tfdsBuild {α : Type} (train : List (Item α)) (test : Option (List (Item α))) :
    Except PyErr (List (Cell α × Cell α) × Option (List (Cell α × Cell α))) := do
  let tr ← tfdsMaterialize train
  match test with
  | none => return (tr, none)
  | some t => do
    let te ← tfdsMaterialize t
    return (tr, some te)

/-- `src/modssc/data_loader/providers/tfds.py:48-85` `load_canonical`; `load split` is
`tfds.load(full_name, split=…)`.  Any exception on the test split means "no test split".  The limiting
options are not read (`_l`). -/
def tfdsLoad {α : Type} (load : String → Except PyErr (List (Item α))) (_l : Limits) :
    Except PyErr (List (Cell α × Cell α) × Option (List (Cell α × Cell α))) := do
  let train ← load "train"
  tfdsBuild train (load "test").toOption

/-! ### OpenML -/

/-- `src/modssc/data_loader/providers/openml.py:117-133`: filter, then limit by `max_samples`; there is
no test split.  `max_train_samples` and `max_test_samples` are not read. -/
def omlLoad {α : Type} (shuffle : Int → List Nat → List Nat) (src : Part α) (l : Limits)
    (maxSamples : Option Int) : Except PyErr (Loaded α) :=
  (limitPart shuffle src l.classFilter maxSamples l.seed).map (fun p => { train := p, test := none })

/-! ### torchvision -/

/-- How a dataset class is called. -/
inductive Call where
  | trainFlag (b : Bool)
  | splitName (s : String)
  | subset (s : String)
  | plain
deriving DecidableEq, Repr

/-- `src/modssc/data_loader/providers/torchvision.py:98-107` `_make_train_test`. -/
def tvMake {δ : Type} (make : Call → Except PyErr δ) : Except PyErr (δ × δ) :=
  let first : Except PyErr (δ × δ) := do
    let a ← make (.trainFlag true)
    let b ← make (.trainFlag false)
    return (a, b)
  match first with
  | .error .typeError => do
    let a ← make (.splitName "train")
    let b ← make (.splitName "test")
    return (a, b)
  | r => r

/-- A torchvision dataset: its `data` and `targets` attributes (if both exist) and its samples. -/
structure TvDataset (α : Type) where
  arrays : Option (List α × List Int)
  samples : List (α × Int)

/-- `src/modssc/data_loader/providers/torchvision.py:110-121` `_extract_xy`. -/
def tvExtract {α : Type} (d : TvDataset α) : Part α :=
  match d.arrays with
  | some a => { X := a.1, y := a.2 }
  | none => { X := d.samples.map (·.1), y := d.samples.map (·.2) }

/-- `src/modssc/data_loader/providers/torchvision.py:60-95` `load_canonical`. -/
def tvLoad {α : Type} (shuffle : Int → List Nat → List Nat) (make : Call → Except PyErr (TvDataset α))
    (l : Limits) : Except PyErr (Loaded α) := do
  let ds ← tvMake make
  limitBoth shuffle l (tvExtract ds.1) (some (tvExtract ds.2))

/-! ### torchaudio -/

/-- `src/modssc/data_loader/providers/torchaudio.py:120-128` `_official_or_single`. -/
def taMake {δ : Type} (make : Call → Except PyErr δ) : Except PyErr (δ × Option δ) :=
  let first : Except PyErr (δ × Option δ) := do
    let a ← make (.subset "training")
    let b ← make (.subset "testing")
    return (a, some b)
  match first with
  | .error .typeError => (make .plain).map (fun d => (d, none))
  | r => r

/-- A file path: the directories and the last component split into stem and suffix. -/
structure FPath where
  abs : Bool
  dirs : List String
  stem : String
  suffix : String
deriving DecidableEq, Repr

/-- `p.with_suffix(s)`. -/
def FPath.withSuffix (p : FPath) (s : String) : FPath := { p with suffix := s }

/-- `base_path / p` for a relative `p`; `base` lists the components of the base directory. -/
def FPath.under (base : List String) (p : FPath) : FPath :=
  if p.abs then p else { p with abs := true, dirs := base ++ p.dirs }

/-- `src/modssc/data_loader/providers/torchaudio.py:144-148`: repair a missing extension. -/
def fixPath (exist : FPath → Bool) (p : FPath) : FPath :=
  if exist p then p
  else if exist (p.withSuffix ".wav") then p.withSuffix ".wav"
  else if exist (p.withSuffix ".flac") then p.withSuffix ".flac"
  else p

/-- A torchaudio dataset: base directory, walker entries and samples (waveform, rate, label, …) as
lists of fields. -/
structure TaDataset (α : Type) where
  base : Option (List String)
  walker : Option (List FPath)
  samples : List (α × List Int)

/-- `src/modssc/data_loader/providers/torchaudio.py:131-151` `_paths_from_walker`. -/
def taPaths {α : Type} (exist : FPath → Bool) (d : TaDataset α) : Option (List FPath) :=
  match d.base, d.walker with
  | some b, some w => some (w.map (fun p => fixPath exist (p.under b)))
  | _, _ => none

/-- `src/modssc/data_loader/providers/torchaudio.py:154-164` `_labels_from_paths`; the upper-cased,
stripped class name is compared, here only whether it is `YESNO`. -/
def taLabel (yesno : Bool) (p : FPath) : String :=
  if yesno then (if p.stem.toList.head? = some '1' then "yes" else "no")
  else (p.dirs.getLast?).getD ""

/-- A torchaudio column cell: a path, or a decoded waveform. -/
inductive Sound (α : Type) where
  | path (p : FPath)
  | wave (a : α)
deriving DecidableEq, Repr

/-- Labels: text from a path, or the third field of a sample. -/
inductive TaLab where
  | text (s : String)
  | field (i : Int)
deriving DecidableEq, Repr

/-- One iterated sample (`torchaudio.py:191-197`); the fields after the waveform are `(rate, label, …)`,
so a sample of three elements has two of them. -/
def taSample {α : Type} (s : α × List Int) : Except PyErr (Sound α × TaLab) :=
  match s.2 with
  | _ :: l :: _ => .ok (.wave s.1, .field l)
  | _ => .error .valueError

/-- The iterating fallback (`torchaudio.py:186-198`). -/
def taIterate {α : Type} (d : TaDataset α) : Except PyErr (List (Sound α × TaLab)) :=
  d.samples.mapM taSample

/-- `src/modssc/data_loader/providers/torchaudio.py:174-198` `_extract_xy`. -/
def taExtract {α : Type} (exist : FPath → Bool) (yesno : Bool) (d : TaDataset α) :
    Except PyErr (List (Sound α × TaLab)) :=
  match taPaths exist d with
  | some (p :: ps) => .ok ((p :: ps).map (fun q => (.path q, .text (taLabel yesno q))))
  | _ => taIterate d

/-- The extracted pairs as a split; labels are numbered by `code`. -/
def taPart {α : Type} (code : TaLab → Int) (rows : List (Sound α × TaLab)) : Part (Sound α) :=
  { X := rows.map (·.1), y := rows.map (fun r => code r.2) }

/-- `torchaudio.py:88` and `102`: both datasets are extracted. -/
def taParts {α : Type} (exist : FPath → Bool) (yesno : Bool) (code : TaLab → Int)
    (d : TaDataset α × Option (TaDataset α)) :
    Except PyErr (Part (Sound α) × Option (Part (Sound α))) := do
  let a ← taExtract exist yesno d.1
  match d.2 with
  | none => return (taPart code a, none)
  | some t => do
    let b ← taExtract exist yesno t
    return (taPart code a, some (taPart code b))

/-- `src/modssc/data_loader/providers/torchaudio.py:75-117` `load_canonical` (both datasets are
extracted before the first is limited; the source limits the first one in between, which only matters
for which error is reported). -/
def taLoad {α : Type} (shuffle : Int → List Nat → List Nat) (exist : FPath → Bool) (yesno : Bool)
    (code : TaLab → Int) (make : Call → Except PyErr (TaDataset α)) (l : Limits) :
    Except PyErr (Loaded (Sound α)) := do
  let ds ← taMake make
  let ps ← taParts exist yesno code ds
  limitBoth shuffle l ps.1 ps.2

/-! ### toy -/

/-- `src/modssc/data_loader/providers/toy.py:52-56` the number of test rows. -/
def toyTest (n : Nat) (hasTest : Bool) (testSize : Rat) : Nat :=
  if hasTest then (max 0 (min (n : Int) (pyRound ((n : Rat) * testSize)))).toNat else 0

/-- `src/modssc/data_loader/providers/toy.py:39-68` `load_canonical`; `rows` are the generated rows. -/
def toyLoad {α : Type} (rows : List (α × Int)) (hasTest : Bool) (testSize : Rat) : Loaded α :=
  let k := toyTest rows.length hasTest testSize
  let m := rows.length - k
  { train := { X := (rows.take m).map (·.1), y := (rows.take m).map (·.2) },
    test := if k = 0 then none else some { X := (rows.drop m).map (·.1), y := (rows.drop m).map (·.2) } }

end ModSSC.DataLoader.Provider
