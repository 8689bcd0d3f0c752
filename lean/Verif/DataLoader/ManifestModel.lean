import Verif.Base

/-!
# The manifest of a cached dataset

Models `src/modssc/data_loader/manifest.py`: the summary of a dataset, the manifest and its JSON form.
The `json` module is trusted; what it does to dictionary keys (integer names become text, a mix of
integers and text cannot be sorted) is modelled for the names of masks, the only keys that
`dataset_summary` does not choose itself.  The order of keys in the text is left out.  Writing the file
is in `Verif.DataLoader.StoreModel`, `to_jsonable` of the metadata in `Verif.DataLoader.ServiceModel`:
identity, metadata and environment are values `J` here.
-/

namespace ModSSC.DataLoader.Manifest
open ModSSC

/-- A container as `shape_dtype` sees it: type name, `shape` (absent; there but raising when read as
integers; or integers), `dtype`, and its content `C`. -/
structure Thing (C : Type) where
  typ : String
  shape : Option (Option (List Int))
  dtype : Option (Option String)
  content : C

/-- The entry of a container in the summary: keys `type`, `shape`, `dtype`, the last two possibly
absent. -/
structure Summ where
  typ : String
  shape : Option (List Int)
  dtype : Option String
deriving DecidableEq

/-- A key of the dictionary of masks (others left out). -/
inductive Name where
  | text (s : String)
  | int (n : Int)
deriving DecidableEq

/-- `Split`, `src/modssc/data_loader/types.py:10-20`. -/
structure Split (C : Type) where
  X : Option (Thing C)
  y : Option (Thing C)
  edges : Option (Thing C)
  masks : Option (List (Name × Thing C))

/-- `LoadedDataset`, `types.py:23-35`, without `meta`. -/
structure Dataset (C : Type) where
  train : Split C
  test : Option (Split C)

/-- The value of `split_summary` (`manifest.py:37-45`), with keys `K` for the masks. -/
structure SplitSumm (K : Type) where
  X : Summ
  y : Summ
  edges : Option Summ
  masks : Option (List (K × Summ))
deriving DecidableEq

/-- The value of `dataset_summary` (`manifest.py:47-50`). -/
structure DataSumm (K : Type) where
  train : SplitSumm K
  test : Option (SplitSumm K)
deriving DecidableEq

variable {C J K : Type}

/-- `shape_dtype` (`manifest.py:25-35`). -/
def shapeDtype : Option (Thing C) → Summ
  | none => ⟨"None", none, none⟩
  | some t => ⟨t.typ, t.shape.join, t.dtype.join⟩

/-- `split_summary` (`manifest.py:37-45`). -/
def splitSummary (s : Split C) : SplitSumm Name where
  X := shapeDtype s.X
  y := shapeDtype s.y
  edges := s.edges.map fun e => shapeDtype (some e)
  masks := s.masks.map fun ms => ms.map fun kv => (kv.1, shapeDtype (some kv.2))

/-- `dataset_summary` (`manifest.py:24-50`). -/
def datasetSummary (ds : Dataset C) : DataSumm Name where
  train := splitSummary ds.train
  test := ds.test.map splitSummary

/-- `Manifest` (`manifest.py:53-61`). -/
structure Manifest (K J : Type) where
  schema : Int
  fingerprint : String
  createdAt : String
  identity : J
  dataset : DataSumm K
  info : J
  environment : J
deriving DecidableEq

/-- `build_manifest` (`manifest.py:91-111`), given the clock, the environment and the JSON forms of
identity and metadata. -/
def build (schema : Int) (fp now : String) (identity info env : J) (ds : Dataset C) :
    Manifest Name J :=
  ⟨schema, fp, now, identity, datasetSummary ds, info, env⟩

/-- A name as JSON text. -/
def Name.toText : Name → String
  | .text s => s
  | .int n => toString n

/-- Python can sort the keys: all text or all integers. -/
def sortable (ks : List Name) : Bool :=
  ks.all (fun | .text _ => true | .int _ => false) || ks.all (fun | .text _ => false | .int _ => true)

/-- `json.dumps(.., sort_keys=True)` on the masks. -/
def dumpMasks : Option (List (Name × Summ)) → Except PyErr (Option (List (String × Summ)))
  | none => .ok none
  | some ms =>
    if sortable (ms.map (·.1)) then .ok (some (ms.map fun kv => (kv.1.toText, kv.2)))
    else .error .typeError

/-- ... on a split summary. -/
def dumpSplit (s : SplitSumm Name) : Except PyErr (SplitSumm String) := do
  let ms ← dumpMasks s.masks
  .ok ⟨s.X, s.y, s.edges, ms⟩

/-- ... on a split summary that may be missing. -/
def dumpTest : Option (SplitSumm Name) → Except PyErr (Option (SplitSumm String))
  | none => .ok none
  | some s => do
    let x ← dumpSplit s
    .ok (some x)

/-- The values of the JSON object of a manifest. -/
inductive Field (J : Type) where
  | num (n : Int)
  | str (s : String)
  | data (d : DataSumm String)
  | tree (j : J)

/-- `to_dict` and `json.dumps` (`manifest.py:63-75`). -/
def toJson (m : Manifest Name J) : Except PyErr (List (String × Field J)) := do
  let tr ← dumpSplit m.dataset.train
  let te ← dumpTest m.dataset.test
  .ok [("schema_version", .num m.schema), ("fingerprint", .str m.fingerprint),
    ("created_at", .str m.createdAt), ("identity", .tree m.identity), ("dataset", .data ⟨tr, te⟩),
    ("meta", .tree m.info), ("environment", .tree m.environment)]

/-- `int(obj[key])`; other kinds of values than `to_dict` writes are a type error here (simplified). -/
def getNum (o : List (String × Field J)) (k : String) : Except PyErr Int :=
  match o.lookup k with
  | none => .error .keyError
  | some (.num n) => .ok n
  | some _ => .error .typeError

/-- `str(obj[key])` (simplified in the same way). -/
def getStr (o : List (String × Field J)) (k : String) : Except PyErr String :=
  match o.lookup k with
  | none => .error .keyError
  | some (.str s) => .ok s
  | some _ => .error .typeError

/-- `obj["identity"]` (simplified in the same way). -/
def getTree (o : List (String × Field J)) (k : String) : Except PyErr J :=
  match o.lookup k with
  | none => .error .keyError
  | some (.tree j) => .ok j
  | some _ => .error .typeError

/-- `obj.get(key, {})`. -/
def getTreeD (empty : J) (o : List (String × Field J)) (k : String) : Except PyErr J :=
  match o.lookup k with
  | none => .ok empty
  | some (.tree j) => .ok j
  | some _ => .error .typeError

/-- `obj["dataset"]`. -/
def getData (o : List (String × Field J)) (k : String) : Except PyErr (DataSumm String) :=
  match o.lookup k with
  | none => .error .keyError
  | some (.data d) => .ok d
  | some _ => .error .typeError

/-- `Manifest.from_json` (`manifest.py:77-88`); `empty` is `{}`. -/
def fromJson (empty : J) (o : List (String × Field J)) : Except PyErr (Manifest String J) := do
  let a ← getNum o "schema_version"
  let b ← getStr o "fingerprint"
  let c ← getStr o "created_at"
  let d ← getTree o "identity"
  let e ← getData o "dataset"
  let f ← getTreeD empty o "meta"
  let g ← getTreeD empty o "environment"
  .ok ⟨a, b, c, d, e, f, g⟩

end ModSSC.DataLoader.Manifest
