import Verif.DataLoader.StoreModel
import Verif.DataLoader.UriModel
import Verif.PyVal

/-!
# Model of `load_dataset`: requests, identities, metadata and the cache over a history of requests

`src/modssc/data_loader/services/service.py` (l.165-286, 383-518), `src/modssc/data_loader/storage/json.py` and
`src/modssc/data_loader/types.py` (l.100-155).  The files of one dataset are those of `StoreModel`.

Simplifications: one process (the lock is `LockModel`), completed operations only (crashes are `StoreModel`), the order of
the keys of a dictionary is not part of its value (`meta.json` is written with sorted keys, Python's `==` ignores the order),
JSON numbers are exact.
-/

namespace ModSSC.DataLoader.Service
open ModSSC ModSSC.DataLoader ModSSC.DataLoader.Store

/-! ## Metadata -/

/-- A key of a metadata mapping: a string or another object, of which only `str(key)` is used. -/
inductive MKey where
  | str (s : String)
  | other (text : String)
deriving DecidableEq, Repr

/-- `str(k)` -/
def MKey.text : MKey → String
  | .str s => s
  | .other s => s

/-- Metadata values as `to_jsonable` tells them apart. -/
inductive MV where
  | none
  | bool (b : Bool)
  | int (i : Int)
  | flt (q : Rat)
  | str (s : String)
  | path (s : String)
  /-- an array or something with shape and dtype -/
  | array (type : String) (shape : List Nat) (dtype : String)
  | list (l : List MV)
  | tuple (l : List MV)
  | map (l : List (MKey × MV))
  /-- any other object -/
  | other (type : String)

mutual
/-- `to_jsonable`, storage/json.py l.10-35.  (A `shape` that raises is not modelled.) -/
def toJ : MV → PyVal
  | .none => .none
  | .bool b => .bool b
  | .int i => .int i
  | .flt q => .flt q
  | .str s => .str s
  | .path s => .str s
  | .array t sh d => .dict [("__type__", .str t), ("shape", .list (sh.map fun n => .int n)), ("dtype", .str d)]
  | .list l => if 50 < l.length then .dict [("__type__", .str "list"), ("len", .int l.length)] else .list (toJList l)
  | .tuple l => if 50 < l.length then .dict [("__type__", .str "tuple"), ("len", .int l.length)] else .list (toJList l)
  | .map l => .dict (toJMap [] l)
  | .other t => .dict [("__type__", .str t)]

/-- `[to_jsonable(v) for v in obj]` -/
def toJList : List MV → List PyVal
  | [] => []
  | v :: l => toJ v :: toJList l

/-- `{str(k): to_jsonable(v) for k, v in obj.items()}` (also `mapping_to_jsonable`, storage/json.py l.38-39): a key seen again
overwrites. -/
def toJMap (acc : List (String × PyVal)) : List (MKey × MV) → List (String × PyVal)
  | [] => acc
  | (k, v) :: l => toJMap (Assoc.set acc k.text (toJ v)) l
end

mutual
/-- A JSON value as metadata (`json.loads`). -/
def ofJ : PyVal → MV
  | .none => .none
  | .bool b => .bool b
  | .int i => .int i
  | .flt q => .flt q
  | .str s => .str s
  | .list l => .list (ofJList l)
  | .dict d => .map (ofJMap d)

/-- The same for lists. -/
def ofJList : List PyVal → List MV
  | [] => []
  | v :: l => ofJ v :: ofJList l

/-- The same for dictionaries. -/
def ofJMap : List (String × PyVal) → List (MKey × MV)
  | [] => []
  | (k, v) :: l => (.str k, ofJ v) :: ofJMap l
end

/-- The metadata of a dataset. -/
abbrev Meta := List (MKey × MV)

/-! ## Identities -/

/-- `DatasetIdentity`, types.py l.112-123; `V` are option values. -/
structure Identity (V : Type) where
  provider : List Char
  uri : List Char
  datasetId : List Char
  version : Option (List Char)
  modality : List Char
  task : List Char
  extra : Option (List Char)
  kwargs : List (String × V)

/-- The parts of `DatasetSpec` (types.py l.44-58) that a request uses. -/
structure Spec (V : Type) where
  uri : List Char
  modality : List Char
  task : List Char
  kwargs : List (String × V)

/-- `{**a, **b}` -/
def mergeDict {V : Type} (a b : List (String × V)) : List (String × V) := b.foldl (fun d p => Assoc.set d p.1 p.2) a

/-- What is outside the service: whitespace, the catalogue, `create_provider(name).resolve(parsed, options)`, and
`DatasetIdentity.fingerprint`, types.py l.147-155 (an error for options that JSON cannot hold). -/
structure Env (V A : Type) where
  ws : Char → Bool
  catalog : List (List Char × Spec V)
  resolve : List Char → List Char → List (String × V) → Except PyErr (Identity V)
  fingerprint : Identity V → Except PyErr String
  isText : A → Bool
  /-- `_rebase_cached_dataset_paths`, service.py l.121-159 -/
  rebase : String → Dataset A Meta → Dataset A Meta

variable {V A : Type}

/-- `_resolve_identity`, service.py l.402-434.  (Errors of the loader are `runtimeError`.) -/
def resolveIdentity (E : Env V A) (id : List Char) (options : List (String × V)) : Except PyErr (Identity V) :=
  match Assoc.get E.catalog id with
  | some spec =>
    match parseUri E.ws spec.uri with
    | .error e => .error e
    | .ok (p, r) => (E.resolve p r (mergeDict spec.kwargs options)).map fun i => { i with modality := spec.modality, task := spec.task }
  | none =>
    if isUri E.ws id = false then .error .runtimeError
    else
      match parseUri E.ws id with
      | .error e => .error e
      | .ok (p, r) => E.resolve p r options

/-! ## The cache -/

/-- The cache directory (one `Disk` per fingerprint) and the log of `load_canonical` calls, oldest first. -/
structure World (V A : Type) where
  disk : String → Disk A (List (String × PyVal))
  calls : List (Identity V)

/-- `d[k] = v` for the disks. -/
def World.put (w : World V A) (fp : String) (d : Disk A (List (String × PyVal))) : World V A :=
  { w with disk := fun f => if f = fp then d else w.disk f }

/-- What a provider returns: the metadata may be missing. -/
structure Provided (A : Type) where
  train : Split A
  test : Option (Split A)
  info : Option Meta

/-- `meta["dataset_fingerprint"] = fp`, service.py l.456-458 and 513-515. -/
def withFp (fp : String) (m : Meta) : Meta := Assoc.set m (.str "dataset_fingerprint") (.str fp)

/-- The dataset that `_download_and_store` returns, service.py l.453-458. -/
def Provided.labelled (fp : String) (p : Provided A) : Dataset A Meta := ⟨p.train, p.test, withFp fp (p.info.getD [])⟩

/-- The dataset as `FileStorage.save` writes it: `_jsonable_mapping(dataset.meta)`, storage/files.py l.78-82. -/
def onDisk (d : Dataset A Meta) : Dataset A (List (String × PyVal)) := ⟨d.train, d.test, toJMap [] d.info⟩

/-- `json.loads(meta.json)` -/
def fromDisk (d : Dataset A (List (String × PyVal))) : Dataset A Meta := ⟨d.train, d.test, ofJMap d.info⟩

/-- `_load_processed`, service.py l.509-518. -/
def loadProcessed (E : Env V A) (fp : String) (d : Disk A (List (String × PyVal))) : Except PyErr (Dataset A Meta) :=
  (load d).map fun ds =>
    let ds := E.rebase fp (fromDisk ds)
    ⟨ds.train, ds.test, withFp fp ds.info⟩

/-- The cache test, service.py l.216-218, 442-445 and 448-451, with `_load_processed_or_purge` (l.493-506): an answer, or
nothing and the cache left behind. -/
def tryCached (E : Env V A) (fp : String) (force : Bool) (w : World V A) :
    Option (Except PyErr (Dataset A Meta)) × World V A :=
  if force = false ∧ isCached (w.disk fp) = true then
    match loadProcessed E fp (w.disk fp) with
    | .ok ds => (some (.ok ds), w)
    | .error .cacheError => (none, w.put fp (purge (w.disk fp)))
    | .error e => (some (.error e), w)
  else (none, w)

/-- `_download_and_store`, service.py l.437-490.  `answer` is `provider.load_canonical`, `order` the order in which the
operating system lists an old directory. -/
def downloadAndStore (E : Env V A) (i : Identity V) (fp : String) (force : Bool)
    (answer : Identity V → Except PyErr (Provided A)) (order : List String) (w : World V A) :
    Except PyErr (Dataset A Meta) × World V A :=
  match tryCached E fp force w with
  | (some r, w) => (r, w)
  | (none, w) =>
    match tryCached E fp force w with
    | (some r, w) => (r, w)
    | (none, w) =>
      let w : World V A := { w with calls := w.calls ++ [i] }
      match answer i with
      | .error e => (.error e, w)
      | .ok p => (.ok (p.labelled fp), w.put fp (store E.isText order (onDisk (p.labelled fp)) (w.disk fp)))

/-- `load_dataset` once identity and fingerprint are known, service.py l.216-239. -/
def loadResolved (E : Env V A) (i : Identity V) (fp : String) (download force : Bool)
    (answer : Identity V → Except PyErr (Provided A)) (order : List String) (w : World V A) :
    Except PyErr (Dataset A Meta) × World V A :=
  match tryCached E fp force w with
  | (some r, w) => (r, w)
  | (none, w) => if download = false then (.error .runtimeError, w) else downloadAndStore E i fp force answer order w

/-- `load_dataset`, service.py l.191-249; with `download := true` it is also `download_dataset`, l.252-286.  The conversion
to numpy is applied to the answer only and not part of this model. -/
def request (E : Env V A) (id : List Char) (options : List (String × V)) (download force : Bool)
    (answer : Identity V → Except PyErr (Provided A)) (order : List String) (w : World V A) :
    Except PyErr (Dataset A Meta) × World V A :=
  match resolveIdentity E id options with
  | .error e => (.error e, w)
  | .ok i =>
    match E.fingerprint i with
    | .error e => (.error e, w)
    | .ok fp => loadResolved E i fp download force answer order w

/-! ## Histories -/

/-- One operation of a user.  Every request brings the answer the provider would give at that moment. -/
inductive Op (V A : Type) where
  | load (id : List Char) (options : List (String × V)) (download force : Bool)
      (answer : Identity V → Except PyErr (Provided A)) (order : List String)
  /-- `purge_fingerprint` for some fingerprints (`cache purge`, `cache gc`) -/
  | purge (fps : List String)

/-- Purging several variants. -/
def purgeAll (fps : List String) (w : World V A) : World V A := fps.foldl (fun w fp => w.put fp (purge (w.disk fp))) w

/-- The answers (`none` for a purge) and the cache after a history. -/
def runHistory (E : Env V A) : List (Op V A) → World V A → List (Option (Except PyErr (Dataset A Meta))) × World V A
  | [], w => ([], w)
  | .load id options download force answer order :: l, w =>
    let (r, w) := request E id options download force answer order w
    let (rs, w) := runHistory E l w
    (some r :: rs, w)
  | .purge fps :: l, w =>
    let (rs, w) := runHistory E l (purgeAll fps w)
    (none :: rs, w)

/-- The empty cache. -/
def World.empty : World V A := ⟨fun _ => {}, []⟩

/-- `_provider_extra`, service.py l.388-399. -/
def providerExtra (p : List Char) : Option String :=
  (Assoc.get [("toy".toList, none), ("openml".toList, some "openml"), ("hf".toList, some "hf"), ("tfds".toList, some "tfds"),
    ("torchvision".toList, some "vision"), ("torchaudio".toList, some "audio"), ("pyg".toList, some "graph")] p).join

end ModSSC.DataLoader.Service
