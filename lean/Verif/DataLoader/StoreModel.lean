import Verif.Base
import Verif.Assoc

/-!
# Model of the processed dataset store with crash points

`src/modssc/data_loader/storage/files.py` (the files of one dataset),
`src/modssc/data_loader/manifest.py` (`write_manifest`), and the download sequence of
`src/modssc/data_loader/services/service.py`.

`A` is the type of arrays, `M` of the metadata (its JSON round trip is trusted), `isText` is
`_is_str_object_array` (`files.py:29-40`).
-/

namespace ModSSC.DataLoader.Store
open ModSSC

/-- `src/modssc/data_loader/types.py` `Split`. -/
structure Split (A : Type) where
  X : A
  y : A
  edges : Option A := none
  masks : Option (List (String × A)) := none
deriving DecidableEq

/-- `src/modssc/data_loader/types.py` `LoadedDataset`. -/
structure Dataset (A M : Type) where
  train : Split A
  test : Option (Split A) := none
  info : M
deriving DecidableEq

/-- `{"format": ..., "path": ...}` of one array in `layout.json` (`files.py:128-142`); `gz` means
`"jsonl.gz"`, otherwise `"npy"`.  `allow_pickle` is a function of the array and not modelled. -/
structure Entry where
  gz : Bool
  path : String
deriving DecidableEq, Repr

/-- One split of `layout.json` (`files.py:92-113`). -/
structure SplitLayout where
  X : Entry
  y : Entry
  edges : Option Entry
  masks : Option (List (String × Entry))
deriving DecidableEq

/-- `layout.json` (`files.py:71-75`). -/
structure Layout where
  train : SplitLayout
  test : Option SplitLayout
deriving DecidableEq

/-- Contents of one file of the processed directory. -/
inductive File (A M : Type) where
  /-- truncated by a crash in the middle of the (non-atomic) write -/
  | torn
  | npy (a : A)
  | jsonlGz (a : A)
  | metaJson (m : M)
  | layoutJson (l : Layout)
deriving DecidableEq

/-- What the cache holds for one fingerprint: the processed directory, the manifest file (`none`:
absent, `some false`: torn, `some true`: complete) and whether the index has a row. -/
structure Disk (A M : Type) where
  dir : Option (List (String × File A M)) := none
  manifest : Option Bool := none
  indexed : Bool := false
deriving DecidableEq

variable {A M : Type}

/-! ## Saving -/

/-- `files.py:128-142` `_save_array`: the layout entry. -/
def entryOf (isText : A → Bool) (stem : String) (a : A) : Entry :=
  if isText a then ⟨true, stem ++ ".jsonl.gz"⟩ else ⟨false, stem ++ ".npy"⟩

/-- `files.py:128-142` `_save_array`: the file written. -/
def fileOf (isText : A → Bool) (a : A) : File A M :=
  if isText a then .jsonlGz a else .npy a

/-- The arrays of a split in the order `_save_split` (`files.py:91-113`) writes them, with their
stems. -/
def splitArrays (name : String) (s : Split A) : List (String × A) :=
  [(name ++ "_X", s.X), (name ++ "_y", s.y)]
    ++ (match s.edges with | some e => [(name ++ "_edges", e)] | none => [])
    ++ (match s.masks with
        | some ms => ms.map (fun (p : String × A) => (name ++ "_mask_" ++ p.1, p.2))
        | none => [])

/-- The layout of a split, `files.py:91-113` `_save_split`. -/
def splitLayout (isText : A → Bool) (name : String) (s : Split A) : SplitLayout where
  X := entryOf isText (name ++ "_X") s.X
  y := entryOf isText (name ++ "_y") s.y
  edges := s.edges.map (fun e => entryOf isText (name ++ "_edges") e)
  masks := s.masks.map (fun ms => ms.map
    (fun (p : String × A) => (p.1, entryOf isText (name ++ "_mask_" ++ p.1) p.2)))

/-- `files.py:69-87` `FileStorage.save`: the layout written. -/
def layoutOf (isText : A → Bool) (ds : Dataset A M) : Layout where
  train := splitLayout isText "train" ds.train
  test := ds.test.map (splitLayout isText "test")

/-- All arrays of a dataset in the order they are written. -/
def dsArrays (ds : Dataset A M) : List (String × A) :=
  splitArrays "train" ds.train ++
    (match ds.test with | some t => splitArrays "test" t | none => [])

/-- The files of a dataset in the order `FileStorage.save` (`files.py:69-87`) writes them: arrays,
`meta.json`, `layout.json`. -/
def dsFiles (isText : A → Bool) (ds : Dataset A M) : List (String × File A M) :=
  (dsArrays ds).map (fun (p : String × A) => ((entryOf isText p.1 p.2).path, fileOf isText p.2))
    ++ [("meta.json", .metaJson ds.info), ("layout.json", .layoutJson (layoutOf isText ds))]

/-! ## Operations -/

/-- File system operations of a download. -/
inductive Op (A M : Type) where
  | rmFile (name : String)
  | rmDir
  | mkdir
  /-- the file exists, with incomplete contents -/
  | beginWrite (name : String)
  | endWrite (name : String) (f : File A M)
  | beginManifest
  | endManifest
  | indexUpsert
deriving DecidableEq

/-- Effect of one operation. -/
def Op.run : Op A M → Disk A M → Disk A M
  | .rmFile n, d => { d with dir := d.dir.map (fun fs => Assoc.erase fs n) }
  | .rmDir, d => { d with dir := none }
  | .mkdir, d => { d with dir := some (d.dir.getD []) }
  | .beginWrite n, d => { d with dir := d.dir.map (fun fs => Assoc.set fs n .torn) }
  | .endWrite n f, d => { d with dir := d.dir.map (fun fs => Assoc.set fs n f) }
  | .beginManifest, d => { d with manifest := some false }
  | .endManifest, d => { d with manifest := some true }
  | .indexUpsert, d => { d with indexed := true }

/-- Run a list of operations. -/
def runOps (ops : List (Op A M)) (d : Disk A M) : Disk A M := ops.foldl (fun d op => op.run d) d

/-- `shutil.rmtree(processed_dir)`: unlink the files in the order the operating system lists them
(`order`), then remove the directory (`service.py:463-468`, only if it exists).  Errors, ignored by
the code, are not modelled. -/
def rmtreeOps (order : List String) (d : Disk A M) : List (Op A M) :=
  match d.dir with
  | none => []
  | some _ => order.map .rmFile ++ [.rmDir]

/-- `files.py:69-87` `FileStorage.save`. -/
def saveOps (isText : A → Bool) (ds : Dataset A M) : List (Op A M) :=
  .mkdir :: (dsFiles isText ds).flatMap
    (fun (p : String × File A M) => [.beginWrite p.1, .endWrite p.1 p.2])

/-- `service.py:461-477`: everything `_download_and_store` does to the file system once the provider
returned `ds`: clear the directory, save, write the manifest, update the index. -/
def storeOps (isText : A → Bool) (order : List String) (ds : Dataset A M) (d : Disk A M) :
    List (Op A M) :=
  rmtreeOps order d ++ saveOps isText ds ++ [.beginManifest, .endManifest, .indexUpsert]

/-- The same, killed after `n` operations (not killed when `n` is at least their number). -/
def storeCrash (isText : A → Bool) (order : List String) (ds : Dataset A M) (n : Nat) (d : Disk A M) :
    Disk A M := runOps ((storeOps isText order ds d).take n) d

/-- A complete store. -/
def store (isText : A → Bool) (order : List String) (ds : Dataset A M) (d : Disk A M) : Disk A M :=
  runOps (storeOps isText order ds d) d

/-- `cache.py:267-271` `purge_fingerprint`, file system part, killed after `n` operations. -/
def purgeCrash (order : List String) (n : Nat) (d : Disk A M) : Disk A M :=
  let ops := rmtreeOps order d
  if n ≤ ops.length then runOps (ops.take n) d
  else if n = ops.length + 1 then { runOps ops d with manifest := none }
  else { dir := none, manifest := none, indexed := false }

/-- A complete `purge_fingerprint`. -/
def purge (_ : Disk A M) : Disk A M := { dir := none, manifest := none, indexed := false }

/-! ## Loading -/

/-- `cache.py:109-112` `is_cached`. -/
def isCached (d : Disk A M) : Bool := d.dir.isSome && d.manifest.isSome

/-- `files.py:144-180` `_load_array`.  A truncated `.npy` makes `np.load` raise `ValueError`, turned
into `ManifestError`; a truncated gzip file raises `EOFError`.  (A path with directory parts is
rejected by `resolve_relative_path`, modelled in `Verif/Utils`.) -/
def loadArray (fs : List (String × File A M)) (e : Entry) : Except PyErr A :=
  match Assoc.get fs e.path with
  | none => .error .fileNotFound
  | some f =>
    if e.gz then
      match f with
      | .jsonlGz a => .ok a
      | _ => .error .runtimeError
    else
      match f with
      | .npy a => .ok a
      | _ => .error .cacheError

/-- "load it if the layout has it" (`files.py:119-124`, `files.py:92-94`). -/
def optM {α β : Type} (f : α → Except PyErr β) : Option α → Except PyErr (Option β)
  | none => .ok none
  | some a => some <$> f a

/-- `files.py:115-126` `_load_split`. -/
def loadSplit (fs : List (String × File A M)) (l : SplitLayout) : Except PyErr (Split A) := do
  let X ← loadArray fs l.X
  let y ← loadArray fs l.y
  let edges ← optM (loadArray fs) l.edges
  let masks ← optM (fun (ms : List (String × Entry)) => ms.mapM
    (fun (p : String × Entry) => (fun a => (p.1, a)) <$> loadArray fs p.2)) l.masks
  return ⟨X, y, edges, masks⟩

/-- `files.py:89-100` `FileStorage.load` on the files of the processed directory. -/
def loadFiles (fs : List (String × File A M)) : Except PyErr (Dataset A M) :=
  match Assoc.get fs "layout.json" with
  | none => .error .fileNotFound
  | some (.layoutJson l) => do
    let train ← loadSplit fs l.train
    let test ← optM (loadSplit fs) l.test
    match Assoc.get fs "meta.json" with
    | none => .error .fileNotFound
    | some (.metaJson m) => return ⟨train, test, m⟩
    | some _ => .error .valueError
  | some _ => .error .valueError

/-- `service.py:509-518` `_load_processed`.  The path rebasing of audio datasets
(`service.py:93-159`) is modelled separately; the fingerprint stored in the metadata is part of
`info`. -/
def load (d : Disk A M) : Except PyErr (Dataset A M) :=
  match d.dir with
  | none => .error .fileNotFound
  | some fs => loadFiles fs

/-- `service.py:191-249` `load_dataset` with `force`, `download` flags for one fingerprint, when
nobody else holds the lock.  `provider` is the provider's answer.  Returns the answer and the state
left behind.  (`_download_and_store` repeats the cache test twice; nothing changes between the tests
in this sequential model, so it is modelled once.) -/
def loadDataset (isText : A → Bool) (order : List String) (provider : Except PyErr (Dataset A M))
    (download force : Bool) (d : Disk A M) : Except PyErr (Dataset A M) × Disk A M :=
  let fetch := fun (d : Disk A M) =>
    if download then
      match provider with
      | .error e => (.error e, d)
      | .ok ds => (.ok ds, store isText order ds d)
    else (.error .cacheError, d)
  if force = false ∧ isCached d = true then
    match load d with
    | .ok ds => (.ok ds, d)
    | .error .cacheError => fetch (purge d)
    | .error e => (.error e, d)
  else fetch d

end ModSSC.DataLoader.Store
