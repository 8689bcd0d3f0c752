import Verif.Base
import Verif.Assoc
import Mathlib.Data.String.Basic

/-!
# Model of the sqlite cache index (`src/modssc/data_loader/cache.py:134-311`)

One table `variants` with primary key `fingerprint`.  A row is modelled as the manifest data it
stores plus the size; `processed_dir` and `manifest_path` are functions of the fingerprint.  A SQL
`ORDER BY` fixes the order up to ties: it is an arbitrary function with the contract `OrderBy`.
-/

namespace ModSSC.DataLoader.Index
open ModSSC

/-- The manifest fields the index stores (`cache.py:165-204`). -/
structure Manifest where
  uri : String
  provider : String
  datasetId : String
  version : Option String
  modality : Option String
  createdAt : String
deriving DecidableEq, Repr

/-- A row of `variants` (without its key). -/
structure Row where
  manifest : Manifest
  size : Nat
deriving DecidableEq, Repr

/-- A manifest file: readable or not. -/
inductive ManFile where
  | bad
  | good (m : Manifest)
deriving DecidableEq, Repr

/-- The cache directory: processed directories (with their size in bytes), manifest files, index. -/
structure Cache where
  dirs : List (String × Nat) := []
  manifests : List (String × ManFile) := []
  index : List (String × Row) := []
deriving DecidableEq, Repr

/-- The two `ORDER BY` clauses of the code. -/
structure Sql where
  /-- `ORDER BY created_at DESC` (`cache.py:211`, `222`) -/
  byDate : List (String × Row) → List (String × Row)
  /-- `ORDER BY canonical_uri, created_at DESC` (`cache.py:288-292`) -/
  byUriDate : List (String × Row) → List (String × Row)

/-- SQL's contract: all rows, in an order compatible with the sort keys (TEXT columns compare by
code points); ties in any order. -/
structure Sql.Lawful (S : Sql) : Prop where
  byDate_perm : ∀ l, (S.byDate l).Perm l
  byDate_sorted : ∀ l, (S.byDate l).Pairwise (fun a b => b.2.manifest.createdAt ≤ a.2.manifest.createdAt)
  byUriDate_perm : ∀ l, (S.byUriDate l).Perm l
  byUriDate_sorted : ∀ l, (S.byUriDate l).Pairwise (fun a b =>
    a.2.manifest.uri < b.2.manifest.uri ∨
      a.2.manifest.uri = b.2.manifest.uri ∧ b.2.manifest.createdAt ≤ a.2.manifest.createdAt)

/-- `cache.py:165-204` `index_upsert`: insert, or overwrite every column of the row with that key. -/
def upsert (fp : String) (m : Manifest) (c : Cache) : Cache :=
  { c with index := Assoc.set c.index fp ⟨m, (Assoc.get c.dirs fp).getD 0⟩ }

/-- `cache.py:207-214` `index_list`. -/
def list (S : Sql) (c : Cache) : List (String × Row) := S.byDate c.index

/-- `cache.py:217-227` `index_find_by_dataset`. -/
def find (S : Sql) (uri : String) (c : Cache) : List (String × Row) :=
  S.byDate (c.index.filter (fun p => decide (p.2.manifest.uri = uri)))

/-- `cache.py:267-271` `purge_fingerprint` (complete). -/
def purge (c : Cache) (fp : String) : Cache where
  dirs := Assoc.erase c.dirs fp
  manifests := Assoc.erase c.manifests fp
  index := Assoc.erase c.index fp

/-- `cache.py:274-280` `purge_dataset`. -/
def purgeDataset (S : Sql) (uri : String) (c : Cache) : List String × Cache :=
  let fps := (find S uri c).map (·.1)
  (fps, fps.foldl purge c)

/-- The loop of `cache.py:296-304`: `latest` and `to_delete`. -/
def gcLoop : List (String × Row) → List String → List String
  | [], _ => []
  | (fp, r) :: rows, seen =>
    if r.manifest.uri ∈ seen then fp :: gcLoop rows seen
    else gcLoop rows (r.manifest.uri :: seen)

/-- `cache.py:283-311` `gc_keep_latest`. -/
def gc (S : Sql) (c : Cache) : List String × Cache :=
  let toDelete := gcLoop (S.byUriDate c.index) []
  (toDelete, toDelete.foldl purge c)

/-- One manifest file in `rebuild_index` (`cache.py:250-259`). -/
def rebuildStep (c : Cache) (p : String × ManFile) : Cache :=
  match p.2 with
  | .bad => c
  | .good m => if Assoc.has c.dirs p.1 then upsert p.1 m c else c

/-- `cache.py:241-259` `rebuild_index`; `files` is `manifests_root.glob("*.json")`, in whatever order
the file system lists it. -/
def rebuild (files : List (String × ManFile)) (c : Cache) : Cache :=
  files.foldl rebuildStep { c with index := [] }

/-- A completed download of a variant (`service.py:461-477`): processed directory, manifest, index
row. -/
def download (fp : String) (size : Nat) (m : Manifest) (c : Cache) : Cache :=
  upsert fp m { c with dirs := Assoc.set c.dirs fp size, manifests := Assoc.set c.manifests fp (.good m) }

/-- Completed operations on the cache. -/
inductive Op where
  | download (fp : String) (size : Nat) (m : Manifest)
  | purge (fp : String)
  | purgeDataset (uri : String)
  | gc
  /-- with the order in which the manifest files are listed -/
  | rebuild (files : List (String × ManFile))
deriving DecidableEq, Repr

/-- Effect of an operation. -/
def Op.run (S : Sql) (c : Cache) : Op → Cache
  | .download fp size m => Index.download fp size m c
  | .purge fp => Index.purge c fp
  | .purgeDataset uri => (Index.purgeDataset S uri c).2
  | .gc => (Index.gc S c).2
  | .rebuild files => Index.rebuild files c

/-- `rebuild` is given a listing of the manifest directory as it is at that moment. -/
def Op.Valid (c : Cache) : Op → Prop
  | .rebuild files => files.Perm c.manifests
  | _ => True

/-- Histories of completed operations (oldest first), from the empty cache. -/
inductive History (S : Sql) : List Op → Cache → Prop
  | init : History S [] {}
  | step {ops : List Op} {c : Cache} (op : Op) : History S ops c → op.Valid c →
      History S (ops ++ [op]) (op.run S c)

end ModSSC.DataLoader.Index
