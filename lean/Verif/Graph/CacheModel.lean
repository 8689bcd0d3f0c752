import Verif.Graph.OpsModel
import Verif.Graph.KnnModel

/-!
# The graph cache and cached graph construction

`src/modssc/graph/cache.py`, `src/modssc/graph/construction/services/service.py`.

A cache entry is a finite map from file names to contents.  A call is a list of file operations; a
kill leaves the effect of a prefix.  `np.save` and `np.savez_compressed` are not atomic: the file
first exists in a torn state.  Atomic replacements (`manifest.json`, chunk files) are one operation.
Simplifications: file names are values of a type (the code's `edges_{i:04d}.npz` and
`knn_{start}_{end}.npz` are injective in their numbers); temporary files left by a kill, which
nothing reads, and the free-form `meta` dictionary and fingerprint fields of the manifest are left
out.
-/

namespace ModSSC.Graph
open ModSSC

/-- Files of a cache entry. -/
inductive FName where
  | manifest
  | edgeIndex
  | edgeWeight
  | shard (i : Nat)
  | chunk (c : Nat × Nat)
deriving DecidableEq

/-- `_storage.edge` of the manifest. -/
inductive Storage where
  | single
  | sharded (numShards : Int)
deriving DecidableEq

/-- The fields of the manifest `load` reads. -/
structure Manifest where
  nNodes : Nat
  directed : Bool
  storage : Storage
deriving DecidableEq

/-- File contents. -/
inductive FContent where
  | manifest (m : Manifest)
  | index (ei : List Edge)
  | weights (w : List Rat)
  | shard (ei : List Edge) (w : Option (List Rat))
  | chunk (edges : List (DEdge Rat))
  | torn

/-- A cache entry directory, with its work directory. -/
abbrev Entry := List (FName × FContent)

/-- File operations. -/
inductive FOp where
  | unlink (f : FName)
  | put (f : FName) (c : FContent)

/-- Effect of one operation. -/
def FOp.run (e : Entry) : FOp → Entry
  | .unlink f => Assoc.erase e f
  | .put f c => Assoc.set e f c

/-- Effect of a list of operations. -/
def runOps (e : Entry) (ops : List FOp) : Entry := ops.foldl FOp.run e

/-- A file that is not written atomically. -/
def writeOps (f : FName) (c : FContent) : List FOp := [.put f .torn, .put f c]

/-- Python's `a[s:e]` on a sequence. -/
def pySlice {α : Type} (l : List α) (s e : Int) : List α :=
  let norm := fun (i : Int) => if i < 0 then max 0 (i + l.length) else min i l.length
  (l.take (norm e).toNat).drop (norm s).toNat

/-- Number of shards (`cache.py:150-152`; Python's floor division), `none` for one file. -/
def numShards (shardSize : Option Int) (E : Nat) : Option (Int × Int) :=
  match shardSize with
  | none => none
  | some s => if s ≠ 0 ∧ s < E then some (Int.fdiv ((E : Int) + s - 1) s, s) else none

/-- `cache.py:153-160`: one shard. -/
def shardOf (g : GraphArtifact) (size : Int) (i : Nat) : FContent :=
  let s := (i : Int) * size
  let e := min (g.edgeIndex.length : Int) (((i : Int) + 1) * size)
  .shard (pySlice g.edgeIndex s e) (g.edgeWeight.map (fun w => pySlice w s e))

/-- `cache.py:145-171`: writing the edges. -/
def edgeOps (shardSize : Option Int) (g : GraphArtifact) : List FOp :=
  match numShards shardSize g.edgeIndex.length with
  | some (n, size) => (List.range n.toNat).flatMap (fun i => writeOps (.shard i) (shardOf g size i))
  | none => writeOps .edgeIndex (.index g.edgeIndex) ++
      (match g.edgeWeight with
       | some w => writeOps .edgeWeight (.weights w)
       | none => [])

/-- The manifest written by `save` (`cache.py:162-174`, `artifacts.py:56-63`). -/
def manifestOf (shardSize : Option Int) (g : GraphArtifact) : Manifest :=
  ⟨g.nNodes, g.directed, match numShards shardSize g.edgeIndex.length with
    | some (n, _) => .sharded n
    | none => .single⟩

/-- `cache.py:122-131` `_clear_entry_dir`, in the order in which the directory is listed. -/
def clearOps (listing : Entry → List FName) (e : Entry) : List FOp := (listing e).map .unlink

/-- `cache.py:133-175` `GraphCache.save`. -/
def saveOps (listing : Entry → List FName) (shardSize : Option Int) (e : Entry) (g : GraphArtifact)
    (overwrite : Bool) : List FOp :=
  (if overwrite then clearOps listing e else []) ++ edgeOps shardSize g ++
    [.put .manifest (.manifest (manifestOf shardSize g))]

/-- `cache.py:92-93` `exists`. -/
def entryExists (e : Entry) : Bool := Assoc.has e .manifest

/-- `cache.py:177-193` `_load_edges_single`. -/
def loadSingle (e : Entry) : Except PyErr (List Edge × Option (List Rat)) :=
  match Assoc.get e .edgeIndex with
  | some (.index ei) =>
    match Assoc.get e .edgeWeight with
    | none => .ok (ei, none)
    | some (.weights w) => .ok (ei, some w)
    | some _ => .error .cacheError
  | _ => .error .cacheError

/-- Reading one shard (`cache.py:201-212`): absent files are reported, torn files fail in
`np.load`. -/
def readShard (e : Entry) (i : Nat) : Except PyErr (List Edge × Option (List Rat)) :=
  match Assoc.get e (.shard i) with
  | none => .error .cacheError
  | some (.shard ei w) => .ok (ei, w)
  | some _ => .error .valueError

/-- `cache.py:195-242` `_load_edges_sharded`.  Copying weights of another length than the shard's
edges fails (simplification: numpy would broadcast a single weight). -/
def loadSharded (e : Entry) (n : Nat) : Except PyErr (List Edge × Option (List Rat)) :=
  match (List.range n).mapM (readShard e) with
  | .error err => .error err
  | .ok shards =>
    let hasW := (shards.head?.map (fun s => s.2.isSome)).getD false
    if shards.any (fun s => s.2.isSome != hasW) then .error .cacheError
    else if shards.any (fun s => s.2.any (fun w => w.length != s.1.length)) then .error .valueError
    else .ok (shards.flatMap (·.1),
      if hasW then some (shards.flatMap (fun s => s.2.getD [])) else none)

/-- `cache.py:244-272` `load`. -/
def loadEntry (e : Entry) : Except PyErr GraphArtifact :=
  match Assoc.get e .manifest with
  | some (.manifest m) =>
    match (match m.storage with
      | .sharded n => loadSharded e n.toNat
      | .single => loadSingle e) with
    | .error err => .error err
    | .ok (ei, w) => mkArtifact m.nNodes ei w m.directed
  | _ => .error .cacheError

end ModSSC.Graph
