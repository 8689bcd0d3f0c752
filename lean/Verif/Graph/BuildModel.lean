import Verif.Graph.CacheModel
import Verif.Graph.KnnProps

/-!
# Cached graph construction

`src/modssc/graph/construction/services/service.py`, `construction/builder.py`.
-/

namespace ModSSC.Graph
open ModSSC

/-- The neighbour search a spec asks for (`builder.py:52-118`). -/
inductive Scheme where
  | knn (k : Int)
  | epsilon (r : Rat)
  | anchor
deriving DecidableEq

/-- What `build_graph` is called with, apart from the cache arguments: features, spec, seed. -/
structure BuildInput where
  X : List (List Rat)
  scheme : Scheme
  metric : Metric
  chunkSize : Int
  post : PostSpec
  seed : Int

/-- External functions and the parts that are parameters: numpy, the exponential, spec validation,
the backend that is used (`builder.py:20-31`), the other backends, and the graph fingerprint
(`service.py:26-44`, `93-100`).  The backend is a function of the input: it must not change between
calls, which for `backend="auto"` means that scikit-learn is not installed or removed in between. -/
structure BuildEnv where
  ext : NumpyExt Rat
  eps : Rat
  exp : Rat → Rat
  normEps : Rat
  validate : BuildInput → Except PyErr Unit
  usesNumpy : BuildInput → Bool
  other : BuildInput → Except PyErr (List (DEdge Rat))
  fp : BuildInput → String

/-- The numpy call made for an input, if any. -/
def BuildEnv.query (B : BuildEnv) (i : BuildInput) : Option (Query Rat) :=
  if B.usesNumpy i then
    match i.scheme with
    | .knn k => some (.knn i.X k i.metric false)
    | .epsilon r => some (.radius i.X r i.metric false)
    | .anchor => none
  else none

/-- `builder.py:34-146` `build_raw_edges`: chunk files written and edges. -/
def BuildEnv.raw (B : BuildEnv) (i : BuildInput) (wd : Option (WorkDir (DEdge Rat))) (resume : Bool) :
    Except PyErr (WorkDir (DEdge Rat) × List (DEdge Rat)) :=
  match B.query i with
  | some q => q.run B.ext B.eps i.chunkSize wd resume
  | none => (B.other i).map (fun es => ([], es))

/-- `service.py:148-189`: weights, post-processing and the artifact. -/
def BuildEnv.finish (B : BuildEnv) (i : BuildInput) (edges : List (DEdge Rat)) :
    Except PyErr GraphArtifact :=
  postProcess B.exp B.ext.sqrt B.normEps i.post i.X.length
    (edges.map (fun e => ((e.1 : Int), (e.2.1 : Int)))) (edges.map (fun e => e.2.2))

/-- `build_graph(cache=False)`. -/
def BuildEnv.plain (B : BuildEnv) (i : BuildInput) : Except PyErr GraphArtifact :=
  match B.validate i with
  | .error e => .error e
  | .ok _ =>
    match B.raw i none false with
    | .error e => .error e
    | .ok r => B.finish i r.2

/-- The chunk files of an entry (its `_work` directory). -/
def workOf (e : Entry) : WorkDir (DEdge Rat) :=
  e.filterMap (fun p => match p.1, p.2 with
    | .chunk c, .chunk edges => some (c, edges)
    | _, _ => none)

/-- Saving chunk files. -/
def chunkOps (saves : WorkDir (DEdge Rat)) : List FOp :=
  saves.map (fun s => .put (.chunk s.1) (.chunk s.2))

/-- `build_graph(cache=True)` (`service.py:47-222`) on the entry of its fingerprint: file operations
and result. -/
def BuildEnv.cached (B : BuildEnv) (listing : Entry → List FName) (shardSize : Option Int)
    (resume : Bool) (e : Entry) (i : BuildInput) : List FOp × Except PyErr GraphArtifact :=
  match B.validate i with
  | .error err => ([], .error err)
  | .ok _ =>
    if entryExists e then ([], loadEntry e)
    else
      match B.raw i (if resume then some (workOf e) else none) resume with
      | .error err => ([], .error err)
      | .ok r =>
        match B.finish i r.2 with
        | .error err => (chunkOps r.1, .error err)
        | .ok g => (chunkOps r.1 ++ saveOps listing shardSize (runOps e (chunkOps r.1)) g true, .ok g)

/-- The cache directory: entries by fingerprint. -/
abbrev GraphStore := List (String × Entry)

/-- The entry of a fingerprint. -/
def entryOf (s : GraphStore) (f : String) : Entry := (Assoc.get s f).getD []

end ModSSC.Graph
