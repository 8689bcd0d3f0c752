import Verif.Bench.ProtoModel
import Verif.Graph.BuildModel

/-!
# The graph of a transductive benchmark

`bench/orchestrators/graph.py`, `graph_from_dataset` and the construction of the node data set in
`bench/orchestrators/method_transductive.py`, the choice of the graph in `bench/main.py:770-811, 857-870`, and the checks of
`src/modssc/graph/artifacts.py`.

Features of the graph are dense two-dimensional arrays (lists of rows of rationals); an empty array fits any width.  Labels are
one-dimensional.
-/

namespace ModSSC.Bench.Node
open ModSSC ModSSC.Graph ModSSC.Bench

/-! ### A graph that comes with the data set -/

/-- An integer array: two-dimensional with its rows and number of columns, or of another dimension. -/
inductive EdgeArr where
  | mat (rows : List (List Int)) (cols : Nat)
  | other
deriving DecidableEq

/-- `dataset.train.edges`, if it is not `None` (method_transductive.py:153-163): a graph artifact, a mapping with (perhaps)
`edge_index` and `edge_weight`, or an array. -/
inductive Edges where
  | artifact (g : GraphArtifact)
  | mapping (index : Option EdgeArr) (weight : Option (List Rat))
  | array (a : EdgeArr)

/-- The transpose of an array (method_transductive.py:167). -/
def transposed (rows : List (List Int)) (cols : Nat) : List (List Int) :=
  (List.range cols).map fun c => rows.map fun r => r.getD c 0

/-- Turning a list of pairs into a pair of lists (method_transductive.py:166-167). -/
def oriented : EdgeArr → EdgeArr
  | .mat rows cols => if rows.length ≠ 2 ∧ cols = 2 then .mat (transposed rows cols) rows.length else .mat rows cols
  | .other => .other

/-- `GraphArtifact(n_nodes, edge_index, edge_weight, directed=True)` with its checks (artifacts.py:36-48). -/
def artifactOf (n : Nat) (w : Option (List Rat)) : EdgeArr → Except PyErr GraphArtifact
  | .mat [s, t] _ => mkArtifact n (s.zip t) w true
  | .mat _ _ => .error .validation
  | .other => .error .validation

/-- `graph_from_dataset` (method_transductive.py:152-174).  A mapping without `edge_index` is `np.asarray(None)`, which cannot be
converted to integers. -/
def fromDataset (n : Nat) : Edges → Except PyErr GraphArtifact
  | .artifact g => .ok g
  | .array a => artifactOf n none (oriented a)
  | .mapping (some a) w => artifactOf n w (oriented a)
  | .mapping none _ => .error .typeError

/-! ### A graph built from features -/

/-- What `graph_orch.build` reads of a `PreprocessResult`: the features of the splits, the artifacts, the fingerprint. -/
structure Pre where
  trainX : List (List Rat)
  testX : Option (List (List Rat))
  trainArt : List (String × List (List Rat))
  testArt : Option (List (String × List (List Rat)))
  fp : String

/-- `cfg.graph.spec` and the seed: what `BuildInput` has besides the features, and `feature_field`. -/
structure Req where
  scheme : Scheme
  metric : Metric
  chunkSize : Int
  post : PostSpec
  field : String
  seed : Int

/-- `_feature_from_artifacts(split="train")` (graph.py:32-35). -/
def trainFeature (p : Pre) (key : String) : List (List Rat) := (Assoc.get p.trainArt key).getD p.trainX

/-- `_feature_from_artifacts(split="test")` (graph.py:36-41). -/
def testFeature (p : Pre) (key : String) : Option (List (List Rat)) :=
  match p.testArt.bind (fun a => Assoc.get a key) with
  | some x => some x
  | none => p.testX

/-- `np.concatenate(axis=0)` (graph.py:85): all rows must have the same width. -/
def concatRows (a b : List (List Rat)) : Except PyErr (List (List Rat)) :=
  if (a ++ b).all (fun r => decide (r.length = ((a ++ b).headD []).length)) then .ok (a ++ b) else .error .valueError

/-- The features of the nodes (graph.py:64-87). -/
def features (p : Pre) (key : String) (includeTest : Bool) : Except PyErr (List (List Rat)) :=
  match (if includeTest then testFeature p key else none) with
  | some t => concatRows (trainFeature p key) t
  | none => .ok (trainFeature p key)

/-- The input of `build_graph` (graph.py:90-98). -/
def inputOf (r : Req) (X : List (List Rat)) : BuildInput := ⟨X, r.scheme, r.metric, r.chunkSize, r.post, r.seed⟩

/-- What the fingerprint of the graph is made of when the data set has a fingerprint (construction/services/service.py:26-44,
93-100): the fingerprints of data set and preprocessing, the spec, the seed. -/
structure Key where
  dataset : String
  pre : String
  req : Req

/-- `graph_orch.build` (graph.py:49-107): the store afterwards and the graph.  `fp` is the hash of the key; `cache = false` leaves
the store alone. -/
def build (B : BuildEnv) (fp : Key → String) (listing : Entry → List FName) (cache : Bool) (ds : String) (p : Pre) (r : Req)
    (includeTest : Bool) (s : GraphStore) : GraphStore × Except PyErr GraphArtifact :=
  match features p r.field includeTest with
  | .error e => (s, .error e)
  | .ok X =>
    if cache then
      let f := fp ⟨ds, p.fp, r⟩
      let c := B.cached listing none true (entryOf s f) (inputOf r X)
      (Assoc.set s f (runOps (entryOf s f) c.1), c.2)
    else (s, B.plain (inputOf r X))

/-! ### The node data set -/

/-- `NodeDataset.__post_init__` (artifacts.py:74-94) for the data of a run: rows, labels and masks must have one entry per node. -/
def checkNodes {α : Type} (g : GraphArtifact) (d : NodeData α) : Except PyErr Unit :=
  if d.X.length ≠ g.nNodes then .error .validation
  else if d.y.length ≠ g.nNodes then .error .validation
  else if [d.masks.train, d.masks.val, d.masks.test, d.masks.unlabeled, d.masks.labeled, d.trainAll].any
      (fun m => decide (m.length ≠ g.nNodes)) then .error .validation
  else .ok ()

/-- What a transductive method is fitted on (main.py:857-870, method_transductive.py:229-292). -/
def nodeSet {α : Type} (pre : Prepared α) (s : Sampling) (expected : Option Nat) (graph : Option GraphArtifact) :
    Except PyErr (NodeData α × GraphArtifact) :=
  match graph with
  | none => .error .validation
  | some g => nodeDataFor pre s expected >>= fun d => checkNodes g d.1 >>= fun _ => .ok (d.1, g)

/-- `cfg.graph` (main.py:771-777): whether it is enabled, and its spec unless that is empty. -/
structure GraphCfg where
  enabled : Bool
  req : Option Req
  cache : Bool

/-- The graph of a run (main.py:770-811): built if `graph.enabled`, otherwise the one of the data set if it has edges or masks. -/
def chooseGraph (B : BuildEnv) (fp : Key → String) (listing : Entry → List FName) (cfg : Option GraphCfg) (ds : String) (p : Pre)
    (useTest : Bool) (edges : Option Edges) (hasMasks : Bool) (nTrain : Nat) (s : GraphStore) :
    GraphStore × Except PyErr (Option GraphArtifact) :=
  match cfg.filter (·.enabled) with
  | some c =>
    match c.req with
    | none => (s, .error .validation)
    | some r => let b := build B fp listing c.cache ds p r useTest s; (b.1, b.2.map some)
  | none =>
    match edges with
    | some e => (s, (fromDataset nTrain e).map some)
    | none => (s, if hasMasks then .error .validation else .ok none)

end ModSSC.Bench.Node
