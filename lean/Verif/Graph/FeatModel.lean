import Verif.Graph.OpsModel
import Verif.Graph.SpecModel
import Verif.Utils.JsonModel
import Verif.Assoc

/-!
# Model of graph featurization: `featurization/api.py`, `views/attr.py`, `views/diffusion.py`,
`ops/adjacency.py`, and the views cache (`cache.py:285-342`)

Arithmetic is exact.  Features are dense matrices given as lists of rows; sparse inputs are not
modelled.  The structural embeddings (`views/struct.py`) end in a singular value decomposition and
enter as an external function (`FeatExt.struct`); their random walks are modelled in `WalkModel`.
-/

namespace ModSSC.Graph
open ModSSC

/-- A dense matrix as a list of rows. -/
abbrev Mat := List (List Rat)

/-- `M[i, f]`. -/
def entry (M : Mat) (i f : Nat) : Rat := ((M[i]?.getD [])[f]?).getD 0

/-- `np.bincount(src, weights=w, minlength=n)[u]` (diffusion.py:48, 56); the node ids are in range, so
the other branch is not taken on a non-empty edge list. -/
def outWeight (es : List (Edge × Rat)) (u : Int) : Rat :=
  (es.map fun e => if e.1.1 = u then e.2 else 0).sum

/-- The floor `1e-12` put under degrees (diffusion.py:52, 60). -/
def degFloor : Rat := 1 / 1000000000000

/-- The edges with `w_norm = w / np.maximum(deg[src], 1e-12)` (diffusion.py:45-60); without weights
every edge has weight one. -/
def normalizedEdges (edges : List Edge) (weights : Option (List Rat)) : List (Edge × Rat) :=
  let es := edges.zip (weights.getD (List.replicate edges.length 1))
  es.map fun e => (e.1, e.2 / max (outWeight es e.1.1) degFloor)

/-- `(A @ H)[i, f]` for the CSR matrix of `adjacency_from_edge_index(format="csr")`
(adjacency.py:46-53): `coo_matrix(..).tocsr()` adds up the weights of repeated edges (scipy,
external). -/
def csrApply (es : List (Edge × Rat)) (H : Mat) (i f : Nat) : Rat :=
  (es.map fun e => if e.1.1 = (i : Int) then e.2 * entry H e.1.2.toNat f else 0).sum

/-- `A[i, j]` for the dense matrix of `adjacency_from_edge_index(format="dense")` (adjacency.py:36-44):
`A[src, dst] = data` assigns in order, so the last weight of a repeated edge stays. -/
def denseEntry (es : List (Edge × Rat)) (i j : Int) : Rat :=
  es.foldl (fun a e => if e.1 = (i, j) then e.2 else a) 0

/-- `(A @ H)[i, f]` for the dense matrix. -/
def denseApply (n : Nat) (es : List (Edge × Rat)) (H : Mat) (i f : Nat) : Rat :=
  ((List.range n).map fun (j : Nat) => denseEntry es i j * entry H j f).sum

/-- One round of the loop (diffusion.py:86-89): `H = A @ H; H *= 1 - a; H += X0 * a`. -/
def diffusionStep (apply : Mat → Nat → Nat → Rat) (n d : Nat) (alpha : Rat) (X H : Mat) : Mat :=
  (List.range n).map fun (i : Nat) => (List.range d).map fun (f : Nat) =>
    apply H i f * (1 - alpha) + entry X i f * alpha

/-- Repeat the round (diffusion.py:81: `for _ in range(int(steps))`). -/
def diffusionLoop (apply : Mat → Nat → Nat → Rat) (n d : Nat) (alpha : Rat) (X : Mat) : Nat → Mat
  | 0 => X
  | t + 1 => diffusionStep apply n d alpha X (diffusionLoop apply n d alpha X t)

/-- The number of columns. -/
def width (X : Mat) : Nat := (X.head?.map List.length).getD 0

/-- `diffusion_view` (diffusion.py:25-86).  `scipy`: whether scipy can be imported; without it the
dense matrix is used up to 4096 nodes (lines 68-80). -/
def diffusionView (scipy : Bool) (X : Mat) (n : Nat) (edges : List Edge) (weights : Option (List Rat))
    (steps : Int) (alpha : Rat) : Except PyErr Mat :=
  if X.length ≠ n then .error .validation
  else if scipy then
    .ok (diffusionLoop (csrApply (normalizedEdges edges weights)) n (width X) alpha X steps.toNat)
  else if 4096 < n then .error .runtimeError
  else .ok (diffusionLoop (denseApply n (normalizedEdges edges weights)) n (width X) alpha X steps.toNat)

/-- `NodeDataset` (artifacts.py:64-94) with the fields `graph_to_views` reads; `metaFp` is
`graph.meta["fingerprint"]` if there is one.  Simplification: one-dimensional labels. -/
structure NodeDataset where
  X : Mat
  y : List Int
  graph : GraphArtifact
  metaFp : Option String
  masks : List (String × List Bool)
deriving DecidableEq

/-- What the constructors of `NodeDataset` and `GraphArtifact` check (artifacts.py:36-48, 74-94). -/
def NodeDataset.WellFormed (d : NodeDataset) : Prop :=
  d.X.length = d.graph.nNodes ∧ d.y.length = d.graph.nNodes ∧
  (∀ m ∈ d.masks, m.2.length = d.graph.nNodes) ∧
  (∀ e ∈ d.graph.edgeIndex, 0 ≤ e.1 ∧ e.1 < d.graph.nNodes ∧ 0 ≤ e.2 ∧ e.2 < d.graph.nNodes) ∧
  ∀ w, d.graph.edgeWeight = some w → w.length = d.graph.edgeIndex.length

/-- External functions. -/
structure FeatExt where
  /-- `struct_embeddings(edge_index, n_nodes, params, seed)` (struct.py:222-306). -/
  struct : List Edge → Nat → FeaturizerSpec → Int → Except PyErr Mat
  /-- scipy can be imported -/
  scipy : Bool
  /-- SHA-256 of a text, as a hex string -/
  sha : List Char → String
  /-- `float.__repr__` -/
  floatText : Rat → List Char

/-- One view (api.py:71-104). -/
def FeatExt.view (E : FeatExt) (d : NodeDataset) (spec : FeaturizerSpec) (seed : Int) :
    PyVal → Except PyErr Mat
  | .str "attr" => .ok d.X
  | .str "diffusion" => diffusionView E.scipy d.X d.graph.nNodes d.graph.edgeIndex d.graph.edgeWeight
      spec.diffusionSteps spec.diffusionAlpha
  | .str "struct" => E.struct d.graph.edgeIndex d.graph.nNodes spec seed
  | _ => .error .valueError

/-- The loop over `spec.views` filling the dictionary (api.py:69-105). -/
def FeatExt.fillViews (E : FeatExt) (d : NodeDataset) (spec : FeaturizerSpec) (seed : Int) :
    List PyVal → List (String × Mat) → Except PyErr (List (String × Mat))
  | [], acc => .ok acc
  | v :: vs, acc => match E.view d spec seed v with
    | .error e => .error e
    | .ok M => E.fillViews d spec seed vs (Assoc.set acc v.toStr M)

/-- What the caller gets: the views, labels and masks, and `meta` (api.py:112-122). -/
structure DatasetViews where
  views : List (String × Mat)
  y : List Int
  masks : List (String × List Bool)
  fp : String
  graphFp : String
  specFp : String
  seed : Int
deriving DecidableEq

/-- `DatasetViews.__post_init__` (artifacts.py:106-135): at least one view, all with as many rows as
there are labels; masks as long. -/
def checkViews (v : DatasetViews) : Except PyErr DatasetViews :=
  match v.views with
  | [] => .error .validation
  | (_, M) :: _ =>
    if v.views.any (fun p => p.2.length ≠ M.length) then .error .validation
    else if v.y.length ≠ M.length then .error .validation
    else if v.masks.any (fun m => m.2.length ≠ M.length) then .error .validation
    else .ok v

/-- The fallback graph fingerprint (api.py:45-52): the hash of the number of nodes and of the first
1000 edges. -/
def FeatExt.fallbackFp (E : FeatExt) (d : NodeDataset) : String :=
  let es := d.graph.edgeIndex.take 1000
  Json.fingerprint E.sha E.floatText true (.dict
    [("n_nodes", .int d.graph.nNodes),
     ("edge_index", .list [.list (es.map fun e => .int e.1), .list (es.map fun e => .int e.2)])])

/-- The graph fingerprint (api.py:42-52): the one stored in the graph, or else the fallback. -/
def FeatExt.graphFp (E : FeatExt) (d : NodeDataset) : String :=
  if d.metaFp.getD "" = "" then E.fallbackFp d else d.metaFp.getD ""

/-- `_views_fingerprint` (api.py:21-27, 54). -/
def FeatExt.viewsFp (E : FeatExt) (d : NodeDataset) (spec : FeaturizerSpec) (seed : Int) : String :=
  Json.fingerprint E.sha E.floatText true (viewsPayload (E.graphFp d) spec seed)

/-- `fingerprint_dict(spec.to_dict())` (api.py:119). -/
def FeatExt.specFp (E : FeatExt) (spec : FeaturizerSpec) : String :=
  Json.fingerprint E.sha E.floatText true (.dict spec.toDict)

/-- The computation without a cache hit (api.py:69-122): build the views, check every matrix
(`validate_view_matrix`: number of rows; values are finite in exact arithmetic), assemble. -/
def FeatExt.compute (E : FeatExt) (d : NodeDataset) (spec : FeaturizerSpec) (seed : Int) :
    Except PyErr DatasetViews :=
  match E.fillViews d spec seed spec.views [] with
  | .error e => .error e
  | .ok views =>
    if views.any (fun p => p.2.length ≠ d.graph.nNodes) then .error .validation
    else checkViews ⟨views, d.y, d.masks, E.viewsFp d spec seed, E.graphFp d, E.specFp spec, seed⟩

/-- `graph_to_views(.., cache=False)` (api.py:30-137). -/
def FeatExt.plainViews (E : FeatExt) (d : NodeDataset) (spec : FeaturizerSpec) (seed : Int) :
    Except PyErr DatasetViews :=
  match spec.validate with
  | .error e => .error e
  | .ok _ => E.compute d spec seed

/-! ### the views cache (cache.py:285-342) -/

/-- What the manifest keeps of the metadata. -/
structure ViewsMeta where
  fp : String
  graphFp : String
  specFp : String
  seed : Int
deriving DecidableEq

/-- An entry directory: `views.npz` (absent, half written, or complete) and `manifest.json`. -/
structure ViewsEntry where
  npz : Option (Option (List (String × Mat)))
  manifest : Option ViewsMeta
deriving DecidableEq

/-- File operations of `ViewsCache.save` in an entry directory. -/
inductive ViewsOp where
  | unlinkNpz
  | unlinkManifest
  /-- `np.savez_compressed` under way: the file exists but is incomplete -/
  | beginNpz
  | finishNpz (views : List (String × Mat))
  /-- `os.replace` of the finished temporary file -/
  | manifest (m : ViewsMeta)

/-- Effect of one operation. -/
def ViewsOp.run (e : ViewsEntry) : ViewsOp → ViewsEntry
  | .unlinkNpz => { e with npz := none }
  | .unlinkManifest => { e with manifest := none }
  | .beginNpz => { e with npz := some none }
  | .finishNpz v => { e with npz := some (some v) }
  | .manifest m => { e with manifest := some m }

/-- Run operations in order. -/
def runViewsOps (e : ViewsEntry) (ops : List ViewsOp) : ViewsEntry := ops.foldl ViewsOp.run e

/-- `ViewsCache.save(overwrite=True)` (cache.py:293-318): remove the files (in directory order, here
the parameter `npzFirst`), write `views.npz`, then the manifest. -/
def saveViewsOps (npzFirst : Bool) (e : ViewsEntry) (v : DatasetViews) : List ViewsOp :=
  (if npzFirst then
    (if e.npz.isSome then [.unlinkNpz] else []) ++ (if e.manifest.isSome then [.unlinkManifest] else [])
  else
    (if e.manifest.isSome then [.unlinkManifest] else []) ++ (if e.npz.isSome then [.unlinkNpz] else []))
  ++ [.beginNpz, .finishNpz v.views, .manifest ⟨v.fp, v.graphFp, v.specFp, v.seed⟩]

/-- `ViewsCache.load` (cache.py:320-342) for an entry with a manifest; labels and masks come from the
caller.  An incomplete `views.npz` cannot be read (`zipfile.BadZipFile`). -/
def loadViews (e : ViewsEntry) (m : ViewsMeta) (d : NodeDataset) : Except PyErr DatasetViews :=
  match e.npz with
  | none => .error .cacheError
  | some none => .error .valueError
  | some (some views) => checkViews ⟨views, d.y, d.masks, m.fp, m.graphFp, m.specFp, m.seed⟩

/-- `graph_to_views` with the cache enabled (api.py:30-137), on the entry directory of its
fingerprint: the file operations it performs and its result. -/
def FeatExt.cachedViews (E : FeatExt) (npzFirst : Bool) (e : ViewsEntry) (d : NodeDataset)
    (spec : FeaturizerSpec) (seed : Int) : List ViewsOp × Except PyErr DatasetViews :=
  match spec.validate with
  | .error err => ([], .error err)
  | .ok _ => match e.manifest with
    | some m => ([], loadViews e m d)
    | none => match E.compute d spec seed with
      | .error err => ([], .error err)
      | .ok v => (saveViewsOps npzFirst e v, .ok v)

/-- The cache directory: fingerprint to entry. -/
abbrev ViewsStore := List (String × ViewsEntry)

/-- An entry that does not exist is empty. -/
def viewsEntryOf (s : ViewsStore) (fp : String) : ViewsEntry := (Assoc.get s fp).getD ⟨none, none⟩

end ModSSC.Graph
