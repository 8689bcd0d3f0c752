import Verif.Graph.KnnModel

/-!
# Anchor graphs

`src/modssc/graph/construction/schemes/anchor.py`.

Floats are elements of an ordered field.  K-means centres, the nearest-anchor queries of scikit-learn and faiss, the random
choices and `round(np.sqrt(n))` are parameters.
-/

namespace ModSSC.Graph.Anchor
open ModSSC ModSSC.Graph

variable {K : Type} [Field K] [LinearOrder K]

/-- Functions outside the project.  `root n` is `round(np.sqrt(n))`; `choice seed n m` is
`default_rng(seed).choice(n, size=m, replace=False)`; `centers seed X m` are the centres of the fitted `MiniBatchKMeans`;
`pick seed i cand l` is `default_rng(derive_seed(seed, i)).choice(cand, size=l, replace=False)`; `query q r k` are the rows of
indices returned by scikit-learn or faiss. -/
structure Ext (K : Type) extends NumpyExt K where
  root : Nat → Nat
  choice : Int → Nat → Nat → List Nat
  centers : Int → List (List K) → Nat → List (List K)
  pick : Int → Nat → List Nat → Nat → List Nat
  query : List (List K) → List (List K) → Nat → List (List Nat)

/-- `AnchorMethod`, with other names. -/
inductive Method where
  | random
  | kmeans
  | other
deriving DecidableEq

/-- `Backend`, with other names; scikit-learn and faiss together. -/
inductive Backend where
  | numpy
  | library
  | other
deriving DecidableEq

/-- `anchor.py:20-26` -/
structure Params where
  nAnchors : Option Int := none
  anchorsK : Int := 5
  method : Method := .random
  candidateLimit : Int := 1000
  chunkSize : Int := 512

/-- Distance of two rows as computed in both places (`anchor.py:84-93, 218-231`).  Simplification: the scalar product is
written with the query on the left in both. -/
def pairDist (ext : NumpyExt K) (eps : K) (m : Metric) (x y : List K) : K :=
  match m with
  | .cosine => rankDist ext eps .cosine x y
  | .euclidean => ext.sqrt (rankDist ext eps .euclidean x y)

/-- `argpartition` to the `k` smallest followed by `argsort` of these (`anchor.py:95-99, 237-238`): the selected positions. -/
def selectNearest (ext : NumpyExt K) (ds : List K) (k : Nat) : List Nat :=
  let row : List (WithTop K) := ds.map (fun d : K => ((d : K) : WithTop K))
  let part := (ext.argpartition row (k - 1)).take k
  let order := ext.argsort (part.map (fun j => row.getD j ⊤))
  order.map (fun o => part.getD o 0)

/-- `anchor.py:53-104` `_knn_query_numpy`: the indices.  A chunk size of 0 is refused by `range`.  With a negative one the
loop does not run and the returned memory is uninitialised; this is not modelled (an error here). -/
def queryNumpy (ext : NumpyExt K) (eps : K) (m : Metric) (q r : List (List K)) (k : Nat) (chunkSize : Int) :
    Except PyErr (List (List Nat)) := do
  let kEff := min k r.length
  if chunkSize ≤ 0 then throw .valueError
  return (chunks q.length chunkSize.toNat).flatMap
    (chunkRows (fun i => [selectNearest ext (r.map (pairDist ext eps m (q.getD i []))) kEff]))

/-- `anchor.py:29-50, 169-174`: the anchor vectors. -/
def chooseAnchors (E : Ext K) (X : List (List K)) (m : Nat) (method : Method) (seed : Int) : Except PyErr (List (List K)) :=
  match method with
  | .random => .ok ((E.choice seed X.length m).map (fun j => X.getD j []))
  | .kmeans => .ok (E.centers seed X m)
  | .other => .error .validation

/-- `anchor.py:178-186`: the anchors of every node. -/
def queryAnchors (E : Ext K) (eps : K) (metric : Metric) (backend : Backend) (X A : List (List K)) (r : Nat) (chunkSize : Int) :
    Except PyErr (List (List Nat)) :=
  match backend with
  | .numpy => queryNumpy E.toNumpyExt eps metric X A r chunkSize
  | .library => .ok (E.query X A r)
  | .other => .error .validation

/-- `anchor.py:163-166`: the number of anchors. -/
def numAnchors (E : Ext K) (n : Nat) (p : Params) : Nat :=
  let m : Int := match p.nAnchors with
    | some m => m
    | none => max 10 (E.root n)
  (min (max 1 m) n).toNat

/-- `anchor.py:188-192`: the nodes of every anchor. -/
def anchorToNodes (m : Nat) (near : List (List Nat)) : List (List Nat) :=
  (List.range near.length).foldl
    (fun M i => (near.getD i []).foldl (fun M a => M.modify a (· ++ [i])) M) (List.replicate m [])

/-- `anchor.py:207-216`: the candidates of node `i`, sorted. -/
def candidates (near : List (List Nat)) (atn : List (List Nat)) (includeSelf : Bool) (i : Nat) : List Nat :=
  let all := (npSort ((near.getD i []).flatMap (fun a => atn.getD a []))).dedup
  if includeSelf then all else all.filter (fun j => decide (j ≠ i))

/-- `anchor.py:217-221`: down-sampling; a negative size is refused by `choice`. -/
def limitCandidates (E : Ext K) (seed : Int) (limit : Int) (i : Nat) (cand : List Nat) : Except PyErr (List Nat) :=
  if (cand.length : Int) > limit then
    if limit < 0 then .error .valueError else .ok (npSort (E.pick seed i cand limit.toNat))
  else .ok cand

/-- `anchor.py:206-250`: the edges of node `i`. -/
def nodeEdges (E : Ext K) (eps : K) (metric : Metric) (X : List (List K)) (k : Int) (near atn : List (List Nat))
    (includeSelf : Bool) (seed limit : Int) (i : Nat) : Except PyErr (List (DEdge K)) := do
  let cand := candidates near atn includeSelf i
  if cand.isEmpty then return []
  let cand ← limitCandidates E seed limit i cand
  let d := cand.map (fun j => pairDist E.toNumpyExt eps metric (X.getD i []) (X.getD j []))
  let kk := min k (cand.length : Int)
  if kk ≤ 0 then return []
  return (selectNearest E.toNumpyExt d kk.toNat).map (fun s => (i, cand.getD s 0, d.getD s 0))

/-- `anchor.py:138-262` `anchor_edges`. -/
def anchorEdges (E : Ext K) (eps : K) (X : List (List K)) (k : Int) (metric : Metric) (backend : Backend) (seed : Int)
    (p : Params) (includeSelf : Bool) : Except PyErr (List (DEdge K)) := do
  if X.length = 0 then return []
  let m := numAnchors E X.length p
  let A ← chooseAnchors E X m p.method seed
  let r := (min (max 1 p.anchorsK) (m : Int)).toNat
  let near ← queryAnchors E eps metric backend X A r p.chunkSize
  let atn := anchorToNodes m near
  let parts ← (List.range X.length).mapM
    (nodeEdges E eps metric X k near atn includeSelf seed p.candidateLimit)
  return parts.flatten

end ModSSC.Graph.Anchor
