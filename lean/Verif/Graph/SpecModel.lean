import Verif.PyVal

/-!
# Model of `graph/specs.py`

The fields that `from_dict` passes on unchanged (`k`, `radius`, `n_anchors`, `sigma`, the view names)
are arbitrary Python values; the fields it converts (`str(..)`, `int(..)`, `float(..)`, `bool(..)`)
have the type they are converted to.
-/

namespace ModSSC.Graph
open ModSSC PyVal

/-- A dictionary display. -/
abbrev PyDict := List (String × PyVal)

/-- `GraphWeightsSpec` (specs.py:26-42). -/
structure WeightsSpec where
  kind : String
  sigma : PyVal
deriving DecidableEq

/-- `float(x or 0.0)`. -/
def floatOrZero (v : PyVal) : Except PyErr Rat := if v.truthy then v.toFloat else .ok 0

/-- `float(self.sigma or 0.0)` must be positive (specs.py:46-49). -/
def checkSigma (v : PyVal) : Except PyErr Unit :=
  match floatOrZero v with
  | .error e => .error e
  | .ok s => if s ≤ 0 then .error .validation else .ok ()

/-- `GraphWeightsSpec.validate` (specs.py:43-51). -/
def WeightsSpec.validate (w : WeightsSpec) (metric : String) : Except PyErr Unit :=
  if ¬ (w.kind = "binary" ∨ w.kind = "heat" ∨ w.kind = "cosine") then .error .validation
  else if w.kind = "heat" then checkSigma w.sigma
  else if w.kind = "cosine" ∧ metric ≠ "cosine" then .error .validation
  else .ok ()

/-- `GraphWeightsSpec.to_dict` (specs.py:53-54). -/
def WeightsSpec.toDict (w : WeightsSpec) : PyDict := [("kind", .str w.kind), ("sigma", w.sigma)]

/-- `GraphWeightsSpec.from_dict` (specs.py:56-58). -/
def WeightsSpec.fromDict (d : PyDict) : WeightsSpec :=
  ⟨(PyVal.getD d "kind" (.str "binary")).toStr, PyVal.getD d "sigma" .none⟩

/-- `GraphBuilderSpec` (specs.py:61-107). -/
structure BuilderSpec where
  scheme : String
  metric : String
  k : PyVal
  radius : PyVal
  symmetrize : String
  weights : WeightsSpec
  normalize : String
  selfLoops : Bool
  backend : String
  chunkSize : Int
  featureField : String
  nAnchors : PyVal
  anchorsK : Int
  anchorsMethod : String
  candidateLimit : Int
  faissExact : Bool
  faissHnswM : Int
  faissEfSearch : Int
  faissEfConstruction : Int
deriving DecidableEq

/-- `self.k is None or int(self.k) <= 0` (specs.py:114, 120). -/
def checkPositiveInt (v : PyVal) : Except PyErr Unit :=
  if v = .none then .error .validation
  else match v.toInt with
    | .error e => .error e
    | .ok k => if k ≤ 0 then .error .validation else .ok ()

/-- `self.radius is None or float(self.radius) <= 0` (specs.py:117). -/
def checkPositiveFloat (v : PyVal) : Except PyErr Unit :=
  if v = .none then .error .validation
  else match v.toFloat with
    | .error e => .error e
    | .ok r => if r ≤ 0 then .error .validation else .ok ()

/-- Raise unless the condition holds. -/
def require (c : Prop) [Decidable c] : Except PyErr Unit := if c then .ok () else .error .validation

/-- The scheme-specific part of `validate` (specs.py:113-136). -/
def BuilderSpec.validateScheme (s : BuilderSpec) : Except PyErr Unit :=
  if s.scheme = "knn" then checkPositiveInt s.k
  else if s.scheme = "epsilon" then checkPositiveFloat s.radius
  else if s.scheme = "anchor" then do
    checkPositiveInt s.k
    require (0 < s.anchorsK)
    (if s.nAnchors = .none then .ok () else checkPositiveInt s.nAnchors)
    require (0 < s.candidateLimit)
    require (s.anchorsMethod = "random" ∨ s.anchorsMethod = "kmeans")
  else .error .validation

/-- `GraphBuilderSpec.validate` (specs.py:109-157). -/
def BuilderSpec.validate (s : BuilderSpec) : Except PyErr Unit := do
  require (s.metric = "cosine" ∨ s.metric = "euclidean")
  s.validateScheme
  require (s.symmetrize = "none" ∨ s.symmetrize = "or" ∨ s.symmetrize = "mutual")
  require (s.normalize = "none" ∨ s.normalize = "rw" ∨ s.normalize = "sym")
  require (s.backend = "auto" ∨ s.backend = "numpy" ∨ s.backend = "sklearn" ∨ s.backend = "faiss")
  require (0 < s.chunkSize)
  require (¬ (s.backend = "faiss" ∧ s.scheme = "epsilon"))
  require (0 < s.faissHnswM)
  require (0 < s.faissEfSearch)
  require (0 < s.faissEfConstruction)
  s.weights.validate s.metric

/-- `GraphBuilderSpec.to_dict` (specs.py:159-180). -/
def BuilderSpec.toDict (s : BuilderSpec) : PyDict :=
  [("scheme", .str s.scheme), ("metric", .str s.metric), ("k", s.k), ("radius", s.radius),
   ("symmetrize", .str s.symmetrize), ("weights", .dict s.weights.toDict),
   ("normalize", .str s.normalize), ("self_loops", .bool s.selfLoops), ("backend", .str s.backend),
   ("chunk_size", .int s.chunkSize), ("feature_field", .str s.featureField),
   ("n_anchors", s.nAnchors), ("anchors_k", .int s.anchorsK),
   ("anchors_method", .str s.anchorsMethod), ("candidate_limit", .int s.candidateLimit),
   ("faiss_exact", .bool s.faissExact), ("faiss_hnsw_m", .int s.faissHnswM),
   ("faiss_ef_search", .int s.faissEfSearch), ("faiss_ef_construction", .int s.faissEfConstruction)]

/-- `dict(x)` on a dictionary; `dict([])` is `{}`; other values raise.  Simplification: lists of pairs
are not modelled. -/
def asPyDict : PyVal → Except PyErr PyDict
  | .dict d => .ok d
  | .list [] => .ok []
  | .str "" => .ok []
  | .list _ => .error .typeError
  | .str _ => .error .valueError
  | _ => .error .typeError

/-- `GraphBuilderSpec.from_dict` (specs.py:182-205): missing keys fall back to defaults. -/
def BuilderSpec.fromDict (d : PyDict) : Except PyErr BuilderSpec := do
  let weights ← asPyDict (PyVal.getD d "weights" (.dict []))
  let chunkSize ← (PyVal.getD d "chunk_size" (.int 512)).toInt
  let anchorsK ← (PyVal.getD d "anchors_k" (.int 5)).toInt
  let candidateLimit ← (PyVal.getD d "candidate_limit" (.int 1000)).toInt
  let hnswM ← (PyVal.getD d "faiss_hnsw_m" (.int 32)).toInt
  let efSearch ← (PyVal.getD d "faiss_ef_search" (.int 64)).toInt
  let efConstruction ← (PyVal.getD d "faiss_ef_construction" (.int 200)).toInt
  return {
    scheme := (PyVal.getD d "scheme" (.str "knn")).toStr
    metric := (PyVal.getD d "metric" (.str "cosine")).toStr
    k := PyVal.getD d "k" .none
    radius := PyVal.getD d "radius" .none
    symmetrize := (PyVal.getD d "symmetrize" (.str "mutual")).toStr
    weights := WeightsSpec.fromDict weights
    normalize := (PyVal.getD d "normalize" (.str "rw")).toStr
    selfLoops := (PyVal.getD d "self_loops" (.bool true)).truthy
    backend := (PyVal.getD d "backend" (.str "auto")).toStr
    chunkSize := chunkSize
    featureField := (PyVal.getD d "feature_field" (.str "features.X")).toStr
    nAnchors := PyVal.getD d "n_anchors" .none
    anchorsK := anchorsK
    anchorsMethod := (PyVal.getD d "anchors_method" (.str "random")).toStr
    candidateLimit := candidateLimit
    faissExact := (PyVal.getD d "faiss_exact" (.bool false)).truthy
    faissHnswM := hnswM
    faissEfSearch := efSearch
    faissEfConstruction := efConstruction }

/-- `GraphFeaturizerSpec` (specs.py:208-243). -/
structure FeaturizerSpec where
  views : List PyVal
  diffusionSteps : Int
  diffusionAlpha : Rat
  structMethod : String
  structDim : Int
  walkLength : Int
  numWalks : Int
  windowSize : Int
  p : Rat
  q : Rat
  cache : Bool
deriving DecidableEq

/-- `GraphFeaturizerSpec.validate` (specs.py:245-271). -/
def FeaturizerSpec.validate (s : FeaturizerSpec) : Except PyErr Unit := do
  require (0 ≤ s.diffusionSteps)
  require (0 ≤ s.diffusionAlpha ∧ s.diffusionAlpha ≤ 1)
  require (s.views ≠ [])
  require (∀ v ∈ s.views, v = .str "attr" ∨ v = .str "diffusion" ∨ v = .str "struct")
  require (s.structMethod = "deepwalk" ∨ s.structMethod = "node2vec")
  require (0 < s.structDim)
  require (1 < s.walkLength)
  require (0 < s.numWalks)
  require (0 < s.windowSize)
  require (0 < s.p)
  require (0 < s.q)

/-- `GraphFeaturizerSpec.to_dict` (specs.py:273-286). -/
def FeaturizerSpec.toDict (s : FeaturizerSpec) : PyDict :=
  [("views", .list s.views), ("diffusion_steps", .int s.diffusionSteps),
   ("diffusion_alpha", .flt s.diffusionAlpha), ("struct_method", .str s.structMethod),
   ("struct_dim", .int s.structDim), ("walk_length", .int s.walkLength),
   ("num_walks_per_node", .int s.numWalks), ("window_size", .int s.windowSize), ("p", .flt s.p),
   ("q", .flt s.q), ("cache", .bool s.cache)]

/-- `tuple(x)`: the items of a list, the keys of a dictionary, the characters of a string. -/
def asTuple : PyVal → Except PyErr (List PyVal)
  | .list l => .ok l
  | .dict d => .ok (d.map fun p => .str p.1)
  | .str s => .ok (s.toList.map fun c => .str (String.singleton c))
  | _ => .error .typeError

/-- `GraphFeaturizerSpec.from_dict` (specs.py:288-302). -/
def FeaturizerSpec.fromDict (d : PyDict) : Except PyErr FeaturizerSpec := do
  let views ← asTuple (PyVal.getD d "views" (.list [.str "attr"]))
  let steps ← (PyVal.getD d "diffusion_steps" (.int 5)).toInt
  let alpha ← (PyVal.getD d "diffusion_alpha" (.flt (1 / 10))).toFloat
  let dim ← (PyVal.getD d "struct_dim" (.int 64)).toInt
  let walk ← (PyVal.getD d "walk_length" (.int 40)).toInt
  let num ← (PyVal.getD d "num_walks_per_node" (.int 10)).toInt
  let win ← (PyVal.getD d "window_size" (.int 5)).toInt
  let p ← (PyVal.getD d "p" (.flt 1)).toFloat
  let q ← (PyVal.getD d "q" (.flt 1)).toFloat
  return {
    views := views
    diffusionSteps := steps
    diffusionAlpha := alpha
    structMethod := (PyVal.getD d "struct_method" (.str "deepwalk")).toStr
    structDim := dim
    walkLength := walk
    numWalks := num
    windowSize := win
    p := p
    q := q
    cache := (PyVal.getD d "cache" (.bool true)).truthy }

/-- The payload of `_graph_fingerprint` (construction/services/service.py:31-44). -/
def graphPayload (dataset : String) (preprocess : PyVal) (spec : BuilderSpec) (seed : Int) : PyVal :=
  .dict [("dataset_fingerprint", .str dataset), ("preprocess_fingerprint", preprocess),
    ("spec", .dict spec.toDict), ("seed", .int seed)]

/-- The payload of `_views_fingerprint` (featurization/api.py:21-27). -/
def viewsPayload (graph : String) (spec : FeaturizerSpec) (seed : Int) : PyVal :=
  .dict [("graph_fingerprint", .str graph), ("spec", .dict spec.toDict), ("seed", .int seed)]

end ModSSC.Graph
