import Verif.Bench.SliceModel
import Verif.Evaluation.Model

/-!
# Model of what a benchmarked method is given and of what is measured

`bench/orchestrators/method_inductive.py`, `method_transductive.py`, `evaluation.py`, and the glue of
`bench/main.py`.

Features are arrays of rows of any type `α` (mappings are the subject of C61 and C94), conversions between numpy and
torch (`_smart_to_torch`, devices, dtypes) are left out, and index arrays hold natural numbers: `SamplingResult.validate`
refuses negative ones before a method runs (`bench/orchestrators/sampling.py:72`).
-/

namespace ModSSC.Bench
open ModSSC

/-- A split of the preprocessed dataset: features and labels; `none` is a missing label in an object array. -/
structure Split (α : Type) where
  X : List α
  y : List (Option Int)

/-- `PreprocessResult`: the dataset and the `labels.y` artifact of either split, if there is one. -/
structure Prepared (α : Type) where
  train : Split α
  test : Option (Split α)
  trainLabels : Option (List Int)
  testLabels : Option (List Int)

/-- `SamplingResult` for an index split: the index arrays and `refs`. -/
structure IndexSplit where
  indices : List (String × List Nat)
  refs : List (String × String)

/-- `SamplingResult` for a graph: one boolean per node. -/
structure GraphSplit where
  train : List Bool
  val : List Bool
  test : List Bool
  labeled : List Bool
  unlabeled : List Bool

inductive Sampling where
  | index (s : IndexSplit)
  | graph (m : GraphSplit)

/-- `d[k]`. -/
def getKey {β : Type} (l : List (String × β)) (k : String) : Except PyErr β :=
  match Assoc.get l k with
  | some v => .ok v
  | none => .error .keyError

/-- `sampling.refs.get(name, "train")`. -/
def refOf (refs : List (String × String)) (name : String) : String := (Assoc.get refs name).getD "train"

/-- `np.where(mask)[0]`. -/
def whereTrue (m : List Bool) : List Nat := (List.range m.length).filter (fun i => m.getD i false)

/-- `_graph_sampling_to_inductive` (main.py:76-96). -/
def graphToIndex (m : GraphSplit) : IndexSplit :=
  let indices := [("train", whereTrue m.train), ("val", whereTrue m.val), ("test", whereTrue m.test),
    ("train_labeled", whereTrue m.labeled), ("train_unlabeled", whereTrue m.unlabeled)]
  ⟨indices, indices.map (fun kv => (kv.1, "train"))⟩

/-- main.py:723-730: an inductive method gets index arrays. -/
def toIndex : Sampling → IndexSplit
  | .index s => s
  | .graph m => graphToIndex m

/-- `int(idx.max()) if idx.size else -1` (method_inductive.py:123). -/
def idxMax (idx : List Nat) : Int := idx.foldl (fun (m : Int) (i : Nat) => max m (i : Int)) (-1)

/-- `y = y[idx] if y.shape[0] > idx_max else y` (method_inductive.py:136-138, 151-152). -/
def sliceOrAll (l : List Int) (idx : List Nat) : Except PyErr (List Int) :=
  if idxMax idx < (l.length : Int) then takeRows l idx else .ok l

/-- `_labels_for_backend` (method_inductive.py:120-158).  A missing label becomes -1. -/
def labelsFor (strict : Bool) (labels : Option (List Int)) (y : List (Option Int)) (idx : List Nat) :
    Except PyErr (List Int) :=
  let raw := y.map (fun v => v.getD (-1))
  match labels with
  | none => sliceOrAll raw idx
  | some l =>
    if 0 ≤ idxMax idx ∧ (l.length : Int) ≤ idxMax idx then
      if strict then .error .runtimeError else sliceOrAll raw idx
    else sliceOrAll l idx

/-- An entry of the `views` payload: the labeled and unlabeled rows of a view, or the second strong augmentation. -/
inductive ViewData (α : Type) where
  | rows (Xl Xu : List α)
  | extra (X : List α)
deriving DecidableEq

/-- `InductiveDataset` as built by `run` (method_inductive.py:614-634). -/
structure FitData (α : Type) where
  Xl : List α
  yl : List Int
  Xu : List α
  weak : Option (List α)
  strong : Option (List α)
  views : Option (List (String × ViewData α))
  idxU : List Nat
  ulbSize : Nat
deriving DecidableEq

/-- `_build_views` (method_inductive.py:235-261); a view holds the training features under that view. -/
def buildViews {α : Type} (views : List (String × List α)) (idxL idxU : List Nat) :
    Except PyErr (List (String × ViewData α)) :=
  views.mapM (fun v => do
    let Xl ← takeRows v.2 idxL
    let Xu ← takeRows v.2 idxU
    pure (v.1, ViewData.rows Xl Xu))

/-- `views_payload` (method_inductive.py:601-612). -/
def viewsPayload {α : Type} (methodId : String) (built : Option (List (String × ViewData α)))
    (strong1 : Option (List α)) : Option (List (String × ViewData α)) :=
  match strong1 with
  | none => built
  | some x =>
    if methodId = "comatch" then some [("X_u_s_1", ViewData.extra x)]
    else match built with
      | none => some [("X_u_s_1", ViewData.extra x)]
      | some b => some b

/-- `_build_views(...) if views else None`. -/
def optViews {α : Type} (views : Option (List (String × List α))) (idxL idxU : List Nat) :
    Except PyErr (Option (List (String × ViewData α))) :=
  match views with
  | none => .ok none
  | some v => (buildViews v idxL idxU).map some

/-- The row check of `_validate_strict_inputs` (method_inductive.py:226-232). -/
def strictRows {α : Type} (strict : Bool) (Xl : List α) (yl : List Int) : Except PyErr Unit :=
  if strict ∧ Xl.length ≠ yl.length then .error .runtimeError else .ok ()

/-- The data given to `method.fit` by `run` (method_inductive.py:510-634) for a split given by indices. -/
def fitDataIdx {α : Type} (strict : Bool) (pre : Prepared α) (s : IndexSplit)
    (views : Option (List (String × List α))) (methodId : String) (weak strong strong1 : Option (List α)) :
    Except PyErr (FitData α) := do
  let idxL ← getKey s.indices "train_labeled"
  let idxU ← getKey s.indices "train_unlabeled"
  let Xl ← takeRows pre.train.X idxL
  let Xu ← takeRows pre.train.X idxU
  let yl ← labelsFor strict pre.trainLabels pre.train.y idxL
  strictRows strict Xl yl
  let built ← optViews views idxL idxU
  pure ⟨Xl, yl, Xu, weak, strong, viewsPayload methodId built strong1, idxU, pre.train.X.length⟩

/-- The same, with the refusal of graph sampling (method_inductive.py:524-528). -/
def fitData {α : Type} (strict : Bool) (pre : Prepared α) (s : Sampling)
    (views : Option (List (String × List α))) (methodId : String) (weak strong strong1 : Option (List α)) :
    Except PyErr (FitData α) :=
  match s with
  | .graph _ => .error .runtimeError
  | .index s => fitDataIdx strict pre s views methodId weak strong strong1

/-- `_infer_num_classes` (method_inductive.py:292-297). -/
def inferNumClasses (y : List Int) : Nat := (npUnique y).length

/-! ### Transductive -/

/-- `_mask_from_indices` (method_transductive.py:111-116). -/
def maskFrom (n : Nat) (idx : List Nat) (offset : Nat) : Except PyErr (List Bool) :=
  if idx.all (fun i => decide (i + offset < n)) then
    .ok ((List.range n).map (fun p => idx.any (fun i => decide (i + offset = p))))
  else .error .indexError

/-- The masks of a run. -/
structure Masks where
  train : List Bool
  val : List Bool
  test : List Bool
  unlabeled : List Bool
  labeled : List Bool
deriving DecidableEq

/-- One mask of `_build_masks_from_indices` (method_transductive.py:126-140). -/
def maskOf (nTrain : Nat) (nTest : Option Nat) (s : IndexSplit) (name : String) : Except PyErr (List Bool) := do
  let idx ← getKey s.indices name
  maskFrom (nTrain + nTest.getD 0) idx (if refOf s.refs name = "train" then 0 else nTrain)

/-- `_build_masks_from_indices` (method_transductive.py:119-149). -/
def buildMasks (nTrain : Nat) (nTest : Option Nat) (s : IndexSplit) : Except PyErr Masks := do
  let train ← maskOf nTrain nTest s "train"
  let val ← maskOf nTrain nTest s "val"
  let test ← maskOf nTrain nTest s "test"
  let labeled ← maskOf nTrain nTest s "train_labeled"
  let unlabeled ← maskOf nTrain nTest s "train_unlabeled"
  pure ⟨train, val, test, unlabeled, labeled⟩

/-- `_mask_map_from_sampling` (main.py:278-295). -/
def maskMap (s : Sampling) (nTrain : Nat) (nTest : Option Nat) : Except PyErr Masks :=
  match s with
  | .graph m => .ok ⟨m.train, m.val, m.test, m.unlabeled, m.labeled⟩
  | .index s => buildMasks nTrain nTest s

/-- `_use_test_split` (main.py:274-275); a graph sampling has no refs. -/
def useTest : Sampling → Bool
  | .index s => decide (refOf s.refs "test" = "test")
  | .graph _ => false

/-- `astype(np.int64)` of labels: an object array with a missing label cannot be converted. -/
def intLabels (y : List (Option Int)) : Except PyErr (List Int) :=
  y.mapM (fun v => match v with
    | some i => .ok i
    | none => .error .typeError)

/-- `_combine_splits` (method_transductive.py:105-108). -/
def combine {β : Type} (train : List β) (test : Option (List β)) : List β :=
  match test with
  | none => train
  | some t => train ++ t

/-- The observed labels (method_transductive.py:263-273).  `masks["unlabeled_mask"]` is always present. -/
def observed (y : List Int) (m : Masks) : List Int :=
  if y.length = m.labeled.length then
    if m.unlabeled.length = y.length then
      List.zipWith (fun v u => if u then -1 else v) y m.unlabeled
    else List.zipWith (fun v l => if l then v else -1) y m.labeled
  else y

/-- `NodeDataset` as built by `run` (method_transductive.py:275-292), without the graph. -/
structure NodeData (α : Type) where
  X : List α
  y : List Int
  masks : Masks
  trainAll : List Bool
  yTrue : List Int
deriving DecidableEq

/-- The labeled-count check (method_transductive.py:244-251). -/
def checkLabeledCount (expected : Option Nat) (labeled : List Bool) : Except PyErr Unit :=
  match expected with
  | none => .ok ()
  | some n => if labeled.count true = n then .ok () else .error .runtimeError

/-- The data given to `method.fit` by the transductive `run` (method_transductive.py:229-292). -/
def nodeData {α : Type} (pre : Prepared α) (m : Masks) (useTestSplit : Bool) (expected : Option Nat) :
    Except PyErr (NodeData α) := do
  let test := if useTestSplit then pre.test else none
  let X := combine pre.train.X (test.map (·.X))
  checkLabeledCount expected m.labeled
  let y ← intLabels (combine pre.train.y (test.map (·.y)))
  pure ⟨X, observed y m, ⟨m.labeled, m.val, m.test, m.unlabeled, m.labeled⟩, m.train, y⟩

/-- The transductive data for a sampling, as `main` puts it together (main.py:864-871). -/
def nodeDataFor {α : Type} (pre : Prepared α) (s : Sampling) (expected : Option Nat) :
    Except PyErr (NodeData α × Masks) := do
  let nTest := if useTest s then pre.test.map (·.y.length) else none
  let m ← maskMap s pre.train.y.length nTest
  let d ← nodeData pre m (useTest s) expected
  pure (d, m)

/-! ### Evaluation -/

/-- What `predict_proba` is called with: rows, or for co-training a dataset of rows, labels and views. -/
inductive PredictInput (α : Type) where
  | rows (X : List α)
  | dataset (X : List α) (y : List Int) (views : List (String × List α))

/-- `_split_data`: the split a name refers to (evaluation.py:71-82). -/
def baseOf {α : Type} (pre : Prepared α) (ref : String) : Except PyErr (Split α) :=
  if ref = "train" then .ok pre.train
  else match pre.test with
    | none => .error .runtimeError
    | some t => .ok t

/-- `_labels_for_split` (evaluation.py:92-96), as integers. -/
def evalLabels {α : Type} (pre : Prepared α) (ref : String) (base : Split α) : Except PyErr (List Int) :=
  match (if ref = "train" then pre.trainLabels else pre.testLabels) with
  | some l => .ok l
  | none => intLabels base.y

/-- `_split_data` (evaluation.py:59-89). -/
def splitData {α : Type} (pre : Prepared α) (s : IndexSplit) (split : String) :
    Except PyErr (List α × List Int) := do
  let idx ← getKey s.indices split
  let base ← baseOf pre (refOf s.refs split)
  let y ← evalLabels pre (refOf s.refs split) base
  let Xs ← takeRows base.X idx
  let ys ← takeRows y idx
  pure (Xs, ys)

/-- A view as a dataset: training features and, if there is one, test features. -/
structure View (α : Type) where
  train : List α
  test : Option (List α)

/-- `base = ds.train if split_ref == "train" else ds.test`, its features (evaluation.py:168-174). -/
def viewBase {α : Type} (v : View α) (ref : String) : Except PyErr (List α) :=
  if ref = "train" then .ok v.train
  else match v.test with
    | none => .error .runtimeError
    | some t => .ok t

/-- `_views_for_split` (evaluation.py:153-184). -/
def viewsForSplit {α : Type} (views : List (String × View α)) (s : IndexSplit) (split : String) :
    Except PyErr (List (String × List α)) := do
  let idx ← getKey s.indices split
  views.mapM (fun v => do
    let base ← viewBase v.2 (refOf s.refs split)
    let X ← takeRows base idx
    pure (v.1, X))

/-- What the method is asked about a split (evaluation.py:257-292). -/
def evalInput {α : Type} (s : IndexSplit) (methodId : String) (views : Option (List (String × View α)))
    (split : String) (X : List α) (y : List Int) : Except PyErr (PredictInput α) :=
  if methodId = "co_training" then
    match views with
    | none => .error .runtimeError
    | some v => (viewsForSplit v s split).map (PredictInput.dataset X y)
  else .ok (.rows X)

/-- The metrics of one split (evaluation.py:257-297). -/
def evalSplit {α : Type} (predict : PredictInput α → Except PyErr (List (List Rat))) (pre : Prepared α)
    (s : IndexSplit) (metrics : List String) (methodId : String) (views : Option (List (String × View α)))
    (split : String) : Except PyErr (List (String × Option Rat)) := do
  let xy ← splitData pre s split
  let inp ← evalInput s methodId views split xy.1 xy.2
  let scores ← predict inp
  Evaluation.computeMetrics xy.2 (Evaluation.labels1d (.rows scores)) metrics []

/-- The loop over the reported splits (evaluation.py:256-304, 332-351). -/
def evalLoop (f : String → Except PyErr (List (String × Option Rat))) :
    List String → List (String × List (String × Option Rat)) →
    Except PyErr (List (String × List (String × Option Rat)))
  | [], out => .ok out
  | s :: rest, out => match f s with
    | .error e => .error e
    | .ok r => evalLoop f rest (Assoc.set out s r)

/-- `evaluate_inductive` (evaluation.py:237-307). -/
def evaluateInductive {α : Type} (predict : PredictInput α → Except PyErr (List (List Rat))) (pre : Prepared α)
    (s : Sampling) (report metrics : List String) (methodId : String) (views : Option (List (String × View α))) :
    Except PyErr (List (String × List (String × Option Rat))) :=
  evalLoop (fun split => match s with
    | .graph _ => .error .runtimeError
    | .index s => evalSplit predict pre s metrics methodId views split) report []

/-- `masks[f"{split}_mask"]`. -/
def maskNamed (m : Masks) (split : String) : Option (List Bool) :=
  if split = "train" then some m.train
  else if split = "val" then some m.val
  else if split = "test" then some m.test
  else if split = "unlabeled" then some m.unlabeled
  else if split = "labeled" then some m.labeled
  else none

/-- `x[mask]`. -/
def maskSelect {β : Type} (x : List β) (mask : List Bool) : List β :=
  ((x.zip mask).filter (·.2)).map (·.1)

/-- The metrics of one split (evaluation.py:332-344); boolean indexing needs masks of the array's length. -/
def evalMasked (yTrue yPred : List Int) (m : Masks) (metrics : List String) (split : String) :
    Except PyErr (List (String × Option Rat)) :=
  match maskNamed m split with
  | none => .error .runtimeError
  | some mask =>
    if mask.length ≠ yTrue.length then .error .runtimeError
    else if mask.length ≠ yPred.length then .error .indexError
    else Evaluation.computeMetrics (maskSelect yTrue mask) (maskSelect yPred mask) metrics []

/-- `evaluate_transductive` (evaluation.py:310-354). -/
def evaluateTransductive {α : Type} (predict : NodeData α → Except PyErr (List (List Rat))) (d : NodeData α)
    (m : Masks) (report metrics : List String) : Except PyErr (List (String × List (String × Option Rat))) := do
  let scores ← predict d
  evalLoop (evalMasked d.yTrue (Evaluation.labels1d (.rows scores)) m metrics) report []

end ModSSC.Bench
