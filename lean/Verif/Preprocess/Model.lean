import Verif.Base
import Verif.Assoc
import Verif.Preprocess.Types

/-!
# Model of the preprocessing pipeline

`src/modssc/preprocess/services/pipeline.py` (resolution, purging and the main loop) and
`src/modssc/preprocess/cache.py` (the step cache, with crash points).

`V` is the type of artifacts, `P` of step parameters, `S` of a step object together with its
random generator.  Logging, timing and GPU detection are not modelled.
-/

namespace ModSSC.Preprocess
open ModSSC

variable {V P S : Type}

/-- The masks loop of `pipeline.py:301-303`. -/
def setMasks (s : Store V) : List (String × V) → Store V
  | [] => s
  | (k, v) :: ms => setMasks (Assoc.set s ("graph.mask." ++ k) v) ms

/-- `pipeline.py:294-304` `_initial_store`. -/
def initialStore (sp : Split V) : Store V :=
  let s : Store V := Assoc.set (Assoc.set [] "raw.X" sp.X) "raw.y" sp.y
  let s := match sp.edges with
    | some e => Assoc.set s "graph.edge_index" e
    | none => s
  match sp.masks with
  | some ms => setMasks s ms
  | none => s

/-! ## Resolution -/

/-- The loop of `pipeline.py:364-398`; `fields` are the available fields, `i` the step index. -/
def resolveLoop (spec : String → Option StepSpec) (modality : String) :
    Nat → List String → List (StepConfig P) →
      Except PyErr (List (ResolvedStep P) × List SkippedStep)
  | _, _, [] => .ok ([], [])
  | i, fields, c :: rest =>
    if c.enabled = false then
      (resolveLoop spec modality (i + 1) fields rest).map
        (fun r => (r.1, SkippedStep.mk c.stepId .disabled i :: r.2))
    else
      match spec c.stepId with
      | none => .error .validation
      | some sp =>
        let allowed := if c.modalities.isEmpty then sp.modalities else c.modalities
        if ¬ allowed.isEmpty ∧ modality ≠ "" ∧ modality ∉ allowed then
          (resolveLoop spec modality (i + 1) fields rest).map
            (fun r => (r.1, SkippedStep.mk c.stepId (.modality allowed) i :: r.2))
        else
          let missing := c.requires.filter (fun k => decide (k ∉ fields))
          if ¬ missing.isEmpty then
            (resolveLoop spec modality (i + 1) fields rest).map
              (fun r => (r.1, SkippedStep.mk c.stepId (.missing missing) i :: r.2))
          else
            (resolveLoop spec modality (i + 1) (fields ++ sp.produces) rest).map
              (fun r => (ResolvedStep.mk c.stepId c.params i sp :: r.1, r.2))

/-- `pipeline.py:357-361`: the fields available before the first step. -/
def initialFields (ds : Dataset V) : List String :=
  Assoc.keys (initialStore ds.train) ++
    (match ds.test with
     | some t => Assoc.keys (initialStore t)
     | none => [])

/-- `pipeline.py:346-410` `resolve_plan` (the fingerprint of the resolved plan is not modelled). -/
def resolvePlan (spec : String → Option StepSpec) (ds : Dataset V) (plan : Plan P) :
    Except PyErr (List (ResolvedStep P) × List SkippedStep) :=
  resolveLoop spec ds.modality 0 (initialFields ds) plan.steps

/-! ## Purging -/

/-- `pipeline.py:27-30` `_IMPLICIT_CONSUMES`. -/
def implicitConsumes (stepId : String) : List String :=
  if stepId = "graph.node2vec" then ["raw.X", "raw.y"]
  else if stepId = "graph.dgi" then ["raw.X"]
  else []

/-- `pipeline.py:307-323` `_final_keep_keys`. -/
def finalKeepKeys (steps : List (ResolvedStep P)) (outputKey : String)
    (initialKeys : List String) : List String :=
  let produced := steps.flatMap (fun s => s.spec.produces)
  [outputKey]
    ++ (if outputKey = "raw.X" ∨ (outputKey ∉ initialKeys ∧ outputKey ∉ produced)
        then ["raw.X"] else [])
    ++ (if "labels.y" ∈ produced then ["labels.y"] else ["raw.y"])
    ++ (if "graph.edge_weight" ∈ produced then ["graph.edge_weight", "graph.edge_index"]
        else if "graph.edge_index" ∈ produced then ["graph.edge_index"] else [])

/-- `pipeline.py:326-336` `_build_purge_keep_sets`: the loop runs backwards, so it is a right fold
carrying the sets built so far and `required`. -/
def keepFold (steps : List (ResolvedStep P)) (final : List String) :
    List (List String) × List String :=
  steps.foldr (fun s acc =>
    (acc.2 :: acc.1, acc.2 ++ s.spec.consumes ++ implicitConsumes s.stepId)) ([], final)

/-- `pipeline.py:326-336` `_build_purge_keep_sets`. -/
def buildKeepSets (steps : List (ResolvedStep P)) (outputKey : String)
    (initialKeys : List String) : List (List String) :=
  (keepFold steps (finalKeepKeys steps outputKey initialKeys)).1

/-- `pipeline.py:339-343` `_purge_store`. -/
def purgeStore (s : Store V) (keep : List String) : Store V :=
  s.filter (fun p => decide (p.1 ∈ keep))

/-! ## The step cache -/

/-- One `str.replace(a, b)` for a one-character pattern. -/
def replaceChar (a : Char) (b : List Char) : List Char → List Char
  | [] => []
  | c :: cs => if c = a then b ++ replaceChar a b cs else c :: replaceChar a b cs

/-- `str.replace("..", ".")`: non-overlapping, left to right. -/
def collapseDots : List Char → List Char
  | '.' :: '.' :: cs => '.' :: collapseDots cs
  | c :: cs => c :: collapseDots cs
  | [] => []

/-- `cache.py:66-68` `_safe_name` on POSIX (`_safe_path_component` is the identity there). -/
def safeName (key : String) : String :=
  String.ofList (replaceChar '.' ['_', '_'] (collapseDots (replaceChar '/' ['_'] key.toList)))

/-- How values are written and read back (`cache.py:89-225`): `suffix v` is the file suffix chosen
by `_save_value` (`none`: the value cannot be stored), `reload v` is what `_load_value` returns for
the file written for `v`, and `tornError` is the exception raised on a truncated file. -/
structure Codec (V : Type) where
  suffix : V → Option String
  reload : V → V
  tornError : PyErr

/-- Contents of one file. -/
inductive File (V : Type) where
  | torn
  | whole (v : V)
deriving DecidableEq

/-- One step directory (`cache.py:247-253`): the `saved` entry of `manifest.json`
(`none`: no manifest), the split directories that exist, and the files by split and name. -/
structure StepDir (V : Type) where
  manifest : Option (List (String × List (String × String))) := none
  dirs : List String := []
  files : List ((String × String) × File V) := []

/-- The cache of one dataset: step directories by fingerprint. -/
abbrev Cache (V : Type) := List (String × StepDir V)

/-- File system operations of `save_step_outputs`. -/
inductive Op (V : Type) where
  /-- `d.mkdir(parents=True, exist_ok=True)` -/
  | mkdir (fp split : String)
  /-- open the value file for writing (truncates it) -/
  | beginFile (fp split name : String)
  /-- the value file is complete -/
  | endFile (fp split name : String) (v : V)
  /-- atomic replacement of `manifest.json` -/
  | manifest (fp split : String) (saved : List (String × String))

/-- The step directory of a fingerprint (empty if it does not exist). -/
def dirOf (c : Cache V) (fp : String) : StepDir V := (Assoc.get c fp).getD {}

/-- Effect of one operation. -/
def applyOp (c : Cache V) : Op V → Cache V
  | .mkdir fp split =>
    let d := dirOf c fp
    Assoc.set c fp { d with dirs := if split ∈ d.dirs then d.dirs else d.dirs ++ [split] }
  | .beginFile fp split name =>
    let d := dirOf c fp
    Assoc.set c fp { d with files := Assoc.set d.files (split, name) .torn }
  | .endFile fp split name v =>
    let d := dirOf c fp
    Assoc.set c fp { d with files := Assoc.set d.files (split, name) (.whole v) }
  | .manifest fp split saved =>
    let d := dirOf c fp
    Assoc.set c fp { d with manifest := some (Assoc.set (d.manifest.getD []) split saved) }

/-- Effect of a sequence of operations. -/
def applyOps (c : Cache V) (ops : List (Op V)) : Cache V := ops.foldl applyOp c

/-- The descriptors of the artifacts that can be stored (`cache.py:271-276`), in the order of
`produced`; only the file name of a descriptor is modelled. -/
def savedEntries (cdc : Codec V) : List (String × V) → List (String × String)
  | [] => []
  | (k, v) :: rest =>
    match cdc.suffix v with
    | some sfx => (k, safeName k ++ sfx) :: savedEntries cdc rest
    | none => savedEntries cdc rest

/-- The file operations of the loop `cache.py:271-276`. -/
def fileOps (cdc : Codec V) (fp split : String) : List (String × V) → List (Op V)
  | [] => []
  | (k, v) :: rest =>
    match cdc.suffix v with
    | some sfx =>
      .beginFile fp split (safeName k ++ sfx) :: .endFile fp split (safeName k ++ sfx) v
        :: fileOps cdc fp split rest
    | none => fileOps cdc fp split rest

/-- Keys in the order of the manifest: `stable_json_dumps` sorts them (`cache.py:299`). -/
def sortEntries (l : List (String × String)) : List (String × String) :=
  l.insertionSort (fun a b => a.1 ≤ b.1)

/-- `cache.py:260-299` `save_step_outputs`. -/
def saveOps (cdc : Codec V) (fp split : String) (produced : Store V) : List (Op V) :=
  .mkdir fp split :: fileOps cdc fp split produced
    ++ [.manifest fp split (sortEntries (savedEntries cdc produced))]

/-- `cache.py:255-258` `has_step_outputs`. -/
def hasOutputs (c : Cache V) (fp split : String) : Bool :=
  (dirOf c fp).manifest.isSome && decide (split ∈ (dirOf c fp).dirs)

/-- `cache.py:172-225` `_load_value`. -/
def loadValue (cdc : Codec V) (d : StepDir V) (split name : String) : Except PyErr V :=
  match Assoc.get d.files (split, name) with
  | none => .error .fileNotFound
  | some .torn => .error cdc.tornError
  | some (.whole v) => .ok (cdc.reload v)

/-- `cache.py:301-319` `load_step_outputs`. -/
def loadOutputs (cdc : Codec V) (c : Cache V) (fp split : String) : Except PyErr (Store V) :=
  match (dirOf c fp).manifest with
  | none => .error .cacheError
  | some saved =>
    ((Assoc.get saved split).getD []).mapM (fun (p : String × String) =>
      (loadValue cdc (dirOf c fp) split p.2).map (fun v => (p.1, v)))

/-! ## The main loop -/

/-- The payload of a step fingerprint (`pipeline.py:521-533`). -/
structure StepKey (P : Type) where
  datasetFp : String
  stepId : String
  index : Nat
  params : P
  kind : Kind
  seed : Nat
  fitFp : Option String
  inputsTrain : List (String × String)
  inputsTest : List (String × String)
deriving DecidableEq

/-- The payload of the fallback dataset fingerprint (`pipeline.py:281-290`). -/
structure StructKey where
  modality : String
  xShape : Option (List Nat)
  yShape : Option (List Nat)
  hasEdges : Bool
  hasMasks : Bool
  hasTest : Bool
deriving DecidableEq

/-- What the pipeline uses from outside: the step registry with the code of the steps, and hashing.
`start` is `instantiate` together with `default_rng(derived)`; `S` holds the object and the
generator, so `fit` and `transform` may change both. -/
structure Env (V P S : Type) where
  spec : String → Option StepSpec
  start : String → P → Nat → Except PyErr S
  fit : String → S → Store V → List Int → Except PyErr S
  transform : String → S → Store V → Except PyErr (Store V × S)
  deriveSeed : Int → String → Nat → Nat
  stepFp : StepKey P → String
  fitFp : List Int → String
  shape : V → Option (List Nat)
  structFp : StructKey → String

/-- `pipeline.py:281-290`: the structural payload. -/
def structKey (E : Env V P S) (ds : Dataset V) : StructKey where
  modality := ds.modality
  xShape := E.shape ds.train.X
  yShape := E.shape ds.train.y
  hasEdges := ds.train.edges.isSome
  hasMasks := ds.train.masks.isSome
  hasTest := ds.test.isSome

/-- `pipeline.py:273-291` `_dataset_fingerprint`. -/
def datasetFp (E : Env V P S) (ds : Dataset V) : String :=
  match ds.metaFp with
  | some s => if s = "" then E.structFp (structKey E ds) else s
  | none => E.structFp (structKey E ds)

/-- The state of the loop `pipeline.py:497-672`: both stores and the provenance maps. -/
structure RunState (V : Type) where
  train : Store V
  test : Option (Store V)
  provTrain : List (String × String)
  provTest : List (String × String)

/-- `pipeline.py:516-519`: the provenance of the declared inputs. -/
def inputsOf (prov : List (String × String)) (consumes : List String) : List (String × String) :=
  consumes.filterMap (fun k => (Assoc.get prov k).map (fun p => (k, p)))

/-- `pipeline.py:516-533`: the fingerprint payload of a step. -/
def stepKey (E : Env V P S) (dfp : String) (seed : Int) (fit : Option (List Int))
    (st : RunState V) (step : ResolvedStep P) : StepKey P where
  datasetFp := dfp
  stepId := step.stepId
  index := step.index
  params := step.params
  kind := step.spec.kind
  seed := E.deriveSeed seed step.stepId step.index
  fitFp := if step.spec.kind = .fittable then
      some (match fit with | some l => E.fitFp l | none => "fit:none") else none
  inputsTrain := inputsOf st.provTrain step.spec.consumes
  inputsTest := match st.test with
    | some t => if t.isEmpty then [] else inputsOf st.provTest step.spec.consumes
    | none => []

/-- `pipeline.py:535-548`: instantiate the step and fit it if it is fittable. -/
def prepare (E : Env V P S) (seed : Int) (fit : Option (List Int)) (train : Store V)
    (step : ResolvedStep P) : Except PyErr S :=
  match E.start step.stepId step.params (E.deriveSeed seed step.stepId step.index) with
  | .error e => .error e
  | .ok obj =>
    if step.spec.kind = .fittable then
      match fit with
      | none => .error .validation
      | some idx => E.fit step.stepId obj train idx
    else .ok obj

/-- `pipeline.py:268-270` `_cache_outputs_complete`. -/
def complete (outs : Store V) (produces : List String) : Bool :=
  produces.all (fun k => Assoc.has outs k)

/-- `pipeline.py:554-564`: what the cache offers for a split: `none` means "compute it". -/
def fromCache (cdc : Codec V) (cm : Option (Cache V)) (fp split : String)
    (produces : List String) : Except PyErr (Option (Store V)) :=
  match cm with
  | none => .ok none
  | some c =>
    if hasOutputs c fp split then
      match loadOutputs cdc c fp split with
      | .ok outs => if complete outs produces then .ok (some outs) else .ok none
      | .error .cacheError => .ok none
      | .error e => .error e
    else .ok none

/-- `pipeline.py:551-589` (train) and `607-645` (test): load the outputs of one split from the cache
or compute and save them.  Returns the cache operations, and the outputs with the step object. -/
def obtain (E : Env V P S) (cdc : Codec V) (cm : Option (Cache V)) (fp split : String)
    (step : ResolvedStep P) (obj : S) (store : Store V) :
    List (Op V) × Except PyErr (Store V × S) :=
  match fromCache cdc cm fp split step.spec.produces with
  | .error e => ([], .error e)
  | .ok (some outs) => ([], .ok (outs, obj))
  | .ok none =>
    match E.transform step.stepId obj store with
    | .error e => ([], .error e)
    | .ok (outs, obj') =>
      (match cm with
       | some _ => saveOps cdc fp split outs
       | none => [], .ok (outs, obj'))

/-- `for k, v in produced.items(): store.set(k, v)`. -/
def setAll (s : Store V) (outs : Store V) : Store V :=
  outs.foldl (fun s p => Assoc.set s p.1 p.2) s

/-- `for k in produced: prov[k] = step_fp`. -/
def setProv (prov : List (String × String)) (fp : String) (outs : Store V) :
    List (String × String) :=
  outs.foldl (fun s p => Assoc.set s p.1 fp) prov

/-- `pipeline.py:647-652`: purge if a keep set is given. -/
def purgeOpt (keep : Option (List String)) (s : Store V) : Store V :=
  match keep with
  | some k => purgeStore s k
  | none => s

/-- The cache after some operations (`none`: caching disabled). -/
def advance (cm : Option (Cache V)) (ops : List (Op V)) : Option (Cache V) :=
  cm.map (fun c => applyOps c ops)

/-- One iteration of the loop `pipeline.py:497-672`. -/
def runStep (E : Env V P S) (cdc : Codec V) (dfp : String) (seed : Int) (fit : Option (List Int))
    (cm : Option (Cache V)) (st : RunState V) (step : ResolvedStep P)
    (keep : Option (List String)) : List (Op V) × Except PyErr (RunState V) :=
  let fp := E.stepFp (stepKey E dfp seed fit st step)
  match prepare E seed fit st.train step with
  | .error e => ([], .error e)
  | .ok obj =>
    let tr := obtain E cdc cm fp "train" step obj st.train
    match tr.2 with
    | .error e => (tr.1, .error e)
    | .ok (outs, obj') =>
      match st.test with
      | none =>
        (tr.1, .ok {
          train := purgeOpt keep (setAll st.train outs)
          test := none
          provTrain := setProv st.provTrain fp outs
          provTest := st.provTest })
      | some t =>
        let te := obtain E cdc (advance cm tr.1) fp "test" step obj' t
        match te.2 with
        | .error e => (tr.1 ++ te.1, .error e)
        | .ok (outsT, _) =>
          (tr.1 ++ te.1, .ok {
            train := purgeOpt keep (setAll st.train outs)
            test := some (purgeOpt keep (setAll t outsT))
            provTrain := setProv st.provTrain fp outs
            provTest := setProv st.provTest fp outsT })

/-- The loop `pipeline.py:497-672`; `keeps` are the purge sets of the remaining steps. -/
def runSteps (E : Env V P S) (cdc : Codec V) (dfp : String) (seed : Int)
    (fit : Option (List Int)) : Option (Cache V) → RunState V →
    List (ResolvedStep P × Option (List String)) → List (Op V) × Except PyErr (RunState V)
  | _, st, [] => ([], .ok st)
  | cm, st, (step, keep) :: rest =>
    let r := runStep E cdc dfp seed fit cm st step keep
    match r.2 with
    | .error e => (r.1, .error e)
    | .ok st' =>
      let r' := runSteps E cdc dfp seed fit (advance cm r.1) st' rest
      (r.1 ++ r'.1, r'.2)

/-- `pipeline.py:494-495`: provenance of the initial artifacts. -/
def initialProv (dfp : String) (s : Store V) : List (String × String) :=
  s.map (fun p => (p.1, dfp ++ ":" ++ p.1))

/-- `pipeline.py:461-495`: the state before the first step. -/
def initialState (dfp : String) (ds : Dataset V) : RunState V where
  train := initialStore ds.train
  test := ds.test.map initialStore
  provTrain := initialProv dfp (initialStore ds.train)
  provTest := match ds.test with
    | some t => initialProv dfp (initialStore t)
    | none => []

/-- Edges of an output split: as given, or with weights (`pipeline.py:679-684`). -/
inductive Edges (V : Type) where
  | plain (edges : Option V)
  | weighted (edges : Option V) (weight : V)
deriving DecidableEq

/-- An output split; the masks are those of the input (`pipeline.py:686`). -/
structure OutSplit (V : Type) where
  X : V
  y : V
  edges : Edges V

/-- `pipeline.py:674-698`: the output split of a store.  `train_store.require("raw.X")` is an
argument, so it is evaluated even when the output key is present. -/
def outSplit (outputKey : String) (edges : Option V) (s : Store V) : Except PyErr (OutSplit V) :=
  match Assoc.get s "raw.X" with
  | none => .error .keyError
  | some rx =>
    match Assoc.get s "raw.y" with
    | none => .error .keyError
    | some ry => .ok {
        X := (Assoc.get s outputKey).getD rx
        y := (Assoc.get s "labels.y").getD ry
        edges := match Assoc.get s "graph.edge_weight" with
          | some w => .weighted (Assoc.get s "graph.edge_index") w
          | none => .plain ((Assoc.get s "graph.edge_index").or edges) }

/-- What `preprocess` returns: the two output splits and the two artifact stores. -/
structure Result (V : Type) where
  train : OutSplit V
  test : Option (OutSplit V)
  trainArtifacts : Store V
  testArtifacts : Option (Store V)

/-- `pipeline.py:674-698`: both output splits. -/
def finish (outputKey : String) (ds : Dataset V) (st : RunState V) : Except PyErr (Result V) := do
  let tr ← outSplit outputKey ds.train.edges st.train
  match ds.test, st.test with
  | some t, some s => do
    let te ← outSplit outputKey t.edges s
    return ⟨tr, some te, st.train, st.test⟩
  | _, _ => return ⟨tr, none, st.train, st.test⟩

/-- `pipeline.py:463-467`: the purge set of every step, or none. -/
def withKeeps (purge : Bool) (ds : Dataset V) (plan : Plan P) (steps : List (ResolvedStep P)) :
    List (ResolvedStep P × Option (List String)) :=
  if purge then
    steps.zip ((buildKeepSets steps plan.outputKey (Assoc.keys (initialStore ds.train))).map some)
  else steps.map (fun s => (s, none))

/-- Arguments of one call of `preprocess` other than the dataset and the cache. -/
structure Call (P : Type) where
  plan : Plan P
  seed : Int := 0
  fit : Option (List Int) := none
  purge : Bool := false

/-- `pipeline.py:413-730` `preprocess`: the cache operations performed and the result. -/
def preprocess (E : Env V P S) (cdc : Codec V) (ds : Dataset V) (cm : Option (Cache V))
    (call : Call P) : List (Op V) × Except PyErr (Result V) :=
  match resolvePlan E.spec ds call.plan with
  | .error e => ([], .error e)
  | .ok (steps, _) =>
    let dfp := datasetFp E ds
    let r := runSteps E cdc dfp call.seed call.fit cm (initialState dfp ds)
      (withKeeps call.purge ds call.plan steps)
    match r.2 with
    | .error e => (r.1, .error e)
    | .ok st => (r.1, finish call.plan.outputKey ds st)

end ModSSC.Preprocess
