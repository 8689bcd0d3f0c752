import Verif.Sampling.ReportModel
import Verif.Sampling.StorageModel

/-!
# `sample` with a directory of stored splits

Models `src/modssc/sampling/services/service.py:48-155`: the fingerprint, the choice between graph
and plain sampling, the derived seeds, the place of the split, and the optional save.

The two samplers (`_sample_graph`, `_sample_inductive`) are parameters here: their bodies are modelled
in `Verif.Sampling.Model` and its neighbours.  SHA-256 is a parameter.  The root directory is fixed and
directory names are taken as they are, so different pairs of names are different places.  Logging is
left out.
-/

namespace ModSSC.Sampling.History
open ModSSC ModSSC.Sampling.Storage

/-- What `sample` reads of a dataset: `meta`, whether `train.edges` and `train.masks` are there
(`service.py:98-101`), and everything else (`body`). -/
structure Data (B : Type) where
  info : Option (List (String × String))
  edges : Bool
  masks : Bool
  body : B

/-- What a sampler returns besides the metadata: named index arrays and named masks
(`src/modssc/sampling/result.py:12-39`). -/
structure Arrays where
  indices : List (String × List Int)
  masks : List (String × List Bool)
deriving DecidableEq

/-- The metadata of a result that `sample` fixes (`service.py:112-135`; statistics left out). -/
structure Info (P : Type) where
  createdAt : Nat
  datasetFp : String
  splitFp : String
  plan : P
deriving DecidableEq

/-- The outside functions: `stable_hash` of dataset fingerprint, plan and seed (the schema version is
constant; `service.py:86-93`), `derive_seed` (`sampling/fingerprint.py:14-19`), and the two samplers,
given the seeds of splitting, labelling and imbalance. -/
structure Env (B P : Type) where
  hash : String → P → Int → String
  derive : Int → String → Nat
  graph : Data B → P → Nat → Nat → Nat → Except PyErr Arrays
  plain : Data B → P → Nat → Nat → Nat → Except PyErr Arrays

/-- The arguments of `sample` (`service.py:63-73`), with the clock's reading (`:95`). -/
structure Call (B P : Type) where
  data : Data B
  plan : P
  seed : Int
  provided : Option String
  save : Bool
  overwrite : Bool
  now : Nat

/-- The directory names below the root (`service.py:52`). -/
abbrev Place := String × String

/-- The stored splits: one output directory for each place. -/
abbrev Store (P : Type) := Place → Disk (Info P)

variable {B P : Type}

/-- `service.py:98-135`: graph or plain sampling, with the derived seeds. -/
def draw (env : Env B P) (c : Call B P) : Except PyErr Arrays :=
  let s1 := env.derive c.seed "split"
  let s2 := env.derive c.seed "labeling"
  let s3 := env.derive c.seed "imbalance"
  if c.data.edges || c.data.masks then env.graph c.data c.plan s1 s2 s3
  else env.plain c.data c.plan s1 s2 s3

/-- `service.py:79-135`: everything up to the result, with its place (`split_dir_for`, `:48-52`). -/
def compute (env : Env B P) (c : Call B P) : Except PyErr (Result (Info P) × Place) := do
  let fp ← Report.resolveFingerprint c.provided c.data.info
  let split := env.hash fp c.plan c.seed
  let a ← draw env c
  .ok (⟨⟨c.now, fp, split, c.plan⟩, a.indices, a.masks⟩, (fp, split))

/-- One directory of the store replaced. -/
def put (st : Store P) (p : Place) (d : Disk (Info P)) : Store P :=
  fun q => if q = p then d else st q

/-- `sample` (`service.py:63-155`): the store afterwards and what is returned or raised. -/
def sample (env : Env B P) (c : Call B P) (st : Store P) :
    Store P × Except PyErr (Result (Info P) × Option Place) :=
  match compute env c with
  | .error e => (st, .error e)
  | .ok (r, p) =>
    if c.save then
      match save r c.overwrite (st p) with
      | .error e => (st, .error e)
      | .ok d => (put st p d, .ok (r, some p))
    else (st, .ok (r, none))

/-- A history of calls, from the first to the last: the store and the outcomes in order. -/
def runAll (env : Env B P) : List (Call B P) → Store P →
    Store P × List (Except PyErr (Result (Info P) × Option Place))
  | [], st => (st, [])
  | c :: cs, st =>
    let x := sample env c st
    let y := runAll env cs x.1
    (y.1, x.2 :: y.2)

end ModSSC.Sampling.History
