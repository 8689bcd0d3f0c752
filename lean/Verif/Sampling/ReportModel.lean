import Verif.Sampling.Model

/-!
# Model of the statistics and warnings of sampling (`src/modssc/sampling/stats.py`, `services/service.py`)

Labels are integers; the keys `str(c)` of the class counts are the integers themselves.
-/

namespace ModSSC.Sampling.Report
open ModSSC ModSSC.Sampling

/-- The result of `class_distribution`. -/
structure Dist where
  n : Nat
  classes : List (Int × Nat)
deriving DecidableEq

/-- `class_distribution` (stats.py:11-19); the indices are inside `y`. -/
def classDistribution (y : List Int) (idx : List Nat) : Dist :=
  if idx.isEmpty then ⟨0, []⟩
  else ⟨idx.length, classCounts (idx.map fun i => y.getD i 0)⟩

/-- The numbers of `build_inductive_stats` (stats.py:22-43). -/
structure IndStats where
  train : Dist
  val : Dist
  labeled : Dist
  unlabeled : Nat
  test : Dist
deriving DecidableEq

/-- `build_inductive_stats` (stats.py:22-43). -/
def indStats (y : List Int) (yTest : Option (List Int)) (r : IndResult) : IndStats :=
  { train := classDistribution y r.train
    val := classDistribution y r.val
    labeled := classDistribution y r.labeled
    unlabeled := r.unlabeled.length
    test := match r.testRef with
      | .train => classDistribution y r.test
      | .test => classDistribution (yTest.getD y) r.test }

/-- `build_graph_stats` (stats.py:46-62). -/
structure GraphStats where
  nodes : Nat
  train : Nat
  val : Nat
  test : Nat
  labeled : Nat
  unlabeled : Nat
  dist : Dist
deriving DecidableEq

/-- `int(m.sum())` (stats.py:49-50). -/
def maskCount (m : List Bool) : Nat := (m.filter id).length

/-- `build_graph_stats` (stats.py:46-62).  Simplification: the labeled indices are read off the labeled mask they were turned into; the order
does not matter for the counts. -/
def graphStats (y : List Int) (m : Masks) : GraphStats :=
  { nodes := y.length, train := maskCount m.train, val := maskCount m.val, test := maskCount m.test
    labeled := maskCount m.labeled, unlabeled := maskCount m.unlabeled
    dist := classDistribution y (maskToIdx m.labeled) }

/-- The warnings of `_warn_on_sampling_stats`. -/
inductive Warning where
  | missing (classes : List Int)
  | empty
deriving DecidableEq

/-- `_warn_on_sampling_stats` for index results (service.py:168-181). -/
def indWarnings (st : IndStats) (r : IndResult) : List Warning :=
  let missing := (st.train.classes.map (·.1)).filter fun k => decide ((st.labeled.classes.lookup k).getD 0 = 0)
  (if missing.isEmpty then [] else [.missing missing]) ++
  (if r.train.length = 0 ∨ r.labeled.length = 0 then [.empty] else [])

/-- `_warn_on_sampling_stats` for graph results (service.py:158-166). -/
def graphWarnings (st : GraphStats) : List Warning :=
  let missing := (st.dist.classes.filter fun p => decide (p.2 = 0)).map (·.1)
  if missing.isEmpty then [] else [.missing missing]

/-- `_resolve_dataset_fingerprint` (service.py:189-198): an argument, else two entries of `meta`, given as their `str`; `none` if `meta` is
no dictionary. -/
def resolveFingerprint (provided : Option String) (info : Option (List (String × String))) : Except PyErr String :=
  match provided with
  | some p => if p ≠ "" then .ok p else fromMeta info
  | none => fromMeta info
where
  /-- The entries of `meta` (service.py:192-198). -/
  fromMeta : Option (List (String × String)) → Except PyErr String
    | none => .error .valueError
    | some d => match d.lookup "dataset_fingerprint" with
      | some v => .ok v
      | none => match d.lookup "fingerprint" with
        | some v => .ok v
        | none => .error .valueError

end ModSSC.Sampling.Report
