import Verif.PyVal
import Verif.Assoc

/-!
# Model of `src/modssc/hpo` and of the tuner in `bench/orchestrators/hpo.py`

Dictionaries have string keys (a non-string key is rejected by the code).  All `HpoError`s and
`BenchConfigError`s are `PyErr.validation`; which of several errors comes first is not modelled.
-/

namespace ModSSC.Hpo
open ModSSC

/-- `src/modssc/hpo/types.py:20-25` `DistributionSpec`.  `low`/`high` keep their raw value,
`.none` stands for `None`. -/
structure DistSpec where
  dist : String
  low : PyVal
  high : PyVal
  values : Option (List PyVal)

/-- `src/modssc/hpo/space.py:15-19` `_Leaf`. -/
structure Leaf where
  path : List String
  values : Option (List PyVal)
  dist : Option DistSpec

/-- `src/modssc/hpo/samplers.py:12-15` `_require_real`: a bool is not a real. -/
def requireReal : PyVal → Except PyErr Rat
  | .int i => .ok i
  | .flt q => .ok q
  | _ => .error .validation

/-- `src/modssc/hpo/samplers.py:18-21` `_require_int`. -/
def requireInt : PyVal → Except PyErr Int
  | .int i => .ok i
  | _ => .error .validation

/-- `src/modssc/hpo/samplers.py:24-74` `validate_distribution`.  (`None` bounds are rejected by
`requireReal`/`requireInt`, as the separate check does.) -/
def validateDistribution (s : DistSpec) : Except PyErr Unit :=
  if s.dist = "uniform" then do
    let low ← requireReal s.low
    let high ← requireReal s.high
    if low ≥ high then .error .validation
    else if s.values.isSome then .error .validation else .ok ()
  else if s.dist = "loguniform" then do
    let low ← requireReal s.low
    let high ← requireReal s.high
    if low ≤ 0 then .error .validation
    else if low ≥ high then .error .validation
    else if s.values.isSome then .error .validation else .ok ()
  else if s.dist = "randint" then do
    let low ← requireInt s.low
    let high ← requireInt s.high
    if low ≥ high then .error .validation
    else if s.values.isSome then .error .validation else .ok ()
  else if s.dist = "choice" then
    match s.values with
    | none => .error .validation
    | some vs =>
      if vs = [] then .error .validation
      else if s.low ≠ .none ∨ s.high ≠ .none then .error .validation else .ok ()
  else .error .validation

/-- `node.get("values")` followed by the list check, `src/modssc/hpo/space.py:54-56`. -/
def distValues : Option PyVal → Except PyErr (Option (List PyVal))
  | none => .ok none
  | some .none => .ok none
  | some (.list l) => .ok (some l)
  | some _ => .error .validation

/-- `src/modssc/hpo/space.py:44-63`: a mapping with a `dist` key becomes one leaf. -/
def distLeaf (d : List (String × PyVal)) (pre : List String) : Except PyErr Leaf :=
  if pre = [] then .error .validation
  else if (Assoc.keys d).any (fun k => !(["dist", "low", "high", "values"].contains k)) then
    .error .validation
  else do
    let values ← distValues (Assoc.get d "values")
    let spec : DistSpec :=
      { dist := ((Assoc.get d "dist").getD .none).toStr
        low := (Assoc.get d "low").getD .none
        high := (Assoc.get d "high").getD .none
        values := values }
    validateDistribution spec
    .ok { path := pre, values := if spec.dist = "choice" then values else none, dist := some spec }

/-- `sorted(node.keys())`: entries in key order. -/
def byKey {α : Type} (l : List (String × α)) : List (String × α) :=
  l.insertionSort (fun a b => a.1 ≤ b.1)

mutual
/-- `src/modssc/hpo/space.py:37-74` `_walk`: the leaves below a node.  Children are visited in key
order; here their results are computed first and then put in key order. -/
def walk : PyVal → List String → Except PyErr (List Leaf)
  | .list l, pre =>
    if l = [] then .error .validation else .ok [{ path := pre, values := some l, dist := none }]
  | .dict d, pre =>
    if d = [] then .error .validation
    else if Assoc.has d "dist" then do
      let leaf ← distLeaf d pre
      .ok [leaf]
    else do
      let rs ← walkEntries d pre
      .ok ((byKey rs).flatMap (·.2))
  | _, _ => .error .validation

/-- The children of a mapping, `src/modssc/hpo/space.py:66-69`. -/
def walkEntries : List (String × PyVal) → List String → Except PyErr (List (String × List Leaf))
  | [], _ => .ok []
  | (k, v) :: d, pre =>
    if k = "" then .error .validation
    else do
      let r ← walk v (pre ++ [k])
      let rs ← walkEntries d pre
      .ok ((k, r) :: rs)
end

/-- `src/modssc/hpo/space.py:22-26,28-77` `Space.from_dict` (and `Space.__init__`). -/
def fromDict (d : List (String × PyVal)) : Except PyErr (List Leaf) :=
  if d = [] then .error .validation
  else do
    let leaves ← walk (.dict d) []
    if leaves = [] then .error .validation else .ok leaves

/-- `src/modssc/hpo/space.py:108-112` `_assign`: nested item assignment with `setdefault`.
`setdefault` on a value that is not a mapping raises (`AttributeError`). -/
def assign : List (String × PyVal) → List String → PyVal → Except PyErr (List (String × PyVal))
  | _, [], _ => .error .indexError
  | d, [k], v => .ok (Assoc.set d k v)
  | d, k :: k' :: ks, v =>
    match Assoc.get d k with
    | none => do
      let s ← assign [] (k' :: ks) v
      .ok (Assoc.set d k (.dict s))
    | some (.dict s) => do
      let s' ← assign s (k' :: ks) v
      .ok (Assoc.set d k (.dict s'))
    | some _ => .error .runtimeError

/-- The loop over `zip(self._leaves, combo)`, `src/modssc/hpo/space.py:88-89`. -/
def assignAll : List (String × PyVal) → List (List String × PyVal) →
    Except PyErr (List (String × PyVal))
  | d, [] => .ok d
  | d, (p, v) :: rest => do
    let d' ← assign d p v
    assignAll d' rest

/-- `itertools.product(*grids)`: rightmost list varies fastest. -/
def product {α : Type} : List (List α) → List (List α)
  | [] => [[]]
  | g :: gs => g.flatMap (fun x => (product gs).map (fun c => x :: c))

/-- `".".join(path)`. -/
def dotted : List String → String
  | [] => ""
  | [k] => k
  | k :: k' :: ks => k ++ "." ++ dotted (k' :: ks)

mutual
/-- `src/modssc/hpo/patching.py:8-21` `flatten_patch._walk`: dotted names and values, mappings in
key order; an empty mapping is a value. -/
def flatWalk : List (String × PyVal) → List String → List (String × List (String × PyVal))
  | [], _ => []
  | (k, v) :: d, pre => (k, flatValue v (pre ++ [k])) :: flatWalk d pre

/-- The body of the loop: recurse into a non-empty mapping, record anything else. -/
def flatValue : PyVal → List String → List (String × PyVal)
  | .dict d, pre =>
    if d = [] then [(dotted pre, .dict [])] else (byKey (flatWalk d pre)).flatMap (·.2)
  | .none, pre => [(dotted pre, .none)]
  | .bool b, pre => [(dotted pre, .bool b)]
  | .int i, pre => [(dotted pre, .int i)]
  | .flt q, pre => [(dotted pre, .flt q)]
  | .str s, pre => [(dotted pre, .str s)]
  | .list l, pre => [(dotted pre, .list l)]
end

/-- `src/modssc/hpo/patching.py:8-21` `flatten_patch`. -/
def flattenPatch (patch : List (String × PyVal)) : List (String × PyVal) :=
  ((byKey (flatWalk patch [])).flatMap (·.2)).foldl (fun out p => Assoc.set out p.1 p.2) []

/-- `src/modssc/hpo/types.py:12-16` `Trial`. -/
structure Trial where
  index : Nat
  patch : List (String × PyVal)
  params : List (String × PyVal)

/-- `src/modssc/hpo/space.py:81-84`: the value lists, or an error for a continuous leaf. -/
def leafGrid (leaf : Leaf) : Except PyErr (List PyVal) :=
  match leaf.values with
  | none => .error .validation
  | some vs => .ok vs

/-- One trial, `src/modssc/hpo/space.py:86-90`. -/
def mkTrial (paths : List (List String)) (index : Nat) (combo : List PyVal) : Except PyErr Trial := do
  let patch ← assignAll [] (paths.zip combo)
  .ok { index := index, patch := patch, params := flattenPatch patch }

/-- `src/modssc/hpo/space.py:79-90` `Space.iter_grid`, as the list of all trials it yields. -/
def iterGrid (leaves : List Leaf) : Except PyErr (List Trial) := do
  let grids ← leaves.mapM leafGrid
  let combos := product grids
  (combos.zipIdx).mapM (fun ci => mkTrial (leaves.map (·.path)) ci.2 ci.1)

/-- The draws of `numpy.random.Generator` used by the samplers, and `math.exp`, `math.log`
(all external). -/
structure Draw (σ : Type) where
  uniform : σ → Rat → Rat → Rat × σ
  integers : σ → Int → Int → Int × σ
  exp : Rat → Rat
  log : Rat → Rat

variable {σ : Type}

/-- `src/modssc/hpo/samplers.py:77-81` `sample_from_values`. -/
def sampleFromValues (D : Draw σ) (vs : List PyVal) (s : σ) : Except PyErr (PyVal × σ) :=
  if vs = [] then .error .validation
  else
    let r := D.integers s 0 vs.length
    match vs[r.1.toNat]? with
    | some v => .ok (v, r.2)
    | none => .error .indexError

/-- `src/modssc/hpo/samplers.py:84-101` `sample_distribution`. -/
def sampleDistribution (D : Draw σ) (spec : DistSpec) (s : σ) : Except PyErr (PyVal × σ) := do
  validateDistribution spec
  if spec.dist = "uniform" then do
    let low ← requireReal spec.low
    let high ← requireReal spec.high
    let r := D.uniform s low high
    .ok (.flt r.1, r.2)
  else if spec.dist = "loguniform" then do
    let low ← requireReal spec.low
    let high ← requireReal spec.high
    let r := D.uniform s (D.log low) (D.log high)
    .ok (.flt (D.exp r.1), r.2)
  else if spec.dist = "randint" then do
    let low ← requireInt spec.low
    let high ← requireInt spec.high
    let r := D.integers s low high
    .ok (.int r.1, r.2)
  else sampleFromValues D (spec.values.getD []) s

/-- One leaf, `src/modssc/hpo/space.py:100-103`. -/
def drawLeaf (D : Draw σ) (leaf : Leaf) (s : σ) : Except PyErr (PyVal × σ) :=
  match leaf.dist with
  | none => sampleFromValues D (leaf.values.getD []) s
  | some spec => sampleDistribution D spec s

/-- The loop over the leaves, `src/modssc/hpo/space.py:99-104`. -/
def drawPatch (D : Draw σ) : List (String × PyVal) → List Leaf → σ →
    Except PyErr (List (String × PyVal) × σ)
  | d, [], s => .ok (d, s)
  | d, leaf :: rest, s => do
    let r ← drawLeaf D leaf s
    let d' ← assign d leaf.path r.1
    drawPatch D d' rest r.2

/-- The loop over the trials, `src/modssc/hpo/space.py:97-105`. -/
def randomLoop (D : Draw σ) (leaves : List Leaf) : Nat → Nat → σ → Except PyErr (List Trial)
  | _, 0, _ => .ok []
  | i, n + 1, s => do
    let r ← drawPatch D [] leaves s
    let rest ← randomLoop D leaves (i + 1) n r.2
    .ok ({ index := i, patch := r.1, params := flattenPatch r.1 } :: rest)

/-- `src/modssc/hpo/space.py:92-105` `Space.iter_random`; `s` is the state of
`np.random.default_rng(seed)`. -/
def iterRandom (D : Draw σ) (leaves : List Leaf) (s : σ) (nTrials : Int) : Except PyErr (List Trial) :=
  if nTrials ≤ 0 then .error .validation else randomLoop D leaves 0 nTrials.toNat s

mutual
/-- `src/modssc/hpo/patching.py:24-31` `deep_merge`: `merged` starts as the base and the patch
entries are applied in order. -/
def deepMerge : List (String × PyVal) → List (String × PyVal) → List (String × PyVal)
  | merged, [] => merged
  | merged, (k, v) :: patch => deepMerge (Assoc.set merged k (mergeValue (Assoc.get merged k) v)) patch

/-- The value stored under one key: two mappings are merged, anything else is replaced. -/
def mergeValue : Option PyVal → PyVal → PyVal
  | some (.dict b), .dict p => .dict (deepMerge b p)
  | none, .dict p => .dict p
  | some .none, .dict p => .dict p
  | some (.bool _), .dict p => .dict p
  | some (.int _), .dict p => .dict p
  | some (.flt _), .dict p => .dict p
  | some (.str _), .dict p => .dict p
  | some (.list _), .dict p => .dict p
  | _, .none => .none
  | _, .bool b => .bool b
  | _, .int i => .int i
  | _, .flt q => .flt q
  | _, .str s => .str s
  | _, .list l => .list l
end

mutual
/-- `bench/orchestrators/hpo.py:23-50` `_validate_space_targets`. -/
def validateTargets : PyVal → List String → Except PyErr Unit
  | .list l, path => if l = [] then .error .validation else checkPath path
  | .dict d, path =>
    if d = [] then .error .validation
    else if Assoc.has d "dist" then checkPath path
    else validateTargetEntries d path
  | _, _ => .error .validation

/-- The loop over the items of a mapping. -/
def validateTargetEntries : List (String × PyVal) → List String → Except PyErr Unit
  | [], _ => .ok ()
  | (k, v) :: d, path =>
    if k = "" then .error .validation
    else do
      validateTargets v (path ++ [k])
      validateTargetEntries d path

/-- `bench/orchestrators/hpo.py:24-29` `_check_path`. -/
def checkPath (path : List String) : Except PyErr Unit :=
  if path.length < 3 ∨ path[0]? ≠ some "method" ∨ path[1]? ≠ some "params" then .error .validation
  else .ok ()
end

/-- A Python float as a score. -/
inductive Score where
  | nan
  | ninf
  | fin (q : Rat)
  | pinf
deriving DecidableEq

/-- Python `a < b` on floats. -/
def Score.lt : Score → Score → Bool
  | .nan, _ => false
  | _, .nan => false
  | .ninf, .ninf => false
  | .ninf, _ => true
  | .fin a, .fin b => decide (a < b)
  | .fin _, .pinf => true
  | .fin _, .ninf => false
  | .pinf, _ => false

/-- Python `a == b` on floats. -/
def Score.eq : Score → Score → Bool
  | .nan, _ => false
  | a, b => decide (a = b)

/-- Python `a + b` on floats (rounding and overflow not modelled). -/
def Score.add : Score → Score → Score
  | .fin a, .fin b => .fin (a + b)
  | .nan, _ => .nan
  | _, .nan => .nan
  | .pinf, .ninf => .nan
  | .ninf, .pinf => .nan
  | .pinf, _ => .pinf
  | _, .pinf => .pinf
  | .ninf, _ => .ninf
  | _, .ninf => .ninf

/-- `float(np.mean(values))`, `bench/orchestrators/hpo.py:246-249` `_aggregate`; NaN on an empty
list. -/
def meanScore (l : List Score) : Score :=
  if l = [] then .nan
  else match l.foldl Score.add (.fin 0) with
    | .fin q => .fin (q / (l.length : Rat))
    | s => s

/-- `bench/orchestrators/hpo.py:252-266` `_is_better`. -/
def isBetter (candidate : Score) (best : Option (Score × Nat)) (maximize : Bool) (index : Nat) : Bool :=
  match best with
  | none => true
  | some (b, bi) =>
    if candidate.eq b then decide (index < bi)
    else if maximize then b.lt candidate else candidate.lt b

/-- `cmp_score`, `bench/orchestrators/hpo.py:118-120`: NaN is the worst value of the direction. -/
def cmpScore (maximize : Bool) : Score → Score
  | .nan => if maximize then .ninf else .pinf
  | s => s

/-- The best trial so far: `best_cmp`, `best_score`, `best_patch`, `best_params`, `best_index`. -/
structure Best where
  cmp : Score
  score : Score
  trial : Trial

/-- The loop over the repeats, `bench/orchestrators/hpo.py:104-114`.  `objective r` fits and
evaluates the method of the trial with the seed of repeat `r`. -/
def runRepeats (objective : Nat → Except PyErr Score) : Nat → Except PyErr (List Score)
  | 0 => .ok []
  | n + 1 => do
    let rest ← runRepeats objective n
    let v ← objective n
    .ok (rest ++ [v])

/-- The loop over the trials, `bench/orchestrators/hpo.py:94-153`.  `parse` is
`ExperimentConfig.from_dict`, `objective cfg index repeat` the whole fit-and-evaluate step
(both arbitrary). The second result is the contents of `trials.jsonl`: one entry per trial. -/
def runTrials {C : Type} (parse : List (String × PyVal) → Except PyErr C)
    (objective : C → Nat → Nat → Except PyErr Score) (repeats : Nat) (maximize : Bool)
    (base : List (String × PyVal)) :
    List Trial → Option Best → Except PyErr (Option Best × List (Trial × List Score × Score))
  | [], best => .ok (best, [])
  | t :: rest, best => do
    let cfg ← parse (deepMerge base t.patch)
    let scores ← runRepeats (objective cfg t.index) repeats
    let agg := meanScore scores
    let cmp := cmpScore maximize agg
    let best' :=
      if isBetter cmp (best.map (fun b => (b.cmp, b.trial.index))) maximize t.index then
        some { cmp := cmp, score := agg, trial := t }
      else best
    let r ← runTrials parse objective repeats maximize base rest best'
    .ok (r.1, (t, scores, agg) :: r.2)

/-- `search.kind` with its parameters. -/
inductive Kind (σ : Type) where
  | grid
  | random (state : σ) (nTrials : Int)

/-- The trials of a search, `bench/orchestrators/hpo.py:67-84`. -/
def searchTrials (D : Draw σ) (kind : Kind σ) (space : List (String × PyVal)) :
    Except PyErr (List Trial) := do
  validateTargets (.dict space) []
  let leaves ← fromDict space
  match kind with
  | .grid => iterGrid leaves
  | .random s n => iterRandom D leaves s n

/-- `bench/orchestrators/hpo.py:53-175` `run_hpo`.  Returns the best trial with its score, and the
trial log. -/
def runHpo {C : Type} (D : Draw σ) (kind : Kind σ) (space : List (String × PyVal))
    (parse : List (String × PyVal) → Except PyErr C)
    (objective : C → Nat → Nat → Except PyErr Score) (repeats : Nat) (maximize : Bool)
    (base : List (String × PyVal)) :
    Except PyErr (Best × List (Trial × List Score × Score)) := do
  let trials ← searchTrials D kind space
  let r ← runTrials parse objective repeats maximize base trials none
  match r.1 with
  | none => .error .valueError
  | some b => .ok (b, r.2)

end ModSSC.Hpo
