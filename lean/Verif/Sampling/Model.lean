import Verif.Base

/-!
# Model of `src/modssc/sampling`

One definition per Python function.  Index arrays are `List Nat`, label arrays `List Int`.
-/

namespace ModSSC.Sampling

open ModSSC

variable {σ : Type}

/-! ## common.py -/

/-- `np.max` of a non-empty integer array (0 on the empty one, which callers exclude). -/
def npMax (l : List Int) : Int := l.foldl max (l.headD 0)

/-- `np.min`. -/
def npMin (l : List Int) : Int := l.foldl min (l.headD 0)

/-- `src/modssc/sampling/common.py:6-18` `class_counts`: distinct labels in increasing order with
their multiplicities.  Both code paths are modelled: the `bincount` path (all labels in
`[0, 1_000_000]`) and the `np.unique` path.  Simplification: labels are integers (the code also
accepts strings/floats, which take the `np.unique` path). -/
def classCounts (y : List Int) : List (Int × Nat) :=
  if y.isEmpty then []
  else if 0 ≤ npMin y ∧ npMax y ≤ 1000000 then
    ((List.range ((npMax y).toNat + 1)).map (fun (c : Nat) => ((c : Int), y.count (c : Int)))).filter
      (fun p => decide (p.2 ≠ 0))
  else (npUnique y).map (fun c => (c, y.count c))

/-! ## splitters.py -/

/-- `src/modssc/sampling/splitters.py:8-18` `random_split`. Returns `(keep, holdout)` and the
generator state. -/
def randomSplit (R : Rng σ) (indices : List Nat) (nHoldout : Int) (s : σ) :
    (List Nat × List Nat) × σ :=
  if nHoldout ≤ 0 then ((indices, []), s)
  else if (indices.length : Int) ≤ nHoldout then (([], indices), s)
  else
    let (perm, s') := R.permutation s indices
    let h := nHoldout.toNat
    ((npSort (perm.drop h), npSort (perm.take h)), s')

/-- `base[i] += 1` for the listed positions (`splitters.py:46-47`, `labeling.py:64-65,73-74`). -/
def bump (base : List Int) (pos : List Nat) : List Int :=
  pos.foldl (fun b i => b.modify i (· + 1)) base

/-- `src/modssc/sampling/splitters.py:36-47`: per-class holdout quotas by largest remainder.
`expected = counts*h/total` is computed exactly: floor is integer division and the fractional part
is ordered by `counts*h % total` (the code uses float64, exact below 2^53). -/
def holdoutQuotas (argsort : List Int → List Nat) (counts : List Nat) (h total : Nat) : List Int :=
  let base : List Int := counts.map (fun (c : Nat) => ((c * h / total : Nat) : Int))
  let remaining : Int := (h : Int) - base.sum
  if 0 < remaining then
    let order := argsort (counts.map (fun (c : Nat) => -((c * h % total : Nat) : Int)))
    bump base (order.take remaining.toNat)
  else base

/-- `src/modssc/sampling/splitters.py:49-56`: the loop over classes.  Returns the concatenated
holdout and keep parts. -/
def stratifiedLoop (R : Rng σ) (indices : List Nat) (y : List Int) :
    List (Int × Int) → σ → (List Nat × List Nat) × σ
  | [], s => (([], []), s)
  | (cls, q) :: rest, s =>
    let clsIdx := indices.filter (fun i => decide (y.getD i 0 = cls))
    let (p, s1) := R.permutation s clsIdx
    let n := (min (max q 0) (p.length : Int)).toNat
    let ((keep, hold), s2) := stratifiedLoop R indices y rest s1
    ((p.drop n ++ keep, p.take n ++ hold), s2)

/-- `src/modssc/sampling/splitters.py:21-63` `stratified_holdout`; returns `(keep, holdout)`. -/
def stratifiedHoldout (R : Rng σ) (argsort : List Int → List Nat) (indices : List Nat)
    (y : List Int) (nHoldout : Int) (s : σ) : Except PyErr ((List Nat × List Nat) × σ) :=
  if nHoldout ≤ 0 then .ok ((npSort indices, []), s)
  else if (indices.length : Int) ≤ nHoldout then .ok (([], npSort indices), s)
  else do
    let ySub ← gather y indices
    let cc := classCounts ySub
    let quotas := holdoutQuotas argsort (cc.map (·.2)) nHoldout.toNat indices.length
    let ((keep, hold), s') := stratifiedLoop R indices y ((cc.map (·.1)).zip quotas) s
    .ok ((npSort keep, npSort hold), s')

/-- The three index arrays returned by the splitters (a dict with these keys in the code). -/
structure Parts where
  train : List Nat
  val : List Nat
  test : List Nat
deriving DecidableEq, Repr

/-- Clamped rounded size `max(0, min(n, int(round(frac*n))))`, `splitters.py:80-81,89-90,127-128`. -/
def clampedSize (frac : Rat) (n : Nat) : Nat :=
  (max 0 (min (n : Int) (pyRound (frac * (n : Rat))))).toNat

/-- Dispatch on `stratify` (`splitters.py:83-86,92-95,129-132`). -/
def splitOnce (R : Rng σ) (argsort : List Int → List Nat) (stratify : Bool) (indices : List Nat)
    (y : List Int) (n : Nat) (s : σ) : Except PyErr ((List Nat × List Nat) × σ) :=
  if stratify then stratifiedHoldout R argsort indices y n s
  else .ok (randomSplit R indices n s)

/-- `src/modssc/sampling/splitters.py:66-97` `make_holdout_split`.  Simplification:
`n_samples` is a natural number, so the `n_samples < 0` guard is vacuous. -/
def makeHoldoutSplit (R : Rng σ) (argsort : List Int → List Nat) (n : Nat) (y : List Int)
    (testFraction valFraction : Rat) (stratify : Bool) (s : σ) : Except PyErr (Parts × σ) := do
  let all := List.range n
  let ((trainVal, test), s1) ← splitOnce R argsort stratify all y (clampedSize testFraction n) s
  let nVal := clampedSize valFraction trainVal.length
  let ((train, val), s2) ← splitOnce R argsort stratify trainVal y nVal s1
  .ok (⟨train, val, test⟩, s2)

/-- `np.array_split(idx, k)`: `len % k` parts of size `len/k + 1` followed by parts of size
`len/k`. External numpy function, documented behaviour. -/
def arraySplitSizes (n k : Nat) : List Nat :=
  (List.range k).map (fun i => if i < n % k then n / k + 1 else n / k)

/-- Cut a list into consecutive pieces of the given sizes. -/
def cut {α : Type} : List Nat → List α → List (List α)
  | [], _ => []
  | n :: ns, l => l.take n :: cut ns (l.drop n)

/-- `np.array_split`. -/
def arraySplit {α : Type} (l : List α) (k : Nat) : List (List α) := cut (arraySplitSizes l.length k) l

/-- `src/modssc/sampling/splitters.py:140-147` `plain_kfold`. -/
def plainKfold (R : Rng σ) (indices : List Nat) (k : Nat) (shuffle : Bool) (s : σ) :
    List (List Nat) × σ :=
  let (idx, s1) := if shuffle then R.permutation s indices else (indices, s)
  (arraySplit idx k, s1)

/-- `splitters.py:168-169`: append chunk `i` to fold `i`. -/
def appendChunks (folds chunks : List (List Nat)) : List (List Nat) :=
  List.zipWith (· ++ ·) folds chunks

/-- `src/modssc/sampling/splitters.py:162-169`: loop over the classes. -/
def stratifiedKfoldLoop (R : Rng σ) (indices : List Nat) (y : List Int) (k : Nat) (shuffle : Bool) :
    List Int → List (List Nat) → σ → List (List Nat) × σ
  | [], folds, s => (folds, s)
  | cls :: rest, folds, s =>
    let clsIdx := indices.filter (fun i => decide (y.getD i 0 = cls))
    let (c, s1) := if shuffle then R.permutation s clsIdx else (clsIdx, s)
    stratifiedKfoldLoop R indices y k shuffle rest (appendChunks folds (arraySplit c k)) s1

/-- `src/modssc/sampling/splitters.py:171-179`: optional reshuffle of each fold.  (When there are
no classes the code appends empty folds without touching the generator.) -/
def reshuffleFolds (R : Rng σ) (shuffle : Bool) : List (List Nat) → σ → List (List Nat) × σ
  | [], s => ([], s)
  | f :: fs, s =>
    let (f', s1) := if shuffle then R.permutation s f else (f, s)
    let (fs', s2) := reshuffleFolds R shuffle fs s1
    (f' :: fs', s2)

/-- `src/modssc/sampling/splitters.py:150-180` `stratified_kfold`. -/
def stratifiedKfold (R : Rng σ) (indices : List Nat) (y : List Int) (k : Nat) (shuffle : Bool)
    (s : σ) : Except PyErr (List (List Nat) × σ) := do
  let ySub ← gather y indices
  let classes := npUnique ySub
  let (folds, s1) := stratifiedKfoldLoop R indices y k shuffle classes (List.replicate k []) s
  if classes.isEmpty then .ok (folds, s1) else .ok (reshuffleFolds R shuffle folds s1)

/-- `src/modssc/sampling/splitters.py:113-117`: choice of the fold construction. -/
def computeFolds (R : Rng σ) (n : Nat) (y : List Int) (k : Nat) (stratify shuffle : Bool)
    (s : σ) : Except PyErr (List (List Nat) × σ) :=
  if stratify then stratifiedKfold R (List.range n) y k shuffle s
  else .ok (plainKfold R (List.range n) k shuffle s)

/-- `src/modssc/sampling/splitters.py:100-137` `make_kfold_split`. -/
def makeKfoldSplit (R : Rng σ) (argsort : List Int → List Nat) (n : Nat) (y : List Int)
    (k fold : Int) (stratify shuffle : Bool) (valFraction : Rat) (s : σ) :
    Except PyErr (Parts × σ) := do
  if k ≤ 1 then .error .valueError
  else if fold < 0 ∨ k ≤ fold then .error .valueError
  else do
    let (folds, s1) ← computeFolds R n y k.toNat stratify shuffle s
    let test := npSort (folds.getD fold.toNat [])
    let trainPool := npSort ((folds.eraseIdx fold.toNat).flatten)
    if 0 < valFraction then do
      let nVal := clampedSize valFraction trainPool.length
      let ((train, val), s2) ← splitOnce R argsort stratify trainPool y nVal s1
      .ok (⟨train, val, test⟩, s2)
    else .ok (⟨trainPool, [], test⟩, s1)

/-! ## plan.py (data only; the dict round trip is modelled in `Verif/Sampling/Plan.lean`) -/

/-- `LabelingSpec.mode`, `src/modssc/sampling/plan.py:122`; `other` stands for an unknown string. -/
inductive LabelMode where
  | fraction | count | perClass | other
deriving DecidableEq, Repr

/-- `LabelingSpec.strategy`, `plan.py:126`. -/
inductive Strategy where
  | proportional | balanced
deriving DecidableEq, Repr

/-- `src/modssc/sampling/plan.py:110-127` `LabelingSpec` (field `per_class` is never read). -/
structure LabelingSpec where
  mode : LabelMode := .fraction
  value : Rat := 1 / 10
  perClass : Bool := false
  minPerClass : Int := 1
  strategy : Strategy := .proportional
  fixedIndices : Option (List Int) := none
deriving DecidableEq, Repr

/-- `ImbalanceSpec.kind`, `plan.py:185`; `other` is an unknown string. -/
inductive ImbalanceKind where
  | none | subsampleMaxPerClass | longTail | other
deriving DecidableEq, Repr

/-- `ImbalanceSpec.apply_to`, `plan.py:186`. -/
inductive ApplyTo where
  | train | labeled
deriving DecidableEq, Repr

/-- `src/modssc/sampling/plan.py:171-189` `ImbalanceSpec`. -/
structure ImbalanceSpec where
  kind : ImbalanceKind := .none
  applyTo : ApplyTo := .train
  maxPerClass : Option Int := Option.none
  alpha : Option Rat := Option.none
  minPerClass : Int := 1
deriving DecidableEq, Repr

/-- `src/modssc/sampling/plan.py:8-20` `SamplingPolicy`. -/
structure Policy where
  respectOfficialTest : Bool := true
  useOfficialGraphMasks : Bool := true
  allowOverrideOfficial : Bool := false
deriving DecidableEq, Repr

/-- `src/modssc/sampling/plan.py:36-42,69-76,107` the two split specs. -/
inductive SplitSpec where
  | holdout (testFraction valFraction : Rat) (stratify shuffle : Bool)
  | kfold (k fold : Int) (stratify shuffle : Bool) (valFraction : Rat)
deriving DecidableEq, Repr

/-- `src/modssc/sampling/plan.py:222-229` `SamplingPlan`. -/
structure SamplingPlan where
  split : SplitSpec
  labeling : LabelingSpec := {}
  imbalance : ImbalanceSpec := {}
  policy : Policy := {}
deriving DecidableEq, Repr

/-! ## imbalance.py -/

/-- `src/modssc/sampling/imbalance.py:28-33,53-58`: keep `quota` random members of every class
(all of them when the quota is not smaller than the class). -/
def subsampleLoop (R : Rng σ) (idx : List Nat) (y : List Int) :
    List (Int × Nat) → σ → List Nat × σ
  | [], s => ([], s)
  | (cls, q) :: rest, s =>
    let clsIdx := idx.filter (fun i => decide (y.getD i 0 = cls))
    let (part, s1) := if clsIdx.length ≤ q then (clsIdx, s) else R.choice s clsIdx q
    let (parts, s2) := subsampleLoop R idx y rest s1
    (part ++ parts, s2)

/-- `src/modssc/sampling/imbalance.py:44-50`: desired size per class, by frequency rank.  The code
writes `desired[i]` while walking `order`; here the same array is built by looking up the rank of
class `i` in `order`. -/
def longTailDesired (argsort : List Int → List Nat) (counts : List Nat) (alpha : Rat)
    (minPerClass : Int) : List Nat :=
  let order := argsort (counts.map (fun (c : Nat) => -(c : Int)))
  let maxCount := counts.getD (order.headD 0) 0
  (List.range counts.length).map (fun i =>
    let rank := order.idxOf i
    let d := max (pyRound ((maxCount : Rat) * alpha ^ rank)) minPerClass
    (min d (counts.getD i 0 : Int)).toNat)

/-- `src/modssc/sampling/imbalance.py:8-61` `apply_imbalance`. -/
def applyImbalance (R : Rng σ) (argsort : List Int → List Nat) (idx : List Nat) (y : List Int)
    (spec : ImbalanceSpec) (s : σ) : Except PyErr (List Nat × σ) :=
  if spec.kind = .none ∨ idx = [] then .ok (npSort idx, s)
  else do
    let ySub ← gather y idx
    let classes := npUnique ySub
    match spec.kind with
    | .subsampleMaxPerClass =>
      match spec.maxPerClass with
      | Option.none => .error .valueError
      | some cap =>
        if cap < 1 then .error .valueError
        else
          let (l, s1) := subsampleLoop R idx y (classes.map (fun c => (c, cap.toNat))) s
          .ok (npSort l, s1)
    | .longTail =>
      match spec.alpha with
      | Option.none => .error .valueError
      | some alpha =>
        if ¬ (0 < alpha ∧ alpha < 1) then .error .valueError
        else
          let desired := longTailDesired argsort (classes.map (fun c => ySub.count c)) alpha
            spec.minPerClass
          let (l, s1) := subsampleLoop R idx y (classes.zip desired) s
          .ok (npSort l, s1)
    | _ => .error .valueError

/-! ## labeling.py -/

/-- `src/modssc/sampling/labeling.py:38-50`: the requested number of labels, clamped to
`[0, |train|]`. -/
def labelTarget (spec : LabelingSpec) (nTrain nClasses : Nat) : Except PyErr Int :=
  let clamp (t : Int) : Int := max 0 (min (nTrain : Int) t)
  match spec.mode with
  | .fraction =>
    if 0 < spec.value ∧ spec.value ≤ 1 then .ok (clamp (pyRound (spec.value * (nTrain : Rat))))
    else .error .valueError
  | .count => .ok (clamp (pyInt spec.value))
  | .perClass => .ok (clamp (pyInt spec.value * (nClasses : Int)))
  | .other => .error .valueError

/-- `src/modssc/sampling/labeling.py:54-74`: initial allocation per class. -/
def initialAllocation (argsort : List Int → List Nat) (spec : LabelingSpec) (counts : List Nat)
    (nTrain : Nat) (target : Int) : List Int :=
  if spec.mode = .perClass then counts.map (fun (_ : Nat) => pyInt spec.value)
  else if spec.strategy = .balanced ∧ 0 < target then
    let base : Int := target / (counts.length : Int)
    let rem := (target % (counts.length : Int)).toNat
    bump (counts.map (fun (_ : Nat) => base)) ((argsort (counts.map (fun (c : Nat) => -(c : Int)))).take rem)
  else
    let t := target.toNat
    let per : List Int := counts.map (fun (c : Nat) => ((c * t / nTrain : Nat) : Int))
    let rem : Int := target - per.sum
    if 0 < rem then
      bump per ((argsort (counts.map (fun (c : Nat) => -((c * t % nTrain : Nat) : Int)))).take rem.toNat)
    else per

/-- `src/modssc/sampling/labeling.py:76-82`: enforce the minimum where the class can afford it, then
cap by availability. -/
def enforceMinCap (m : Int) (counts : List Nat) (per : List Int) : List Int :=
  List.zipWith (fun (c : Nat) (p : Int) => min (if m ≤ (c : Int) then max p m else p) (c : Int))
    counts per

/-- `src/modssc/sampling/labeling.py:88-96`: `while total > target and i < order.size`.  The
pointer `i` into `order` is represented by the remaining suffix of `order`. -/
def removeLoop (m target : Int) (counts : List Nat) :
    List Nat → List Int → Int → List Int
  | [], per, _ => per
  | j :: rest, per, total =>
    if target < total then
      if 0 < per.getD j 0 ∧ ((counts.getD j 0 : Int) < m ∨ m < per.getD j 0) then
        removeLoop m target counts (j :: rest) (per.modify j (· - 1)) (total - 1)
      else removeLoop m target counts rest per total
    else per
termination_by order _ total => order.length + (total - target).toNat
decreasing_by all_goals (simp_wf; try omega)

/-- `src/modssc/sampling/labeling.py:99-107`: `while total < target and i < order.size`. -/
def addLoop (target : Int) (counts : List Nat) :
    List Nat → List Int → Int → List Int
  | [], per, _ => per
  | j :: rest, per, total =>
    if total < target then
      if per.getD j 0 < (counts.getD j 0 : Int) then
        addLoop target counts (j :: rest) (per.modify j (· + 1)) (total + 1)
      else addLoop target counts rest per total
    else per
termination_by order _ total => order.length + (target - total).toNat
decreasing_by all_goals (simp_wf; try omega)

/-- `src/modssc/sampling/labeling.py:84-107`: adjust the total to the target. -/
def adjustTotal (argsort : List Int → List Nat) (m target : Int) (counts : List Nat)
    (per : List Int) : List Int :=
  let total := per.sum
  if target < total then
    removeLoop m target counts (argsort (per.map (fun p => -p))) per total
  else if total < target then
    addLoop target counts
      (argsort (List.zipWith (fun (c : Nat) (p : Int) => -((c : Int) - p)) counts per)) per total
  else per

/-- `src/modssc/sampling/labeling.py:54-107`: the whole allocation. -/
def allocate (argsort : List Int → List Nat) (spec : LabelingSpec) (counts : List Nat)
    (nTrain : Nat) (target : Int) : List Int :=
  adjustTotal argsort spec.minPerClass target counts
    (enforceMinCap spec.minPerClass counts (initialAllocation argsort spec counts nTrain target))

/-- `src/modssc/sampling/labeling.py:110-116`: draw the labels of each class.  `rng.choice` raises
`ValueError` when asked for more items than there are. -/
def drawLoop (R : Rng σ) (trainIdx : List Nat) (y : List Int) :
    List (Int × Int) → σ → Except PyErr (List Nat × σ)
  | [], s => .ok ([], s)
  | (cls, n) :: rest, s =>
    let clsIdx := trainIdx.filter (fun i => decide (y.getD i 0 = cls))
    if n ≤ 0 then drawLoop R trainIdx y rest s
    else if (clsIdx.length : Int) < n then .error .valueError
    else
      let (chosen, s1) := R.choice s clsIdx n.toNat
      match drawLoop R trainIdx y rest s1 with
      | .error e => .error e
      | .ok (parts, s2) => .ok (chosen ++ parts, s2)

/-- `src/modssc/sampling/labeling.py:14-142` `select_labeled`. -/
def selectLabeled (R : Rng σ) (argsort : List Int → List Nat) (trainIdx : List Nat) (y : List Int)
    (spec : LabelingSpec) (s : σ) : Except PyErr (List Nat × σ) :=
  if trainIdx = [] then .ok ([], s)
  else match spec.fixedIndices with
  | some fixed =>
    if fixed.any (fun i => decide (i < 0 ∨ i.toNat ∉ trainIdx)) then .error .validation
    else if ¬ fixed.Nodup then .error .validation
    else .ok (npSort (fixed.map Int.toNat), s)
  | none => do
    let yTrain ← gather y trainIdx
    let cc := classCounts yTrain
    let target ← labelTarget spec trainIdx.length cc.length
    let per := allocate argsort spec (cc.map (·.2)) trainIdx.length target
    let (parts, s1) ← drawLoop R trainIdx y ((cc.map (·.1)).zip per) s
    let labeled := npSort parts
    if trainIdx.length < labeled.length then .error .validation
    else if ¬ labeled.Nodup then .error .validation
    else .ok (labeled, s1)

/-! ## result.py and services/service.py -/

/-- Base split an index array refers to (`result.py:20-23`). -/
inductive Ref where
  | train | test
deriving DecidableEq, Repr

/-- `src/modssc/sampling/result.py:12-39` `SamplingResult` for inductive data: the five index
arrays built at `service.py:333-346`.  Simplifications: the string-keyed dicts become record
fields; fingerprints, plan, statistics and timestamps are dropped. -/
structure IndResult where
  train : List Nat
  val : List Nat
  test : List Nat
  labeled : List Nat
  unlabeled : List Nat
  testRef : Ref
deriving DecidableEq, Repr

/-- `src/modssc/sampling/result.py:51-62` `_check_idx`. -/
def checkIdx (maxOk : Option Nat) (idx : List Nat) : Except PyErr Unit :=
  if idx = [] then .ok ()
  else match maxOk with
  | none => .error .validation
  | some n =>
    if idx.any (fun i => decide (n ≤ i)) then .error .validation
    else if ¬ idx.Nodup then .error .validation
    else .ok ()

/-- `np.intersect1d(a, b).size != 0`. -/
def overlaps (a b : List Nat) : Bool := a.any (fun x => decide (x ∈ b))

/-- `src/modssc/sampling/result.py:50-99` `_validate_inductive`. -/
def validateInductive (nTrain : Nat) (nTest : Option Nat) (r : IndResult) : Except PyErr Unit := do
  checkIdx (some nTrain) r.train
  checkIdx (some nTrain) r.val
  checkIdx (if r.testRef = .train then some nTrain else nTest) r.test
  checkIdx (some nTrain) r.labeled
  checkIdx (some nTrain) r.unlabeled
  if overlaps r.train r.val then .error .validation
  else if r.testRef = .train ∧ (overlaps r.train r.test ∨ overlaps r.val r.test) then
    .error .validation
  else if overlaps r.labeled r.unlabeled then .error .validation
  else if npSort (r.labeled ++ r.unlabeled) ≠ npSort r.train then .error .validation
  else .ok ()

/-- `np.setdiff1d(a, b)`: sorted distinct elements of `a` not in `b`. -/
def setdiff (a b : List Nat) : List Nat := (npSort (a.filter (fun x => decide (x ∉ b)))).dedup

/-- One call of the splitter chosen by the plan (`service.py:230-252,263-282,289-308`).
`officialTest = true` is the branch that ignores the plan's test fraction. -/
def runSplit (R : Rng σ) (argsort : List Int → List Nat) (split : SplitSpec) (n : Nat)
    (y : List Int) (officialTest : Bool) (s : σ) : Except PyErr Parts :=
  match split, officialTest with
  | .holdout _ vf strat _, true => (makeHoldoutSplit R argsort n y 0 vf strat s).map (·.1)
  | .kfold k fold strat shuf _, true =>
    (makeKfoldSplit R argsort n y k fold strat shuf 0 s).map
      (fun p => ⟨p.1.train, p.1.test, []⟩)
  | .holdout tf vf strat _, false => (makeHoldoutSplit R argsort n y tf vf strat s).map (·.1)
  | .kfold k fold strat shuf vf, false =>
    (makeKfoldSplit R argsort n y k fold strat shuf vf s).map (·.1)

/-- The three generators seeded at `service.py:231,262,288,315,321`. -/
structure Seeds (σ : Type) where
  split : σ
  label : σ
  imb : σ

/-- `src/modssc/sampling/services/service.py:313-318,324-326,440-442`: apply the imbalance only if
the plan targets the named part. -/
def imbalanceIf (R : Rng σ) (argsort : List Int → List Nat) (which : ApplyTo) (idx : List Nat)
    (y : List Int) (spec : ImbalanceSpec) (s : σ) : Except PyErr (List Nat × σ) :=
  if spec.applyTo = which then applyImbalance R argsort idx y spec s else .ok (idx, s)

/-- `src/modssc/sampling/services/service.py:213-346`: everything before the final validation.
`nTest` is `some n` iff the dataset has an official test split of size `n`. -/
def buildInductive (R : Rng σ) (argsort : List Int → List Nat) (y : List Int) (nTest : Option Nat)
    (plan : SamplingPlan) (seeds : Seeds σ) : Except PyErr IndResult := do
  let useOfficial : Bool :=
    nTest.isSome && plan.policy.respectOfficialTest && !plan.policy.allowOverrideOfficial
  let parts ← runSplit R argsort plan.split y.length y useOfficial seeds.split
  let test := if useOfficial then List.range (nTest.getD 0) else parts.test
  let testRef : Ref := if useOfficial then .test else .train
  let adj ← imbalanceIf R argsort .train parts.train y plan.imbalance seeds.imb
  let lab0 ← selectLabeled R argsort adj.1 y plan.labeling seeds.label
  let lab ← imbalanceIf R argsort .labeled lab0.1 y plan.imbalance adj.2
  .ok { train := npSort adj.1, val := npSort parts.val, test := npSort test,
        labeled := npSort lab.1, unlabeled := npSort (setdiff adj.1 lab.1), testRef := testRef }

/-- `src/modssc/sampling/services/service.py:201-383` `_sample_inductive`. -/
def sampleInductive (R : Rng σ) (argsort : List Int → List Nat) (y : List Int) (nTest : Option Nat)
    (plan : SamplingPlan) (seeds : Seeds σ) : Except PyErr IndResult := do
  let r ← buildInductive R argsort y nTest plan seeds
  validateInductive y.length nTest r
  .ok r

/-- The five masks of a graph result (`service.py:453-459`). -/
structure Masks where
  train : List Bool
  val : List Bool
  test : List Bool
  labeled : List Bool
  unlabeled : List Bool
deriving DecidableEq, Repr

/-- `src/modssc/sampling/services/service.py:478-482` `_idx_to_mask` (`IndexError` when an index is
out of range). -/
def idxToMask (n : Nat) (idx : List Nat) : Except PyErr (List Bool) :=
  if idx.all (fun i => decide (i < n)) then
    .ok ((List.range n).map (fun i => decide (i ∈ idx)))
  else .error .indexError

/-- `np.where(mask)[0]`. -/
def maskToIdx (m : List Bool) : List Nat := (List.range m.length).filter (fun i => m.getD i false)

/-- Elementwise `a & b` (numpy raises on different shapes). -/
def maskAnd (a b : List Bool) : Except PyErr (List Bool) :=
  if a.length = b.length then .ok (List.zipWith (· && ·) a b) else .error .valueError

/-- `(a & b).any()` for masks of equal length. -/
def maskMeets (a b : List Bool) : Bool := (List.zipWith (· && ·) a b).any id

/-- `src/modssc/sampling/result.py:101-129` `_validate_graph`. -/
def validateGraph (n : Nat) (m : Masks) : Except PyErr Unit :=
  if m.train.length ≠ n ∨ m.val.length ≠ n ∨ m.test.length ≠ n ∨ m.labeled.length ≠ n
      ∨ m.unlabeled.length ≠ n then .error .validation
  else if maskMeets m.labeled (m.train.map (!·)) then .error .validation
  else if m.unlabeled ≠ List.zipWith (fun t l => t && !l) m.train m.labeled then .error .validation
  else if maskMeets m.train m.val ∨ maskMeets m.train m.test ∨ maskMeets m.val m.test then
    .error .validation
  else .ok ()

/-- Official masks of the dataset that are used (`service.py:403-413`): `some` iff the masks dict
has the keys train, val, test. -/
structure OfficialMasks where
  train : List Bool
  val : List Bool
  test : List Bool
deriving DecidableEq, Repr

/-- `src/modssc/sampling/services/service.py:403-434`: official or generated train/val/test masks. -/
def baseMasks (R : Rng σ) (argsort : List Int → List Nat) (y : List Int)
    (official : Option OfficialMasks) (plan : SamplingPlan) (s : σ) :
    Except PyErr OfficialMasks :=
  match plan.policy.useOfficialGraphMasks, official with
  | true, some o => .ok o
  | _, _ => do
    let parts ← runSplit R argsort plan.split y.length y false s
    let tr ← idxToMask y.length parts.train
    let va ← idxToMask y.length parts.val
    let te ← idxToMask y.length parts.test
    .ok ⟨tr, va, te⟩

/-- `src/modssc/sampling/services/service.py:398-459`: masks before validation.  `seeds.split`,
`seeds.label`, `seeds.imb` as in the inductive path. -/
def buildGraph (R : Rng σ) (argsort : List Int → List Nat) (y : List Int)
    (official : Option OfficialMasks) (plan : SamplingPlan) (seeds : Seeds σ) :
    Except PyErr Masks := do
  let base ← baseMasks R argsort y official plan seeds.split
  let lab0 ← selectLabeled R argsort (maskToIdx base.train) y plan.labeling seeds.label
  let lab ← imbalanceIf R argsort .labeled lab0.1 y plan.imbalance seeds.imb
  let labeledMask ← idxToMask y.length lab.1
  let unlabeledMask ← maskAnd base.train (labeledMask.map (!·))
  .ok ⟨base.train, base.val, base.test, labeledMask, unlabeledMask⟩

/-- `src/modssc/sampling/services/service.py:386-475` `_sample_graph`. -/
def sampleGraph (R : Rng σ) (argsort : List Int → List Nat) (y : List Int)
    (official : Option OfficialMasks) (plan : SamplingPlan) (seeds : Seeds σ) :
    Except PyErr Masks := do
  let m ← buildGraph R argsort y official plan seeds
  validateGraph y.length m
  .ok m

end ModSSC.Sampling
