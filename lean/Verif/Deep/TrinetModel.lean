import Verif.Base
import Verif.Graph.KnnModel
import Verif.Deep.BatchModel
import Verif.Deep.BankModel

/-!
# Tri-Net (`modssc/inductive/methods/trinet.py`)

The rounds, the pools, the pseudo-labels and their filters, the training sets and the average of the heads.  The networks are functions
of a sample to the softmax of a head (in evaluation mode), the passes with dropout are given by the labels they predict; the
optimizer steps are not modelled.
-/

namespace ModSSC.Trinet
open ModSSC ModSSC.Deep ModSSC.Graph

section
variable {K : Type} [Field K] [LinearOrder K]

/-- The numbers of `TriNetSpec` that make the schedule, trinet.py:353-371. -/
structure Cfg (K : Type) where
  sigma0 : K
  sigmaOs : K
  decay : K
  poolBase : Nat
  rounds : Nat
  interval : Int

/-- What happens in a round: the heads are trained again on smeared labels, or unlabeled data are labeled with a threshold on a pool
of some size. -/
inductive Event (K : Type) where
  | refresh
  | label (sigma : K) (pool : Nat)

/-- The variables carried between rounds, trinet.py:492-493. -/
structure St (K : Type) where
  flag : Bool
  sigma : K

/-- One round, trinet.py:496-535. -/
def round (c : Cfg K) (nU t : Nat) (st : St K) : Event K × St K :=
  let n := min (c.poolBase * 2 ^ t) nU
  if n = nU ∧ c.interval > 0 ∧ (t : Int) % c.interval = 0 then (.refresh, ⟨true, max 0 (st.sigma - c.decay)⟩)
  else
    let s := if st.flag then st.sigma - c.sigmaOs else st.sigma
    (.label (min 1 (max 0 s)) n, ⟨false, st.sigma⟩)

/-- `for t in range(1, max_rounds + 1)`, trinet.py:496: the rounds from `t` on. -/
def rounds (c : Cfg K) (nU : Nat) : Nat → Nat → St K → List (Event K)
  | 0, _, _ => []
  | k + 1, t, st => (round c nU t st).1 :: rounds c nU k (t + 1) (round c nU t st).2

/-- The schedule of `fit`, trinet.py:492-535. -/
def schedule (c : Cfg K) (nU : Nat) : List (Event K) := rounds c nU c.rounds 1 ⟨true, c.sigma0⟩

/-- `_sample_pool`, trinet.py:93-101. -/
def samplePool {A σ : Type} (G : TorchGen σ) (g : σ) (X : List A) (n : Nat) : Except PyErr (List A) :=
  if X.length ≤ n then .ok X else takeRows X ((G.randperm g X.length).1.take n)

/-- `max(dim=1).values` of one row. -/
def rowMax : List K → K
  | [] => 0
  | [a] => a
  | a :: b :: r => max a (rowMax (b :: r))

/-- The pseudo-label of one row from the softmax of the two heads, trinet.py:205-213. -/
def labelRow (argmax : List K → Nat) (sigma : K) (pj ph : List K) : Option Nat :=
  if argmax pj = argmax ph ∧ sigma ≤ (rowMax pj + rowMax ph) / 2 then some (argmax pj) else none

/-- `_label_unlabeled` before the stability passes, trinet.py:190-231: positions and labels. -/
def labelPool {A : Type} (argmax : List K → Nat) (J H : A → List K) (sigma : K) (bs : Nat) (pool : List A) : List (Nat × Nat) :=
  (chunks pool.length bs).flatMap fun c => (List.range (c.2 - c.1)).filterMap fun t =>
    match pool[c.1 + t]? with
    | some x => (labelRow argmax sigma (J x) (H x)).map fun y => (t + c.1, y)
    | none => none

/-- One batch of one pass of `_dropout_filter`, trinet.py:139-151: `counts[start:end] += pred != labels[start:end]`. -/
def addBatch (pred labels : Nat → Nat) (cnt : Nat → Nat) (c : Nat × Nat) : Nat → Nat :=
  fun i => if c.1 ≤ i ∧ i < c.2 then cnt i + (if pred i ≠ labels i then 1 else 0) else cnt i

/-- `counts` after `passes` passes, trinet.py:138-151; `pred k i`: the label that pass `k` predicts for row `i`. -/
def mismatches (pred : Nat → Nat → Nat) (labels : Nat → Nat) (n bs passes : Nat) : Nat → Nat :=
  (List.range passes).foldl (fun cnt k => (chunks n bs).foldl (addBatch (pred k) labels) cnt) (fun _ => 0)

/-- `_dropout_filter`, trinet.py:104-157: which rows are kept. -/
def keepMask [FloorRing K] (pred : Nat → Nat → Nat) (labels : Nat → Nat) (n bs passes : Nat) (frac : K) : List Bool :=
  if n = 0 ∨ passes ≤ 1 then List.replicate n true
  else (List.range n).map fun i => decide ((mismatches pred labels n bs passes i : Int) ≤ ⌊(passes : K) * frac⌋)

/-- The rows of a mask, or none at all, trinet.py:241-246 and 561-566. -/
def maskRows {A : Type} (rows : List A) (mask : List Bool) : List A :=
  if mask.any id then ((rows.zip mask).filter (·.2)).map (·.1) else []

/-- The pool rows a head is trained on, trinet.py:537-566: `stab` and `des` are the labels predicted in the passes with dropout. -/
def pseudo [FloorRing K] {A : Type} (argmax : List K → Nat) (J H : A → List K) (sigma : K) (bs : Nat) (stabPasses desPasses : Nat) (frac : K)
    (stab des : Nat → Nat → Nat) (pool : List A) : List (Nat × Nat) :=
  let r0 := labelPool argmax J H sigma bs pool
  let r1 := if stabPasses > 1 ∧ r0 ≠ [] then maskRows r0 (keepMask stab (fun i => (r0.map (·.2)).getD i 0) r0.length bs stabPasses frac) else r0
  if desPasses > 1 ∧ r1 ≠ [] then maskRows r1 (keepMask des (fun i => (r1.map (·.2)).getD i 0) r1.length bs desPasses frac) else r1

/-- `one_hot_labels`, torch_support.py:74-78: a label outside the classes is a `RuntimeError`. -/
def oneHot (C y : Nat) : Except PyErr (List K) := if y < C then .ok (hotRow C y) else .error .runtimeError

/-- One pseudo-labeled row with its target, trinet.py:569-571. -/
def poolRow {A : Type} (C : Nat) (pool : List A) (r : Nat × Nat) : Except PyErr (A × List K) :=
  match pool[r.1]? with
  | some x => oneHot C r.2 >>= fun t => .ok (x, t)
  | none => .error .indexError

/-- The training set of a head, trinet.py:568-575: the labeled rows and the pseudo-labeled ones. -/
def trainSet {A : Type} (C : Nat) (XL : List (A × Nat)) (pool : List A) (ps : List (Nat × Nat)) : Except PyErr (List (A × List K)) :=
  XL.mapM (fun r => oneHot C r.2 >>= fun t => .ok (r.1, t)) >>= fun l =>
  ps.mapM (poolRow C pool) >>= fun u => .ok (l ++ u)

/-- One row of `_soft_cross_entropy`, trinet.py:67-70, with the broadcasting of `targets * log_probs`. -/
def softCE (t lp : List K) : Except PyErr K :=
  if t.length = lp.length then .ok (-(List.zipWith (· * ·) t lp).sum)
  else if t.length = 1 then .ok (-(lp.map fun x => t.headD 0 * x).sum)
  else if lp.length = 1 then .ok (-(t.map fun x => x * lp.headD 0).sum)
  else .error .runtimeError

/-- One row of `_output_smearing`, trinet.py:76-90; `z` the normal numbers drawn for it. -/
def smearRow (tiny std : K) (C y : Nat) (z : List K) : List K :=
  if std ≤ 0 then hotRow C y
  else
    let s := List.zipWith (fun a b => a + max 0 (b * std)) (hotRow C y) z
    s.map fun x => x / max tiny s.sum

/-- The average of the heads for one row, trinet.py:631-639. -/
def averageRow (rows : List (List K)) : Except PyErr (List K) :=
  match rows with
  | [] => .error .runtimeError
  | r :: rs =>
    if rs.all (fun x => x.length = r.length) then
      .ok ((List.range r.length).map fun c => ((r :: rs).map fun x => x.getD c 0).sum / ((r :: rs).length : K))
    else .error .validation

/-- The prediction for row `i`, trinet.py:628-639. -/
def averageAt {A : Type} (heads : List (A → List K)) (X : List A) (i : Nat) : Except PyErr (List K) :=
  match X[i]? with
  | some x => averageRow (heads.map fun h => h x)
  | none => .error .indexError

/-- `predict_proba`, trinet.py:621-664: batch by batch. -/
def predictProba {A : Type} (heads : List (A → List K)) (bs : Nat) (X : List A) : Except PyErr (List (List K)) :=
  ((chunks X.length bs).mapM fun c => ((List.range (c.2 - c.1)).mapM fun t => averageAt heads X (c.1 + t))) >>= fun B => .ok B.flatten

end

/-- What a generator is seeded for, trinet.py:470-588. -/
inductive Use where
  | smear (i : Nat)
  | init (i : Nat)
  | resmear (t i : Nat)
  | retrain (t i : Nat)
  | pool (t : Nat)
  | train (t v : Nat)

/-- The seed of a generator, trinet.py:476, 489, 507-509, 522, 533, 586. -/
def Use.seed (seed : Int) : Use → Int
  | .smear i => seed + i
  | .init i => seed + 10 + i
  | .resmear t i => seed + 1000 + t * 10 + i
  | .retrain t i => seed + 2000 + t * 10 + i
  | .pool t => seed + 3000 + t
  | .train t v => seed + 4000 + t * 10 + v

end ModSSC.Trinet
