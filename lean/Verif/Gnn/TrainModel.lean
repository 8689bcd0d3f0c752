import Verif.Base

/-!
# Model of the training loops of the GNN methods

`transductive/methods/gnn/common.py` (`train_fullbatch`, `prepare_data_cached`), `gnn/grand.py`, `gnn/grafn.py`,
`gnn/graphhop.py` (`_train_lr`) and the order of seeding and initialisation in the `fit` methods.

One epoch of training (forward, loss, backward, optimizer step) is a parameter, as is the validation measure.  Evaluating the
model does not change the training state (in evaluation mode dropout is off and no random numbers are drawn).
-/

namespace ModSSC.Gnn
open ModSSC

variable {K : Type} [Field K] [LinearOrder K]

/-- A measured value: `none` is NaN. -/
abbrev Loss (K : Type) := Option K

/-- `val_loss < best_val_loss - tol` on floats: false when one side is NaN. -/
def lossBetter (tol : K) : Loss K → Loss K → Bool
  | some v, some b => v < b - tol
  | _, _ => false

/-- `val_acc > best_val`. -/
def accBetter : Loss K → Loss K → Bool
  | some v, some b => b < v
  | _, _ => false

/-- How a loop compares measured values: whether a value is kept when there is none yet, and whether it replaces another. -/
structure Measure (K : Type) where
  first : Loss K → Bool
  better : Loss K → Loss K → Bool

/-- `best_val_loss is None or val_loss < best_val_loss - 1e-9` (common.py:381). -/
def fullbatchMeasure (tol : K) : Measure K := ⟨fun _ => true, lossBetter tol⟩

/-- `val_acc > best_val`, or no value yet (grafn.py:343). -/
def grafnMeasure : Measure K := ⟨fun _ => true, accBetter⟩

/-- `val_loss < best_val - 1e-9` from `best_val = inf` (grand.py:101,164). -/
def grandMeasure (tol : K) : Measure K := ⟨fun v => v.isSome, lossBetter tol⟩

/-- What the loop remembers: value, epoch and parameters of the best epoch, and the number of bad epochs. -/
structure Es (K S : Type) where
  best : Option (Loss K × Nat × S)
  bad : Nat

/-- What one validation does to the memory (common.py:381-407, grand.py:164-184, grafn.py:343-352): the new memory, and
whether the loop breaks. -/
def Es.see {S : Type} (M : Measure K) (patience : Int) (es : Es K S) (epoch : Nat) (v : Loss K) (s : S) : Es K S × Bool :=
  let improves := match es.best with
    | none => M.first v
    | some (b, _) => M.better v b
  if improves then (⟨some (v, epoch, s), 0⟩, false)
  else (⟨es.best, es.bad + 1⟩, decide (patience ≤ ((es.bad + 1 : Nat) : Int)))

/-- The loop over the epochs (common.py:364-407): the training state, the memory and the number of epochs run.  `step` is an
epoch of training, `params` the parameters in a training state, `val` the measure on the validation nodes, if there are any. -/
def esLoop {T S : Type} (M : Measure K) (patience : Int) (step : T → T) (params : T → S) (val : Option (S → Loss K)) :
    Nat → Nat → T → Es K S → T × Es K S × Nat
  | 0, epoch, t, es => (t, es, epoch)
  | k + 1, epoch, t, es =>
    let t' := step t
    match val with
    | none => esLoop M patience step params val k (epoch + 1) t' es
    | some f =>
      let r := es.see M patience epoch (f (params t')) (params t')
      if r.2 then (t', r.1, epoch + 1) else esLoop M patience step params val k (epoch + 1) t' r.1

/-- The parameters of the model after training, and what is reported. -/
structure Trained (K S : Type) where
  params : S
  epochs : Nat
  bestEpoch : Option Nat
  bestVal : Option (Loss K)

/-- Loop, then `load_state_dict(best_state)` if there is one (common.py:409-410, grand.py:186-187, grafn.py:354-355). -/
def runTraining {T S : Type} (M : Measure K) (maxEpochs patience : Int) (step : T → T) (params : T → S)
    (val : Option (S → Loss K)) (t0 : T) : Trained K S :=
  let r := esLoop M patience step params val maxEpochs.toNat 0 t0 ⟨none, 0⟩
  match r.2.1.best with
  | none => ⟨params r.1, r.2.2, none, none⟩
  | some (v, e, s) => ⟨s, r.2.2, some e, some v⟩

/-- `train_fullbatch` (common.py:341-418): `epoch + 1` after the loop raises `UnboundLocalError` (here `runtimeError`) if
there was no epoch. -/
def trainFullbatch {T S : Type} (tol : K) (maxEpochs patience : Int) (step : T → T) (params : T → S)
    (val : Option (S → Loss K)) (t0 : T) : Except PyErr (Trained K S) :=
  if maxEpochs ≤ 0 then .error .runtimeError
  else .ok (runTraining (fullbatchMeasure tol) maxEpochs patience step params val t0)

/-! ### GraphHop -/

/-- `not (loss_val - prev > 0 or prev - loss_val < min_delta)` (graphhop.py:155); no previous value is `inf`. -/
def hopGood (minDelta : K) : Option (Loss K) → Loss K → Bool
  | none, _ => true
  | some (some p), some v => !(decide (0 < v - p) || decide (p - v < minDelta))
  | some _, _ => true

/-- The loop of `_train_lr` (graphhop.py:127-162): the saved epoch and parameters, and the number of epochs run. -/
def hopLoop {T S : Type} (minDelta : K) (patience : Int) (step : T → T) (params : T → S) (val : S → Loss K) :
    Nat → Nat → T → Option (Loss K) → Nat → Option (Nat × S) → T × Option (Nat × S) × Nat
  | 0, epoch, t, _, _, best => (t, best, epoch)
  | k + 1, epoch, t, prev, bad, best =>
    let t' := step t
    let v := val (params t')
    let good := hopGood minDelta prev v
    let bad' := if good then 0 else bad + 1
    let best' := if good then some (epoch, params t') else best
    if patience ≤ (bad' : Int) then (t', best', epoch + 1)
    else hopLoop minDelta patience step params val k (epoch + 1) t' (some v) bad' best'

/-- `_train_lr` with validation nodes (graphhop.py:94-166): parameters, saved epoch, epochs run. -/
def hopTrain {T S : Type} (minDelta : K) (maxEpochs patience : Int) (step : T → T) (params : T → S) (val : S → Loss K)
    (t0 : T) : S × Option Nat × Nat :=
  let r := hopLoop minDelta patience step params val maxEpochs.toNat 0 t0 none 0 none
  match r.2.1 with
  | none => (params r.1, none, r.2.2)
  | some (e, s) => (s, some e, r.2.2)

/-! ### Fitting -/

/-- A network for a fixed graph and features: creating it draws its weights from the generator; an epoch uses the labels of
the training nodes and the generator; the validation loss uses the labels of the validation nodes. -/
structure Net (K S O G : Type) where
  init : Nat → G → S × G
  opt : S → O
  epoch : List Int → S × O × G → S × O × G
  valLoss : List Int → S → Loss K

/-- `a[mask]`. -/
def masked {α : Type} (a : List α) (m : List Bool) : List α := (a.zip m).filterMap fun p => if p.2 then some p.1 else none

/-- `int(y.max()) + 1 if y.numel() > 0 else 0` (common.py:248). -/
def nClasses : List Int → Nat
  | [] => 0
  | a :: l => ((l.foldl max a) + 1).toNat

/-- Whether the generator is seeded before the network is created (grafn.py:199, graphhop.py:220) or after (all methods that
train with `train_fullbatch`, gcn.py:101-121, and grand.py:89-104). -/
inductive SeedOrder where
  | seedFirst
  | initFirst

/-- `fit` of the methods that train a network with `train_fullbatch` (gcn.py:78-123, gat.py:200-246, graphsage.py:80-125,
sgc.py:58-106, appnp.py:87-134, chebnet.py:107-153, gcnii.py:100-148, n_gcn.py:200-290, h_gcn.py:282-394) for `.initFirst`; with `.seedFirst` the order of
`set_torch_seed` in grafn.py:199 and graphhop.py:220.  `manualSeed` is `torch.manual_seed`, `g` the state of the global
generator when `fit` is called. -/
def fitGnn {S O G : Type} (order : SeedOrder) (net : Net K S O G) (manualSeed : Int → G) (tol : K) (maxEpochs patience : Int)
    (y : List Int) (train : List Bool) (val : Option (List Bool)) (seed : Int) (g : G) : Except PyErr (Trained K S × Nat) :=
  let g0 := match order with
    | .seedFirst => manualSeed seed
    | .initFirst => g
  let r := net.init (nClasses y) g0
  let g1 := match order with
    | .seedFirst => r.2
    | .initFirst => manualSeed seed
  let v := match val with
    | some m => if m.any id then some (net.valLoss (masked y m)) else none
    | none => none
  match trainFullbatch tol maxEpochs patience (net.epoch (masked y train)) (·.1) v (r.1, net.opt r.1, g1) with
  | .error e => .error e
  | .ok t => .ok (t, nClasses y)

/-! ### The cache of prepared data -/

/-- The objects a dataset is made of, by identity: the dataset, `X`, `y`, the graph, `edge_index`, `edge_weight`, `masks`. -/
structure DataIds where
  data : Nat
  x : Nat
  y : Nat
  graph : Nat
  edgeIndex : Nat
  edgeWeight : Nat
  masks : Nat
deriving DecidableEq

/-- The identities, in the order of the key. -/
def DataIds.all (d : DataIds) : List Nat := [d.data, d.x, d.y, d.graph, d.edgeIndex, d.edgeWeight, d.masks]

/-- `_prep_cache_key` (common.py:263-289): the identities and the settings. -/
abbrev PrepKey (Opt : Type) := DataIds × Opt

/-- What one of the methods keeps between calls. -/
structure PrepCache (Opt P : Type) where
  entry : Option (PrepKey Opt × P)

/-- `prepare_data_cached` (common.py:292-322): `contents` gives the present contents of every object, `prepare` is
`prepare_data`, which reads the seven objects. -/
def prepCached {V Opt P : Type} [DecidableEq Opt] (prepare : List V → Opt → Except PyErr P) (contents : Nat → V)
    (cache : PrepCache Opt P) (ids : DataIds) (opt : Opt) : PrepCache Opt P × Except PyErr P :=
  match cache.entry with
  | some (key, p) =>
    if key = (ids, opt) then (cache, .ok p)
    else match prepare (ids.all.map contents) opt with
      | .ok p => (⟨some ((ids, opt), p)⟩, .ok p)
      | .error e => (cache, .error e)
  | none => match prepare (ids.all.map contents) opt with
      | .ok p => (⟨some ((ids, opt), p)⟩, .ok p)
      | .error e => (cache, .error e)

/-- What a program does between and with calls: write to an object in place, or prepare a dataset. -/
inductive PrepOp (V Opt : Type) where
  | write (id : Nat) (v : V)
  | prep (ids : DataIds) (opt : Opt)

/-- One operation: the contents, the cache and the result of the call, if it is one. -/
def prepStep {V Opt P : Type} [DecidableEq Opt] (prepare : List V → Opt → Except PyErr P)
    (w : (Nat → V) × PrepCache Opt P) : PrepOp V Opt → ((Nat → V) × PrepCache Opt P) × Option (Except PyErr P)
  | .write id v => ((fun i => if i = id then v else w.1 i, w.2), none)
  | .prep ids opt =>
    let r := prepCached prepare w.1 w.2 ids opt
    ((w.1, r.1), some r.2)

/-- A history of operations: all results of calls, in order. -/
def prepRun {V Opt P : Type} [DecidableEq Opt] (prepare : List V → Opt → Except PyErr P) :
    (Nat → V) × PrepCache Opt P → List (PrepOp V Opt) → List (Except PyErr P)
  | _, [] => []
  | w, op :: ops => (prepStep prepare w op).2.toList ++ prepRun prepare (prepStep prepare w op).1 ops

end ModSSC.Gnn
