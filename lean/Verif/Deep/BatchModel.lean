import Verif.Base
import Batteries.Lean.Except

/-!
# Mini-batches of the deep inductive methods

Models `src/modssc/inductive/methods/helpers/torch_support.py` (batching helpers) and the training
skeleton shared by FixMatch, Mean Teacher, the Pi model, UDA, MixMatch, FlexMatch, FreeMatch,
SoftMatch, AdaMatch and Temporal Ensembling.  Tensors are lists of rows.
-/

namespace ModSSC.Deep
open ModSSC

/-- `torch.Generator` as seen by the code (external): `manual_seed` gives the state, `randperm(n)`
returns a permutation and advances it. -/
structure TorchGen (σ : Type) where
  /-- `torch.Generator().manual_seed(seed)` -/
  manualSeed : Int → σ
  /-- `torch.randperm(n, generator=g)` -/
  randperm : σ → Nat → List Nat × σ

/-- torch's documented contract of `randperm`. -/
def TorchGen.Lawful {σ : Type} (G : TorchGen σ) : Prop :=
  ∀ g n, (G.randperm g n).1.Perm (List.range n)

/-- `num_batches`, torch_support.py l.315-316.  The quotient is a float in the code; here it is exact
(the two agree below 2^52 samples). -/
def numBatches (n b : Nat) : Nat := max 1 ((n + b - 1) / b)

/-- `for start in range(0, n, batch_size): yield idx[start : start + batch_size]`,
`_iter_batch_indices`, torch_support.py l.319-325. -/
def iterBatchIndices (n b : Nat) (idx : List Nat) : List (List Nat) :=
  (List.range ((n + b - 1) / b)).map fun k => (idx.drop (k * b)).take b

/-- One `next(it)` of `cycle_batch_indices`, torch_support.py l.333-338: `pending` are the batches the
current iterator still holds; an exhausted iterator is replaced by one over a new permutation.  When
the new one is empty too, `next` raises `StopIteration` inside the generator, which Python turns into
a `RuntimeError`. -/
def cycleNext {σ : Type} (G : TorchGen σ) (n b : Nat) (pending : List (List Nat)) (g : σ) :
    Except PyErr (List Nat × List (List Nat) × σ) :=
  match pending with
  | B :: rest => .ok (B, rest, g)
  | [] =>
    match iterBatchIndices n b (G.randperm g n).1 with
    | B :: rest => .ok (B, rest, (G.randperm g n).2)
    | [] => .error .runtimeError

/-- The loop of `cycle_batch_indices`, torch_support.py l.332-338: the batches yielded in `steps`
rounds and the generator afterwards.  The first permutation is drawn when the first batch is asked
for (generators are lazy), so the loop starts with nothing pending. -/
def cycleFrom {σ : Type} (G : TorchGen σ) (n b : Nat) :
    Nat → List (List Nat) → σ → Except PyErr (List (List Nat) × σ)
  | 0, _, g => .ok ([], g)
  | steps + 1, pending, g =>
    match cycleNext G n b pending g with
    | .error e => .error e
    | .ok (B, rest, g1) =>
      match cycleFrom G n b steps rest g1 with
      | .error e => .error e
      | .ok (Bs, g2) => .ok (B :: Bs, g2)

/-- `cycle_batch_indices`, torch_support.py l.328-338. -/
def cycleBatchIndices {σ : Type} (G : TorchGen σ) (n b steps : Nat) (g : σ) :
    Except PyErr (List (List Nat) × σ) :=
  cycleFrom G n b steps [] g

/-- `X[idx]` for a tensor of rows and an index tensor (`slice_data` of a plain tensor,
torch_support.py l.382); torch raises `IndexError` outside of the range. -/
def takeRows {α : Type} (X : List α) (idx : List Nat) : Except PyErr (List α) :=
  idx.mapM fun i =>
    match X[i]? with
    | some x => .ok x
    | none => .error .indexError

/-- One `batch_x, y[idx]`, torch_support.py l.445-450. -/
def takePair {α β : Type} (X : List α) (y : List β) (idx : List Nat) :
    Except PyErr (List α × List β) := do
  let bx ← takeRows X idx
  let by' ← takeRows y idx
  pure (bx, by')

/-- `cycle_batches` with labels, torch_support.py l.418-450. -/
def cycleBatches {σ α β : Type} (G : TorchGen σ) (X : List α) (y : List β) (b steps : Nat) (g : σ) :
    Except PyErr (List (List α × List β) × σ) :=
  if X.length = 0 then .error .validation
  else do
    let (Bs, g') ← cycleBatchIndices G X.length b steps g
    let out ← Bs.mapM (takePair X y)
    pure (out, g')

/-- What one optimisation step sees: labeled rows, their labels, weak and strong views. -/
structure Step (α β γ δ : Type) where
  /-- `x_lb` -/
  xl : List α
  /-- `y_lb` -/
  yl : List β
  /-- `x_uw` -/
  xw : List γ
  /-- `x_us` -/
  xs : List δ
deriving DecidableEq, Repr

/-- The step made from one labeled batch and one batch of unlabeled positions, fixmatch.py
l.169-171. -/
def mkStep {α β γ δ : Type} (Xw : List γ) (Xs : List δ) (p : (List α × List β) × List Nat) :
    Except PyErr (Step α β γ δ) := do
  let w ← takeRows Xw p.2
  let s ← takeRows Xs p.2
  pure ⟨p.1.1, p.1.2, w, s⟩

/-- One epoch, fixmatch.py l.154-171 (same skeleton in mean_teacher.py l.191-, pi_model.py l.151-,
uda.py l.171-, mixmatch.py l.299-, flexmatch.py l.240-, temporal_ensembling.py l.160-).  The model,
the losses and the optimizer are not modelled here: the batches do not depend on them. -/
def trainEpoch {σ α β γ δ : Type} (G : TorchGen σ) (Xl : List α) (yl : List β) (Xw : List γ)
    (Xs : List δ) (b steps : Nat) (gs : σ × σ) : Except PyErr (List (Step α β γ δ) × (σ × σ)) := do
  let (bl, gl) ← cycleBatches G Xl yl b steps gs.1
  let (bu, gu) ← cycleBatchIndices G Xw.length b steps gs.2
  let out ← (bl.zip bu).mapM (mkStep Xw Xs)
  pure (out, (gl, gu))

/-- The epochs one after the other; both generators live across epochs, fixmatch.py l.150-154. -/
def trainEpochs {σ α β γ δ : Type} (G : TorchGen σ) (Xl : List α) (yl : List β) (Xw : List γ)
    (Xs : List δ) (b steps : Nat) : Nat → σ × σ → Except PyErr (List (List (Step α β γ δ)))
  | 0, _ => .ok []
  | e + 1, gs => do
    let (out, gs') ← trainEpoch G Xl yl Xw Xs b steps gs
    let rest ← trainEpochs G Xl yl Xw Xs b steps e gs'
    pure (out :: rest)

/-- The batches of `fit`, fixmatch.py l.115-171: the size checks, `steps_per_epoch` and the epochs.
That `X_l` and `y_l` have the same length is checked by `ensure_torch_data` (validation.py), included
here.  Checks of dtypes, devices and of the other parameters are not modelled. -/
def fitBatches {σ α β γ δ : Type} (G : TorchGen σ) (Xl : List α) (yl : List β) (Xw : List γ)
    (Xs : List δ) (batchSize maxEpochs seed : Int) : Except PyErr (List (List (Step α β γ δ))) :=
  if Xl.length ≠ yl.length then .error .validation
  else if Xl.length = 0 then .error .validation
  else if Xw.length = 0 ∨ Xs.length = 0 then .error .validation
  else if Xw.length ≠ Xs.length then .error .validation
  else if batchSize ≤ 0 then .error .validation
  else if maxEpochs ≤ 0 then .error .validation
  else
    trainEpochs G Xl yl Xw Xs batchSize.toNat
      (max (numBatches Xl.length batchSize.toNat) (numBatches Xw.length batchSize.toNat))
      maxEpochs.toNat (G.manualSeed seed, G.manualSeed (seed + 1))

/-- A lawful generator for the examples: rotates and reverses. -/
def TorchGen.demo : TorchGen Nat where
  manualSeed s := s.toNat
  randperm g n := (if g % 2 = 0 then (List.range n).reverse else List.range n, g + 1)

theorem TorchGen.demo_lawful : TorchGen.demo.Lawful := by
  intro g n
  show (if g % 2 = 0 then (List.range n).reverse else List.range n).Perm _
  split
  · exact List.reverse_perm _
  · exact List.Perm.refl _

end ModSSC.Deep
