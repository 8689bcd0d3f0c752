import Verif.Deep.EmaModel

/-!
# CoMatch: memory bank, alignment window, smoothed pseudo-labels and pseudo-label graph

Models `src/modssc/inductive/methods/comatch.py` l.58-84 and l.148-228, and the parts of its training step that use them
(l.373-380 and l.493-531).  Tensors are lists of rows; the network is a parameter of the step (its outputs are inputs here), square root
and exponential function are parameters.
-/

namespace ModSSC.Deep
open ModSSC

variable {K : Type} [Field K] [LinearOrder K]

/-! ## Ring buffers -/

/-- A ring buffer: `_queue_feats`/`_queue_probs` (rows in step, so pairs), `_queue_ptr`, `_queue_count`, comatch.py
l.139-142; also `_da_queue`, `_da_ptr`, `_da_count`, l.143-145. -/
structure Bank (α : Type) where
  /-- rows of the tensor -/
  slots : List α
  /-- next position to write -/
  ptr : Nat
  /-- number of positions written so far -/
  count : Nat
deriving DecidableEq, Repr

variable {α : Type}

/-- `_init_memory`, comatch.py l.148-155, and `_init_da`, l.199-206, with `fill` for the zero row.  A size of 0 stands for
"no memory". -/
def bankInit (size : Nat) (fill : α) : Bank α := ⟨List.replicate size fill, 0, 0⟩

/-- The assignment of rows, comatch.py l.168-178: `q[ptr:end] = rows`, or split in two at the end of the buffer. -/
def bankPut (slots : List α) (ptr : Nat) (rows : List α) : List α :=
  if ptr + rows.length ≤ slots.length then slots.take ptr ++ rows ++ slots.drop (ptr + rows.length)
  else
    rows.drop (slots.length - ptr) ++
      (slots.take ptr ++ rows.take (slots.length - ptr)).drop (rows.length - (slots.length - ptr))

/-- `_update_memory`, comatch.py l.157-180. -/
def bankWrite (b : Bank α) (rows : List α) : Bank α :=
  if b.slots.length = 0 then b
  else if rows.length = 0 then b
  else
    let rows := if rows.length > b.slots.length then rows.take b.slots.length else rows
    ⟨bankPut b.slots b.ptr rows, (b.ptr + rows.length) % b.slots.length, min b.slots.length (b.count + rows.length)⟩

/-- `queue[: count]`, comatch.py l.192-193. -/
def bankRead (b : Bank α) : List α := b.slots.take b.count

/-- One entry of the alignment window, comatch.py l.215-217. -/
def windowPut (b : Bank α) (x : α) : Bank α :=
  ⟨b.slots.set b.ptr x, (b.ptr + 1) % b.slots.length, min b.slots.length (b.count + 1)⟩

/-! ## Features -/

/-- `x @ y.t()` for two rows. -/
def dotRow (x y : List K) : K := (List.zipWith (· * ·) x y).sum

/-- `feats / feats.norm(p=2, dim=1).clamp_min(eps)` for one row, comatch.py l.65-68. -/
def l2Row (sqrt : K → K) (x : List K) : List K := x.map (· / max (sqrt (dotRow x x)) (1 / 10 ^ 12))

/-- `mat / mat.sum(dim=1).clamp_min(1e-12)` for one row, comatch.py l.71-73. -/
def normRow (x : List K) : List K := x.map (· / max x.sum (1 / 10 ^ 12))

/-! ## Smoothing -/

/-- The parameters of CoMatch that matter here. -/
structure CoCfg (K : Type) where
  /-- `queue_size` -/
  queueSize : Nat
  /-- `min_queue_fill` -/
  minFill : Nat
  /-- `smoothing_alpha` -/
  alpha : K
  /-- `temperature` -/
  temp : K
  /-- `da_len` -/
  daLen : Nat
  /-- `dist_align` -/
  distAlign : Bool
  /-- `dist_uniform` -/
  uniform : Bool
  /-- number of classes -/
  classes : Nat
  /-- width of the features -/
  width : Nat

/-- A row of the memory: normalised features and probabilities. -/
abbrev CoRow (K : Type) := List K × List K

/-- `affinity @ queue_probs` for one sample, comatch.py l.194-196. -/
def recall (exp : K → K) (temp : K) (C : Nat) (mem : List (CoRow K)) (feat : List K) : List K :=
  let aff := normRow (mem.map fun r => exp (dotRow feat r.1 / temp))
  (List.range C).map fun c => (List.zipWith (fun a (r : CoRow K) => a * r.2.getD c 0) aff mem).sum

/-- `_memory_smooth`, comatch.py l.182-197, for one sample. -/
def smoothRow (exp : K → K) (cfg : CoCfg K) (b : Bank (CoRow K)) (prob feat : List K) : List K :=
  if b.slots.length = 0 then prob
  else if b.count = 0 then prob
  else if 0 < cfg.minFill ∧ b.count < cfg.minFill then prob
  else if 1 ≤ cfg.alpha then prob
  else List.zipWith (fun p q => cfg.alpha * p + (1 - cfg.alpha) * q) prob
    (recall exp cfg.temp cfg.classes (bankRead b) feat)

/-- The memory and the alignment window of a method object. -/
structure CoState (K : Type) where
  /-- memory bank -/
  bank : Bank (CoRow K)
  /-- alignment window -/
  da : Bank (List K)
deriving DecidableEq, Repr

/-- The state at the start of `fit`, comatch.py l.373-380 (reset) with l.148-155 and l.199-206; the code creates
the tensors in the first step (l.493-498, l.211-212), before any use. -/
def coInit (cfg : CoCfg K) : CoState K :=
  ⟨bankInit cfg.queueSize (List.replicate cfg.width 0, List.replicate cfg.classes 0),
   bankInit cfg.daLen (List.replicate cfg.classes 0)⟩

/-- Network outputs in one step: weak-view probabilities `_compute_prob(logits_uw)`, labeled probabilities, features of
both, and the labels of the batch. -/
structure CoInput (K : Type) where
  /-- `softmax(logits_uw / temperature)` -/
  probsU : List (List K)
  /-- `softmax(logits_lb)` -/
  probsL : List (List K)
  /-- `feats_uw` -/
  featsU : List (List K)
  /-- `feats_lb` -/
  featsL : List (List K)
  /-- `y_lb` -/
  labels : List Nat

/-- `_dist_align`, comatch.py l.208-228: aligned rows and the new window. -/
def coAlign (cfg : CoCfg K) (da : Bank (List K)) (probsU probsL : List (List K)) : List (List K) × Bank (List K) :=
  if cfg.distAlign = false ∨ cfg.daLen = 0 then (probsU, da)
  else
    let da' := windowPut da (colMean cfg.classes probsU)
    let st : AlignState K := ⟨colMean cfg.classes (bankRead da'),
      if cfg.uniform then uniformVec cfg.classes else colMean cfg.classes probsL⟩
    (probsU.map (alignedRow st), da')

/-- One row of `one_hot_labels`, torch_support.py l.74-78. -/
def hotRow (C y : Nat) : List K := (List.range C).map fun c => if c = y then 1 else 0

/-- The pseudo-labels of a step and the new state, comatch.py l.502-531: align, smooth with the memory, then store the
aligned (not the smoothed) rows followed by the labeled rows. -/
def coStep (sqrt exp : K → K) (cfg : CoCfg K) (st : CoState K) (inp : CoInput K) : List (List K) × CoState K :=
  let al := coAlign cfg st.da inp.probsU inp.probsL
  let fu := inp.featsU.map (l2Row sqrt)
  let sm := List.zipWith (smoothRow exp cfg st.bank) al.1 fu
  let rows := fu.zip al.1 ++ (inp.featsL.map (l2Row sqrt)).zip (inp.labels.map (hotRow cfg.classes))
  (sm, ⟨bankWrite st.bank rows, al.2⟩)

/-- The steps of one `fit`: pseudo-labels of each step and the final state. -/
def coRun (sqrt exp : K → K) (cfg : CoCfg K) : CoState K → List (CoInput K) → List (List (List K)) × CoState K
  | st, [] => ([], st)
  | st, i :: is =>
    let r := coStep sqrt exp cfg st i
    let rest := coRun sqrt exp cfg r.2 is
    (r.1 :: rest.1, rest.2)

/-! ## Pseudo-label graph -/

/-- Entry `(i, j)` of the matrix before the rows are normalised, comatch.py l.78-83. -/
def graphEntry (threshold : K) (probs : List (List K)) (i j : Nat) : K :=
  let e : K := if i = j then 1 else 0
  let q := dotRow (probs.getD i []) (probs.getD j []) * (1 - e) + e
  if 0 < threshold then q * (if threshold ≤ q then 1 else 0) else q

/-- `_build_pseudo_graph`, comatch.py l.76-84. -/
def pseudoGraph (threshold : K) (probs : List (List K)) : List (List K) :=
  (List.range probs.length).map fun i => normRow ((List.range probs.length).map (graphEntry threshold probs i))

end ModSSC.Deep
