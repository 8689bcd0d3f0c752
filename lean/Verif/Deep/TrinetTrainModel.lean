import Verif.Deep.TrinetModel

/-!
# The training of Tri-Net (`modssc/inductive/methods/trinet.py`)

The bundles, the parameters of `fit`, the optimizer runs and their order.  A network with its optimizer is an element of `P`; what a step
makes of it is a parameter.  Not modelled: checks of shapes of the outputs, batch normalization, devices.
-/

namespace ModSSC.Trinet
open ModSSC ModSSC.Deep

section
variable {K : Type} [Field K] [LinearOrder K]

/-- `_validate_bundle_set` (trinet.py:315-349); a bundle is the list of the identities of its parameters. -/
def validateBundles (shared : Option (List Nat)) (heads : Option (List (List Nat))) : Except PyErr (List Nat × List (List Nat)) :=
  match shared, heads with
  | none, _ => .error .validation
  | some _, none => .error .validation
  | some s, some hs =>
    if hs.length ≠ 3 then .error .validation
    else if hs.any fun h => s.any fun p => decide (p ∈ h) then .error .validation
    else if (List.range hs.length).any fun i => (List.range hs.length).any fun j =>
      decide (i < j) && (hs.getD i []).any fun p => decide (p ∈ hs.getD j []) then .error .validation
    else .ok (s, hs)

/-- The parameters `fit` checks (trinet.py:353-370). -/
structure TrainSpec (K : Type) where
  poolBase : Int
  maxRounds : Int
  batchSize : Int
  initEpochs : Int
  trainEpochs : Int
  desPasses : Int
  stability : Int
  std : K
  sigma0 : K
  sigmaOs : K
  decay : K
  dropFraction : K

/-- The checks in order (trinet.py:440-463). -/
def checkSpec (s : TrainSpec K) : Except PyErr Unit :=
  if s.poolBase ≤ 0 then .error .validation
  else if s.maxRounds ≤ 0 then .error .validation
  else if s.batchSize ≤ 0 then .error .validation
  else if s.initEpochs ≤ 0 then .error .validation
  else if s.trainEpochs ≤ 0 then .error .validation
  else if s.desPasses ≤ 0 then .error .validation
  else if s.stability ≤ 0 then .error .validation
  else if s.std < 0 then .error .validation
  else if s.sigma0 < 0 ∨ 1 < s.sigma0 then .error .validation
  else if s.sigmaOs < 0 then .error .validation
  else if s.decay < 0 then .error .validation
  else if ¬ (0 ≤ s.dropFraction ∧ s.dropFraction ≤ 1) then .error .validation
  else .ok ()

end

section
variable {R P σ : Type}

/-- What one optimizer step makes of the shared network and of a head, both from the same loss (trinet.py:305-312); whether
the shared network is in training mode is the first argument of `head`. -/
structure Learner (R P : Type) where
  shared : P → P → List R → P
  head : Bool → P → P → List R → P

/-- A batch with a single row is taken twice (trinet.py:285-289). -/
def effective (B : List R) : List R := if B.length = 1 then B ++ B else B

/-- One step (trinet.py:284-312): the head, and the shared network if asked for. -/
def stepOn (L : Learner R P) (upd : Bool) (n : P × P) (B : List R) : P × P :=
  (if upd then L.shared n.1 n.2 (effective B) else n.1, L.head upd n.1 n.2 (effective B))

/-- The epochs (trinet.py:271-312); one generator for all of them. -/
def headEpochs (G : TorchGen σ) (L : Learner R P) (upd : Bool) (b : Nat) (data : List R) : Nat → P × P → σ → (P × P) × Option PyErr
  | 0, n, _ => (n, none)
  | e + 1, n, g =>
    match cycleBatchIndices G data.length b (numBatches data.length b) g with
    | .error err => (n, some err)
    | .ok (Bs, g') =>
      match Bs.mapM (takeRows data) with
      | .error err => (n, some err)
      | .ok rows => headEpochs G L upd b data e (rows.foldl (stepOn L upd) n) g'

/-- `_train_head` (trinet.py:248-312): shared network and head afterwards. -/
def trainHead (G : TorchGen σ) (L : Learner R P) (upd : Bool) (b epochs : Nat) (seed : Int) (data : List R) (n : P × P) :
    (P × P) × Option PyErr :=
  if data = [] then (n, none) else headEpochs G L upd b data epochs n (G.manualSeed seed)

/-- The networks of a Tri-Net (trinet.py:356-357). -/
structure Nets (P : Type) where
  shared : P
  heads : Nat → P

/-- What `fit` works with: labeled rows with targets, smeared rows (round 0: at the start), and the pseudo-labeled rows that the shared
network and two heads give in a round (C152), or an exception (trinet.py:471-479, 503-513, 539-575). -/
structure Job (R P : Type) where
  labeled : List R
  smeared : Nat → Nat → List R
  pseudo : Nat → P → P → P → Except PyErr (List R)

/-- The others of three heads (trinet.py:538). -/
def others (v : Nat) : Nat × Nat := if v = 0 then (1, 2) else if v = 1 then (0, 2) else (0, 1)

/-- Training of head `v` in place (trinet.py:481-490, 577-586). -/
def trainAt (G : TorchGen σ) (L : Learner R P) (upd : Bool) (b epochs : Nat) (seed : Int) (data : List R) (v : Nat) (N : Nets P) :
    Nets P × Option PyErr :=
  let r := trainHead G L upd b epochs seed data (N.shared, N.heads v)
  (⟨r.1.1, fun i => if i = v then r.1.2 else N.heads i⟩, r.2)

/-- One head in a round with smeared labels (trinet.py:480-490, 514-524). -/
def smearedHead (G : TorchGen σ) (L : Learner R P) (b epochs : Nat) (seed : Int) (j : Job R P) (t v : Nat) (N : Nets P) : Nets P × Option PyErr :=
  trainAt G L true b epochs ((if t = 0 then Use.init v else Use.retrain t v).seed seed) (j.smeared t v) v N

/-- One head in a round with pseudo labels (trinet.py:537-586). -/
def labelHead (G : TorchGen σ) (L : Learner R P) (b epochs : Nat) (seed : Int) (j : Job R P) (t v : Nat) (N : Nets P) : Nets P × Option PyErr :=
  match j.pseudo t N.shared (N.heads (others v).1) (N.heads (others v).2) with
  | .error e => (N, some e)
  | .ok ps => trainAt G L (v == 0) b epochs ((Use.train t v).seed seed) (j.labeled ++ ps) v N

/-- A loop over heads, ended by the first exception (trinet.py:480, 514, 537). -/
def forHeads (f : Nat → Nets P → Nets P × Option PyErr) : List Nat → Nets P → Nets P × Option PyErr
  | [], N => (N, none)
  | v :: vs, N =>
    match f v N with
    | (N', some e) => (N', some e)
    | (N', none) => forHeads f vs N'

/-- The rounds: `kinds` says for each whether the heads are trained again on smeared labels (C152, trinet.py:496-586). -/
def netRounds (G : TorchGen σ) (L : Learner R P) (b initE trainE : Nat) (seed : Int) (j : Job R P) : List Bool → Nat → Nets P → Nets P × Option PyErr
  | [], _, N => (N, none)
  | smear :: rest, t, N =>
    match forHeads (if smear then smearedHead G L b initE seed j t else labelHead G L b trainE seed j t) [0, 1, 2] N with
    | (N', some e) => (N', some e)
    | (N', none) => netRounds G L b initE trainE seed j rest (t + 1) N'

/-- The networks after `fit` (trinet.py:480-586), which works on the networks of the specification in place; they are stored for
predictions only at the end (597-600). -/
def fitNets (G : TorchGen σ) (L : Learner R P) (b initE trainE : Nat) (seed : Int) (j : Job R P) (kinds : List Bool) (N : Nets P) :
    Nets P × Option PyErr :=
  match forHeads (smearedHead G L b initE seed j 0) [0, 1, 2] N with
  | (N', some e) => (N', some e)
  | (N', none) => netRounds G L b initE trainE seed j kinds 1 N'

end

end ModSSC.Trinet
