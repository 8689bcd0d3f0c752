import Verif.Gnn.NetModel

/-!
# Model of the graph embedding step (`preprocess/steps/graph/dgi.py`)

Floats are exact numbers of an ordered field.  Creating the networks, an epoch of the optimization and the random generator of torch are
parameters.
-/

namespace ModSSC.Preprocess.Dgi
open ModSSC ModSSC.Transductive ModSSC.Gnn ModSSC.Gnn.Nets

variable {K : Type} [Field K] [LinearOrder K]

/-- An array of numbers: a list, a matrix with its two sizes, or with another number of axes. -/
inductive Arr (α : Type) where
  | vec (n : Nat) (a : Nat → α)
  | mat (r c : Nat) (a : Nat → Nat → α)
  | other

/-- The artifacts used (dgi.py:206-226, `preprocess/steps/base.py`:13-17): `features` is `features.X` and `raw` is `raw.X`, `none` inside if not numeric. -/
structure Store (K : Type) where
  edgeIndex : Option (Arr Int)
  edgeWeight : Option (List K)
  features : Option (Option (Arr K))
  raw : Option (Option (Arr K))

/-- The settings (dgi.py:197-203). -/
structure Settings (K : Type) where
  embeddingDim : Int
  hiddenDim : Int
  dropout : K
  epochs : Int
  lr : K
  loops : Bool

/-- `_ensure_2d` (dgi.py:15-20): number of rows, of columns and the values. -/
def ensure2d : Arr K → Except PyErr (Nat × Nat × Feat K)
  | .vec n a => .ok (n, 1, fun i _ => a i)
  | .mat r c a => .ok (r, c, a)
  | .other => .error .validation

/-- The pairs in a matrix with two rows. -/
def pairs (count : Nat) (a : Nat → Nat → Int) : List (Int × Int) := (List.range count).map fun j => (a 0 j, a 1 j)

/-- `_as_edge_index` (dgi.py:23-37). -/
def asEdgeIndex (n : Nat) : Arr Int → Except PyErr (List (Nat × Nat))
  | .mat r c a =>
    let m : Nat × Nat × (Nat → Nat → Int) := if r ≠ 2 ∧ c = 2 then (c, r, fun i j => a j i) else (r, c, a)
    if m.1 ≠ 2 then .error .validation
    else
      let es := pairs m.2.1 m.2.2
      if es.any fun e => decide (e.1 < 0 ∨ e.2 < 0 ∨ (n : Int) ≤ e.1 ∨ (n : Int) ≤ e.2) then .error .validation
      else .ok (es.map fun e => (e.1.toNat, e.2.toNat))
  | _ => .error .validation

/-- The weights (dgi.py:40-46, 222-226). -/
def asEdgeWeight (count : Nat) : Option (List K) → Except PyErr (List K)
  | none => .ok (List.replicate count 1)
  | some w => if w.length ≠ count then .error .validation else .ok w

/-- `get_X` (`preprocess/steps/base.py`:13-17) and the conversion to numbers (dgi.py:210-218). -/
def features (st : Store K) : Except PyErr (Nat × Nat × Feat K) :=
  match (match st.features with | some x => some x | none => st.raw) with
  | none => .error .validation
  | some none => .error .validation
  | some (some a) => ensure2d a

/-- What torch does: creating encoder, discriminator and optimizer; `manual_seed`; `randperm`; one step of the optimizer on features and
shuffled features. -/
structure Torch (K S G : Type) where
  init : Nat → Nat → Nat → G → S × G
  encoder : S → Linear K × Linear K
  manualSeed : Int → G
  randperm : Nat → G → (Nat → Nat) × G
  step : K → K → List (WEdge K) → Feat K → Feat K → S → G → S × G

/-- The loop over epochs (dgi.py:163-185). -/
def epochs {S G : Type} (t : Torch K S G) (lr dropout : K) (n : Nat) (es : List (WEdge K)) (X : Feat K) : Nat → S → G → S × G
  | 0, s, g => (s, g)
  | k + 1, s, g =>
    let p := t.randperm n g
    let r := t.step lr dropout es X (fun i => X (p.1 i)) s p.2
    epochs t lr dropout n es X k r.1 r.2

/-- `_train_dgi` (dgi.py:49-190): the networks are created before the generator is seeded. -/
def train {S G : Type} (sqrt : K → K) (eps : K) (t : Torch K S G) (s : Settings K) (n width : Nat) (es : List (WEdge K)) (X : Feat K)
    (seed : Int) (g : G) : Feat K :=
  let es' := prepEdges sqrt eps n s.loops .sym es
  let net := t.init width s.hiddenDim.toNat s.embeddingDim.toNat g
  let r := epochs t s.lr s.dropout n es' X s.epochs.toNat net.1 (t.manualSeed seed)
  (Nets.Net.gcn (t.encoder r.1).1 (t.encoder r.1).2).forward es' X

/-- `GraphDGIStep.transform` (dgi.py:205-255); `seed` is drawn from the generator of the pipeline, `g` is the state of torch's global
generator: number of rows and the embeddings. -/
def transform {S G : Type} (sqrt : K → K) (eps : K) (t : Torch K S G) (s : Settings K) (st : Store K) (seed : Int) (g : G) :
    Except PyErr (Nat × Feat K) :=
  match st.edgeIndex with
  | none => .error .validation
  | some ei => do
    let X ← features st
    let es ← asEdgeIndex X.1 ei
    let w ← asEdgeWeight es.length st.edgeWeight
    if s.embeddingDim ≤ 0 then .error .validation
    else if s.hiddenDim ≤ 0 then .error .validation
    else if s.epochs ≤ 0 then .error .validation
    else if s.lr ≤ 0 then .error .validation
    else if ¬ (0 ≤ s.dropout ∧ s.dropout < 1) then .error .validation
    else .ok (X.1, train sqrt eps t s X.1 X.2.1 ((es.zip w).map fun p => ⟨p.1.1, p.1.2, p.2⟩) X.2.2 seed g)

end ModSSC.Preprocess.Dgi
