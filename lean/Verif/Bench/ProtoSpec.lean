import Verif.Bench.ProtoModel

/-!
# Specification vocabulary for C124 to C127
-/

namespace ModSSC.Bench.Spec
open ModSSC ModSSC.Bench

/-- `out` is the rows of `rows` at the positions `idx`, in that order. -/
def IsRows {β : Type} (rows : List β) (idx : List Nat) (out : List β) : Prop :=
  out.length = idx.length ∧ ∀ j i : Nat, idx[j]? = some i → ∃ r, rows[i]? = some r ∧ out[j]? = some r

/-- Two label arrays have the same length and agree at the given positions. -/
def AgreeAt {β : Type} (idx : List Nat) (y y' : List β) : Prop :=
  y.length = y'.length ∧ ∀ i ∈ idx, y[i]? = y'[i]?

/-- Same for label arrays that may be absent. -/
def AgreeAt? {β : Type} (idx : List Nat) : Option (List β) → Option (List β) → Prop
  | none, none => True
  | some y, some y' => AgreeAt idx y y'
  | _, _ => False

/-- The true label of training sample `i`: the prepared label if there is one, the raw one otherwise. -/
def trainLabel {α : Type} (pre : Prepared α) (i : Nat) : Option Int :=
  match pre.trainLabels with
  | some l => l[i]?
  | none => (pre.train.y[i]?).map (fun v => v.getD (-1))

/-- `idx` is the list of the set positions of a mask, in increasing order. -/
def IsPositions (m : List Bool) (idx : List Nat) : Prop :=
  idx.Pairwise (· < ·) ∧ ∀ i : Nat, i ∈ idx ↔ m[i]? = some true

/-- The node of a transductive run that stands for sample `i` of split `name`: training samples come first, test
samples after them. -/
def place (nTrain : Nat) (s : IndexSplit) (name : String) (i : Nat) : Nat :=
  if refOf s.refs name = "train" then i else nTrain + i

/-- Node `p` belongs to the split `name`. -/
def InSplit (nTrain : Nat) (s : IndexSplit) (name : String) (p : Nat) : Prop :=
  ∃ idx, Assoc.get s.indices name = some idx ∧ ∃ i ∈ idx, place nTrain s name i = p

/-- Labels and predictions of the nodes in a split, in increasing node order. -/
def pairsOf (inSplit : Nat → Bool) (yTrue yPred : List Int) : List (Int × Int) :=
  ((List.range yTrue.length).filter inSplit).map (fun p => (yTrue.getD p 0, yPred.getD p 0))

end ModSSC.Bench.Spec
