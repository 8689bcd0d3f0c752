import Verif.Transductive.PropSpec

/-!
# Specification of lazy random walks
-/

namespace ModSSC.Transductive.Spec
open ModSSC ModSSC.Transductive

variable {K : Type} [Field K] [LinearOrder K]

/-- Weight between two different nodes: the mean of the total weights of the edges in the two directions. -/
def linkWeight (es : List (Int × Int × K)) (i j : Int) : K :=
  if i = j then 0
  else (((es.filter fun e => e.1 = i ∧ e.2.1 = j).map (·.2.2)).sum +
    ((es.filter fun e => e.1 = j ∧ e.2.1 = i).map (·.2.2)).sum) / 2

/-- Total weight between a node and the others. -/
def linkDegree (n : Nat) (es : List (Int × Int × K)) (i : Int) : K :=
  ((List.range n).map fun (j : Nat) => linkWeight es i (j : Int)).sum

/-- An edge of positive weight, in one direction or the other, joins two different nodes. -/
def Adjacent (es : List (Int × Int × K)) (i j : Nat) : Prop :=
  i ≠ j ∧ ∃ w, 0 < w ∧ (((i : Int), (j : Int), w) ∈ es ∨ ((j : Int), (i : Int), w) ∈ es)

/-- Nodes joined by a path of edges of positive weight. -/
inductive Linked (es : List (Int × Int × K)) (i : Nat) : Nat → Prop
  | refl : Linked es i i
  | step {j k : Nat} : Linked es i j → Adjacent es j k → Linked es i k

/-- The two classes `a < b`: those of the labeled nodes if there are exactly two of them, otherwise those of all
labels, negative ones not counting. -/
def TwoClasses (y : List Int) (mask : List Bool) (a b : Int) : Prop :=
  a < b ∧
  ((∀ c, (0 ≤ c ∧ ∃ i : Nat, mask[i]? = some true ∧ y[i]? = some c) ↔ c = a ∨ c = b) ∨
   ((¬ ∃ a' b' : Int, a' < b' ∧ ∀ c, (0 ≤ c ∧ ∃ i : Nat, mask[i]? = some true ∧ y[i]? = some c) ↔ c = a' ∨ c = b') ∧
    ∀ c, (0 ≤ c ∧ c ∈ y) ↔ c = a ∨ c = b))

/-- The label of a node as a number: 1 for class `b`, -1 for class `a`, 0 without a label. -/
def sign (y : List Int) (mask : List Bool) (a b : Int) (i : Nat) : K :=
  if mask[i]? = some true ∧ y[i]? = some b then 1
  else if mask[i]? = some true ∧ y[i]? = some a then -1 else 0

/-- `f` solves the lazy random walk equation `f = alpha S f + y` with `S = D^-1/2 W D^-1/2`. -/
def WalkSolution (sqrt : K → K) (alpha : K) (n : Nat) (es : List (Int × Int × K)) (y0 f : Nat → K) : Prop :=
  ∀ i < n, f i = alpha * ((List.range n).map fun (j : Nat) =>
    linkWeight es (i : Int) (j : Int) / (sqrt (linkDegree n es (i : Int)) * sqrt (linkDegree n es (j : Int))) * f j).sum + y0 i

/-- What is assumed of the square root: exact on positive numbers. -/
def SqrtLaw (sqrt : K → K) : Prop := ∀ x, 0 < x → 0 < sqrt x ∧ sqrt x * sqrt x = x

end ModSSC.Transductive.Spec
