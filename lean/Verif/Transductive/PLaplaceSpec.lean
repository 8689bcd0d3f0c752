import Verif.Transductive.PLaplaceModel
import Verif.Transductive.CgSpec
import Verif.Transductive.LazySpec

/-!
# Specification of p-Laplace learning
-/

namespace ModSSC.Transductive.Spec
open ModSSC ModSSC.Transductive

variable {K : Type} [Field K] [LinearOrder K]

/-- What is assumed of the exponential function. -/
structure ExpLaw (exp : K → K) : Prop where
  pos : ∀ x, 0 < exp x
  zero : exp 0 = 1
  mono : ∀ x y, x < y → exp x < exp y

/-- What is assumed of `d ↦ |d| ** (p - 2)`. -/
structure PowLaw (pow : K → K) : Prop where
  even : ∀ d, pow (-d) = pow d
  nonneg : ∀ d, 0 ≤ pow d

/-- Weight into node `i` from node `j`: total weight of the edges from `j` to `i`, with `symmetrize` plus that of the
edges from `i` to `j`; with `zero_diagonal` a node has no edge to itself. -/
def usedWeight (symmetrize zeroDiagonal : Bool) (es : List (Int × Int × K)) (i j : Nat) : K :=
  if zeroDiagonal = true ∧ i = j then 0
  else ((es.filter fun e => e.1 = (j : Int) ∧ e.2.1 = (i : Int)).map (·.2.2)).sum +
    if symmetrize then ((es.filter fun e => e.1 = (i : Int) ∧ e.2.1 = (j : Int)).map (·.2.2)).sum else 0

/-- `eps v_i + sum over j of w_ij (v_i - v_j)`. -/
def balance (n : Nat) (w : Nat → Nat → K) (eps : K) (v : Nat → K) (i : Nat) : K :=
  eps * v i + ((List.range n).map fun j => w i j * (v i - v j)).sum

/-- Sum of the squares of the balances of the unlabeled nodes. -/
def balanceGap (mask : List Bool) (w : Nat → Nat → K) (eps : K) (v : Nat → K) : K :=
  (((List.range mask.length).filter fun i => mask[i]? = some false).map fun i =>
    balance mask.length w eps v i * balance mask.length w eps v i).sum

/-- `v` is 1 at the nodes labeled `c` and 0 at the other labeled nodes. -/
def LabelValues (y : List Int) (mask : List Bool) (c : Nat) (v : Nat → K) : Prop :=
  ∀ i : Nat, mask[i]? = some true → (Labeled y mask i c → v i = 1) ∧ (¬ Labeled y mask i c → v i = 0)

/-- `p` is the softmax of the scores `s` of the classes `0, …, k-1`, computed after subtracting the largest score. -/
def IsSoftmax (exp : K → K) (k : Nat) (s p : Nat → K) : Prop :=
  ∃ M, (∀ c < k, s c ≤ M) ∧ (∃ c < k, s c = M) ∧
    ∀ c < k, p c = exp (s c - M) / ((List.range k).map fun c' => exp (s c' - M)).sum

/-- The classes are `0, …, k-1`, `k-1` being the largest label. -/
def LargestClass (y : List Int) (k : Nat) : Prop := ((k : Int) - 1 ∈ y) ∧ 0 < k ∧ ∀ c ∈ y, c < (k : Int)

/-- The potentials a call has computed: one function per class, the labels on the labeled nodes, whose softmax are the
returned rows of the others. -/
def Potentials (exp : K → K) (y : List Int) (mask : List Bool) (r : Diffusion K) (k : Nat) (v : Nat → Nat → K) : Prop :=
  (∀ c < k, LabelValues y mask c (v c)) ∧
  ∀ i : Nat, mask[i]? = some false → IsSoftmax exp k (fun c => v c i) (fun c => r.F.get i c)

end ModSSC.Transductive.Spec
