import Verif.Transductive.CgSpec
import Verif.Transductive.FitSpec

/-!
# Specification of Poisson learning
-/

namespace ModSSC.Transductive.Spec
open ModSSC ModSSC.Transductive

variable {K : Type} [Field K] [LinearOrder K]

/-- Number of labeled nodes. -/
def labeledCount (mask : List Bool) : Nat := mask.count true

/-- Number of nodes labeled `c`. -/
def classCount (y : List Int) (mask : List Bool) (c : Nat) : Nat := (y.zip mask).count ((c : Int), true)

/-- The source of class `c` at node `i`.  Centered: one minus the share of the class at its labeled nodes, minus the
share at the other labeled nodes, zero elsewhere.  Otherwise: the indicator of the class at labeled nodes, with its mean
over all nodes subtracted. -/
def source (center : Bool) (y : List Int) (mask : List Bool) (c i : Nat) : K :=
  if center then
    if mask[i]? = some true ∧ y[i]? = some (c : Int) then 1 - (classCount y mask c : K) / labeledCount mask
    else if mask[i]? = some true then - ((classCount y mask c : K) / labeledCount mask)
    else 0
  else
    (if mask[i]? = some true ∧ y[i]? = some (c : Int) then 1 else 0) - (classCount y mask c : K) / y.length

/-- The left-hand side of the Poisson equation `(L + eps I + (1/n) 1 1^T) f` at node `i`, where `L = I - S` for the
normalised weights `S`. -/
def poissonLhs (sqrt : K → K) (floor : K) (kind : String) (es : List (Int × Int × K)) (eps : K) (n : Nat) (f : Nat → K)
    (i : Nat) : K :=
  f i - ((es.filter fun e => e.2.1 = (i : Int)).map fun e => transition sqrt floor kind es e * f e.1.toNat).sum
    + eps * f i + ((List.range n).map f).sum / n

/-- Square of the length of the difference of the two sides of the Poisson equation for class `c`. -/
def poissonGap (sqrt : K → K) (floor : K) (kind : String) (es : List (Int × Int × K)) (eps : K) (center : Bool)
    (y : List Int) (mask : List Bool) (F : Mat K) (c : Nat) : K :=
  ((List.range y.length).map fun i =>
    (source center y mask c i - poissonLhs sqrt floor kind es eps y.length (fun j => F.get j c) i) *
    (source center y mask c i - poissonLhs sqrt floor kind es eps y.length (fun j => F.get j c) i)).sum

/-- Between any two nodes the weights of the two directions are the same. -/
def SymmetricGraph (es : List (Int × Int × K)) : Prop :=
  ∀ i j : Int, ((es.filter fun e => e.1 = i ∧ e.2.1 = j).map (·.2.2)).sum =
    ((es.filter fun e => e.1 = j ∧ e.2.1 = i).map (·.2.2)).sum

/-- There are `k` different labels at labeled nodes. -/
def DistinctLabels (y : List Int) (mask : List Bool) (k : Nat) : Prop :=
  ∃ L : List Int, L.Nodup ∧ L.length = k ∧ ∀ c, c ∈ L ↔ ∃ i : Nat, mask[i]? = some true ∧ y[i]? = some c

end ModSSC.Transductive.Spec
