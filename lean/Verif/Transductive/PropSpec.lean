import Verif.Transductive.Types

/-!
# Specification of label propagation and label spreading
-/

namespace ModSSC.Transductive.Spec
open ModSSC ModSSC.Transductive

variable {K : Type} [Field K] [LinearOrder K]

/-- The graph the caller passes: edges with their weights, weight 1 when there are none. -/
def edgesOf (ei : List (Int × Int)) (ew : Option (List K)) : List (Int × Int × K) :=
  match ew with
  | none => ei.map fun e => (e.1, e.2, 1)
  | some w => (ei.zip w).map fun p => (p.1.1, p.1.2, p.2)

/-- Node `i` carries the given label `l`. -/
def Labeled (y : List Int) (mask : List Bool) (i : Nat) (l : Nat) : Prop :=
  mask[i]? = some true ∧ y[i]? = some (l : Int)

/-- Node `i` can be reached from a node labeled `c` along at most `t` edges that end in unlabeled nodes. -/
inductive Reaches (es : List (Int × Int × K)) (y : List Int) (mask : List Bool) (c : Nat) : Nat → Nat → Prop
  | label {t i : Nat} : Labeled y mask i c → Reaches es y mask c t i
  | step {t i j : Nat} {w : K} : mask[i]? = some false → ((j : Int), (i : Int), w) ∈ es →
      Reaches es y mask c t j → Reaches es y mask c (t + 1) i

/-- Node `i` can be reached from a node labeled `c` along at most `t` edges. -/
inductive Connects (es : List (Int × Int × K)) (y : List Int) (mask : List Bool) (c : Nat) : Nat → Nat → Prop
  | label {t i : Nat} : Labeled y mask i c → Connects es y mask c t i
  | step {t i j : Nat} {w : K} : ((j : Int), (i : Int), w) ∈ es →
      Connects es y mask c t j → Connects es y mask c (t + 1) i

/-- An `n` by `d` array. -/
def HasShape (F : Mat K) (n d : Nat) : Prop := F.length = n ∧ ∀ r ∈ F, r.length = d

/-- Every row is a distribution or zero. -/
def StochasticRows (F : Mat K) : Prop :=
  ∀ r ∈ F, (∀ x ∈ r, 0 ≤ x) ∧ (r.sum = 1 ∨ ∀ x ∈ r, x = 0)

/-- Every row is non-negative with sum at most one. -/
def SubstochasticRows (F : Mat K) : Prop := ∀ r ∈ F, (∀ x ∈ r, 0 ≤ x) ∧ r.sum ≤ 1

/-- The iteration was stopped correctly: at most `maxIter` rounds, and fewer only when the last change is
at most `tol`. -/
def Stopped (maxIter : Int) (tol : K) (r : Diffusion K) : Prop :=
  r.nIter ≤ maxIter ∧ (0 ≤ maxIter → 0 ≤ r.nIter) ∧ (r.nIter < maxIter → ∃ x, r.residual = some x ∧ x ≤ tol)

/-- Total weight of the edges into node `i`. -/
def inWeight (es : List (Int × Int × K)) (i : Int) : K := ((es.filter fun e => e.2.1 = i).map (·.2.2)).sum

/-- The coefficient of an edge: its weight divided by the weight into its target (`rw`), or by the square root
of the weights into its two ends (`sym`); total weights below `eps` count as `eps`. -/
def transition (sqrt : K → K) (eps : K) (norm : String) (es : List (Int × Int × K)) (e : Int × Int × K) : K :=
  if norm = "rw" then e.2.2 / max (inWeight es e.2.1) eps
  else e.2.2 / sqrt (max (inWeight es e.1) eps * max (inWeight es e.2.1) eps)

/-- `G` satisfies `G = alpha S G + (1 - alpha) Y`, the equation label spreading approximates. -/
def Equilibrium (sqrt : K → K) (eps : K) (norm : String) (es : List (Int × Int × K)) (y : List Int)
    (mask : List Bool) (alpha : K) (G : Nat → Nat → K) : Prop :=
  ∀ i < y.length, ∀ c,
    (Labeled y mask i c →
      G i c = alpha * ((es.filter fun e => e.2.1 = (i : Int)).map fun e =>
        transition sqrt eps norm es e * G e.1.toNat c).sum + (1 - alpha)) ∧
    (¬ Labeled y mask i c →
      G i c = alpha * ((es.filter fun e => e.2.1 = (i : Int)).map fun e =>
        transition sqrt eps norm es e * G e.1.toNat c).sum)

end ModSSC.Transductive.Spec
