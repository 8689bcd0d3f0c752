import Verif.Transductive.MboModel
import Verif.Transductive.PLaplaceSpec
import Verif.Transductive.PoissonSpec

/-!
# Specification of Poisson MBO

The algorithm as a recursion on functions `node → class → number`, for a weight matrix `w`.
-/

namespace ModSSC.Transductive.Spec
open ModSSC ModSSC.Transductive

variable {K : Type} [Field K] [LinearOrder K]

/-- Total weight into node `i`. -/
def weightDegree (n : Nat) (w : Nat → Nat → K) (i : Nat) : K := ((List.range n).map (w i)).sum

/-- The graph Laplacian `sum over j of w_ij (u_i - u_j)`. -/
def laplacianAt (n : Nat) (w : Nat → Nat → K) (u : Nat → K) (i : Nat) : K :=
  ((List.range n).map fun j => w i j * (u i - u j)).sum

/-- One step towards the solution of `L u = source`; nodes without edges are left alone. -/
def poissonStep (n : Nat) (w src : Nat → Nat → K) (U : Nat → Nat → K) : Nat → Nat → K := fun i c =>
  if 0 < weightDegree n w i then U i c + (src i c - laplacianAt n w (fun j => U j c) i) / weightDegree n w i else U i c

/-- One explicit step of length `dt` of `u' = -(L u - mu source)`. -/
def heatStep (n : Nat) (w src : Nat → Nat → K) (dt mu : K) (U : Nat → Nat → K) : Nat → Nat → K := fun i c =>
  U i c - dt * (laplacianAt n w (fun j => U j c) i - mu * src i c)

/-- `c` is the first of the classes `0, …, k-1` with the largest score. -/
def FirstBest (k : Nat) (v : Nat → K) (c : Nat) : Prop :=
  c < k ∧ (∀ c' < k, v c' ≤ v c) ∧ ∀ c' < c, v c' < v c

instance (k : Nat) (v : Nat → K) (c : Nat) : Decidable (FirstBest k v c) := by unfold FirstBest; infer_instance

/-- Share of the nodes whose best class, scores being multiplied by `s`, is `c`. -/
def volume (n k : Nat) (U : Nat → Nat → K) (s : Nat → K) (c : Nat) : K :=
  (((List.range n).filter fun i => FirstBest k (fun c => U i c * s c) c).length : K) / n

/-- One adjustment of the factors towards the volumes `b`. -/
def volumeStep (n k : Nat) (U : Nat → Nat → K) (b : Nat → K) (dTau smin smax : K) (s : Nat → K) : Nat → K := fun c =>
  min (max (s c + dTau * (b c - volume n k U s c)) smin) smax

/-- One round: `nInner` heat steps, `nVolume` adjustments starting from factors 1, then every node gets its best class. -/
def mboRound (n k : Nat) (w src : Nat → Nat → K) (b : Nat → K) (dt mu dTau smin smax : K) (nInner nVolume : Nat)
    (U : Nat → Nat → K) : Nat → Nat → K :=
  let V := (heatStep n w src dt mu)^[nInner] U
  let s := (volumeStep n k V b dTau smin smax)^[nVolume] fun _ => 1
  fun i c => if FirstBest k (fun c => V i c * s c) c then 1 else 0

/-- Start of the rounds: `T` Poisson steps from zero, each class multiplied by its target volume over its share of the
labels. -/
def mboStart (n : Nat) (w src : Nat → Nat → K) (b share : Nat → K) (T : Nat) : Nat → Nat → K := fun i c =>
  (poissonStep n w src)^[T] (fun _ _ => 0) i c * (b c / share c)

/-- Share of class `c` among the labeled nodes. -/
def labelShare (y : List Int) (mask : List Bool) (c : Nat) : K := (classCount y mask c : K) / labeledCount mask

/-- The target volumes: the given ones, normalised; or equal ones, the shares of the labels, or the shares of all
non-negative labels. -/
def TargetVolumes (y : List Int) (mask : List Bool) (k : Nat) (strategy : String) (given : Option (List K))
    (b : Nat → K) : Prop :=
  (∃ l, given = some l ∧ l.length = k ∧ (∀ x ∈ l, 0 ≤ x) ∧ 0 < l.sum ∧ ∀ c < k, b c = l.getD c 0 / l.sum) ∨
  (given = none ∧
    ((strategy = "uniform" ∧ ∀ c < k, b c = 1 / (k : K)) ∨
     (strategy = "labeled" ∧ ∀ c < k, b c = labelShare y mask c) ∨
     (strategy = "true" ∧ ∀ c < k, b c = (y.count (c : Int) : K) / (y.countP fun a => decide (0 ≤ a)))))

/-- `m` is the largest of the total weights into the nodes. -/
def LargestDegree (n : Nat) (w : Nat → Nat → K) (m : K) : Prop :=
  (∀ i < n, weightDegree n w i ≤ m) ∧ ∃ i < n, weightDegree n w i = m

/-- `x` is the largest absolute difference of two arrays. -/
def LargestChange (n k : Nat) (U V : Nat → Nat → K) (x : K) : Prop :=
  (∀ i < n, ∀ c < k, |U i c - V i c| ≤ x) ∧ ∃ i < n, ∃ c < k, |U i c - V i c| = x

end ModSSC.Transductive.Spec
