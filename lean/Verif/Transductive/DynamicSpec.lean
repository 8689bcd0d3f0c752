import Verif.Transductive.LazySpec
import Verif.Transductive.DynamicModel
import Mathlib.Data.Matrix.Mul
import Mathlib.Data.Matrix.Diagonal

/-!
# Specification of dynamic label propagation
-/

namespace ModSSC.Transductive.Spec
open ModSSC ModSSC.Transductive

variable {K : Type} [Field K] [LinearOrder K]

/-- `a` is at most `b`; `none` is minus infinity. -/
def BelowEq : Option K → Option K → Prop
  | none, _ => True
  | some _, none => False
  | some a, some b => a ≤ b

/-- What is assumed of `np.argpartition` and `torch.topk`: for `k` at most the length, `k` different positions whose
entries are at least all others. -/
def IsTopK (top : TopK K) : Prop :=
  ∀ (k : Nat) (row : List (Option K)), k ≤ row.length →
    (top k row).Nodup ∧ (top k row).length = k ∧ (∀ j ∈ top k row, j < row.length) ∧
    ∀ a ∈ top k row, ∀ b < row.length, b ∉ top k row → BelowEq (row.getD b none) (row.getD a none)

/-- One step of a random walk on the graph: from node `i` to node `j` with probability proportional to the weight
between them. -/
def walk (n : Nat) (es : List (Int × Int × K)) : Matrix (Fin n) (Fin n) K :=
  fun i j => linkWeight es (i.val : Int) (j.val : Int) / linkDegree n es (i.val : Int)

/-- `P` is `W` restricted to `k` most probable steps of every node, never staying there, and scaled to row sum one;
`W` itself if there are no more than `k` nodes. -/
def NearestSteps {n : Nat} (k : Nat) (W P : Matrix (Fin n) (Fin n) K) : Prop :=
  if n ≤ k then P = W
  else ∀ i, ∃ S : Finset (Fin n), S.card = k ∧ i ∉ S ∧ (∀ a ∈ S, ∀ b, b ∉ S → b ≠ i → W i b ≤ W i a) ∧
    ∀ j, P i j = if j ∈ S then W i j / ∑ a ∈ S, W i a else 0

/-- The scores and the transition matrix after `t` rounds. -/
def dynamicRounds {n d : Nat} (labeled : Fin n → Prop) [DecidablePred labeled] (Y0 : Matrix (Fin n) (Fin d) K)
    (W P : Matrix (Fin n) (Fin n) K) (alpha lambda : K) :
    Nat → Matrix (Fin n) (Fin n) K × Matrix (Fin n) (Fin d) K
  | 0 => (W, Y0)
  | t + 1 =>
    let s := dynamicRounds labeled Y0 W P alpha lambda t
    (P * (s.1 + alpha • (s.2 * s.2.transpose)) * P.transpose + lambda • (1 : Matrix (Fin n) (Fin n) K),
      fun i c => if labeled i then Y0 i c else (s.1 * s.2) i c)

end ModSSC.Transductive.Spec
