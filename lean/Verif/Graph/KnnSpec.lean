import Mathlib.Algebra.Order.Field.Basic

/-!
# Specification of neighbour graphs

Distances in textbook form and what a nearest-neighbour list is.
-/

namespace ModSSC.Graph.Spec

variable {K : Type} [Field K] [LinearOrder K]

/-- Scalar product. -/
def inner (x y : List K) : K := ((x.zip y).map (fun p => p.1 * p.2)).sum

/-- Squared Euclidean distance. -/
def sqDist (x y : List K) : K := ((x.zip y).map (fun p => (p.1 - p.2) * (p.1 - p.2))).sum

/-- `l` is the Euclidean length of `x`. -/
def IsLength (x : List K) (l : K) : Prop := 0 ≤ l ∧ l * l = inner x x

/-- `d` is the Euclidean distance. -/
def IsEuclidean (x y : List K) (d : K) : Prop := 0 ≤ d ∧ d * d = sqDist x y

/-- `d` is the cosine distance, lengths below `eps` counting as `eps`. -/
def IsCosine (eps : K) (x y : List K) (d : K) : Prop :=
  ∃ a b, IsLength x a ∧ IsLength y b ∧ d = 1 - inner x y / (max a eps * max b eps)

/-- The list `nb` (node, distance) holds the `k` nearest of the candidates `C`: distinct candidates
with their distances, the closest first, and no candidate left out is closer. -/
structure IsNearest (D : Nat → K → Prop) (C : Nat → Prop) (k : Nat) (nb : List (Nat × K)) : Prop where
  length : nb.length = k
  distinct : (nb.map (·.1)).Nodup
  candidates : ∀ p ∈ nb, C p.1 ∧ D p.1 p.2
  sorted : nb.Pairwise (fun p q => p.2 ≤ q.2)
  nearest : ∀ j, C j → j ∉ nb.map (·.1) → ∀ d, D j d → ∀ p ∈ nb, p.2 ≤ d

end ModSSC.Graph.Spec
