import Verif.Transductive.Types
import Mathlib.Data.Matrix.Mul
import Mathlib.Algebra.BigOperators.Fin

/-!
# Specification for C137 and C138

The adjacency matrix of an edge list: `A[d, s]` is the total weight of the edges from `s` to `d`.
-/

namespace ModSSC.Gnn.Spec
open ModSSC ModSSC.Transductive

variable {K : Type} [Field K] [LinearOrder K]

/-- All edges are between the first `n` nodes. -/
def InRange (n : Nat) (es : List (WEdge K)) : Prop := ∀ e ∈ es, e.src < n ∧ e.dst < n

/-- The adjacency matrix, as a function: the edges are looked at one after the other. -/
def A : List (WEdge K) → Nat → Nat → K
  | [], _, _ => 0
  | e :: es, d, s => (if e.dst = d ∧ e.src = s then e.w else 0) + A es d s

/-- The adjacency matrix of the first `n` nodes. -/
def mat (n : Nat) (es : List (WEdge K)) : Matrix (Fin n) (Fin n) K := fun d s => A es d s

/-- A feature array of the first `n` nodes and `m` columns. -/
def fmat (n m : Nat) (X : Nat → Nat → K) : Matrix (Fin n) (Fin m) K := fun i c => X i c

/-- In-degree. -/
def deg (n : Nat) (es : List (WEdge K)) (d : Nat) : K := ∑ s ∈ Finset.range n, A es d s

/-- The length, squared, of one feature column. -/
def colSq (n : Nat) (X : Nat → Nat → K) (c : Nat) : K := ∑ i ∈ Finset.range n, X i c ^ 2

/-- No negative weight. -/
def Nonneg (es : List (WEdge K)) : Prop := ∀ e ∈ es, 0 ≤ e.w

/-- Undirected: every pair has the same total weight in both directions. -/
def Undirected (es : List (WEdge K)) : Prop := ∀ d s, A es d s = A es s d

/-- The square root. -/
def SqrtLaw (sqrt : K → K) : Prop := ∀ x, 0 < x → 0 < sqrt x ∧ sqrt x * sqrt x = x

/-- All values of a column are between two bounds. -/
def Within (n : Nat) (X : Nat → Nat → K) (c : Nat) (lo hi : K) : Prop := ∀ i < n, lo ≤ X i c ∧ X i c ≤ hi

end ModSSC.Gnn.Spec
