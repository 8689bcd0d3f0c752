import Mathlib.Algebra.Order.Field.Rat

/-!
# Specification of graph post-processing

Written without the model: edge sets, weights of directed edges, symmetric weights.
-/

namespace ModSSC.Graph.Spec

/-- All end points are nodes. -/
def ValidEdges (n : Int) (ei : List (Int × Int)) : Prop :=
  ∀ e ∈ ei, 0 ≤ e.1 ∧ e.1 < n ∧ 0 ≤ e.2 ∧ e.2 < n

/-- `m` is the largest weight of the edge `(u, v)` in a list of weighted edges. -/
def IsMaxWeight (E : List ((Int × Int) × Rat)) (u v : Int) (m : Rat) : Prop :=
  ((u, v), m) ∈ E ∧ ∀ m', ((u, v), m') ∈ E → m' ≤ m

/-- The weight an undirected pair gets: the average of both directions, or the weight of the only
direction there is. -/
def IsSymWeight (E : List ((Int × Int) × Rat)) (u v : Int) (x : Rat) : Prop :=
  (∃ a b, IsMaxWeight E u v a ∧ IsMaxWeight E v u b ∧ x = (a + b) / 2) ∨
  (IsMaxWeight E u v x ∧ ∀ m, ((v, u), m) ∉ E) ∨
  (IsMaxWeight E v u x ∧ ∀ m, ((u, v), m) ∉ E)

/-- Support of the symmetrized graph. -/
def InSym (mode : String) (ei : List (Int × Int)) (u v : Int) : Prop :=
  if mode = "mutual" then (u, v) ∈ ei ∧ (v, u) ∈ ei else (u, v) ∈ ei ∨ (v, u) ∈ ei

/-- Sum of the weights of the edges leaving `v`. -/
def outSum {K : Type} [Field K] (ei : List (Int × Int)) (w : List K) (v : Int) : K :=
  (((ei.zip w).filter (fun p => decide (p.1.1 = v))).map (·.2)).sum

end ModSSC.Graph.Spec
