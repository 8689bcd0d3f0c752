import Mathlib.Data.Rat.Defs
import Mathlib.Algebra.Order.Ring.Rat

/-!
# Specification of "pick the most confident samples"
-/

namespace ModSSC.Inductive.Spec

/-- `v` is the largest entry of the row. -/
def IsLargest (row : List Rat) (v : Rat) : Prop := v ∈ row ∧ ∀ x ∈ row, x ≤ v

/-- Column `c` is the first one holding the largest entry of the row. -/
def IsFirstMax (row : List Rat) (c : Nat) : Prop :=
  ∃ v, row[c]? = some v ∧ (∀ x ∈ row, x ≤ v) ∧ ∀ (j : Nat) (x : Rat), j < c → row[j]? = some x → x < v

/-- `idx` lists, without repetition, eligible samples only; all of them when there is no limit; and
when an eligible sample is left out, exactly `limit` samples were taken and none of them is less
confident than the one left out. -/
structure IsTopSelection (eligible : Nat → Prop) (conf : Nat → Rat) (limit : Option Nat) (idx : List Nat) :
    Prop where
  nodup : idx.Nodup
  sound : ∀ i ∈ idx, eligible i
  all : limit = none → ∀ i, eligible i → i ∈ idx
  bound : ∀ m, limit = some m → idx.length ≤ m
  best : ∀ m, limit = some m → ∀ j, eligible j → j ∉ idx →
    idx.length = m ∧ ∀ i ∈ idx, conf j ≤ conf i

end ModSSC.Inductive.Spec
