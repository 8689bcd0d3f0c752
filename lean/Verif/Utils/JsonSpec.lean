import Verif.PyVal

/-!
# Specification: when two Python values carry the same data
-/

namespace ModSSC.Json.Spec
open ModSSC

mutual
/-- Same data: equal scalars of the same type, lists with the same data item by item, dictionaries
with the same keys and the same data under each key, in any insertion order. -/
def Same : PyVal → PyVal → Prop
  | .none, w => w = .none
  | .bool a, w => w = .bool a
  | .int a, w => w = .int a
  | .flt a, w => w = .flt a
  | .str a, w => w = .str a
  | .list l, w => ∃ m, w = .list m ∧ SameList l m
  | .dict d, w => ∃ e, w = .dict e ∧ d.length = e.length ∧ SameIn d e

/-- Item by item. -/
def SameList : List PyVal → List PyVal → Prop
  | [], m => m = []
  | v :: l, m => ∃ w m', m = w :: m' ∧ Same v w ∧ SameList l m'

/-- Every listed key has the same data in the other dictionary. -/
def SameIn : List (String × PyVal) → List (String × PyVal) → Prop
  | [], _ => True
  | (k, v) :: d, e => (∃ w, PyVal.lookup e k = some w ∧ Same v w) ∧ SameIn d e
end

mutual
/-- A genuine Python value: no dictionary has a repeated key. -/
def Valid : PyVal → Prop
  | .list l => ValidList l
  | .dict d => (d.map (·.1)).Nodup ∧ ValidDict d
  | _ => True
/-- All items valid. -/
def ValidList : List PyVal → Prop
  | [] => True
  | v :: l => Valid v ∧ ValidList l
/-- All entries valid. -/
def ValidDict : List (String × PyVal) → Prop
  | [] => True
  | (_, v) :: d => Valid v ∧ ValidDict d
end

/-- Characters of a Python float literal. -/
def IsNumChar (c : Char) : Prop := c ∈ ['0','1','2','3','4','5','6','7','8','9','-','+','.','e']

/-- What is assumed of `float.__repr__` (external): distinct floats have distinct texts, made of
number characters, starting with a digit or a minus sign, and recognisable as a float. -/
structure FloatRepr (f : Rat → List Char) : Prop where
  injective : ∀ a b, f a = f b → a = b
  chars : ∀ a, ∀ c ∈ f a, IsNumChar c
  start : ∀ a, ∃ c rest, f a = c :: rest ∧ c ∈ ['0','1','2','3','4','5','6','7','8','9','-']
  marked : ∀ a, '.' ∈ f a ∨ 'e' ∈ f a

end ModSSC.Json.Spec
