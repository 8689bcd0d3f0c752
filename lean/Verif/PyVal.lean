import Verif.Base

/-!
# Plain Python data (`None`, bool, int, float, str, list, dict with string keys)

Used wherever the code handles configuration dictionaries or JSON documents.  Dictionaries are
association lists in insertion order.  Floats are exact rationals.
-/

namespace ModSSC

/-- JSON-like Python values. -/
inductive PyVal where
  | none
  | bool (b : Bool)
  | int (i : Int)
  | flt (q : Rat)
  | str (s : String)
  | list (l : List PyVal)
  | dict (d : List (String × PyVal))

namespace PyVal

mutual
/-- Decidable equality (the deriving handler does not cover nested types). -/
def decEq : (a b : PyVal) → Decidable (a = b)
  | .none, .none => isTrue rfl
  | .bool a, .bool b => if h : a = b then isTrue (by rw [h]) else isFalse (by simpa using h)
  | .int a, .int b => if h : a = b then isTrue (by rw [h]) else isFalse (by simpa using h)
  | .flt a, .flt b => if h : a = b then isTrue (by rw [h]) else isFalse (by simpa using h)
  | .str a, .str b => if h : a = b then isTrue (by rw [h]) else isFalse (by simpa using h)
  | .list a, .list b => match decEqList a b with
    | isTrue h => isTrue (by rw [h])
    | isFalse h => isFalse (by simpa using h)
  | .dict a, .dict b => match decEqDict a b with
    | isTrue h => isTrue (by rw [h])
    | isFalse h => isFalse (by simpa using h)
  | .none, .bool _ => isFalse (by simp) | .none, .int _ => isFalse (by simp)
  | .none, .flt _ => isFalse (by simp) | .none, .str _ => isFalse (by simp)
  | .none, .list _ => isFalse (by simp) | .none, .dict _ => isFalse (by simp)
  | .bool _, .none => isFalse (by simp) | .bool _, .int _ => isFalse (by simp)
  | .bool _, .flt _ => isFalse (by simp) | .bool _, .str _ => isFalse (by simp)
  | .bool _, .list _ => isFalse (by simp) | .bool _, .dict _ => isFalse (by simp)
  | .int _, .none => isFalse (by simp) | .int _, .bool _ => isFalse (by simp)
  | .int _, .flt _ => isFalse (by simp) | .int _, .str _ => isFalse (by simp)
  | .int _, .list _ => isFalse (by simp) | .int _, .dict _ => isFalse (by simp)
  | .flt _, .none => isFalse (by simp) | .flt _, .bool _ => isFalse (by simp)
  | .flt _, .int _ => isFalse (by simp) | .flt _, .str _ => isFalse (by simp)
  | .flt _, .list _ => isFalse (by simp) | .flt _, .dict _ => isFalse (by simp)
  | .str _, .none => isFalse (by simp) | .str _, .bool _ => isFalse (by simp)
  | .str _, .int _ => isFalse (by simp) | .str _, .flt _ => isFalse (by simp)
  | .str _, .list _ => isFalse (by simp) | .str _, .dict _ => isFalse (by simp)
  | .list _, .none => isFalse (by simp) | .list _, .bool _ => isFalse (by simp)
  | .list _, .int _ => isFalse (by simp) | .list _, .flt _ => isFalse (by simp)
  | .list _, .str _ => isFalse (by simp) | .list _, .dict _ => isFalse (by simp)
  | .dict _, .none => isFalse (by simp) | .dict _, .bool _ => isFalse (by simp)
  | .dict _, .int _ => isFalse (by simp) | .dict _, .flt _ => isFalse (by simp)
  | .dict _, .str _ => isFalse (by simp) | .dict _, .list _ => isFalse (by simp)

/-- Decidable equality on lists of values. -/
def decEqList : (a b : List PyVal) → Decidable (a = b)
  | [], [] => isTrue rfl
  | [], _ :: _ => isFalse (by simp)
  | _ :: _, [] => isFalse (by simp)
  | x :: xs, y :: ys => match decEq x y, decEqList xs ys with
    | isTrue h, isTrue h' => isTrue (by rw [h, h'])
    | isFalse h, _ => isFalse (by simp [h])
    | _, isFalse h => isFalse (by simp [h])

/-- Decidable equality on dictionaries. -/
def decEqDict : (a b : List (String × PyVal)) → Decidable (a = b)
  | [], [] => isTrue rfl
  | [], _ :: _ => isFalse (by simp)
  | _ :: _, [] => isFalse (by simp)
  | (k, x) :: xs, (k', y) :: ys =>
    if hk : k = k' then match decEq x y, decEqDict xs ys with
      | isTrue h, isTrue h' => isTrue (by rw [hk, h, h'])
      | isFalse h, _ => isFalse (by simp [h])
      | _, isFalse h => isFalse (by simp [h])
    else isFalse (by simp [hk])
end

instance : DecidableEq PyVal := decEq

mutual
/-- Induction over values (helper, not part of the model). -/
theorem induct {P : PyVal → Prop} (none : P .none) (bool : ∀ b, P (.bool b)) (int : ∀ i, P (.int i))
    (flt : ∀ q, P (.flt q)) (str : ∀ s, P (.str s))
    (list : ∀ l : List PyVal, (∀ v ∈ l, P v) → P (.list l))
    (dict : ∀ d : List (String × PyVal), (∀ p ∈ d, P p.2) → P (.dict d)) : ∀ v, P v
  | .none => none
  | .bool b => bool b
  | .int i => int i
  | .flt q => flt q
  | .str s => str s
  | .list l => list l (inductList none bool int flt str list dict l)
  | .dict d => dict d (inductDict none bool int flt str list dict d)

theorem inductList {P : PyVal → Prop} (none : P .none) (bool : ∀ b, P (.bool b)) (int : ∀ i, P (.int i))
    (flt : ∀ q, P (.flt q)) (str : ∀ s, P (.str s))
    (list : ∀ l : List PyVal, (∀ v ∈ l, P v) → P (.list l))
    (dict : ∀ d : List (String × PyVal), (∀ p ∈ d, P p.2) → P (.dict d)) :
    ∀ l : List PyVal, ∀ v ∈ l, P v
  | [] => fun _ h => absurd h (List.not_mem_nil)
  | w :: l => List.forall_mem_cons.mpr ⟨induct none bool int flt str list dict w,
      inductList none bool int flt str list dict l⟩

theorem inductDict {P : PyVal → Prop} (none : P .none) (bool : ∀ b, P (.bool b)) (int : ∀ i, P (.int i))
    (flt : ∀ q, P (.flt q)) (str : ∀ s, P (.str s))
    (list : ∀ l : List PyVal, (∀ v ∈ l, P v) → P (.list l))
    (dict : ∀ d : List (String × PyVal), (∀ p ∈ d, P p.2) → P (.dict d)) :
    ∀ d : List (String × PyVal), ∀ p ∈ d, P p.2
  | [] => fun _ h => absurd h (List.not_mem_nil)
  | (_, w) :: d => List.forall_mem_cons.mpr ⟨induct none bool int flt str list dict w,
      inductDict none bool int flt str list dict d⟩
end

/-- `d.get(key)` on an association list. -/
def lookup (d : List (String × PyVal)) (key : String) : Option PyVal :=
  (d.find? (fun p => p.1 == key)).map (·.2)

theorem lookup_mem {d : List (String × PyVal)} {k : String} {v : PyVal} (h : lookup d k = some v) :
    (k, v) ∈ d := by
  unfold lookup at h
  rw [Option.map_eq_some_iff] at h
  obtain ⟨p, hp, rfl⟩ := h
  have h1 := List.mem_of_find?_eq_some hp
  have h2 : p.1 = k := by simpa using List.find?_some hp
  rw [← h2]
  exact h1

theorem lookup_eq_some {d : List (String × PyVal)} (hd : (d.map (·.1)).Nodup) {k : String} {v : PyVal}
    (h : (k, v) ∈ d) : lookup d k = some v := by
  induction d with
  | nil => simp at h
  | cons p d ih =>
    simp only [List.map_cons, List.nodup_cons] at hd
    unfold lookup at ih ⊢
    rcases List.mem_cons.mp h with rfl | h
    · simp
    · have hne : p.1 ≠ k := by
        intro e
        exact hd.1 (List.mem_map.mpr ⟨_, h, e.symm⟩)
      rw [List.find?_cons_of_neg (by simpa using hne)]
      exact ih hd.2 h

/-- `d.get(key, default)`. -/
def getD (d : List (String × PyVal)) (key : String) (dflt : PyVal) : PyVal :=
  (lookup d key).getD dflt

/-- `bool(x)`: Python truthiness. -/
def truthy : PyVal → Bool
  | .none => false
  | .bool b => b
  | .int i => decide (i ≠ 0)
  | .flt q => decide (q ≠ 0)
  | .str s => decide (s ≠ "")
  | .list l => !l.isEmpty
  | .dict d => !d.isEmpty

/-- `float(x)`.  Simplification: parsing of numeric strings is not modelled (it is an error here). -/
def toFloat : PyVal → Except PyErr Rat
  | .bool b => .ok (if b then 1 else 0)
  | .int i => .ok i
  | .flt q => .ok q
  | .str _ => .error .valueError
  | _ => .error .typeError

/-- `int(x)`: truncation towards zero on floats.  Numeric strings as in `toFloat`. -/
def toInt : PyVal → Except PyErr Int
  | .bool b => .ok (if b then 1 else 0)
  | .int i => .ok i
  | .flt q => .ok (pyInt q)
  | .str _ => .error .valueError
  | _ => .error .typeError

/-- `str(x)`.  Only used to compare against fixed lower-case words; the text of a non-string value
is never one of them, so it is represented by `"?"`. -/
def toStr : PyVal → String
  | .str s => s
  | _ => "?"

end PyVal

end ModSSC
