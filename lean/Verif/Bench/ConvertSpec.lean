import Verif.Bench.ConvertModel

/-!
# Representation of data: vocabulary for the theorems about the hand-over
-/

namespace ModSSC.Bench.Convert

/-- `x` is `v` or sits in it, behind any number of dictionaries and sequences. -/
inductive Within (x : Val) : Val → Prop
  | here : Within x x
  | dict {l : List (String × Val)} {p : String × Val} : p ∈ l → Within x p.2 → Within x (.dict l)
  | seq {l : List Val} {v : Val} : v ∈ l → Within x v → Within x (.seq l)

def Val.isTensor : Val → Prop
  | .tensor _ _ => True
  | _ => False

def Val.isArray : Val → Prop
  | .array _ => True
  | _ => False

/-- There is a tensor in `v`. -/
def HasTensor (v : Val) : Prop := ∃ x, Within x v ∧ x.isTensor

/-- There is a numpy array in `v`. -/
def HasArray (v : Val) : Prop := ∃ x, Within x v ∧ x.isArray

/-- Some sequence in `v` has an item without tensors and arrays, such as a plain number. -/
def HasPlainItem (v : Val) : Prop :=
  ∃ l w, Within (.seq l) v ∧ w ∈ l ∧ ¬HasTensor w ∧ ¬HasArray w

/-- The numbers of `b` are those of `a`: 8-bit integers become fractions of 255, doubles are rounded to single
precision, everything else is as it was. -/
def Numbers (ext : Ext) (a b : Arr) : Prop :=
  b.shape = a.shape ∧
    ((a.dtype = .u8 ∧ b.dtype = .f32 ∧ b.vals = a.vals.map (fun v => ext.f32 (v / 255))) ∨
     (a.dtype = .f64 ∧ b.dtype = .f32 ∧ b.vals = a.vals.map ext.f32) ∨
     (a.dtype ≠ .u8 ∧ a.dtype ≠ .f64 ∧ a.dtype ≠ .unsupported ∧ b.dtype = a.dtype ∧ b.vals = a.vals))

/-- `w` is `v` with every array turned into a tensor on `dev` and every tensor moved there. -/
inductive Turned (ext : Ext) (dev : String) : Val → Val → Prop
  | nothing : Turned ext dev .nothing .nothing
  | tensor (d : String) (a : Arr) : Turned ext dev (.tensor d a) (.tensor dev a)
  | array {a b : Arr} : Numbers ext a b → Turned ext dev (.array a) (.tensor dev b)
  | seq {l : List Val} {a b : Arr} : ext.asarray (.seq l) = .ok a → Numbers ext a b →
      Turned ext dev (.seq l) (.tensor dev b)
  | other {s : String} {a b : Arr} : ext.asarray (.other s) = .ok a → Numbers ext a b →
      Turned ext dev (.other s) (.tensor dev b)
  | empty : Turned ext dev (.dict []) (.dict [])
  | entry {k : String} {v w : Val} {l l' : List (String × Val)} : Turned ext dev v w →
      Turned ext dev (.dict l) (.dict l') → Turned ext dev (.dict ((k, v) :: l)) (.dict ((k, w) :: l'))

/-- Everything in `v` is a tensor on `dev`, a dictionary, or `None`. -/
def AllOn (dev : String) (v : Val) : Prop :=
  ∀ x, Within x v → (∃ a, x = .tensor dev a) ∨ (∃ l, x = .dict l) ∨ x = .nothing

/-- All five inputs are turned. -/
def Inputs.Turned (ext : Ext) (dev : String) (d d' : Inputs) : Prop :=
  Convert.Turned ext dev d.xl d'.xl ∧ Convert.Turned ext dev d.xu d'.xu ∧ Convert.Turned ext dev d.xuw d'.xuw ∧
    Convert.Turned ext dev d.xus d'.xus ∧ Convert.Turned ext dev d.xus1 d'.xus1

/-- The features of `v`: itself, or its entry "x". -/
inductive Features : Val → Val → Prop
  | tensor (d : String) (a : Arr) : Features (.tensor d a) (.tensor d a)
  | array (a : Arr) : Features (.array a) (.array a)
  | dict {l : List (String × Val)} {x : Val} : l.lookup "x" = some x → Features x (.dict l)

/-- What a strict run demands of an input that is there. -/
def StrictOk (requiresTorch : Bool) (v : Val) : Prop :=
  (requiresTorch = true → v.isTensor ∨ (∃ l, v = .dict l) ∧ HasTensor v ∧ ¬HasArray v ∧ ¬HasPlainItem v) ∧
    (∀ d a, Features (.tensor d a) v → 2 ≤ a.shape.length ∧ a.dtype.floating = true) ∧
    (∀ a, Features (.array a) v → 2 ≤ a.shape.length)

end ModSSC.Bench.Convert
