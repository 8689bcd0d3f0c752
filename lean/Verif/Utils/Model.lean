import Verif.Base
import Verif.Assoc

/-!
# Model of `src/modssc/utils` (seeds, relative paths, method registries)
-/

namespace ModSSC.Utils
open ModSSC

/-! ## seed.py -/

/-- `src/modssc/utils/seed.py:6`: the 64-bit starting value.  Arithmetic with
`& 0xFFFFFFFFFFFFFFFF` on Python integers is arithmetic on `BitVec 64`. -/
def seedStart (seed salt : Int) : BitVec 64 := BitVec.ofInt 64 (seed + 0x9E3779B97F4A7C15 + salt)

/-- `src/modssc/utils/seed.py:7-11`: the mixing steps. -/
def mix64 (x : BitVec 64) : BitVec 64 :=
  let x := x ^^^ (x >>> 30)
  let x := x * 0xBF58476D1CE4E5B9#64
  let x := x ^^^ (x >>> 27)
  let x := x * 0x94D049BB133111EB#64
  x ^^^ (x >>> 31)

/-- `src/modssc/utils/seed.py:4-12` `mix_seed32`; the last line keeps the low 32 bits. -/
def mixSeed32 (seed salt : Int) : Nat := (mix64 (seedStart seed salt) &&& 0xFFFFFFFF#64).toNat

/-! ## io.py: `resolve_relative_path` -/

/-- Split a path text at `/` (`pathlib` parsing). -/
def splitSlash : List Char → List (List Char)
  | [] => [[]]
  | c :: rest =>
    if c = '/' then [] :: splitSlash rest
    else match splitSlash rest with
      | [] => [[c]]
      | seg :: segs => (c :: seg) :: segs

/-- Components of a POSIX path text: empty and `.` segments are dropped (`pathlib`). -/
def components (text : List Char) : List (List Char) :=
  (splitSlash text).filter (fun s => decide (s ≠ [] ∧ s ≠ ['.']))

/-- `Path.resolve(strict=False)` of an absolute path given by its components: `..` removes the last
component (and stays at the top of the file system).  Simplification: no symbolic links. -/
def resolve (comps : List (List Char)) : List (List Char) :=
  comps.foldl (fun acc c => if c = ['.', '.'] then acc.dropLast else acc ++ [c]) []

/-- `src/modssc/utils/io.py:8-18` `resolve_relative_path`.  `root` is the absolute root directory given
by its components. -/
def resolveRelativePath (root : List (List Char)) (relative : List Char) :
    Except PyErr (List (List Char)) :=
  let rootResolved := resolve root
  if relative.head? = some '/' then .error .valueError
  else
    let candidate := resolve (rootResolved ++ components relative)
    if rootResolved.isPrefixOf candidate then .ok candidate else .error .valueError

/-! ## registry.py -/

/-- `MethodStatus`; `other` stands for any other value passed as `status`. -/
inductive Status where
  | implemented | planned | other
deriving DecidableEq, Repr

/-- A registry entry (`MethodRef`). -/
structure Ref where
  importPath : String
  status : Status
deriving DecidableEq, Repr

/-- The registry dictionary, in insertion order. -/
abbrev Registry := List (String × Ref)

/-- `src/modssc/utils/registry.py:10-32` `register_method_ref`. -/
def register (r : Registry) (id path : String) (status : Status) : Except PyErr Registry :=
  if id = "" then .error .valueError
  else if ':' ∉ path.toList then .error .valueError
  else match Assoc.get r id with
    | some ref =>
      if ref.importPath ≠ path then .error .valueError
      else if status = .other then .error .valueError
      else .ok (Assoc.set r id ⟨path, status⟩)
    | none =>
      if status = .other then .error .valueError
      else .ok (Assoc.set r id ⟨path, status⟩)

/-- `src/modssc/utils/registry.py:35-39` `available_method_ids`. -/
def availableMethodIds (r : Registry) (availableOnly : Bool) : List String :=
  let methods := (r.map (·.1)).insertionSort (· ≤ ·)
  if availableOnly then
    methods.filter (fun m => match Assoc.get r m with
      | some ref => decide (ref.status ≠ .planned)
      | none => false)
  else methods

/-- A call to `register_method`. -/
structure Call where
  id : String
  path : String
  status : Status
deriving DecidableEq, Repr

/-- The registry after a history of calls; a call that raises leaves the registry as it is. -/
def runCalls : List Call → Registry → Registry
  | [], r => r
  | c :: cs, r => match register r c.id c.path c.status with
    | .ok r' => runCalls cs r'
    | .error _ => runCalls cs r

end ModSSC.Utils
