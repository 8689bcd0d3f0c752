import Verif.Base
import Verif.Assoc
import Mathlib.Data.String.Basic

/-!
# Model of URI parsing, class filters and limits, catalogue selection and bulk download

`src/modssc/data_loader/uri.py`, `src/modssc/data_loader/providers/common.py`,
`src/modssc/data_loader/services/service.py:71-90, 290-381`.
-/

namespace ModSSC.DataLoader
open ModSSC

/-! ## URIs.  Strings are lists of characters; `ws` is Python's `str.isspace` on one character. -/

/-- `s.strip()`. -/
def strip (ws : Char → Bool) (s : List Char) : List Char :=
  ((s.dropWhile ws).reverse.dropWhile ws).reverse

/-- `s.split(":", 1)` when `":" in s`; `none` when there is no colon. -/
def splitColon : List Char → Option (List Char × List Char)
  | [] => none
  | c :: s => if c = ':' then some ([], s) else (splitColon s).map (fun p => (c :: p.1, p.2))

/-- `src/modssc/data_loader/uri.py:18-22` `is_uri`. -/
def isUri (ws : Char → Bool) (s : List Char) : Bool :=
  match splitColon s with
  | none => false
  | some (p, r) => !(strip ws p).isEmpty && !(strip ws r).isEmpty

/-- `src/modssc/data_loader/uri.py:25-33` `parse_uri` (`InvalidDatasetURIError` is a
`DataLoaderError`, here `runtimeError`). -/
def parseUri (ws : Char → Bool) (s : List Char) : Except PyErr (List Char × List Char) :=
  match splitColon s with
  | none => .error .runtimeError
  | some (p, r) =>
    if (strip ws p).isEmpty ∨ (strip ws r).isEmpty then .error .runtimeError
    else .ok (strip ws p, strip ws r)

/-- `src/modssc/data_loader/uri.py:13-15` `ParsedURI.uri`. -/
def formatUri (p : List Char × List Char) : List Char := p.1 ++ ':' :: p.2

/-! ## Class filter and sample limit -/

/-- Boolean indexing `X[mask]`; numpy raises `IndexError` when the lengths differ. -/
def boolIndex {α : Type} (X : List α) (mask : List Bool) : Except PyErr (List α) :=
  if X.length = mask.length then .ok ((X.zip mask).filterMap (fun p => if p.2 then some p.1 else none))
  else .error .indexError

/-- Integer indexing `X[idx]`; `IndexError` when out of bounds. -/
def takeIdx {α : Type} (X : List α) (idx : List Nat) : Except PyErr (List α) :=
  idx.mapM (fun i => match X[i]? with | some x => .ok x | none => .error .indexError)

/-- `src/modssc/data_loader/providers/common.py:18-24` `apply_class_filter`. -/
def applyClassFilter {α : Type} (X : List α) (y : List Int) (classFilter : Option (List Int)) :
    Except PyErr (List α × List Int) :=
  match classFilter with
  | none => .ok (X, y)
  | some cs => do
    let mask := y.map (fun c => decide (c ∈ cs))
    let X' ← boolIndex X mask
    let y' ← boolIndex y mask
    return (X', y')

/-- `src/modssc/data_loader/providers/common.py:27-41` `limit_samples`; `shuffle seed` is
`default_rng(seed).shuffle` on an index array. -/
def limitSamples {α : Type} (shuffle : Int → List Nat → List Nat) (X : List α) (y : List Int)
    (maxSamples seed : Option Int) : Except PyErr (List α × List Int) :=
  match maxSamples with
  | none => .ok (X, y)
  | some m =>
    let n := y.length
    if m ≤ 0 ∨ n = 0 then .ok ([], [])
    else do
      let take := min n m.toNat
      let idx := match seed with
        | none => List.range n
        | some s => shuffle s (List.range n)
      let X' ← takeIdx X (idx.take take)
      let y' ← takeIdx y (idx.take take)
      return (X', y')

/-- `src/modssc/data_loader/providers/common.py:44-54` `apply_limits`. -/
def applyLimits {α : Type} (shuffle : Int → List Nat → List Nat) (X : List α) (y : List Int)
    (classFilter : Option (List Int)) (maxSamples seed : Option Int) : Except PyErr (List α × List Int) := do
  let (X', y') ← applyClassFilter X y classFilter
  limitSamples shuffle X' y' maxSamples seed

/-! ## Catalogue selection and bulk download -/

/-- `sorted(set)` of strings. -/
def sortedSet (l : List String) : List String := (l.insertionSort (· ≤ ·)).dedup

/-- `service.py:374-377`: the requested keys (or all) without the excluded ones. -/
def baseKeys (catalog : List (String × String)) (incl excl : Option (List String)) : List String :=
  let keys := match incl with | none => Assoc.keys catalog | some l => l
  match excl with
  | none => keys
  | some ex => keys.filter (fun k => decide (k ∉ ex))

/-- `src/modssc/data_loader/services/service.py:368-381` `_select_catalog_keys`; `catalog` maps keys
to modalities; a key outside it makes the modality test raise `KeyError`. -/
def selectKeys (catalog : List (String × String)) (incl excl modalities : Option (List String)) :
    Except PyErr (List String) :=
  let sel := baseKeys catalog incl excl
  match modalities with
  | none => .ok (sortedSet sel)
  | some [] => .ok (sortedSet sel)
  | some (m :: ms) =>
    if sel.all (fun k => Assoc.has catalog k) then
      .ok (sortedSet (sel.filter (fun k => decide (((Assoc.get catalog k).getD "") ∈ m :: ms))))
    else .error .keyError

/-- What happens to one dataset of a bulk download (`service.py:318-337`). -/
inductive Outcome where
  | cached
  | done
  /-- `OptionalDependencyError` with its `extra` -/
  | missingExtra (extra : String)
  /-- any other exception, with its rendering -/
  | failed (msg : String)
deriving DecidableEq, Repr

/-- `DownloadReport`. -/
structure Report where
  downloaded : List String := []
  cached : List String := []
  missing : List String := []
  missingExtras : List (String × List String) := []
  failed : List (String × String) := []
deriving DecidableEq, Repr

/-- The loop of `service.py:318-337`.  `attempt s key` is everything done for one key in the cache
state `s` (identity resolution, the `skip_cached` test, the download), with the state it leaves.
`none`: the `OptionalDependencyError` is re-raised. -/
def downloadAll {σ : Type} (attempt : σ → String → Outcome × σ) (ignoreMissing : Bool) :
    List String → σ → Report → Option (Report × σ)
  | [], s, r => some (r, s)
  | k :: ks, s, r =>
    match attempt s k with
    | (.cached, s') => downloadAll attempt ignoreMissing ks s' { r with cached := r.cached ++ [k] }
    | (.done, s') => downloadAll attempt ignoreMissing ks s' { r with downloaded := r.downloaded ++ [k] }
    | (.missingExtra e, s') =>
      if ignoreMissing then
        downloadAll attempt ignoreMissing ks s' { r with
          missing := r.missing ++ [k]
          missingExtras := Assoc.set r.missingExtras e ((Assoc.get r.missingExtras e).getD [] ++ [k]) }
      else none
    | (.failed m, s') => downloadAll attempt ignoreMissing ks s' { r with failed := Assoc.set r.failed k m }

/-! ## Rebasing cached paths -/

/-- `src/modssc/data_loader/services/service.py:71-90` `_rebase_cached_path` on path components
(`Path.parts` without the root; `absolute` tells whether the path starts at the root).  `root` are the
components of `current_source_root` (absolute). -/
def rebase (absolute : Bool) (parts root : List String) : Bool × List String :=
  if absolute = false then (absolute, parts)
  else if root.isPrefixOf parts then (absolute, parts)
  else if "source" ∉ parts then (absolute, parts)
  else
    let tail := (parts.reverse.takeWhile (fun p => decide (p ≠ "source"))).reverse
    if tail = [] then (absolute, parts) else (true, root ++ tail)

end ModSSC.DataLoader
