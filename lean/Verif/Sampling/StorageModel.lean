import Verif.Base

/-!
# Model of `src/modssc/sampling/storage.py` (saving and loading splits) with crash points

The output directory holds `split.json`, `arrays.npz` and temporary files.  `split.json` is
replaced atomically (temporary file + rename); `arrays.npz` is written in place by
`np.savez_compressed`, so it is torn between the truncation and the end of the write.
-/

namespace ModSSC.Sampling.Storage
open ModSSC

/-- An array stored in the archive. -/
inductive Arr where
  | ints (l : List Int)
  | bools (l : List Bool)
deriving DecidableEq, Repr

/-- `src/modssc/sampling/result.py:12-39` `SamplingResult`.  Everything stored in `split.json`
(schema version, time stamp, fingerprints, plan, refs, stats) is one opaque value `info : M`; its
JSON round trip is trusted (the JSON module). -/
structure Result (M : Type) where
  info : M
  indices : List (String × List Int)
  masks : List (String × List Bool)
deriving DecidableEq

/-- State of `arrays.npz`. -/
inductive NpzFile where
  | torn
  | full (arrays : List (String × Arr))
deriving DecidableEq

/-- State of the output directory.  `split.json` additionally stores `mode`, a function of the
result that `load_split` ignores. -/
structure Disk (M : Type) where
  dirExists : Bool := false
  tmp : Option M := none
  splitJson : Option M := none
  npz : Option NpzFile := none
deriving DecidableEq

variable {M : Type}

/-- `src/modssc/sampling/storage.py:30-34`: the archive's members. -/
def toArrays (r : Result M) : List (String × Arr) :=
  r.indices.map (fun p => ("idx__" ++ p.1, Arr.ints p.2)) ++
  r.masks.map (fun p => ("mask__" ++ p.1, Arr.bools p.2))

/-- The file system operations of `save_split`, in program order
(`storage.py:16` mkdir; `utils/io.py:22-31` temporary file, rename; `storage.py:36`: truncate and
fill the archive). -/
inductive Op (M : Type) where
  | mkdir
  | writeTmp (m : M)
  | renameTmp
  | truncateNpz
  | finishNpz (arrays : List (String × Arr))
deriving DecidableEq

/-- Effect of one operation. -/
def Op.run : Op M → Disk M → Disk M
  | .mkdir, d => { d with dirExists := true }
  | .writeTmp m, d => { d with tmp := some m }
  | .renameTmp, d => { d with tmp := none, splitJson := d.tmp }
  | .truncateNpz, d => { d with npz := some .torn }
  | .finishNpz a, d => { d with npz := some (.full a) }

/-- `src/modssc/sampling/storage.py:12-37` `save_split` as the list of its operations. -/
def saveOps (r : Result M) : List (Op M) :=
  [.mkdir, .writeTmp r.info, .renameTmp, .truncateNpz, .finishNpz (toArrays r)]

/-- `save_split` interrupted after `n` operations (`n ≥ 5`: not interrupted).
`storage.py:14-15`: `FileExistsError` before anything is written. -/
def saveCrash (r : Result M) (overwrite : Bool) (n : Nat) (d : Disk M) : Except PyErr (Disk M) :=
  if d.dirExists ∧ overwrite = false then .error .fileExists
  else .ok (((saveOps r).take n).foldl (fun d op => op.run d) d)

/-- A complete `save_split`. -/
def save (r : Result M) (overwrite : Bool) (d : Disk M) : Except PyErr (Disk M) :=
  saveCrash r overwrite (saveOps r).length d

/-- `k.startswith(prefix)` and `k[len(prefix):]`. -/
def stripPrefix (pre k : String) : Option String :=
  if pre.toList.isPrefixOf k.toList then some (String.ofList (k.toList.drop pre.toList.length)) else none

/-- `src/modssc/sampling/storage.py:45-51`: distribute the archive members.  `np.asarray(.., dtype)`
conversions between bool and int arrays are not modelled: a member of the wrong dtype is skipped
(never the case for files written by `save_split`). -/
def fromArrays : List (String × Arr) → List (String × List Int) × List (String × List Bool)
  | [] => ([], [])
  | (k, a) :: rest =>
    let (is, ms) := fromArrays rest
    match stripPrefix "idx__" k with
    | some k' => match a with
      | .ints l => ((k', l) :: is, ms)
      | .bools _ => (is, ms)
    | none => match stripPrefix "mask__" k with
      | some k' => match a with
        | .bools l => (is, (k', l) :: ms)
        | .ints _ => (is, ms)
      | none => (is, ms)

/-- `src/modssc/sampling/storage.py:40-63` `load_split`.  A torn archive makes `np.load` raise (the
zip directory is at the end of the file). -/
def load (d : Disk M) : Except PyErr (Result M) :=
  match d.splitJson with
  | none => .error .fileNotFound
  | some info => match d.npz with
    | none => .error .fileNotFound
    | some .torn => .error .valueError
    | some (.full a) => .ok ⟨info, (fromArrays a).1, (fromArrays a).2⟩

end ModSSC.Sampling.Storage
