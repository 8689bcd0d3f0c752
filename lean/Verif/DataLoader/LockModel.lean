import Verif.Base

/-!
# Model of `cache_lock` (`src/modssc/data_loader/cache.py:89-106`)

An interleaving semantics: any number of processes run the context manager for the same fingerprint;
one atomic step is one system call (or one Python block that touches no shared state).
-/

namespace ModSSC.DataLoader.Lock
open ModSSC

/-- Where a process is inside `with cache_lock(...)`. -/
inductive PC where
  /-- before the `with` statement, or after it -/
  | out
  /-- the body of the `with` statement runs (`cache.py:99` `yield`) -/
  | inside
  /-- the body is done, the `finally` clause (`cache.py:100-106`) is still to unlink the file -/
  | leaving
  /-- `os.open` raised `FileExistsError`; the `finally` clause runs with `fd = None` -/
  | refused
  /-- the process was killed -/
  | dead
deriving DecidableEq, Repr

/-- Shared state: whether the lock file exists, and each process's position. -/
structure St where
  file : Bool
  pc : Nat → PC

/-- One move of one process. -/
inductive Act where
  /-- `os.open(..., O_CREAT | O_EXCL | O_WRONLY)`, `cache.py:97` -/
  | tryOpen (p : Nat)
  /-- the body ends (normally or with an exception) -/
  | finish (p : Nat)
  /-- `lock_path.unlink(missing_ok=True)` in `finally`, `cache.py:104-106`: reached from both the
  normal and the refused path -/
  | unlink (p : Nat)
  /-- the process is killed (no `finally`) -/
  | kill (p : Nat)
deriving DecidableEq, Repr

/-- Update one process's position. -/
def St.setPc (s : St) (p : Nat) (c : PC) : St :=
  { s with pc := fun q => if q = p then c else s.pc q }

/-- `cache.py:89-106` `cache_lock`, one step.  `none`: the move is not possible in this state.
Simplifications: `ensure_layout`, writing the pid and `os.close` touch nothing another process looks
at and are merged into the neighbouring step; errors of `unlink` other than a missing file
(suppressed by the code) are not modelled. -/
def step (s : St) : Act → Option St
  | .tryOpen p =>
    if s.pc p = .out then
      if s.file then some (s.setPc p .refused)
      else some { s.setPc p .inside with file := true }
    else none
  | .finish p => if s.pc p = .inside then some (s.setPc p .leaving) else none
  | .unlink p =>
    if s.pc p = .leaving ∨ s.pc p = .refused then some { s.setPc p .out with file := false }
    else none
  | .kill p => if s.pc p = .dead then none else some (s.setPc p .dead)

/-- No process has started, no lock file. -/
def init : St := ⟨false, fun _ => .out⟩

/-- Run a schedule. -/
def run : St → List Act → Option St
  | s, [] => some s
  | s, a :: l => (step s a).bind fun s' => run s' l

end ModSSC.DataLoader.Lock
