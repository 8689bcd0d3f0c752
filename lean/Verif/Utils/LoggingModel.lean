import Verif.Base

/-!
# Log levels (`modssc/runtime/logging.py`)

`clean` is `str(·).strip().lower()`.  A text is blank if `clean` of it is empty (lower-casing never empties a text).
-/

namespace ModSSC.Utils.Logging
open ModSSC

/-- The levels (logging.py:14-18), with their numbers in Python's `logging`. -/
inductive Level where
  | none
  | basic
  | detailed
deriving DecidableEq

/-- `_LOG_LEVELS` (logging.py:14-18): `WARNING`, `INFO`, `DEBUG`. -/
def Level.number : Level → Nat
  | .none => 30
  | .basic => 20
  | .detailed => 10

/-- `normalize_log_level` (logging.py:32-37), aliases included (9-12). -/
def parse (clean : String → String) (s : String) : Except PyErr Level :=
  let v := clean s
  let v := if v = "quiet" then "none" else if v = "full" then "detailed" else v
  if v = "none" then .ok .none
  else if v = "basic" then .ok .basic
  else if v = "detailed" then .ok .detailed
  else .error .valueError

/-- `resolve_log_level` (logging.py:40-46); `env` is `MODSSC_LOG_LEVEL`. -/
def resolve (clean : String → String) (env value : Option String) : Except PyErr Level :=
  let fromEnv : Except PyErr Level := match env with
    | some e => if e = "" then .ok .none else parse clean e
    | none => .ok .none
  match value with
  | none => fromEnv
  | some v => if clean v = "" then fromEnv else parse clean v

/-- The `--log-level` option: `_validate_log_level` (logging.py:49-55), then the callback resolves what it returned (103-108); a
normalized level resolves to itself.  `typer.BadParameter` is a value error here. -/
def commandLine (clean : String → String) (env option : Option String) : Except PyErr Level :=
  match option with
  | none => resolve clean env none
  | some v => parse clean v

/-- A logger: its level if set, its handlers, whether it passes records on. -/
structure Logger where
  level : Option Nat
  handlers : List Nat
  propagate : Bool
deriving DecidableEq

/-- The process: the loggers, level and format of every handler, `_HANDLERS` (logging.py:23), and the next new handler. -/
structure World where
  logger : String → Logger
  setting : Nat → Nat × String
  ours : String → Option Nat
  next : Nat

/-- Change one logger. -/
def World.setLogger (w : World) (name : String) (l : Logger) : World :=
  { w with logger := fun n => if n = name then l else w.logger n }

/-- `_configure_logger` (logging.py:79-100). -/
def configureLogger (name : String) (level : Nat) (fmt : String) (w : World) : World :=
  let l := { w.logger name with level := some level }
  match w.ours name with
  | some h =>
    let w := { w with setting := fun i => if i = h then (level, fmt) else w.setting i }
    w.setLogger name (if h ∈ l.handlers then l else { l with handlers := l.handlers ++ [h] })
  | none =>
    if l.handlers ≠ [] then w.setLogger name l
    else
      let h := w.next
      let w := { w with
        setting := fun i => if i = h then (level, fmt) else w.setting i
        ours := fun n => if n = name then some h else w.ours n
        next := h + 1 }
      w.setLogger name { level := some level, handlers := [h], propagate := false }

/-- The two formats (logging.py:20-21). -/
def basicFmt : String := "%(levelname)s %(name)s: %(message)s"
/-- The two formats (logging.py:20-21). -/
def detailedFmt : String := "%(asctime)s %(levelname)s %(name)s %(filename)s:%(lineno)d: %(message)s"

/-- `configure_logging` (logging.py:70-76). -/
def configure (clean : String → String) (level : String) (fmt : Option String) (w : World) : Except PyErr World := do
  let lv ← parse clean level
  let f := match fmt with
    | some f => if f = "" then (if lv = .detailed then detailedFmt else basicFmt) else f
    | none => if lv = .detailed then detailedFmt else basicFmt
  .ok (configureLogger "bench" lv.number f (configureLogger "modssc" lv.number f w))

/-- What may happen in a process: this library's call, or anyone adding a new handler of their own to a logger or taking one away. -/
inductive Event where
  | configure (level : String) (fmt : Option String)
  | addOwn (name : String) (level : Nat) (fmt : String)
  | remove (name : String) (h : Nat)

/-- One event; a refused call changes nothing. -/
def step (clean : String → String) (w : World) : Event → World
  | .configure level fmt => match configure clean level fmt w with
    | .ok w' => w'
    | .error _ => w
  | .addOwn name level fmt =>
    let h := w.next
    ({ w with setting := fun i => if i = h then (level, fmt) else w.setting i, next := h + 1 } : World).setLogger name
      { w.logger name with handlers := (w.logger name).handlers ++ [h] }
  | .remove name h => w.setLogger name { w.logger name with handlers := (w.logger name).handlers.erase h }

/-- A process that has just started. -/
def fresh : World := ⟨fun _ => ⟨none, [], true⟩, fun _ => (0, ""), fun _ => none, 0⟩

/-- A history. -/
def run (clean : String → String) (es : List Event) : World := es.foldl (step clean) fresh

end ModSSC.Utils.Logging
