import Verif.PyVal
import Verif.Assoc

/-!
# Environment variables in configuration files

Model of `bench/utils/io.py`: the regular expression for placeholders, the defaults derived from the cache root, and the
expansion of a parsed YAML document.  Text is a list of characters.  Simplifications: dictionary keys are strings, tuples do
not occur (`yaml.safe_load` makes none), and the YAML parser is a parameter.
-/

namespace ModSSC.Bench
open ModSSC

/-- `[A-Za-z_]` (io.py:14). -/
def nameStart (c : Char) : Bool := (decide ('A' ≤ c) && decide (c ≤ 'Z')) || (decide ('a' ≤ c) && decide (c ≤ 'z')) || decide (c = '_')

/-- `[A-Za-z0-9_]` (io.py:14). -/
def nameChar (c : Char) : Bool := nameStart c || (decide ('0' ≤ c) && decide (c ≤ '9'))

/-- `[A-Za-z_][A-Za-z0-9_]*` at the start of a text, greedy: the name and the rest (io.py:14). -/
def matchName : List Char → Option (List Char × List Char)
  | [] => none
  | c :: cs => if nameStart c then some (c :: cs.takeWhile nameChar, cs.dropWhile nameChar) else none

/-- What follows the dollar sign (io.py:14): `\{name\}` or `name`.  The matched text, the name and the rest. -/
def matchBody : List Char → Option (List Char × List Char × List Char)
  | '{' :: cs =>
    match matchName cs with
    | some (n, '}' :: rest) => some ('{' :: (n ++ ['}']), n, rest)
    | _ => none
  | cs => (matchName cs).map (fun nr => (nr.1, nr.1, nr.2))

/-- A piece of text: a character outside placeholders, or a placeholder. -/
inductive Tok where
  | lit (c : Char)
  | ph (raw name : List Char)
deriving DecidableEq

/-- `(?<![$\\])`: the previous character forbids a match (io.py:14). -/
def blocked (prev : Option Char) : Bool := decide (prev = some '$') || decide (prev = some '\\')

/-- The matches of `_PLACEHOLDER_RE`, left to right (`finditer` and `sub`, io.py:20, 83).  `prev` is the character before the
text; the first argument bounds the number of pieces. -/
def scanFrom : Nat → Option Char → List Char → List Tok
  | 0, _, _ => []
  | _ + 1, _, [] => []
  | n + 1, prev, c :: cs =>
    if c = '$' ∧ blocked prev = false then
      match matchBody cs with
      | some (raw, name, rest) => .ph ('$' :: raw) name :: scanFrom n raw.getLast? rest
      | none => .lit c :: scanFrom n (some c) cs
    else .lit c :: scanFrom n (some c) cs

/-- The pieces of a text. -/
def scan (s : List Char) : List Tok := scanFrom s.length none s

/-- `_iter_placeholder_names` (io.py:18-24). -/
def placeholderNames (s : List Char) : List (List Char) :=
  (scan s).filterMap (fun t => match t with | .lit _ => none | .ph _ n => some n)

/-- The replacement of one piece (io.py:76-81). -/
def Tok.expand (resolve : List Char → Option (List Char)) : Tok → List Char
  | .lit c => [c]
  | .ph raw n => (resolve n).getD raw

/-- `_expand_placeholders` (io.py:75-83). -/
def expandText (resolve : List Char → Option (List Char)) (s : List Char) : List Char :=
  (scan s).flatMap (Tok.expand resolve)

/-- A step of a path in a document (io.py:89): a key or a position. -/
inductive PathStep where
  | key (k : String)
  | idx (i : Nat)
deriving DecidableEq

/-- The message of the error (io.py:108-116): where, and which variables. -/
structure Unresolved where
  path : List PathStep
  names : List (List Char)
deriving DecidableEq

/-- `_expand_env_vars` for a string (io.py:105-117).  Simplification: the names are not sorted and may repeat. -/
def expandStr (resolve : List Char → Option (List Char)) (path : List PathStep) (s : String) : Except Unresolved String :=
  if (placeholderNames s.toList).filter (fun n => (resolve n).isNone) = [] then .ok (String.ofList (expandText resolve s.toList))
  else .error ⟨path, (placeholderNames s.toList).filter (fun n => (resolve n).isNone)⟩

mutual
/-- `_expand_env_vars` (io.py:86-118). -/
def expandVal (resolve : List Char → Option (List Char)) (path : List PathStep) : PyVal → Except Unresolved PyVal
  | .dict d => (expandDict resolve path d).map .dict
  | .list l => (expandList resolve path 0 l).map .list
  | .str s => (expandStr resolve path s).map .str
  | v => .ok v

/-- The comprehension over a dictionary (io.py:92-96): keys are kept as they are. -/
def expandDict (resolve : List Char → Option (List Char)) (path : List PathStep) :
    List (String × PyVal) → Except Unresolved (List (String × PyVal))
  | [] => .ok []
  | (k, v) :: d =>
    expandVal resolve (path ++ [.key k]) v >>= fun v' => (expandDict resolve path d).map (fun d' => (k, v') :: d')

/-- The comprehension over a list (io.py:97-101). -/
def expandList (resolve : List Char → Option (List Char)) (path : List PathStep) (i : Nat) :
    List PyVal → Except Unresolved (List PyVal)
  | [] => .ok []
  | v :: l =>
    expandVal resolve (path ++ [.idx i]) v >>= fun v' => (expandList resolve path (i + 1) l).map (fun l' => v' :: l')
end

/-- `Path(value).expanduser().resolve()` and the search for a repository (runtime/paths.py), which are not modelled. -/
structure PathEnv where
  normalise : List Char → List Char
  localRoot : Option (List Char)

/-- `os.environ`. -/
abbrev Environ := List (List Char × List Char)

/-- `root / name`. -/
def childDir (root : List Char) (name : String) : List Char := root ++ '/' :: name.toList

/-- `os.environ.get(name)`, used as a truth value: an empty string counts as unset. -/
def envTruthy (env : Environ) (name : String) : Option (List Char) :=
  match Assoc.get env name.toList with
  | some (c :: cs) => some (c :: cs)
  | _ => none

/-- The cache root (io.py:44-49). -/
def cacheRoot (P : PathEnv) (env : Environ) : Option (List Char) :=
  match envTruthy env "MODSSC_CACHE_ROOT" with
  | some r => some (P.normalise r)
  | none => P.localRoot

/-- The dataset directory (io.py:51-56). -/
def datasetDir (P : PathEnv) (env : Environ) (root : List Char) : List Char :=
  match envTruthy env "MODSSC_CACHE_DIR" with
  | some r => P.normalise r
  | none => childDir root "datasets"

/-- `_default_modssc_env` (io.py:43-66). -/
def defaultEnv (P : PathEnv) (env : Environ) : Environ :=
  match cacheRoot P env with
  | none => []
  | some root =>
    [("MODSSC_CACHE_ROOT".toList, root), ("MODSSC_OUTPUT_DIR".toList, childDir root "output"),
     ("MODSSC_DATASET_CACHE_DIR".toList, datasetDir P env root), ("MODSSC_CACHE_DIR".toList, datasetDir P env root),
     ("MODSSC_PREPROCESS_CACHE_DIR".toList, childDir root "preprocess"), ("MODSSC_SPLIT_CACHE_DIR".toList, childDir root "splits"),
     ("MODSSC_GRAPH_CACHE_DIR".toList, childDir root "graphs"), ("MODSSC_GRAPH_VIEWS_CACHE_DIR".toList, childDir root "graph_views")]

/-- `_resolve_env_var` (io.py:69-72). -/
def resolveVar (P : PathEnv) (env : Environ) (name : List Char) : Option (List Char) :=
  match Assoc.get env name with
  | some v => some v
  | none => Assoc.get (defaultEnv P env) name

/-- The ways `load_yaml` fails. -/
inductive LoadErr where
  | notMapping
  | unresolved (u : Unresolved)
deriving DecidableEq

/-- `load_yaml` (io.py:126-134) after the parser. -/
def loadYaml (P : PathEnv) (env : Environ) : PyVal → Except LoadErr (List (String × PyVal))
  | .none => .ok []
  | .dict d =>
    match expandDict (resolveVar P env) [] d with
    | .ok d' => .ok d'
    | .error u => .error (.unresolved u)
  | _ => .error .notMapping

end ModSSC.Bench
