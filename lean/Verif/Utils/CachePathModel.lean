import Verif.Assoc
import Verif.Bench.PlaceModel

/-!
# Where caches are kept

Model of `src/modssc/runtime/paths.py`, of the default directories in `data_loader/cache.py`, `preprocess/cache.py`,
`sampling/services/service.py` and `graph/cache.py`, and of `src/modssc/cache/model.py`.  A path is absolute and resolved: the
list of its components.  The file system, `expanduser().resolve()` and `platformdirs` are parameters.
-/

namespace ModSSC.CachePath
open ModSSC ModSSC.Bench

/-- A resolved absolute path: its components. -/
abbrev Path := List String

/-- What the functions ask of the machine: the working directory, what exists, what is a file, `Path(value).expanduser().resolve()`
and `user_cache_dir("modssc")`. -/
structure Machine where
  cwd : Path
  exist : Path → Bool
  isFile : Path → Bool
  norm : List Char → Path
  userCache : Path

/-- `[current] + list(current.parents)` (runtime/paths.py:15). -/
def upwards (p : Path) : List Path := (List.range (p.length + 1)).map fun i => p.take (p.length - i)

/-- `find_repo_root` (runtime/paths.py:9-18).  The start is already resolved. -/
def findRepoRoot (m : Machine) (start : Option Path) : Option Path :=
  let current := start.getD m.cwd
  let current := if m.isFile current then current.dropLast else current
  (upwards current).find? fun d => m.exist (d ++ ["pyproject.toml"])

/-- `default_local_cache_root` (runtime/paths.py:21-30). -/
def localCacheRoot (m : Machine) (start : Option Path) : Option Path :=
  match findRepoRoot m start with
  | none => none
  | some root => if m.exist (root ++ ["modssc_cache"]) then some (root ++ ["modssc_cache"]) else some (root ++ ["cache"])

/-- `default_local_cache_subdir` (runtime/paths.py:33-37). -/
def localCacheSubdir (m : Machine) (start : Option Path) (name : String) : Option Path :=
  (localCacheRoot m start).map fun r => r ++ [name]

/-- `default_cache_dir` of datasets (data_loader/cache.py:24-37). -/
def datasetsDir (m : Machine) (env : Environ) : Path :=
  match envTruthy env "MODSSC_CACHE_DIR" with
  | some v => m.norm v
  | none =>
    match envTruthy env "MODSSC_CACHE_ROOT" with
    | some r => m.norm r ++ ["datasets"]
    | none => (localCacheSubdir m none "datasets").getD (m.userCache ++ ["datasets"])

/-- `default_cache_dir` of preprocessing (preprocess/cache.py:31-44). -/
def preprocessDir (m : Machine) (env : Environ) : Path :=
  match envTruthy env "MODSSC_PREPROCESS_CACHE_DIR" with
  | some v => m.norm v
  | none =>
    match envTruthy env "MODSSC_CACHE_ROOT" with
    | some r => m.norm r ++ ["preprocess"]
    | none => (localCacheSubdir m none "preprocess").getD (m.userCache ++ ["preprocess"])

/-- `default_split_cache_dir` (sampling/services/service.py:32-45). -/
def splitsDir (m : Machine) (env : Environ) : Path :=
  match envTruthy env "MODSSC_SPLIT_CACHE_DIR" with
  | some v => m.norm v
  | none =>
    match envTruthy env "MODSSC_CACHE_ROOT" with
    | some r => m.norm r ++ ["splits"]
    | none => (localCacheSubdir m none "splits").getD (m.userCache ++ ["splits"])

/-- `split_dir_for` (sampling/services/service.py:48-52), the given root already resolved. -/
def splitDirFor (m : Machine) (env : Environ) (root : Option Path) (dataset split : String) : Path :=
  root.getD (splitsDir m env) ++ [dataset, split]

/-- `default_cache_dir` of graphs (graph/cache.py:28-41). -/
def graphsDir (m : Machine) (env : Environ) : Path :=
  match envTruthy env "MODSSC_GRAPH_CACHE_DIR" with
  | some v => m.norm v
  | none =>
    match envTruthy env "MODSSC_CACHE_ROOT" with
    | some r => m.norm r ++ ["graphs"]
    | none => (localCacheSubdir m none "graphs").getD (m.userCache ++ ["graphs"])

/-- `default_views_cache_dir` (graph/cache.py:44-60). -/
def viewsDir (m : Machine) (env : Environ) : Path :=
  match envTruthy env "MODSSC_GRAPH_VIEWS_CACHE_DIR" with
  | some v => m.norm v
  | none =>
    match envTruthy env "MODSSC_GRAPH_CACHE_DIR" with
    | some g => (m.norm g).dropLast ++ ["graph_views"]
    | none =>
      match envTruthy env "MODSSC_CACHE_ROOT" with
      | some r => m.norm r ++ ["graph_views"]
      | none => (localCacheSubdir m none "graph_views").getD ((graphsDir m env).dropLast ++ ["graph_views"])

/-- `resolve_model_cache_root` (cache/model.py:20-28). -/
def modelRoot (m : Machine) (env : Environ) : Option Path :=
  match envTruthy env "MODSSC_MODEL_CACHE_ROOT" with
  | some v => some (m.norm v)
  | none => (envTruthy env "MODSSC_CACHE_ROOT").map fun r => m.norm r ++ ["models"]

/-- `resolve_hf_home` (cache/model.py:31-39). -/
def hfHome (m : Machine) (env : Environ) : Option Path :=
  match envTruthy env "HF_HOME" with
  | some v => some (m.norm v)
  | none => (modelRoot m env).map fun r => r ++ ["hf"]

/-- `resolve_sentence_transformers_cache` (cache/model.py:42-54), before `str`. -/
def sentenceTransformersDir (m : Machine) (env : Environ) : Option Path :=
  match envTruthy env "SENTENCE_TRANSFORMERS_HOME" with
  | some v => some (m.norm v)
  | none =>
    match hfHome m env with
    | some h => some (h ++ ["sentence_transformers"])
    | none => (envTruthy env "TRANSFORMERS_CACHE").map m.norm

/-- `resolve_openclip_cache_dir` (cache/model.py:64-73), before `str`. -/
def openclipDir (m : Machine) (env : Environ) : Option Path :=
  match envTruthy env "MODSSC_OPENCLIP_CACHE_DIR" with
  | some v => some (m.norm v)
  | none =>
    match envTruthy env "OPENCLIP_CACHE_DIR" with
    | some v => some (m.norm v)
    | none => (modelRoot m env).map fun r => r ++ ["open_clip"]

/-- `resolve_torch_home` (cache/model.py:76-85). -/
def torchHome (m : Machine) (env : Environ) : Option Path :=
  match envTruthy env "TORCH_HOME" with
  | some v => some (m.norm v)
  | none =>
    match envTruthy env "MODSSC_TORCH_HOME" with
    | some v => some (m.norm v)
    | none => (modelRoot m env).map fun r => r ++ ["torch"]

/-- `str(path)` of an absolute path (the root itself, `/`, is written as the empty text: a simplification). -/
def render (p : Path) : List Char := p.flatMap fun c => '/' :: c.toList

/-- `os.environ.setdefault(name, value)`. -/
def setDefault (env : Environ) (name value : List Char) : Environ :=
  match Assoc.get env name with
  | some _ => env
  | none => env ++ [(name, value)]

/-- `ensure_torch_home` (cache/model.py:88-92): the directory and the environment afterwards. -/
def ensureTorchHome (m : Machine) (env : Environ) : Option Path × Environ :=
  match torchHome m env with
  | some p => (some p, setDefault env "TORCH_HOME".toList (render p))
  | none => (none, env)

/-- `torchaudio_download_kwargs` (cache/model.py:95-100): the `model_dir`, if given. -/
def torchaudioDir (m : Machine) (env : Environ) : Option Path :=
  (ensureTorchHome m env).1.map fun p => p ++ ["hub", "checkpoints"]

/-- `str.strip` (spaces, tabs, line ends). -/
def strip (s : List Char) : List Char := ((s.dropWhile Char.isWhitespace).reverse.dropWhile Char.isWhitespace).reverse

/-- `_FALSE_ENV_VALUES` (cache/model.py:6). -/
def falseValues : List (List Char) := ["".toList, "0".toList, "false".toList, "no".toList, "off".toList]

/-- `env_flag` (cache/model.py:9-13).  Simplification: `lower` and `strip` of ASCII characters. -/
def envFlag (env : Environ) (name : String) : Bool :=
  match Assoc.get env name.toList with
  | none => false
  | some v => !(falseValues.contains ((strip v).map Char.toLower))

/-- `resolve_hf_local_files_only` (cache/model.py:57-61). -/
def hfLocalOnly (env : Environ) : Bool :=
  ["MODSSC_HF_LOCAL_FILES_ONLY", "HF_HUB_OFFLINE", "TRANSFORMERS_OFFLINE"].any (envFlag env)

/-- How the bench sees the machine for a configuration file in the directory `configDir` (bench/utils/io.py:43-66). -/
def benchEnv (m : Machine) (configDir : Path) : PathEnv where
  normalise := fun v => render (m.norm v)
  localRoot := (localCacheRoot m (some configDir)).map render

end ModSSC.CachePath
