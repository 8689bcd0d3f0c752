import Verif.PyVal
import Verif.Assoc

/-!
# Model of the resource limits of a benchmark configuration

`bench/limits.py`.  A configuration is plain Python data without shared parts.
-/

namespace ModSSC.Bench
open ModSSC

/-- `LimitsConfig` (schema.py:128-137). -/
structure LimitsConfig where
  profile : Option String := none
  preprocess : Option Int := none
  method : Option Int := none
  sup : Option Int := none
  chunk : Option Int := none
  train : Option Int := none
  test : Option Int := none
deriving DecidableEq

/-- `ResolvedLimits` (limits.py:9-17). -/
structure Resolved where
  profile : Option String
  preprocess : Option Int
  method : Option Int
  sup : Option Int
  chunk : Option Int
  train : Option Int
  test : Option Int
deriving DecidableEq

/-- `_LIMIT_PRESETS` (limits.py:20-33): preprocess, method, supervised, chunk. -/
def preset (profile : Option String) : Option Int × Option Int × Option Int × Option Int :=
  if profile = some "v100" then (some 32, some 128, some 64, some 512)
  else if profile = some "h100" then (some 64, some 512, some 256, some 1024)
  else (none, none, none, none)

/-- The profile used (limits.py:70-81); `lower` is `str.lower`, `detect` the result of `_detect_profile`. -/
def resolveProfile (lower : String → String) (detect : Option String) (profile : Option String) : Option String :=
  match profile with
  | none => none
  | some p =>
    if p = "" then none
    else if lower p = "" then none
    else if lower p = "auto" then some (match detect with
      | some d => if d = "" then "v100" else d
      | none => "v100")
    else some (lower p)

/-- `resolve_limits` (limits.py:66-119). -/
def resolveLimits (lower : String → String) (detect : Option String) (cfg : Option LimitsConfig) (strict : Bool) :
    Except PyErr (Option Resolved) :=
  match cfg with
  | none => .ok none
  | some c =>
    if strict = true ∧ (c.profile.map lower = some "auto") ∧ c.profile ≠ some "" then .error .validation
    else
      let p := resolveProfile lower detect c.profile
      let d := preset p
      let r : Resolved := ⟨p, c.preprocess.or d.1, c.method.or d.2.1, c.sup.or d.2.2.1, c.chunk.or d.2.2.2, c.train, c.test⟩
      if r.preprocess = none ∧ r.method = none ∧ r.sup = none ∧ r.chunk = none ∧ r.train = none ∧ r.test = none then
        .ok none
      else .ok (some r)

/-- `_coerce_int` (limits.py:122-132); `parse` is `int` on strings. -/
def coerceInt (parse : String → Option Int) : PyVal → Option Int
  | .none => none
  | .bool _ => none
  | .int i => some i
  | .flt q => some (pyInt q)
  | .str s => parse s
  | .list _ => none
  | .dict _ => none

/-- A dictionary. -/
abbrev Dict := List (String × PyVal)

/-- An entry of `changes`: the keys and list positions of the place (instead of its printed name), the old and the
new value. -/
structure Change where
  path : List (String ⊕ Nat)
  old : Option PyVal
  new : Int

/-- `_clamp_key` (limits.py:143-163) with `_clamp_value` (limits.py:135-140). -/
def clampKey (parse : String → Option Int) (key : String) (limit : Option Int) (setIfMissing : Bool) (d : Dict) :
    Dict × List Change :=
  match limit with
  | none => (d, [])
  | some L =>
    match Assoc.get d key with
    | none => if setIfMissing then (Assoc.set d key (.int L), [⟨[.inl key], none, L⟩]) else (d, [])
    | some old =>
      match coerceInt parse old with
      | none => (d, [])
      | some c => if min c L ≠ c then (Assoc.set d key (.int (min c L)), [⟨[.inl key], some old, min c L⟩]) else (d, [])

/-- A step further out. -/
def Change.under (s : String ⊕ Nat) (c : Change) : Change := { c with path := s :: c.path }

/-- `if isinstance(v, dict): ...` -/
def onDict (f : Dict → Dict × List Change) (v : PyVal) : PyVal × List Change :=
  match v with
  | .dict d => (.dict (f d).1, (f d).2)
  | v => (v, [])

/-- The value under a key, changed in place. -/
def modifyKey (key : String) (g : PyVal → PyVal) : Dict → Dict
  | [] => []
  | p :: d => if p.1 = key then (p.1, g p.2) :: d else p :: modifyKey key g d

/-- `v = d.get(key)`, then `v` is changed in place. -/
def onKey (key : String) (f : PyVal → PyVal × List Change) (d : Dict) : Dict × List Change :=
  (modifyKey key (fun v => (f v).1) d,
   match Assoc.get d key with
   | some v => (f v).2.map (Change.under (.inl key))
   | none => [])

/-- `if isinstance(v, list): for i, x in enumerate(v)`, each item changed in place. -/
def onItems (f : PyVal → PyVal × List Change) (v : PyVal) : PyVal × List Change :=
  match v with
  | .list l => (.list (l.map (fun x => (f x).1)), (l.mapIdx (fun i x => (f x).2.map (Change.under (.inr i)))).flatten)
  | v => (v, [])

/-- One edit after the other. -/
def andThen (f g : Dict → Dict × List Change) (d : Dict) : Dict × List Change :=
  ((g (f d).1).1, (f d).2 ++ (g (f d).1).2)

/-- `_clamp_preprocess_steps` (limits.py:166-192). -/
def clampSteps (parse : String → Option Int) (limit : Option Int) : Dict → Dict × List Change :=
  onKey "steps" (onItems (onDict (onKey "params" (onDict (clampKey parse "batch_size" limit false)))))

/-- `_ensure_dict` (limits.py:195-200). -/
def ensureDict (key : String) (d : Dict) : Dict :=
  match Assoc.get d key with
  | some (.dict _) => d
  | _ => Assoc.set d key (.dict [])

/-- The dataset section (limits.py:212-230). -/
def limitDataset (parse : String → Option Int) (r : Resolved) (d : Dict) : Dict × List Change :=
  onKey "options" (onDict (andThen (clampKey parse "max_train_samples" r.train true)
    (clampKey parse "max_test_samples" r.test true))) (ensureDict "options" d)

/-- The method section (limits.py:260-303). -/
def limitMethod (parse : String → Option Int) (r : Resolved) : Dict → Dict × List Change :=
  andThen
    (onKey "params" (onDict (andThen (clampKey parse "batch_size" r.method false)
      (andThen (clampKey parse "sup_batch_size" r.sup false)
        (onKey "classifier_params" (onDict (clampKey parse "batch_size" r.method false)))))))
    (onKey "model" (onDict (onKey "classifier_params" (onDict (clampKey parse "batch_size" r.method false)))))

/-- `apply_limits` (limits.py:203-320), once the limits are resolved. -/
def applyResolved (parse : String → Option Int) (r : Resolved) : Dict → Dict × List Change :=
  andThen (onKey "dataset" (onDict (limitDataset parse r)))
  (andThen (onKey "preprocess" (onDict (onKey "plan" (onDict (clampSteps parse r.preprocess)))))
  (andThen (onKey "views" (onDict (onKey "plan" (onDict (onKey "views" (onItems (onDict (onKey "preprocess"
      (onDict (clampSteps parse r.preprocess))))))))))
  (andThen (onKey "method" (onDict (limitMethod parse r)))
    (onKey "graph" (onDict (onKey "spec" (onDict (clampKey parse "chunk_size" r.chunk true))))))))

/-- `apply_limits` (limits.py:203-320). -/
def applyLimits (lower : String → String) (detect : Option String) (parse : String → Option Int)
    (cfg : Option LimitsConfig) (strict : Bool) (raw : Dict) : Except PyErr (Dict × List Change × Option Resolved) :=
  match resolveLimits lower detect cfg strict with
  | .error e => .error e
  | .ok none => .ok (raw, [], none)
  | .ok (some r) => .ok ((applyResolved parse r raw).1, (applyResolved parse r raw).2, some r)

end ModSSC.Bench
