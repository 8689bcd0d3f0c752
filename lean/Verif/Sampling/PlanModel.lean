import Verif.PyVal
import Verif.Sampling.Model

/-!
# Model of the dictionary form of sampling plans (`src/modssc/sampling/plan.py`)
-/

namespace ModSSC.Sampling
open ModSSC PyVal

/-- `src/modssc/sampling/plan.py:279-283` `_assert_known_keys`. -/
def assertKnownKeys (d : List (String × PyVal)) (allowed : List String) : Except PyErr Unit :=
  if d.all (fun p => decide (p.1 ∈ allowed)) then .ok () else .error .valueError

/-- `src/modssc/sampling/plan.py:271-276` `_ensure_mapping`. -/
def ensureMapping : PyVal → Except PyErr (List (String × PyVal))
  | .none => .ok []
  | .dict d => .ok d
  | _ => .error .valueError

/-- `plan.py:20-34` `SamplingPolicy.from_dict`. -/
def Policy.fromDict (d : List (String × PyVal)) : Except PyErr Policy := do
  assertKnownKeys d ["respect_official_test", "use_official_graph_masks", "allow_override_official"]
  .ok { respectOfficialTest := (PyVal.getD d "respect_official_test" (.bool true)).truthy
        useOfficialGraphMasks := (PyVal.getD d "use_official_graph_masks" (.bool true)).truthy
        allowOverrideOfficial := (PyVal.getD d "allow_override_official" (.bool false)).truthy }

/-- `plan.py:237-241`: the policy part of `SamplingPlan.as_dict`. -/
def Policy.asDict (p : Policy) : List (String × PyVal) :=
  [("respect_official_test", .bool p.respectOfficialTest),
   ("use_official_graph_masks", .bool p.useOfficialGraphMasks),
   ("allow_override_official", .bool p.allowOverrideOfficial)]

/-- `plan.py:45-52` and `plan.py:78-86`: `HoldoutSplitSpec.as_dict`, `KFoldSplitSpec.as_dict`. -/
def SplitSpec.asDict : SplitSpec → List (String × PyVal)
  | .holdout tf vf strat shuf =>
    [("kind", .str "holdout"), ("test_fraction", .flt tf), ("val_fraction", .flt vf),
     ("stratify", .bool strat), ("shuffle", .bool shuf)]
  | .kfold k fold strat shuf vf =>
    [("kind", .str "kfold"), ("k", .int k), ("fold", .int fold), ("stratify", .bool strat),
     ("shuffle", .bool shuf), ("val_fraction", .flt vf)]

/-- `plan.py:54-67` `HoldoutSplitSpec.from_dict`. -/
def holdoutFromDict (d : List (String × PyVal)) : Except PyErr SplitSpec := do
  assertKnownKeys d ["kind", "test_fraction", "val_fraction", "stratify", "shuffle"]
  if (PyVal.getD d "kind" (.str "holdout")).toStr ≠ "holdout" then .error .valueError
  else do
    let tf ← (PyVal.getD d "test_fraction" (.flt (1/5))).toFloat
    let vf ← (PyVal.getD d "val_fraction" (.flt (1/10))).toFloat
    .ok (.holdout tf vf (PyVal.getD d "stratify" (.bool true)).truthy
      (PyVal.getD d "shuffle" (.bool true)).truthy)

/-- `plan.py:88-105` `KFoldSplitSpec.from_dict`. -/
def kfoldFromDict (d : List (String × PyVal)) : Except PyErr SplitSpec := do
  assertKnownKeys d ["kind", "k", "fold", "stratify", "shuffle", "val_fraction"]
  if (PyVal.getD d "kind" (.str "kfold")).toStr ≠ "kfold" then .error .valueError
  else do
    let k ← (PyVal.getD d "k" (.int 5)).toInt
    let fold ← (PyVal.getD d "fold" (.int 0)).toInt
    let vf ← (PyVal.getD d "val_fraction" (.flt 0)).toFloat
    .ok (.kfold k fold (PyVal.getD d "stratify" (.bool true)).truthy
      (PyVal.getD d "shuffle" (.bool true)).truthy vf)

/-- The word for a labeling mode (`plan.py:122`); `other` has no fixed word. -/
def LabelMode.word : LabelMode → String
  | .fraction => "fraction"
  | .count => "count"
  | .perClass => "per_class"
  | .other => "?"

/-- `plan.py:147-149`: parse and check the mode. -/
def LabelMode.parse (s : String) : Except PyErr LabelMode :=
  if s = "fraction" then .ok .fraction
  else if s = "count" then .ok .count
  else if s = "per_class" then .ok .perClass
  else .error .valueError

/-- The word for a strategy (`plan.py:126`). -/
def Strategy.word : Strategy → String
  | .proportional => "proportional"
  | .balanced => "balanced"

/-- `plan.py:157-159`. -/
def Strategy.parse (s : String) : Except PyErr Strategy :=
  if s = "proportional" then .ok .proportional
  else if s = "balanced" then .ok .balanced
  else .error .valueError

/-- `plan.py:129-139` `LabelingSpec.as_dict`. -/
def LabelingSpec.asDict (l : LabelingSpec) : List (String × PyVal) :=
  [("mode", .str l.mode.word),
   ("value", if l.mode = .fraction then .flt l.value else .int (pyInt l.value)),
   ("per_class", .bool l.perClass),
   ("min_per_class", .int l.minPerClass),
   ("strategy", .str l.strategy.word),
   ("fixed_indices", match l.fixedIndices with
      | Option.none => .none
      | some f => .list (f.map (fun (i : Int) => PyVal.int i)))]

/-- `plan.py:150-151`: `float(value) if mode == "fraction" else int(value)`. -/
def parseValue (mode : LabelMode) (v : PyVal) : Except PyErr Rat :=
  if mode = .fraction then v.toFloat else do
    let i ← v.toInt
    .ok (i : Rat)

/-- `plan.py:152-156`. -/
def parseFixed : PyVal → Except PyErr (Option (List Int))
  | .none => .ok Option.none
  | .list l => do
    let is ← l.mapM PyVal.toInt
    .ok (some is)
  | _ => .error .valueError

/-- `plan.py:141-167` `LabelingSpec.from_dict`. -/
def LabelingSpec.fromDict (d : List (String × PyVal)) : Except PyErr LabelingSpec := do
  assertKnownKeys d ["mode", "value", "per_class", "min_per_class", "strategy", "fixed_indices"]
  let mode ← LabelMode.parse (PyVal.getD d "mode" (.str "fraction")).toStr
  let value ← parseValue mode (PyVal.getD d "value" (.flt (1/10)))
  let fixed ← parseFixed (PyVal.getD d "fixed_indices" .none)
  let strategy ← Strategy.parse (PyVal.getD d "strategy" (.str "proportional")).toStr
  let m ← (PyVal.getD d "min_per_class" (.int 1)).toInt
  .ok { mode, value, perClass := (PyVal.getD d "per_class" (.bool false)).truthy,
        minPerClass := m, strategy, fixedIndices := fixed }

/-- The word for an imbalance kind (`plan.py:185`). -/
def ImbalanceKind.word : ImbalanceKind → String
  | .none => "none"
  | .subsampleMaxPerClass => "subsample_max_per_class"
  | .longTail => "long_tail"
  | .other => "?"

/-- `plan.py:207-209`. -/
def ImbalanceKind.parse (s : String) : Except PyErr ImbalanceKind :=
  if s = "none" then .ok .none
  else if s = "subsample_max_per_class" then .ok .subsampleMaxPerClass
  else if s = "long_tail" then .ok .longTail
  else .error .valueError

/-- The word for `apply_to` (`plan.py:186`). -/
def ApplyTo.word : ApplyTo → String
  | .train => "train"
  | .labeled => "labeled"

/-- `plan.py:210-212`. -/
def ApplyTo.parse (s : String) : Except PyErr ApplyTo :=
  if s = "train" then .ok .train
  else if s = "labeled" then .ok .labeled
  else .error .valueError

/-- `plan.py:191-198` `ImbalanceSpec.as_dict`. -/
def ImbalanceSpec.asDict (b : ImbalanceSpec) : List (String × PyVal) :=
  [("kind", .str b.kind.word), ("apply_to", .str b.applyTo.word),
   ("max_per_class", match b.maxPerClass with | Option.none => .none | some c => .int c),
   ("alpha", match b.alpha with | Option.none => .none | some a => .flt a),
   ("min_per_class", .int b.minPerClass)]

/-- `plan.py:216`: `d.get("max_per_class")`, kept as it is.  Simplification: the code does not
convert or check the type; the model only admits integers and `None`. -/
def rawInt : PyVal → Except PyErr (Option Int)
  | .none => .ok Option.none
  | .int i => .ok (some i)
  | _ => .error .typeError

/-- `plan.py:217`: `d.get("alpha")`, kept as it is; only numbers and `None` are admitted here. -/
def rawFloat : PyVal → Except PyErr (Option Rat)
  | .none => .ok Option.none
  | .int i => .ok (some (i : Rat))
  | .flt q => .ok (some q)
  | _ => .error .typeError

/-- `plan.py:200-219` `ImbalanceSpec.from_dict`. -/
def ImbalanceSpec.fromDict (d : List (String × PyVal)) : Except PyErr ImbalanceSpec := do
  assertKnownKeys d ["kind", "apply_to", "max_per_class", "alpha", "min_per_class"]
  let kind ← ImbalanceKind.parse (PyVal.getD d "kind" (.str "none")).toStr
  let applyTo ← ApplyTo.parse (PyVal.getD d "apply_to" (.str "train")).toStr
  let cap ← rawInt (PyVal.getD d "max_per_class" .none)
  let alpha ← rawFloat (PyVal.getD d "alpha" .none)
  let m ← (PyVal.getD d "min_per_class" (.int 1)).toInt
  .ok { kind, applyTo, maxPerClass := cap, alpha, minPerClass := m }

/-- `plan.py:231-242` `SamplingPlan.as_dict`. -/
def SamplingPlan.asDict (p : SamplingPlan) : List (String × PyVal) :=
  [("split", .dict p.split.asDict), ("labeling", .dict p.labeling.asDict),
   ("imbalance", .dict p.imbalance.asDict), ("policy", .dict p.policy.asDict)]

/-- `plan.py:248-254`: choose the split class by `kind`. -/
def splitFromDict (d : List (String × PyVal)) : Except PyErr SplitSpec :=
  let kind := (PyVal.getD d "kind" (.str "holdout")).toStr
  if kind = "kfold" then kfoldFromDict d
  else if kind = "holdout" then holdoutFromDict d
  else .error .valueError

/-- `plan.py:244-265` `SamplingPlan.from_dict`. -/
def SamplingPlan.fromDict (d : List (String × PyVal)) : Except PyErr SamplingPlan := do
  assertKnownKeys d ["split", "labeling", "imbalance", "policy"]
  let splitObj ← ensureMapping (PyVal.getD d "split" (.dict []))
  let split ← splitFromDict splitObj
  let labelingObj ← ensureMapping (PyVal.getD d "labeling" (.dict []))
  let labeling ← LabelingSpec.fromDict labelingObj
  let imbalanceObj ← ensureMapping (PyVal.getD d "imbalance" (.dict []))
  let imbalance ← ImbalanceSpec.fromDict imbalanceObj
  let policyObj ← ensureMapping (PyVal.getD d "policy" (.dict []))
  let policy ← Policy.fromDict policyObj
  .ok { split, labeling, imbalance, policy }

end ModSSC.Sampling
