import Verif.Base

/-!
# Data types of the preprocessing pipeline

`src/modssc/preprocess/types.py`, `plan.py`, `store.py`.  `V` is the type of artifacts, `P` of step
parameters.
-/

namespace ModSSC.Preprocess
open ModSSC

/-! ## Plans and registries -/

/-- `types.py:10` `StepKind`. -/
inductive Kind where
  | transform
  | fittable
  | featurizer
deriving DecidableEq, Repr

/-- `types.py:13-25` `StepSpec` without the descriptive fields. -/
structure StepSpec where
  kind : Kind := .transform
  modalities : List String := []
  consumes : List String := []
  produces : List String := []
deriving DecidableEq

/-- `plan.py:13-22` `StepConfig`. -/
structure StepConfig (P : Type) where
  stepId : String
  params : P
  modalities : List String := []
  requires : List String := []
  enabled : Bool := true

/-- `plan.py:25-33` `PreprocessPlan`. -/
structure Plan (P : Type) where
  steps : List (StepConfig P)
  outputKey : String := "features.X"

/-- `types.py:27-33` `ResolvedStep`. -/
structure ResolvedStep (P : Type) where
  stepId : String
  params : P
  index : Nat
  spec : StepSpec

/-- The three reasons of `pipeline.py:365-393`. -/
inductive SkipReason where
  | disabled
  | modality (allowed : List String)
  | missing (fields : List String)
deriving DecidableEq, Repr

/-- `types.py:35-40` `SkippedStep`. -/
structure SkippedStep where
  stepId : String
  reason : SkipReason
  index : Nat
deriving DecidableEq, Repr

/-- `store.py:8-50` `ArtifactStore`: a dictionary. -/
abbrev Store (V : Type) := List (String × V)

/-- `data_loader/types.py` `Split`. -/
structure Split (V : Type) where
  X : V
  y : V
  edges : Option V := none
  masks : Option (List (String × V)) := none

/-- `data_loader/types.py` `LoadedDataset` with the two entries of `meta` the pipeline reads. -/
structure Dataset (V : Type) where
  train : Split V
  test : Option (Split V) := none
  modality : String := ""
  metaFp : Option String := none


end ModSSC.Preprocess
