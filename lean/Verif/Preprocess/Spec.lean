import Verif.Preprocess.Types

/-!
# Specification for the preprocessing pipeline

Written without the model's functions: which fields a dataset offers, when a step applies, and what
it means for a step to read only certain artifacts.
-/

namespace ModSSC.Preprocess.Spec
open ModSSC.Preprocess

variable {V P S : Type}

/-- A field a split offers before any step runs. -/
def SplitField (sp : Split V) (k : String) : Prop :=
  k = "raw.X" ∨ k = "raw.y" ∨ (k = "graph.edge_index" ∧ sp.edges ≠ none) ∨
    ∃ ms, sp.masks = some ms ∧ ∃ p ∈ ms, k = "graph.mask." ++ p.1

/-- A field the dataset offers before any step runs. -/
def InitialField (ds : Dataset V) (k : String) : Prop :=
  SplitField ds.train k ∨ ∃ t, ds.test = some t ∧ SplitField t k

/-- The dataset's modality is admitted: the plan's list wins over the registered one, an empty list
or an unknown modality admits everything. -/
def ModalityOk (modality : String) (c : StepConfig P) (sp : StepSpec) : Prop :=
  modality = "" ∨ (c.modalities ≠ [] ∧ modality ∈ c.modalities) ∨
    (c.modalities = [] ∧ (sp.modalities = [] ∨ modality ∈ sp.modalities))

/-- Two stores hold the same artifacts under the given keys. -/
def AgreeOn (get : List (String × V) → String → Option V) (keys : List String)
    (s s' : List (String × V)) : Prop := ∀ k ∈ keys, get s k = get s' k

/-- The raw fields the built-in graph embeddings read although they do not declare them
(`steps/graph/node2vec.py:42-43`, `steps/graph/dgi.py:211` through `get_X`). -/
def undeclaredReads (stepId : String) : List String :=
  if stepId = "graph.node2vec" then ["raw.y", "raw.X"]
  else if stepId = "graph.dgi" then ["raw.X"]
  else []

end ModSSC.Preprocess.Spec
