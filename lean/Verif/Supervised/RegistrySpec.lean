import Verif.Supervised.RegistryModel

/-!
# Specification of backend choice and registration

Uses the data types of the model only.
-/

namespace ModSSC.Supervised.Spec
open ModSSC ModSSC.Supervised

/-- The package an extra installs, as documented; an unknown extra is its own package. -/
def package (extra : String) : String :=
  if extra = "audio" then "torchaudio" else if extra = "hf" then "datasets"
  else if extra = "openml" ∨ extra = "sklearn" then "sklearn" else if extra = "preprocess-text" then "transformers"
  else if extra = "supervised-torch" then "torch" else if extra = "supervised-torch-geometric" then "torch_geometric"
  else if extra = "tfds" then "tensorflow_datasets" else if extra = "vision" then "torchvision" else extra

/-- Backend `b` of the classifier exists and what it needs is installed. -/
def Available (installed : String → Bool) (spec : ClassifierSpec) (b : String) : Prop :=
  ∃ s, Assoc.get spec.backends b = some s ∧ ∀ extra, s.requiredExtra = some extra → installed (package extra) = true

/-- `b` is the first available backend in the preference order. -/
def FirstAvailable (installed : String → Bool) (spec : ClassifierSpec) (b : String) : Prop :=
  ∃ before after, spec.preferred = before ++ b :: after ∧ Available installed spec b ∧
    ∀ x ∈ before, ¬ Available installed spec x

/-- Every classifier and backend of `r` is in `r'`, unchanged. -/
def Extends (r r' : Registry) : Prop :=
  ∀ cid s, Assoc.get r.specs cid = some s → ∃ s', Assoc.get r'.specs cid = some s' ∧
    s'.description = s.description ∧ s'.preferred = s.preferred ∧
    ∀ b bs, Assoc.get s.backends b = some bs → Assoc.get s'.backends b = some bs

end ModSSC.Supervised.Spec
