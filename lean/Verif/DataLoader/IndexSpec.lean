import Mathlib.Data.String.Basic

/-!
# Specification of the dataset cache index: a map from fingerprint to the variant's data

Does not mention the model.  `E` is what is known about a variant; `uri`, `date` read it.
-/

namespace ModSSC.DataLoader.IndexSpec

variable {E : Type}

/-- The abstract cache: which variants exist, with what data. -/
abbrev Store (E : Type) := String → Option E

/-- Operations a user can perform. -/
inductive SOp (E : Type) where
  | download (fp : String) (e : E)
  | purge (fp : String)
  | purgeDataset (uri : String)
  | gc
  | rebuild

/-- `S'` is what garbage collection may leave of `S`: a part of it, one newest variant per URI. -/
structure GcSpec (uri date : E → String) (S S' : Store E) : Prop where
  part : ∀ fp, S' fp = S fp ∨ S' fp = none
  newest : ∀ fp e, S' fp = some e → ∀ fp' e', S fp' = some e' → uri e' = uri e → date e' ≤ date e
  unique : ∀ fp e fp' e', S' fp = some e → S' fp' = some e' → uri e = uri e' → fp = fp'
  covers : ∀ fp e, S fp = some e → ∃ fp' e', S' fp' = some e' ∧ uri e' = uri e

/-- One abstract step. -/
def Step (uri date : E → String) (S : Store E) : SOp E → Store E → Prop
  | .download fp e, S' => ∀ k, S' k = if k = fp then some e else S k
  | .purge fp, S' => ∀ k, S' k = if k = fp then none else S k
  | .purgeDataset u, S' => ∀ k, S' k = (S k).filter (fun e => decide (uri e ≠ u))
  | .gc, S' => GcSpec uri date S S'
  | .rebuild, S' => ∀ k, S' k = S k

end ModSSC.DataLoader.IndexSpec
