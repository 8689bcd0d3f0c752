import Verif.Bench.RunModel

/-!
# Specification for C135 and C136
-/

namespace ModSSC.Bench.Spec
open ModSSC ModSSC.Bench

/-- The directory a process runs in. -/
def Home (w : World) (p : Nat) (dir : String) : Prop :=
  w.phase p = .owns dir ∨ ∃ target, w.phase p = .moving dir target

/-- Only runs, no sweeps. -/
def OnlyRuns (s : List (Nat × Act)) : Prop :=
  ∀ e ∈ s, (∀ path, e.2 ≠ .pickRoot path) ∧ e.2 ≠ .mkRoot ∧ ∀ f, e.2 ≠ .writeRoot f

/-- Whenever a run renames its directory, the new name is still free. -/
def FreeRenames : World → List (Nat × Act) → Prop
  | _, [] => True
  | w, (p, a) :: s =>
    (a = .rename → ∀ dir target, w.phase p = .moving dir target → target ∉ Assoc.keys w.disk) ∧ FreeRenames (w.step p a) s

/-- The run failed: it ended with an error or with an exit code other than 0. -/
def Failed (o : RunOut) : Prop := o ≠ .code 0

/-- The run returned (with or without success), so there is a report of it. -/
def Returned (o : RunOut) : Prop := ∃ n, o = .code n

instance (o : RunOut) : Decidable (Returned o) := by
  cases o with
  | code n => exact isTrue ⟨n, rfl⟩
  | raised e => exact isFalse (by rintro ⟨n, h⟩; cases h)

end ModSSC.Bench.Spec
