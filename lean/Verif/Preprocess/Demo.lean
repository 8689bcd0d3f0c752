import Verif.Preprocess.PurgeProps

/-!
# A small registry for the examples

Three steps shaped like real ones: `core.copy_raw` (`raw.X` to `features.X`), `labels.encode`
(`raw.y` to `labels.y`) and the fittable `core.pca` (`features.X` to `features.X`).
-/

namespace ModSSC.Preprocess
open ModSSC Spec

/-- Registered specifications. -/
def demoSpecs (id : String) : Option StepSpec :=
  if id = "core.copy_raw" then some ⟨.transform, [], ["raw.X"], ["features.X"]⟩
  else if id = "labels.encode" then some ⟨.transform, [], ["raw.y"], ["labels.y"]⟩
  else if id = "core.pca" then some ⟨.fittable, [], ["features.X"], ["features.X"]⟩
  else none

/-- A step that reads `src` and writes `dst`. -/
def mapStep (src dst : String) (f : Int → Int) (obj : Int) (s : Store Int) :
    Except PyErr (Store Int × Int) :=
  match Assoc.get s src with
  | none => .error .keyError
  | some v => .ok ([(dst, f v)], obj)

/-- The demonstration environment, for any step fingerprint. -/
def demoEnv (stepFp : StepKey Unit → String) : Env Int Unit Int where
  spec := demoSpecs
  start := fun _ _ _ => .ok 0
  fit := fun id obj s idx =>
    if id = "core.pca" then
      match Assoc.get s "features.X" with
      | none => .error .keyError
      | some v => .ok (v + idx.length)
    else .ok obj
  transform := fun id obj s =>
    if id = "core.copy_raw" then mapStep "raw.X" "features.X" (fun v => v) obj s
    else if id = "labels.encode" then mapStep "raw.y" "labels.y" (fun v => v % 10) obj s
    else mapStep "features.X" "features.X" (fun v => v - obj) obj s
  deriveSeed := fun _ _ i => i
  stepFp := stepFp
  fitFp := fun l => String.ofList (List.replicate l.length 'i')
  shape := fun _ => some [1]
  structFp := fun _ => "struct"

theorem mapStep_reads {src dst : String} {f : Int → Int} {obj : Int} {s s' : Store Int}
    (h : Assoc.get s src = Assoc.get s' src) : mapStep src dst f obj s = mapStep src dst f obj s' := by
  unfold mapStep; rw [h]

theorem mapStep_outs {src dst : String} {f : Int → Int} {obj obj' : Int} {s outs : Store Int}
    (h : mapStep src dst f obj s = .ok (outs, obj')) : ∃ v, outs = [(dst, v)] := by
  unfold mapStep at h
  split at h
  · simp at h
  · simp only [Except.ok.injEq, Prod.mk.injEq] at h
    exact ⟨_, h.1.symm⟩

theorem demo_spec {id : String} {sp : StepSpec} (h : demoSpecs id = some sp) :
    (id = "core.copy_raw" ∧ sp = ⟨.transform, [], ["raw.X"], ["features.X"]⟩) ∨
    (id = "labels.encode" ∧ sp = ⟨.transform, [], ["raw.y"], ["labels.y"]⟩) ∨
    (id = "core.pca" ∧ sp = ⟨.fittable, [], ["features.X"], ["features.X"]⟩) := by
  unfold demoSpecs at h
  split at h
  · simp_all
  · split at h
    · simp_all
    · split at h
      · simp_all
      · simp at h

theorem demo_reads (fp : StepKey Unit → String) {id : String} {sp : StepSpec}
    (h : demoSpecs id = some sp) : ReadsOnly (demoEnv fp) id sp.consumes := by
  rcases demo_spec h with ⟨rfl, rfl⟩ | ⟨rfl, rfl⟩ | ⟨rfl, rfl⟩
  · refine ⟨fun obj s s' idx h => by simp [demoEnv], fun obj s s' h => ?_⟩
    simp only [demoEnv, if_true]
    exact mapStep_reads (h _ (by simp))
  · refine ⟨fun obj s s' idx h => by simp [demoEnv], fun obj s s' h => ?_⟩
    simp only [demoEnv, if_true]
    rw [if_neg (by decide), if_neg (by decide)]
    exact mapStep_reads (h _ (by simp))
  · refine ⟨fun obj s s' idx h => ?_, fun obj s s' h => ?_⟩
    · simp only [demoEnv, if_true]
      rw [h "features.X" (by simp)]
    · simp only [demoEnv]
      rw [if_neg (by decide), if_neg (by decide), if_neg (by decide), if_neg (by decide)]
      exact mapStep_reads (h _ (by simp))

theorem demo_outs (fp : StepKey Unit → String) {id : String} {sp : StepSpec}
    (h : demoSpecs id = some sp) {obj obj' : Int} {s outs : Store Int}
    (ht : (demoEnv fp).transform id obj s = .ok (outs, obj')) :
    ∃ k v, sp.produces = [k] ∧ outs = [(k, v)] := by
  rcases demo_spec h with ⟨rfl, rfl⟩ | ⟨rfl, rfl⟩ | ⟨rfl, rfl⟩ <;>
    simp only [demoEnv, if_true] at ht
  · obtain ⟨v, hv⟩ := mapStep_outs ht
    exact ⟨_, v, rfl, hv⟩
  · rw [if_neg (by decide)] at ht
    obtain ⟨v, hv⟩ := mapStep_outs ht
    exact ⟨_, v, rfl, hv⟩
  · rw [if_neg (by decide), if_neg (by decide)] at ht
    obtain ⟨v, hv⟩ := mapStep_outs ht
    exact ⟨_, v, rfl, hv⟩

theorem demo_declared (fp : StepKey Unit → String) : Declared (demoEnv fp) where
  reads := by
    intro id sp h
    obtain ⟨h1, h2⟩ := demo_reads fp h
    constructor
    · intro obj s s' idx ha
      exact h1 obj s s' idx (fun k hk => ha k (by simp [hk]))
    · intro obj s s' ha
      exact h2 obj s s' (fun k hk => ha k (by simp [hk]))
  outs := by
    intro id sp h obj s outs obj' ht
    obtain ⟨k, v, hp, rfl⟩ := demo_outs fp h ht
    simp [Assoc.keys, hp]

/-- A codec that stores everything. -/
def demoCodec : Codec Int := ⟨fun _ => some ".npy", fun v => v, .valueError⟩

/-- A dataset with a test split. -/
def demoDs : Dataset Int := ⟨⟨7, 13, none, none⟩, some ⟨9, 25, none, none⟩, "tabular", some "fp"⟩

/-- A call that needs no purging trick. -/
def demoCall (out : String) (ids : List String) : Call Unit :=
  ⟨⟨ids.map (fun i => ⟨i, (), [], [], true⟩), out⟩, 0, some [0, 1], true⟩

-- The purged run returns (`C33_purge_same_partial`): output key `raw.X`, no label step.
example : ∃ r, (preprocess (demoEnv (fun _ => "fp")) demoCodec demoDs none
    { demoCall "raw.X" ["core.copy_raw", "core.pca"] with purge := true }).2 = .ok r ∧
      r.train.X = 7 ∧ r.trainArtifacts = [("raw.X", 7), ("raw.y", 13)] :=
  ⟨_, rfl, rfl, by decide +kernel⟩

-- The usual plan (`C33_purge_fails_violated`): returns without purging, fails with it.
example : (∃ r, (preprocess (demoEnv (fun _ => "fp")) demoCodec demoDs none
    { demoCall "features.X" ["core.copy_raw", "labels.encode"] with purge := false }).2 = .ok r ∧
      r.train.X = 7 ∧ r.train.y = 3 ∧ r.test.map (·.X) = some 9) ∧
    (preprocess (demoEnv (fun _ => "fp")) demoCodec demoDs none
      { demoCall "features.X" ["core.copy_raw", "labels.encode"] with purge := true }).2
      = .error .keyError :=
  ⟨⟨_, rfl, rfl, rfl, rfl⟩, rfl⟩

/-- **C33 is violated, concretely**: the plan copying `raw.X` to the default output key returns
without purging and raises `KeyError` with it. -/
theorem C33_purge_copy_raw_violated :
    ¬ ∀ (ds : Dataset Int) (call : Call Unit) (r : Result Int),
      (preprocess (demoEnv (fun _ => "fp")) demoCodec ds none { call with purge := false }).2 = .ok r →
      ∃ r', (preprocess (demoEnv (fun _ => "fp")) demoCodec ds none
        { call with purge := true }).2 = .ok r' ∧ r'.train = r.train := by
  intro h
  have h' := h demoDs (demoCall "features.X" ["core.copy_raw"]) _ rfl
  obtain ⟨r', hr', -⟩ := h'
  have : (preprocess (demoEnv (fun _ => "fp")) demoCodec demoDs none
      { demoCall "features.X" ["core.copy_raw"] with purge := true }).2 = .error .keyError := rfl
  rw [this] at hr'
  simp at hr'

end ModSSC.Preprocess
