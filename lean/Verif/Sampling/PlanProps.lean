import Verif.Sampling.PlanModel
import Verif.Sampling.SampleProps

/-!
# C15: sampling plans survive the dictionary round trip
-/

namespace ModSSC.Sampling
open ModSSC PyVal

theorem split_roundtrip (s : SplitSpec) : splitFromDict s.asDict = .ok s := by
  cases s <;>
    simp [splitFromDict, SplitSpec.asDict, kfoldFromDict, holdoutFromDict, PyVal.getD, PyVal.lookup,
      assertKnownKeys, PyVal.toStr, PyVal.toInt, PyVal.toFloat, PyVal.truthy, bind, Except.bind]

theorem policy_roundtrip (p : Policy) : Policy.fromDict p.asDict = .ok p := by
  simp [Policy.fromDict, Policy.asDict, PyVal.getD, PyVal.lookup, assertKnownKeys, PyVal.truthy, bind,
    Except.bind]

theorem imbalance_roundtrip (b : ImbalanceSpec) (hk : b.kind ≠ .other) :
    ImbalanceSpec.fromDict b.asDict = .ok b := by
  obtain ⟨kind, applyTo, cap, alpha, m⟩ := b
  cases kind <;> cases applyTo <;> cases cap <;> cases alpha <;>
    simp_all [ImbalanceSpec.fromDict, ImbalanceSpec.asDict, PyVal.getD, PyVal.lookup, assertKnownKeys,
      PyVal.toStr, PyVal.toInt, ImbalanceKind.parse, ImbalanceKind.word, ApplyTo.parse, ApplyTo.word,
      rawInt, rawFloat, bind, Except.bind]

theorem mapM_toInt (f : List Int) :
    List.mapM (PyVal.toInt ∘ fun (i : Int) => PyVal.int i) f = .ok f := by
  induction f with
  | nil => rfl
  | cons a f ih =>
    rw [List.mapM_cons, ih]
    rfl

theorem labeling_roundtrip (l : LabelingSpec) (hm : l.mode ≠ .other) :
    LabelingSpec.fromDict l.asDict
      = .ok { l with value := if l.mode = .fraction then l.value else ((pyInt l.value : Int) : Rat) } := by
  obtain ⟨mode, value, pc, m, strat, fixed⟩ := l
  cases mode <;> cases strat <;> cases fixed <;>
    simp_all [LabelingSpec.fromDict, LabelingSpec.asDict, PyVal.getD, PyVal.lookup, assertKnownKeys,
      PyVal.toStr, PyVal.toInt, PyVal.toFloat, PyVal.truthy, LabelMode.parse, LabelMode.word,
      Strategy.parse, Strategy.word, parseValue, parseFixed, bind, Except.bind, mapM_toInt]

/-- The plan as it comes back: the value of a `count`/`per_class` request is an integer. -/
theorem plan_roundtrip (p : SamplingPlan) (hm : p.labeling.mode ≠ .other)
    (hk : p.imbalance.kind ≠ .other) :
    SamplingPlan.fromDict p.asDict = .ok { p with labeling := { p.labeling with
      value := if p.labeling.mode = .fraction then p.labeling.value
        else ((pyInt p.labeling.value : Int) : Rat) } } := by
  simp [SamplingPlan.fromDict, SamplingPlan.asDict, PyVal.getD, PyVal.lookup, assertKnownKeys,
    ensureMapping, bind, Except.bind, split_roundtrip, policy_roundtrip, imbalance_roundtrip _ hk,
    labeling_roundtrip _ hm]

theorem pyInt_int (i : Int) : pyInt (i : Rat) = i := by
  unfold pyInt
  split
  · exact_mod_cast Int.floor_intCast (R := Rat) i
  · have : Rat.floor (-(i : Rat)) = -i := by
      have h := Int.floor_intCast (R := Rat) (-i)
      push_cast at h
      exact_mod_cast h
    omega

/-- **C15 (round trip).** Every plan with known option words, and whose `value` is an integer in the
`count` and `per_class` modes as documented, is recovered exactly from its dictionary. -/
theorem C15_plan_roundtrip (p : SamplingPlan) (hm : p.labeling.mode ≠ .other)
    (hk : p.imbalance.kind ≠ .other)
    (hv : p.labeling.mode ≠ .fraction → ∃ i : Int, p.labeling.value = i) :
    SamplingPlan.fromDict p.asDict = .ok p := by
  rw [plan_roundtrip p hm hk]
  congr 1
  obtain ⟨split, ⟨mode, value, pc, m, strat, fixed⟩, imb, pol⟩ := p
  simp only [SamplingPlan.mk.injEq, LabelingSpec.mk.injEq, true_and, and_true]
  split
  · rfl
  · rename_i h
    obtain ⟨i, hi⟩ := hv h
    simp only at hi
    rw [hi, pyInt_int]

/-- **C15 (behaviour).** For a fractional `value` in `count`/`per_class` mode the plan that comes back
differs textually, but every sampling run with it gives the same result. -/
theorem C15_roundtrip_same_sampling (p : SamplingPlan) (hm : p.labeling.mode ≠ .other)
    (hk : p.imbalance.kind ≠ .other) :
    ∃ p', SamplingPlan.fromDict p.asDict = .ok p' ∧
      ∀ {σ : Type} (R : Rng σ) (argsort : List Int → List Nat) (y : List Int) (nTest : Option Nat)
        (seeds : Seeds σ), sampleInductive R argsort y nTest p' seeds
          = sampleInductive R argsort y nTest p seeds := by
  refine ⟨_, plan_roundtrip p hm hk, ?_⟩
  intro σ R argsort y nTest seeds
  have hsel : ∀ idx s, selectLabeled R argsort idx y { p.labeling with
      value := if p.labeling.mode = .fraction then p.labeling.value
        else ((pyInt p.labeling.value : Int) : Rat) } s
      = selectLabeled R argsort idx y p.labeling s := by
    intro idx s
    obtain ⟨mode, value, pc, m, strat, fixed⟩ := p.labeling
    cases mode <;>
      simp [selectLabeled, labelTarget, allocate, initialAllocation, pyInt_int]
  simp only [sampleInductive, buildInductive, hsel]

/-- **C15 (unknown keys).** A dictionary with an unknown key, at the top level or in any of the four
sections, is rejected. -/
theorem C15_unknown_keys_rejected (d : List (String × PyVal)) (key : String) (v : PyVal)
    (hmem : (key, v) ∈ d) :
    (key ∉ ["split", "labeling", "imbalance", "policy"] →
      SamplingPlan.fromDict d = .error .valueError) ∧
    (key ∉ ["kind", "test_fraction", "val_fraction", "stratify", "shuffle", "k", "fold"] →
      splitFromDict d = .error .valueError) ∧
    (key ∉ ["mode", "value", "per_class", "min_per_class", "strategy", "fixed_indices"] →
      LabelingSpec.fromDict d = .error .valueError) ∧
    (key ∉ ["kind", "apply_to", "max_per_class", "alpha", "min_per_class"] →
      ImbalanceSpec.fromDict d = .error .valueError) ∧
    (key ∉ ["respect_official_test", "use_official_graph_masks", "allow_override_official"] →
      Policy.fromDict d = .error .valueError) := by
  have hbad : ∀ allowed : List String, key ∉ allowed → assertKnownKeys d allowed = .error .valueError := by
    intro allowed h
    unfold assertKnownKeys
    rw [if_neg]
    intro hall
    rw [List.all_eq_true] at hall
    exact h (by simpa using hall _ hmem)
  refine ⟨fun h => ?_, fun h => ?_, fun h => ?_, fun h => ?_, fun h => ?_⟩
  · simp [SamplingPlan.fromDict, hbad _ h, bind, Except.bind]
  · unfold splitFromDict
    simp only
    split
    · rw [kfoldFromDict, hbad _ (by simp at h ⊢; tauto)]; rfl
    · split
      · rw [holdoutFromDict, hbad _ (by simp at h ⊢; tauto)]; rfl
      · rfl
  · simp [LabelingSpec.fromDict, hbad _ h, bind, Except.bind]
  · simp [ImbalanceSpec.fromDict, hbad _ h, bind, Except.bind]
  · simp [Policy.fromDict, hbad _ h, bind, Except.bind]

/-- **C15 (missing keys).** The empty dictionary gives the default plan. -/
theorem C15_defaults : SamplingPlan.fromDict []
    = .ok { split := .holdout (1/5) (1/10) true true } := by decide +kernel

example : SamplingPlan.fromDict
    (SamplingPlan.asDict
    { split := .kfold 3 1 true false (1/10),
      labeling := { mode := .count, value := 7, strategy := .balanced, fixedIndices := some [3, 1] },
      imbalance := { kind := .longTail, alpha := some (1/2) } })
    = .ok
    { split := .kfold 3 1 true false (1/10),
      labeling := { mode := .count, value := 7, strategy := .balanced, fixedIndices := some [3, 1] },
      imbalance := { kind := .longTail, alpha := some (1/2) } } := by decide +kernel

example : SamplingPlan.fromDict [("splits", .dict [])] = .error .valueError := by decide +kernel

end ModSSC.Sampling
