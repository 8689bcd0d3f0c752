import Verif.Bench.ResolveModel
import Mathlib.Data.List.Basic
import Mathlib.Tactic.Tauto

/-!
# C185 — the settings a benchmark run gives to a method
-/

namespace ModSSC.Bench.Resolve

namespace Spec

/-- The settings are the defaults with the parameters written over them: the same fields, each with the value of the parameter of its
name if there is one, else its default; no parameter is lost. -/
structure Over (defaults params settings : Settings) : Prop where
  known : ∀ k ∈ params.map (·.1), k ∈ defaults.map (·.1)
  fields : settings.map (·.1) = defaults.map (·.1)
  given : ∀ k ∈ defaults.map (·.1), ∀ v, params.lookup k = some v → settings.lookup k = some v
  kept : ∀ k, params.lookup k = none → settings.lookup k = defaults.lookup k

/-- The device a method is given: the one asked for; the best one, or the CPU for a method that cannot use another, if the choice is
left to the program, which a strict run does not allow. -/
def Device (best : String) (gpu strict : Bool) (asked given : Option String) : Prop :=
  (asked ≠ some "auto" → given = asked) ∧
    (asked = some "auto" → strict = false ∧ given = some (if gpu then best else "cpu"))

/-- The settings a class is given by the transductive runner: without parameters its own (if it has any), with parameters its own with
them written over. -/
def Given (made : Made) (params : Settings) (strict : Bool) (spec : Option Settings) : Prop :=
  (params = [] ∧ ((made = .caught ∧ strict = false ∧ spec = none) ∨ made = .object spec)) ∨
    (params ≠ [] ∧ ∃ d s, made = .object (some d) ∧ spec = some s ∧ Over d params s)

/-- The value that settles the backend: the parameter, or else the field of the settings. -/
def Configured (params : Settings) (spec : Option Settings) (v : Val) : Prop :=
  (∃ w, params.lookup "backend" = some w ∧ w ≠ .none ∧ v = w) ∨
    ((params.lookup "backend" = none ∨ params.lookup "backend" = some .none) ∧
      v = ((spec.bind fun s => s.lookup "backend").getD .none))

end Spec

open Spec

theorem lookup_map_over (params : Settings) (k : String) : ∀ d : Settings,
    (d.map fun f => (f.1, (params.lookup f.1).getD f.2)).lookup k = (d.lookup k).map fun v => (params.lookup k).getD v
  | [] => rfl
  | (k', v) :: d => by
    rw [List.map_cons, List.lookup_cons, List.lookup_cons]
    by_cases h : k = k'
    · subst h
      simp
    · rw [beq_false_of_ne h]
      exact lookup_map_over params k d

theorem lookup_mem {l : Settings} {k : String} {v : Val} (h : l.lookup k = some v) : k ∈ l.map (·.1) := by
  obtain ⟨a, b, rfl, -⟩ := List.lookup_eq_some_iff.mp h
  simp

theorem mem_lookup {k : String} : ∀ {l : Settings}, k ∈ l.map (·.1) → ∃ v, l.lookup k = some v
  | [], h => by simp at h
  | (k', v) :: l, h => by
    by_cases hk : k = k'
    · subst hk; exact ⟨v, by simp⟩
    · obtain ⟨w, hw⟩ := mem_lookup (l := l) (by simpa [hk] using h)
      exact ⟨w, by rw [List.lookup_cons, beq_false_of_ne hk]; exact hw⟩

theorem replaced_iff (d params s : Settings) (hd : (d.map (·.1)).Nodup) : replaced d params = .ok s ↔ Over d params s := by
  have hno : ∀ {l : Settings} {k : String}, k ∉ l.map (·.1) → l.lookup k = none := by
    intro l k hk
    cases h : l.lookup k with
    | none => rfl
    | some v => exact absurd (lookup_mem h) hk
  unfold replaced
  by_cases ha : params.all (fun p => decide (p.1 ∈ d.map (·.1))) = true
  · rw [if_pos ha]
    have hknown : ∀ k ∈ params.map (·.1), k ∈ d.map (·.1) := by
      intro k hk
      obtain ⟨p, hp, rfl⟩ := List.mem_map.mp hk
      exact of_decide_eq_true (List.all_eq_true.mp ha p hp)
    have hover : Over d params (d.map fun f => (f.1, (params.lookup f.1).getD f.2)) := by
      refine ⟨hknown, ?_, ?_, ?_⟩
      · rw [List.map_map]; rfl
      · intro k hk v hv
        obtain ⟨w, hw⟩ := mem_lookup hk
        rw [lookup_map_over, hw, hv]
        rfl
      · intro k hk
        rw [lookup_map_over, hk]
        cases d.lookup k <;> rfl
    constructor
    · intro h
      cases h
      exact hover
    · intro h
      congr 1
      have key : ∀ (a b : Settings), a.map (·.1) = b.map (·.1) → (b.map (·.1)).Nodup → (∀ k, a.lookup k = b.lookup k) → a = b := by
        intro a
        induction a with
        | nil =>
          intro b hb _ _
          cases b with
          | nil => rfl
          | cons x b => simp at hb
        | cons x a ih =>
          intro b hb hn hl
          cases b with
          | nil => simp at hb
          | cons y b =>
            obtain ⟨k, v⟩ := x
            obtain ⟨k', w⟩ := y
            simp only [List.map_cons, List.cons.injEq] at hb
            obtain ⟨rfl, hb⟩ := hb
            have h1 := hl k
            simp only [List.lookup_cons, beq_self_eq_true, Option.some.injEq] at h1
            subst h1
            rw [List.map_cons, List.nodup_cons] at hn
            congr 1
            refine ih b hb hn.2 fun j => ?_
            by_cases hj : j = k
            · subst hj
              rw [hno hn.1, hno (by rw [hb]; exact hn.1)]
            · have := hl j
              rwa [List.lookup_cons, List.lookup_cons, beq_false_of_ne hj] at this
      refine key _ _ (by rw [hover.fields, h.fields]) (by rw [h.fields]; exact hd) fun k => ?_
      cases hk : params.lookup k with
      | none => rw [hover.kept k hk, h.kept k hk]
      | some v =>
        have hm := hknown k (lookup_mem hk)
        rw [hover.given k hm v hk, h.given k hm v hk]
  · rw [if_neg ha]
    simp only [reduceCtorEq, false_iff]
    intro h
    refine ha (List.all_eq_true.mpr fun p hp => decide_eq_true (h.known _ (List.mem_map_of_mem hp)))

theorem device_iff (best : String) (gpu strict : Bool) (asked given : Option String) :
    resolveDevice best asked gpu strict = .ok given ↔ Device best gpu strict asked given := by
  unfold resolveDevice Device
  cases asked with
  | none => simp [eq_comm]
  | some d =>
    dsimp only
    by_cases hd : d = "auto"
    · subst hd
      cases strict <;> cases gpu <;> simp [eq_comm]
    · simp [hd, eq_comm]

theorem given_iff (made : Made) (params : Settings) (strict : Bool) (spec : Option Settings)
    (hd : ∀ d, made = .object (some d) → (d.map (·.1)).Nodup) :
    buildTransductive made params strict = .ok spec ↔ Given made params strict spec := by
  unfold buildTransductive Given defaultSpec
  cases made with
  | raised => simp
  | caught =>
    by_cases hp : params = [] <;> cases strict <;> simp [hp, eq_comm]
  | object o =>
    by_cases hp : params = []
    · simp [hp]
    · simp only [hp, if_false, false_and, false_or, ne_eq, not_false_eq_true, true_and, Made.object.injEq]
      cases o with
      | none => simp
      | some d =>
        dsimp only
        simp only [Option.some.injEq]
        cases hr : replaced d params with
        | error e =>
          simp only [reduceCtorEq, false_iff]
          rintro ⟨d', s, rfl, rfl, h⟩
          rw [(replaced_iff d params s (hd d rfl)).mpr h] at hr
          cases hr
        | ok s =>
          constructor
          · intro h
            cases h
            exact ⟨d, s, rfl, rfl, (replaced_iff d params s (hd d rfl)).mp hr⟩
          · rintro ⟨d', s', rfl, rfl, h⟩
            rw [(replaced_iff d params s' (hd d rfl)).mpr h] at hr
            cases hr
            rfl

theorem configured_iff (params : Settings) (spec : Option Settings) (v : Val) : configuredBackend params spec = v ↔ Configured params spec v := by
  unfold configuredBackend Configured
  cases h : params.lookup "backend" with
  | none =>
    cases spec <;> simp [eq_comm]
  | some w =>
    cases w with
    | none =>
      cases spec <;> simp [eq_comm]
    | str s =>
      simp only [Option.getD_some, Option.some.injEq, reduceCtorEq, or_self, false_and, or_false]
      exact ⟨fun h => ⟨_, rfl, by simp, h.symm⟩, fun ⟨w, hw, _, hv⟩ => by rw [hv, hw]⟩
    | other s =>
      simp only [Option.getD_some, Option.some.injEq, reduceCtorEq, or_self, false_and, or_false]
      exact ⟨fun h => ⟨_, rfl, by simp, h.symm⟩, fun ⟨w, hw, _, hv⟩ => by rw [hv, hw]⟩

/-- **C185 (transductive).**  A run is prepared exactly if: the device is settled (a strict run names it); the settings of the class can
be had and know every parameter; the backend is not left to be chosen in a strict run; and torch is there if it is the backend.  The
method is then given that device and these settings. -/
theorem C185_transductive (lower : String → String) (best : String) (hasTorch gpu strict : Bool) (made : Made) (device : Option String)
    (params : Settings) (p : Plan) (hd : ∀ d, made = .object (some d) → (d.map (·.1)).Nodup) :
    planTransductive lower best hasTorch gpu strict made device params = .ok p ↔
      Device best gpu strict device p.device ∧ Given made params strict p.spec ∧
        ∃ v, Configured params p.spec v ∧ p.backend = (if v = .none then none else some v.shown) ∧
          (v ≠ .none → (strict = true → lower v.shown ≠ "auto") ∧ (lower v.shown = "torch" → hasTorch = true)) := by
  unfold planTransductive
  rw [← device_iff, ← given_iff _ _ _ _ hd]
  cases h1 : resolveDevice best device gpu strict with
  | error e => simp
  | ok d =>
    dsimp only
    cases h2 : buildTransductive made params strict with
    | error e => simp
    | ok spec =>
      dsimp only
      obtain ⟨pd, ps, pb⟩ := p
      simp only [Except.ok.injEq]
      have hcfg : ∀ v, Configured params ps v ↔ configuredBackend params ps = v := fun v => (configured_iff params ps v).symm
      simp only [hcfg, exists_eq_left']
      by_cases hps : spec = ps
      · subst hps
        unfold resolveBackend
        cases hv : configuredBackend params spec with
        | none =>
          simp only [ensureDependencies, Except.ok.injEq, Plan.mk.injEq]
          simp [eq_comm]
        | str s =>
          dsimp only
          by_cases ha : strict = true ∧ lower (Val.str s).shown = "auto"
          · rw [if_pos ha]; simp [ha.1, ha.2]
          · rw [if_neg ha]
            unfold ensureDependencies
            dsimp only
            by_cases hb : lower (Val.str s).shown = "torch" ∧ ¬ hasTorch = true
            · rw [if_pos hb]; simp [hb.1, hb.2]
            · rw [if_neg hb]
              simp only [Except.ok.injEq, Plan.mk.injEq, true_and, reduceCtorEq, if_false, ne_eq, not_false_eq_true, true_implies]
              constructor
              · rintro ⟨rfl, rfl⟩
                exact ⟨rfl, rfl, fun hs hl => ha ⟨hs, hl⟩, fun hl => by_contra fun hc => hb ⟨hl, hc⟩⟩
              · rintro ⟨rfl, rfl, -, -⟩
                exact ⟨rfl, rfl⟩
        | other s =>
          dsimp only
          by_cases ha : strict = true ∧ lower (Val.other s).shown = "auto"
          · rw [if_pos ha]; simp [ha.1, ha.2]
          · rw [if_neg ha]
            unfold ensureDependencies
            dsimp only
            by_cases hb : lower (Val.other s).shown = "torch" ∧ ¬ hasTorch = true
            · rw [if_pos hb]; simp [hb.1, hb.2]
            · rw [if_neg hb]
              simp only [Except.ok.injEq, Plan.mk.injEq, true_and, reduceCtorEq, if_false, ne_eq, not_false_eq_true, true_implies]
              constructor
              · rintro ⟨rfl, rfl⟩
                exact ⟨rfl, rfl, fun hs hl => ha ⟨hs, hl⟩, fun hl => by_contra fun hc => hb ⟨hl, hc⟩⟩
              · rintro ⟨rfl, rfl, -, -⟩
                exact ⟨rfl, rfl⟩
      · have hne : ∀ x y, (⟨x, spec, y⟩ : Plan) ≠ ⟨pd, ps, pb⟩ := by
          intro x y h
          cases h
          exact hps rfl
        simp only [hps, false_and, and_false, iff_false]
        intro h
        split at h
        · cases h
        · split at h
          · cases h
          · exact hne _ _ (Except.ok.inj h)

/-- The settings of `poisson_learning`, in part. -/
def poissonDefaults : Settings := [("max_iter", .other "1000"), ("backend", .str "numpy")]

example : planTransductive id "cuda" true true false (.object (some poissonDefaults)) (some "auto") [("backend", .str "torch")] =
    .ok ⟨some "cuda", some [("max_iter", .other "1000"), ("backend", .str "torch")], some "torch"⟩ := by decide +kernel
example : planTransductive id "cuda" true true true (.object (some poissonDefaults)) (some "auto") [] = .error .autoForbidden := by
  decide +kernel

/-- **C185 (strict transductive runs).**  A strict run that is prepared leaves neither the device nor the backend to be chosen. -/
theorem C185_strict (lower : String → String) (best : String) (hasTorch gpu : Bool) (made : Made)
    (device : Option String) (params : Settings) (p : Plan) (hd : ∀ d, made = .object (some d) → (d.map (·.1)).Nodup)
    (h : planTransductive lower best hasTorch gpu true made device params = .ok p) (own : Option Val) :
    p.device = device ∧ p.device ≠ some "auto" ∧ (∀ b, p.backend = some b → lower b ≠ "auto" ∧ reportTransductive p own = some b) := by
  obtain ⟨h1, -, v, -, hv, hs⟩ := (C185_transductive lower best hasTorch gpu true made device params p hd).mp h
  have hne : device ≠ some "auto" := fun hc => by cases (h1.2 hc).1
  refine ⟨h1.1 hne, by rw [h1.1 hne]; exact hne, fun b hb => ?_⟩
  rw [hv] at hb
  by_cases h0 : v = .none
  · rw [if_pos h0] at hb; cases hb
  · rw [if_neg h0] at hb
    cases hb
    refine ⟨(hs h0).1 rfl, ?_⟩
    unfold reportTransductive
    rw [hv, if_neg h0]

example : planTransductive id "cuda" true true true (.object (some poissonDefaults)) (some "cpu") [] =
    .ok ⟨some "cpu", some poissonDefaults, some "numpy"⟩ := by decide +kernel

/-- **C185 (inductive).**  A run is prepared exactly if the backend parameter, when it is a string, is not left to be chosen in a strict
run and torch is there if it asks for it, and the settings can be had; the method gets the device as it was asked for, and its own
settings with the parameters written over; without parameters and model it is made without settings. -/
theorem C185_inductive (lower : String → String) (hasTorch strict hasModel : Bool) (made : Made) (device : Option String)
    (params : Settings) (p : Plan) (hd : ∀ d, made = .object (some d) → (d.map (·.1)).Nodup) :
    planInductive lower hasTorch strict hasModel made device params = .ok p ↔
      p.device = device ∧
      (∀ s, params.lookup "backend" = some (.str s) → (strict = true → lower s ≠ "auto") ∧ (lower s = "torch" → hasTorch = true)) ∧
      ((params = [] ∧ hasModel = false ∧ p.spec = none) ∨ ((params ≠ [] ∨ hasModel = true) ∧ Given made params strict p.spec)) ∧
        ∃ v, Configured params p.spec v ∧ p.backend = (if v = .none then none else some v.shown) := by
  have hcheck : checkRequested lower hasTorch strict params = .ok () ↔
      (∀ s, params.lookup "backend" = some (.str s) → (strict = true → lower s ≠ "auto") ∧ (lower s = "torch" → hasTorch = true)) := by
    unfold checkRequested
    cases h : params.lookup "backend" with
    | none => simp
    | some w =>
      cases w with
      | none => simp
      | other s => simp
      | str s =>
        simp only [Option.getD_some, Option.some.injEq, Val.str.injEq, forall_eq']
        by_cases ha : strict = true ∧ lower s = "auto"
        · rw [if_pos ha]; simp [ha.1, ha.2]
        · rw [if_neg ha]
          by_cases hb : lower s = "torch" ∧ ¬ hasTorch = true
          · rw [if_pos hb]; simp [hb.1, hb.2]
          · rw [if_neg hb]
            simp only [true_iff]
            exact ⟨fun hs hl => ha ⟨hs, hl⟩, fun hl => by_contra fun hc => hb ⟨hl, hc⟩⟩
  have hbuild : ∀ spec, buildInductive made params hasModel strict = .ok spec ↔
      ((params = [] ∧ hasModel = false ∧ spec = none) ∨ ((params ≠ [] ∨ hasModel = true) ∧ Given made params strict spec)) := by
    intro spec
    rw [← given_iff _ _ _ _ hd]
    unfold buildInductive buildTransductive
    by_cases hp : params = []
    · cases hasModel
      · simp [hp, eq_comm]
      · simp only [hp, if_true, true_and, ne_eq, not_true_eq_false, or_true, reduceCtorEq, false_and, false_or, Bool.true_eq_false]
        cases defaultSpec made strict <;> simp
    · simp only [hp, if_false, false_and, false_or, ne_eq, not_false_eq_true, true_or, true_and]
      cases defaultSpec made strict with
      | error e => simp
      | ok o => cases o <;> simp
  unfold planInductive
  rw [← hcheck, ← hbuild]
  obtain ⟨pd, ps, pb⟩ := p
  cases h1 : checkRequested lower hasTorch strict params with
  | error e => simp
  | ok u =>
    dsimp only
    cases h2 : buildInductive made params hasModel strict with
    | error e => simp
    | ok spec =>
      have hcfg : ∀ v, Configured params ps v ↔ configuredBackend params ps = v := fun v => (configured_iff params ps v).symm
      simp only [Except.ok.injEq, Plan.mk.injEq, hcfg, exists_eq_left', true_and]
      by_cases hps : spec = ps
      · subst hps
        cases configuredBackend params spec <;> simp [eq_comm]
      · simp [hps]

example : planInductive id true true false (.object (some [("lr", .other "0.1")])) (some "cpu") [("lr", .other "0.5")] =
    .ok ⟨some "cpu", some [("lr", .other "0.5")], none⟩ := by decide +kernel

/-- **C185 violated (strict inductive runs).**  The inductive runner prepares a strict run whose device is left to be chosen, and one
whose settings leave the backend to be chosen. -/
theorem C185_inductive_auto_violated : ¬ ∀ (made : Made) (device : Option String) (params : Settings) (p : Plan),
    planInductive id true true false made device params = .ok p → p.device ≠ some "auto" ∧ p.backend ≠ some "auto" := by
  intro h
  have := h (.object (some [("lr", .other "0.1"), ("backend", .str "auto")])) (some "auto") [("lr", .other "0.5")] _ rfl
  revert this
  decide +kernel

/-- **C185 violated (the report).**  What is reported as backend is not what computes: with `auto` the report repeats it, and of a method
without the setting it says nothing although torch computes. -/
theorem C185_report_violated :
    (∃ p, planTransductive id "cpu" true false false (.object (some poissonDefaults)) (some "cpu") [("backend", .str "auto")] = .ok p ∧
      ∀ b, p.backend = some b → poissonRuns true b ≠ reportTransductive p none) ∧
    ∃ p, planTransductive id "cpu" true true true (.object (some [("max_iter", .other "1000")])) (some "cpu") [] = .ok p ∧
      labelPropagationRuns true p.device = some "torch" ∧ reportTransductive p none = none := by
  refine ⟨⟨_, rfl, ?_⟩, ⟨_, rfl, by decide +kernel, by decide +kernel⟩⟩
  intro b hb
  have : b = "auto" := by
    have h2 : some "auto" = some b := hb
    cases h2
    rfl
  subst this
  decide +kernel

/-- **C185 (label propagation).**  A named device means torch, or an error without it; without a device torch is used if it is there. -/
theorem C185_label_propagation (hasTorch : Bool) (device : Option String) : labelPropagationRuns hasTorch device =
    if hasTorch = true then some "torch" else if device = none then some "numpy" else none := by
  unfold labelPropagationRuns
  cases hasTorch <;> cases device <;> simp

/-- **C185 (the report), what holds.**  A backend that is named is the one that is reported, and Poisson learning computes with it;
otherwise it refuses. -/
theorem C185_report_partial (lower : String → String) (best : String) (hasTorch gpu strict : Bool) (made : Made) (device : Option String)
    (params : Settings) (p : Plan) (own : Option Val)
    (_h : planTransductive lower best hasTorch gpu strict made device params = .ok p) (b : String) (hb : p.backend = some b)
    (hauto : b ≠ "auto") : reportTransductive p own = some b ∧
      (poissonRuns hasTorch b = some b ∨ (poissonRuns hasTorch b = none ∧ b ≠ "numpy" ∧ b ≠ "torch")) := by
  refine ⟨by unfold reportTransductive; rw [hb], ?_⟩
  unfold poissonRuns
  rw [if_neg hauto]
  by_cases h : b = "numpy" ∨ b = "torch"
  · left; simp [h]
  · right
    refine ⟨by simp [h], by tauto⟩

end ModSSC.Bench.Resolve
