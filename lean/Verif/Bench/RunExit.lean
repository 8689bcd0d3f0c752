import Verif.Bench.RunProps
import Verif.Bench.SchemaClosed
import Verif.Bench.ContractFit

/-!
# Reports and exit codes (C136)
-/

namespace ModSSC.Bench
open ModSSC ModSSC.Bench.Spec

/-! ### One run -/

/-- C136 (partial): once a run has its directory and its views can be listed, it leaves a report; the report says
`success` with the metrics exactly if nothing failed, and `failed` with the error otherwise; the exit code is 0 exactly on
success, and an error leaves the run exactly if the run failed and was asked to stop on failure.  Missing: a failure while
the views are listed, which happens outside the error handling (`C136_report_violated`). -/
theorem C136_report_partial {M : Type} (cfg : ExperimentConfig) (body : Except PyErr M) (hv : viewsLoop cfg.views = .ok ()) :
    (runSingle cfg (.ok ()) body).dir = true ∧
    (∀ m, body = .ok m → (runSingle cfg (.ok ()) body).report = some ("success", none, some m) ∧
      (runSingle cfg (.ok ()) body).out = .code 0) ∧
    (∀ e, body = .error e → (runSingle cfg (.ok ()) body).report = some ("failed", some e, none) ∧
      (cfg.run.benchmarkMode = true ∨ cfg.run.failFast = true → (runSingle cfg (.ok ()) body).out = .raised e) ∧
      (cfg.run.benchmarkMode = false → cfg.run.failFast = false → (runSingle cfg (.ok ()) body).out = .code 1)) := by
  unfold runSingle
  rw [hv]
  refine ⟨?_, ?_, ?_⟩
  · cases body <;> rfl
  · rintro m rfl; exact ⟨rfl, rfl⟩
  · rintro e rfl
    refine ⟨rfl, ?_, ?_⟩
    · rintro (h | h) <;> simp [h]
    · intro h1 h2; simp [h1, h2]

/-- C136: a run without views never misses its report. -/
theorem C136_no_views {M : Type} (cfg : ExperimentConfig) (body : Except PyErr M) (h : cfg.views = none) :
    (runSingle cfg (.ok ()) body).report.isSome = true ∧
      ((runSingle cfg (.ok ()) body).out = .code 0 ↔ ∃ m, body = .ok m) := by
  have hv : viewsLoop cfg.views = .ok () := by rw [h]; rfl
  obtain ⟨-, h1, h2⟩ := C136_report_partial cfg body hv
  cases body with
  | ok m => exact ⟨by rw [(h1 m rfl).1]; rfl, fun _ => ⟨m, rfl⟩, fun _ => (h1 m rfl).2⟩
  | error e =>
    obtain ⟨hr, ha, hb⟩ := h2 e rfl
    refine ⟨by rw [hr]; rfl, fun ho => ?_, fun ⟨m, hm⟩ => by cases hm⟩
    by_cases hs : cfg.run.benchmarkMode = true ∨ cfg.run.failFast = true
    · rw [ha hs] at ho; cases ho
    · simp only [not_or, Bool.not_eq_true] at hs
      rw [hb hs.1 hs.2] at ho; cases ho

/-- C136: an exit code, 0 or not, is only ever returned by a run that has written its report. -/
theorem C136_code_reported {M : Type} (cfg : ExperimentConfig) (setup : Except PyErr Unit) (body : Except PyErr M) (n : Nat)
    (h : (runSingle cfg setup body).out = .code n) :
    (runSingle cfg setup body).dir = true ∧ ((n = 0 ∧ ∃ m, (runSingle cfg setup body).report = some ("success", none, some m)) ∨
      (n = 1 ∧ ∃ e, (runSingle cfg setup body).report = some ("failed", some e, none))) := by
  unfold runSingle at h ⊢
  cases setup with
  | error e => cases h
  | ok u =>
    simp only at h ⊢
    cases hv : viewsLoop cfg.views with
    | error e => rw [hv] at h; cases h
    | ok u =>
      rw [hv] at h
      cases body with
      | ok m => simp only at h ⊢; cases h; simp
      | error e =>
        simp only at h ⊢
        split at h
        · cases h
        · cases h; simp

/-- C136 is violated: a configuration that is accepted (`views: {views: null}`), with `fail_fast: false`; the run makes
its directory, writes no report, and ends with an error. -/
theorem C136_report_violated :
    ∃ raw cfg, configFromDict demoSchemaEnv raw = .ok cfg ∧ cfg.run.failFast = false ∧ cfg.run.benchmarkMode = false ∧
      ∀ (M : Type) (body : Except PyErr M), runSingle cfg (.ok ()) body = ⟨true, none, .raised .typeError⟩ := by
  have h : ∃ raw : Dict, (match configFromDict demoSchemaEnv raw with
      | .ok c => decide (c.run.failFast = false) && decide (c.run.benchmarkMode = false) &&
          decide (viewsLoop c.views = .error .typeError)
      | .error _ => false) = true := by
    refine ⟨Assoc.set (Assoc.set (demoConfig "grid" (.list [.int 1, .int 2])) "views" (.dict [("plan", .dict [("views", .none)])])) "run"
      (.dict [("name", .str "a"), ("seed", .int 3), ("output_dir", .str "runs"), ("fail_fast", .bool false)]), ?_⟩
    decide +kernel
  obtain ⟨raw, h⟩ := h
  split at h
  · rename_i c hc
    simp only [Bool.and_eq_true, decide_eq_true_eq] at h
    refine ⟨raw, c, hc, h.1.1, h.1.2, fun M body => ?_⟩
    unfold runSingle
    rw [h.2]
  · cases h

/-! ### Sweeps -/

/-- The loop, in terms of the seeds: it goes through all of them, or stops at the first failure. -/
theorem sweepLoop_spec (f : Int → RunOut) (stop : Bool) (seeds : List Int) (st : SweepState) :
    ((stop = false ∨ ∀ s ∈ seeds, ¬ Failed (f s)) →
      ∃ k, sweepLoop f stop seeds st = (⟨st.tried ++ seeds, st.results ++ seeds.filter (fun s => decide (Returned (f s))),
        st.failures + k⟩, none) ∧ (k = 0 ↔ ∀ s ∈ seeds, ¬ Failed (f s))) ∧
    (stop = true → ∀ a s b, seeds = a ++ s :: b → (∀ x ∈ a, ¬ Failed (f x)) → Failed (f s) →
      ∃ e st', sweepLoop f stop seeds st = (st', some e) ∧ st'.tried = st.tried ++ (a ++ [s]) ∧
        (∀ e', f s = .raised e' → e = e') ∧ ((∃ n, f s = .code n) → e = .runtimeError)) := by
  induction seeds generalizing st with
  | nil =>
    refine ⟨fun _ => ⟨0, by simp [sweepLoop], by simp⟩, fun _ a s b h => ?_⟩
    cases a <;> cases h
  | cons x l ih =>
    cases hx : f x with
    | raised e =>
      have hfx : Failed (f x) := by rw [hx]; intro h; cases h
      have hret : ¬ Returned (f x) := by rw [hx]; rintro ⟨n, h⟩; cases h
      constructor
      · rintro (rfl | hall)
        · obtain ⟨k, h1, h2⟩ := (ih { st with tried := st.tried ++ [x], failures := st.failures + 1 }).1 (.inl rfl)
          refine ⟨k + 1, ?_, ⟨fun h => by omega, fun h => absurd hfx (h x List.mem_cons_self)⟩⟩
          simp only [sweepLoop, hx, Bool.false_eq_true, if_false, h1, List.append_assoc, List.singleton_append,
            List.filter_cons, decide_eq_true_eq, hx ▸ hret, Prod.mk.injEq, SweepState.mk.injEq, and_true, true_and]
          omega
        · exact absurd hfx (hall x List.mem_cons_self)
      · rintro rfl a s b hs ha hf
        cases a with
        | nil =>
          obtain ⟨rfl, rfl⟩ : x = s ∧ l = b := by simpa using hs
          refine ⟨e, _, by simp only [sweepLoop, hx, if_true]; rfl, rfl, ?_, ?_⟩
          · intro e' he; rw [hx] at he; cases he; rfl
          · rintro ⟨n, hn⟩; rw [hx] at hn; cases hn
        | cons y a =>
          obtain ⟨rfl, rfl⟩ : x = y ∧ l = a ++ s :: b := by simpa using hs
          exact absurd hfx (ha x List.mem_cons_self)
    | code n =>
      have hret : Returned (f x) := by rw [hx]; exact ⟨n, rfl⟩
      cases n with
      | zero =>
        have hfx : ¬ Failed (f x) := by rw [hx]; exact fun h => h rfl
        have step : sweepLoop f stop (x :: l) st =
            sweepLoop f stop l { st with tried := st.tried ++ [x], results := st.results ++ [x] } := by
          rw [sweepLoop, hx]
        constructor
        · intro hst
          obtain ⟨k, h1, h2⟩ := (ih { st with tried := st.tried ++ [x], results := st.results ++ [x] }).1
            (hst.imp id (fun h s hs => h s (List.mem_cons_of_mem _ hs)))
          refine ⟨k, ?_, ?_⟩
          · rw [step, h1]
            simp [hret]
          · rw [h2]
            simp [hfx]
        · rintro rfl a s b hs ha hf
          cases a with
          | nil =>
            obtain ⟨rfl, rfl⟩ : x = s ∧ l = b := by simpa using hs
            exact absurd hf hfx
          | cons y a =>
            obtain ⟨rfl, rfl⟩ : x = y ∧ l = a ++ s :: b := by simpa using hs
            obtain ⟨e, st', h1, h2, h3⟩ := (ih { st with tried := st.tried ++ [x], results := st.results ++ [x] }).2 rfl a s b
              rfl (fun z hz => ha z (List.mem_cons_of_mem _ hz)) hf
            exact ⟨e, st', step.trans h1, by rw [h2]; simp, h3⟩
      | succ n =>
        have hfx : Failed (f x) := by rw [hx]; intro h; cases h
        constructor
        · rintro (rfl | hall)
          · obtain ⟨k, h1, h2⟩ := (ih ⟨st.tried ++ [x], st.results ++ [x], st.failures + 1⟩).1 (.inl rfl)
            refine ⟨k + 1, ?_, ⟨fun h => by omega, fun h => absurd hfx (h x List.mem_cons_self)⟩⟩
            simp only [sweepLoop, hx, Bool.false_eq_true, if_false, h1, List.append_assoc, List.singleton_append,
              List.filter_cons, decide_eq_true_eq, hx ▸ hret, if_true, Prod.mk.injEq, SweepState.mk.injEq, and_true,
              true_and]
            omega
          · exact absurd hfx (hall x List.mem_cons_self)
        · rintro rfl a s b hs ha hf
          cases a with
          | nil =>
            obtain ⟨rfl, rfl⟩ : x = s ∧ l = b := by simpa using hs
            refine ⟨.runtimeError, _, by simp only [sweepLoop, hx, if_true]; rfl, rfl, ?_, fun _ => rfl⟩
            intro e' he; rw [hx] at he; cases he
          | cons y a =>
            obtain ⟨rfl, rfl⟩ : x = y ∧ l = a ++ s :: b := by simpa using hs
            exact absurd hfx (ha x List.mem_cons_self)

/-- The seeds a user asked for: `num_runs` seeds counted up from the configured one, or the configured list. -/
def Spec.Seeds (c : ExperimentConfig) (numRuns : Option Int) (seeds : List Int) : Prop :=
  (∃ n : Int, numRuns = some n ∧ 0 < n ∧ seeds.length = n.toNat ∧ ∀ i : Nat, i < n.toNat → seeds[i]? = some (c.run.seed + i)) ∨
    (numRuns = none ∧ seeds ≠ [] ∧ c.run.seeds = some seeds)

/-- A single run with one of the seeds of a sweep: what `run` does with the configuration for that seed. -/
abbrev Spec.SeedRun (run : Dict → ExperimentConfig → RunOut) (root : String) (raw : Dict) (c : ExperimentConfig) (s : Int) : RunOut :=
  run (sweepConfig c.run.name root raw s) (sweptConfig c s root)

theorem seeds_iff {c : ExperimentConfig} {numRuns : Option Int} {seeds : List Int} :
    Spec.Seeds c numRuns seeds ↔ ¬ (numRuns.any (fun n => decide (n ≤ 0)) = true) ∧
      sweepSeeds (numRuns.map Int.toNat) c.run.seed c.run.seeds = some seeds := by
  unfold Spec.Seeds sweepSeeds
  cases numRuns with
  | none =>
    simp only [Option.any_none, Bool.false_eq_true, not_false_eq_true, true_and, Option.map_none, reduceCtorEq, false_and,
      exists_false, false_or]
    rcases c.run.seeds with _ | _ | ⟨s, l⟩
    · simp
    · simp only [ne_eq, Option.some.injEq, reduceCtorEq, iff_false, not_and]
      intro h1 h2; exact h1 h2.symm
    · simp only [ne_eq, Option.some.injEq]
      constructor
      · exact fun h => h.2
      · rintro rfl; exact ⟨by simp, rfl⟩
  | some n =>
    simp only [Option.some.injEq, exists_eq_left', reduceCtorEq, false_and, or_false, Option.any_some,
      decide_eq_true_eq, not_le, Option.map_some]
    refine and_congr_right fun _ => ?_
    constructor
    · rintro ⟨h1, h2⟩
      refine List.ext_getElem? fun i => ?_
      by_cases hi : i < n.toNat
      · rw [h2 i hi, List.getElem?_map, List.getElem?_range hi]; rfl
      · rw [List.getElem?_eq_none (by simp; omega), List.getElem?_eq_none (by omega)]
    · rintro rfl
      refine ⟨by simp, fun i hi => ?_⟩
      rw [List.getElem?_map, List.getElem?_range hi]; rfl

theorem experiment_eq {env : SchemaEnv} (hl : EnvLaw env) (run : Dict → ExperimentConfig → RunOut) (root : String) {raw : Dict}
    {c : ExperimentConfig} (hc : configFromDict env raw = .ok c) {numRuns : Option Int} {seeds : List Int}
    (hs : Spec.Seeds c numRuns seeds) :
    runExperiment env run root raw numRuns =
      sweepEnd (sweepLoop (Spec.SeedRun run root raw c) (c.run.benchmarkMode || c.run.failFast) seeds ⟨[], [], 0⟩).1
        (sweepLoop (Spec.SeedRun run root raw c) (c.run.benchmarkMode || c.run.failFast) seeds ⟨[], [], 0⟩).2 := by
  obtain ⟨h1, h2⟩ := seeds_iff.mp hs
  unfold runExperiment
  rw [if_neg h1, hc]
  simp only [h2]
  have : sweepSingle env run c.run.name root raw = Spec.SeedRun run root raw c := by
    funext s
    unfold sweepSingle
    rw [C130_sweep env hl raw c hc s root]
  rw [this]

/-- C136: a sweep that does not stop on failure runs every seed, whatever fails; its exit code is 0 exactly if every run
ended with 0 and 1 otherwise; its summary has exactly the runs that returned, in the order of the seeds, and there is no
summary if none did. -/
theorem C136_keep_going (env : SchemaEnv) (hl : EnvLaw env) (run : Dict → ExperimentConfig → RunOut) (root : String) (raw : Dict)
    (c : ExperimentConfig) (hc : configFromDict env raw = .ok c) (numRuns : Option Int) (seeds : List Int)
    (hs : Spec.Seeds c numRuns seeds) (hb : c.run.benchmarkMode = false) (hf : c.run.failFast = false) :
    (runExperiment env run root raw numRuns).tried = seeds ∧
    ((∀ s ∈ seeds, ¬ Failed (Spec.SeedRun run root raw c s)) → (runExperiment env run root raw numRuns).out = .ok 0) ∧
    ((∃ s ∈ seeds, Failed (Spec.SeedRun run root raw c s)) → (runExperiment env run root raw numRuns).out = .ok 1) ∧
    (∀ l, (runExperiment env run root raw numRuns).summary = some l ↔
      l ≠ [] ∧ l = seeds.filter (fun s => decide (Returned (Spec.SeedRun run root raw c s)))) := by
  rw [experiment_eq hl run root hc hs, hb, hf]
  obtain ⟨k, h1, h2⟩ := (sweepLoop_spec (Spec.SeedRun run root raw c) (false || false) seeds ⟨[], [], 0⟩).1 (.inl rfl)
  rw [h1]
  simp only [sweepEnd, List.nil_append, Nat.zero_add, true_and]
  refine ⟨fun h => ?_, fun ⟨s, hs, hfs⟩ => ?_, fun l => ?_⟩
  · rw [if_pos (h2.mpr h)]
  · rw [if_neg (fun hk => h2.mp hk s hs hfs)]
  · split
    · rename_i he
      simp only [reduceCtorEq, false_iff, not_and]
      intro hne hl'; exact hne (hl'.trans he)
    · rename_i he
      simp only [Option.some.injEq]
      constructor
      · rintro rfl; exact ⟨he, rfl⟩
      · exact fun h => h.2.symm

/-- C136: a sweep that stops on failure runs the seeds up to and including the first that fails and no others, writes no
summary, and ends with the error of that run (or with a runtime error if the run only returned a nonzero code). -/
theorem C136_fail_fast (env : SchemaEnv) (hl : EnvLaw env) (run : Dict → ExperimentConfig → RunOut) (root : String) (raw : Dict)
    (c : ExperimentConfig) (hc : configFromDict env raw = .ok c) (numRuns : Option Int) (a : List Int) (s : Int) (b : List Int)
    (hs : Spec.Seeds c numRuns (a ++ s :: b)) (hstop : c.run.benchmarkMode = true ∨ c.run.failFast = true)
    (ha : ∀ x ∈ a, ¬ Failed (Spec.SeedRun run root raw c x)) (hf : Failed (Spec.SeedRun run root raw c s)) :
    (runExperiment env run root raw numRuns).tried = a ++ [s] ∧ (runExperiment env run root raw numRuns).summary = none ∧
    (∀ e, Spec.SeedRun run root raw c s = .raised e → (runExperiment env run root raw numRuns).out = .error e) ∧
    (Returned (Spec.SeedRun run root raw c s) → (runExperiment env run root raw numRuns).out = .error .runtimeError) := by
  rw [experiment_eq hl run root hc hs]
  have hst : (c.run.benchmarkMode || c.run.failFast) = true := by rcases hstop with h | h <;> simp [h]
  rw [hst]
  obtain ⟨e, st', h1, h2, h3, h4⟩ := (sweepLoop_spec (Spec.SeedRun run root raw c) true (a ++ s :: b) ⟨[], [], 0⟩).2 rfl a s b rfl
    ha hf
  rw [h1]
  simp only [sweepEnd, h2, List.nil_append, true_and]
  exact ⟨fun e' he => by rw [h3 e' he], fun hr => by rw [h4 hr]⟩

/-- C136: whatever the settings, a sweep ends with exit code 0 exactly if every run did, and then all of them are in the
summary. -/
theorem C136_exit_zero (env : SchemaEnv) (hl : EnvLaw env) (run : Dict → ExperimentConfig → RunOut) (root : String) (raw : Dict)
    (c : ExperimentConfig) (hc : configFromDict env raw = .ok c) (numRuns : Option Int) (seeds : List Int)
    (hs : Spec.Seeds c numRuns seeds) :
    ((runExperiment env run root raw numRuns).out = .ok 0 ↔ ∀ s ∈ seeds, Spec.SeedRun run root raw c s = .code 0) ∧
    ((runExperiment env run root raw numRuns).out = .ok 0 → (runExperiment env run root raw numRuns).tried = seeds ∧
      (runExperiment env run root raw numRuns).summary = some seeds) := by
  have hne : seeds ≠ [] := by
    rcases hs with ⟨n, -, h0, h1, -⟩ | ⟨-, h, -⟩
    · intro h; rw [h] at h1; simp at h1; omega
    · exact h
  have hiff : (∀ s ∈ seeds, Spec.SeedRun run root raw c s = .code 0) ↔ ∀ s ∈ seeds, ¬ Failed (Spec.SeedRun run root raw c s) := by
    simp [Failed]
  rw [experiment_eq hl run root hc hs]
  have key := sweepLoop_spec (Spec.SeedRun run root raw c) (c.run.benchmarkMode || c.run.failFast) seeds ⟨[], [], 0⟩
  by_cases hall : ∀ s ∈ seeds, ¬ Failed (Spec.SeedRun run root raw c s)
  · obtain ⟨k, h1, h2⟩ := key.1 (.inr hall)
    rw [h1, hiff]
    have hfil : seeds.filter (fun s => decide (Returned (Spec.SeedRun run root raw c s))) = seeds := by
      rw [List.filter_eq_self]
      intro s hs'
      exact decide_eq_true ⟨0, hiff.mpr hall s hs'⟩
    simp only [sweepEnd, h2.mpr hall, if_true, hfil, List.nil_append, if_neg hne, true_iff, Nat.add_zero]
    exact ⟨hall, by simp⟩
  · rw [hiff]
    by_cases hstop : (c.run.benchmarkMode || c.run.failFast) = false
    · obtain ⟨k, h1, h2⟩ := key.1 (.inl hstop)
      rw [h1]
      have hk : k ≠ 0 := fun h => hall (h2.mp h)
      simp [sweepEnd, hk, hall]
    · -- some first failure
      have hex : ∃ a s b, seeds = a ++ s :: b ∧ (∀ x ∈ a, ¬ Failed (Spec.SeedRun run root raw c x)) ∧
          Failed (Spec.SeedRun run root raw c s) := by
        clear hne hiff key hs
        induction seeds with
        | nil => exact absurd (fun s hs => by cases hs) hall
        | cons x l ih =>
          by_cases hx : Failed (Spec.SeedRun run root raw c x)
          · exact ⟨[], x, l, rfl, by simp, hx⟩
          · obtain ⟨a, s, b, rfl, h1, h2⟩ := ih (fun h => hall (by
              intro s hs
              rcases List.mem_cons.mp hs with rfl | hs
              · exact hx
              · exact h s hs))
            refine ⟨x :: a, s, b, rfl, ?_, h2⟩
            intro y hy
            rcases List.mem_cons.mp hy with rfl | hy
            · exact hx
            · exact h1 y hy
      obtain ⟨a, s, b, hsb, ha, hf⟩ := hex
      obtain ⟨e, st', h1, -⟩ := key.2 (by cases h : (c.run.benchmarkMode || c.run.failFast) <;> simp_all) a s b hsb ha hf
      rw [h1]
      simp [sweepEnd, hall]

/-- C136: a number of runs that is not positive is refused before anything is run. -/
theorem C136_num_runs (env : SchemaEnv) (run : Dict → ExperimentConfig → RunOut) (root : String) (raw : Dict) (n : Int) (h : n ≤ 0) :
    runExperiment env run root raw (some n) = ⟨[], none, .error .valueError⟩ := by
  unfold runExperiment
  simp [h]

/-- C136: without a run count and without seeds there is one run, with the configuration as given, and no summary. -/
theorem C136_plain (env : SchemaEnv) (run : Dict → ExperimentConfig → RunOut) (root : String) (raw : Dict)
    (c : ExperimentConfig) (hc : configFromDict env raw = .ok c) (hs : c.run.seeds = none ∨ c.run.seeds = some []) :
    (runExperiment env run root raw none).tried = [c.run.seed] ∧ (runExperiment env run root raw none).summary = none ∧
      (∀ n, run raw c = .code n → (runExperiment env run root raw none).out = .ok n) ∧
      ∀ e, run raw c = .raised e → (runExperiment env run root raw none).out = .error e := by
  unfold runExperiment
  rw [hc]
  have : sweepSeeds ((none : Option Int).map Int.toNat) c.run.seed c.run.seeds = none := by
    rcases hs with h | h <;> rw [h] <;> rfl
  simp only [Option.any_none, Bool.false_eq_true, if_false, this, true_and]
  exact ⟨fun n h => by rw [h]; rfl, fun e h => by rw [h]; rfl⟩

/-- Three runs, of which the second fails. -/
example : runExperiment demoSchemaEnv (fun _ c => if c.run.seed = 4 then .code 1 else .code 0) "r"
      (Assoc.set (demoConfig "grid" (.list [.int 1, .int 2])) "run" (.dict [("name", .str "a"), ("seed", .int 3), ("output_dir", .str "runs"), ("fail_fast", .bool false)]))
      (some 3) = ⟨[3, 4, 5], some [3, 4, 5], .ok 1⟩ := by decide +kernel

example : runExperiment demoSchemaEnv (fun _ c => if c.run.seed = 4 then .raised .keyError else .code 0) "r"
      (Assoc.set (demoConfig "grid" (.list [.int 1, .int 2])) "run" (.dict [("name", .str "a"), ("seed", .int 3), ("output_dir", .str "runs"), ("fail_fast", .bool true)]))
      (some 3) = ⟨[3, 4], none, .error .keyError⟩ := by decide +kernel

end ModSSC.Bench
