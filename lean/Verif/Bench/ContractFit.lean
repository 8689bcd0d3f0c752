import Verif.Bench.ContractProps

/-!
# Reading plans and fitting on the named rows (C133, C134); witnesses for C132
-/

namespace ModSSC.Bench
open ModSSC ModSSC.Bench.Spec
open ModSSC.Hpo (searchTrials deepMerge Draw Kind Trial)
open ModSSC.Hpo.Spec (Valid ValidList ValidDict getPath)

/-! ### Reading plans -/

theorem onlyKeys_ok {d : Dict} {ks : List String} : onlyKeys d ks = .ok () ↔ OnlyKeys d ks := by
  unfold onlyKeys OnlyKeys
  split
  · rename_i h
    simpa using h
  · rename_i h
    simp only [List.all_eq_true, decide_eq_true_eq] at h
    simp only [reduceCtorEq, false_iff]
    exact h

theorem strItems_ok {env : SchemaEnv} {d : Dict} {k : String} {ws : List String} :
    strItems env (getOr d k .none) = .ok ws ↔ WordsIs env d k ws := by
  unfold strItems WordsIs getOr
  have hc : ∀ l : List String, (Except.ok l : Except PyErr (List String)) = .ok ws ↔ ws = l := fun l => by
    rw [Except.ok.injEq]; exact eq_comm
  cases h : Assoc.get d k with
  | none => simp [truthy_none, hc]
  | some v =>
    cases hv : v.truthy with
    | false => simp [hv, hc]
    | true => cases v <;> simp [hv, hc]

theorem paramsOf_ok {item p : Dict} :
    paramsOf item = .ok p ↔ (∀ v, Assoc.get item "params" = some v → v.truthy = false) ∧ p = [] ∨
      Assoc.get item "params" = some (.dict p) ∧ p ≠ [] := by
  unfold paramsOf getOr
  have hc : ∀ l : Dict, (Except.ok l : Except PyErr Dict) = .ok p ↔ p = l := fun l => by
    rw [Except.ok.injEq]; exact eq_comm
  cases h : Assoc.get item "params" with
  | none => simp [PyVal.truthy, hc]
  | some v =>
    cases hv : v.truthy with
    | false =>
      simp only [Option.getD_some, hv, Bool.not_false, if_true, hc, Option.some.injEq, forall_eq', true_and]
      constructor
      · exact .inl
      · rintro (h | ⟨rfl, h⟩)
        · exact h
        · cases p with
          | nil => rfl
          | cons a p => simp [PyVal.truthy] at hv
    | true =>
      cases v with
      | dict d =>
        simp only [Option.getD_some, hv, Bool.not_true, Bool.false_eq_true, if_false, hc, Option.some.injEq,
          forall_eq', PyVal.dict.injEq, reduceCtorEq, false_and, false_or]
        constructor
        · rintro rfl
          refine ⟨rfl, ?_⟩
          rintro rfl
          simp [PyVal.truthy] at hv
        · exact fun h => h.1.symm
      | _ => simp [hv]

theorem idConflict_false {env : SchemaEnv} {item : Dict} :
    idConflict env item = false ↔
      ∀ a b, Assoc.get item "id" = some a → Assoc.get item "step_id" = some b → pyStr env a = pyStr env b := by
  unfold idConflict
  cases Assoc.get item "id" <;> cases Assoc.get item "step_id" <;> simp

theorem guard_ok {P : Prop} [Decidable P] {e : PyErr} :
    (if P then (.error e : Except PyErr Unit) else .ok ()) = .ok () ↔ ¬ P := by
  split <;> simp_all

theorem stepFromVal_ok {env : SchemaEnv} {v : PyVal} {s : StepPlan} :
    stepFromVal env v = .ok s ↔ ∃ item, v = .dict item ∧ StepMeans env item s := by
  unfold stepFromVal
  cases v with
  | dict item =>
    simp only [PyVal.dict.injEq, exists_eq_left']
    have hu : ∀ {x : Except PyErr Unit} {P : Prop}, (∃ a, x = .ok a ∧ P) ↔ x = .ok () ∧ P := by
      intro x P
      exact ⟨fun ⟨_, h⟩ => h, fun h => ⟨(), h⟩⟩
    simp only [ebind_ok, hu, guard_ok, onlyKeys_ok, paramsOf_ok, strItems_ok, Bool.not_eq_true, pure, Except.pure,
      Except.ok.injEq, idConflict_false]
    have hen : ∀ b : Bool, (getOr item "enabled" (.bool true)).truthy = b ↔
        ((∃ v, Assoc.get item "enabled" = some v ∧ b = v.truthy) ∨ Assoc.get item "enabled" = none ∧ b = true) := by
      intro b
      unfold getOr
      cases Assoc.get item "enabled" <;> simp [PyVal.truthy, eq_comm]
    constructor
    · rintro ⟨h1, h2, h3, p, h4, m, h5, f, h6, rfl⟩
      exact ⟨h1, h2, stepIdOf_ne.mp ⟨rfl, h3⟩, h4, h5, h6, (hen _).mp rfl⟩
    · rintro ⟨h1, h2, h3, h4, h5, h6, h7⟩
      have h3 := stepIdOf_ne.mpr h3
      obtain ⟨i, p, m, f, e⟩ := s
      refine ⟨h1, h2, by rw [h3.1]; exact h3.2, p, h4, m, h5, f, h6, ?_⟩
      rw [h3.1, (hen _).mpr h7]
  | _ => simp

/-- C134: a preprocessing plan is accepted exactly when it has a meaning, and then it is read as that. -/
theorem C134_meaning (env : SchemaEnv) (v : PyVal) (p : PrePlan) :
    planFromDict env v = .ok p ↔ ∃ d, v = .dict d ∧ PrePlanMeans env d p := by
  unfold planFromDict
  cases v with
  | dict d =>
    simp only [PyVal.dict.injEq, exists_eq_left', ebind_ok]
    have hout : ∀ s, pyStr env (getOr d "output_key" (.str "features.X")) = s ↔
        PrintedOr env d "output_key" "features.X" s := by
      intro s
      unfold getOr PrintedOr
      cases Assoc.get d "output_key" <;> simp [eq_comm, pyStr]
    constructor
    · rintro ⟨_, h1, h⟩
      have h1 := onlyKeys_ok.mp h1
      unfold getOr at h
      cases hs : Assoc.get d "steps" with
      | none =>
        rw [hs] at h
        simp only [Option.getD_none, List.mapM_nil] at h
        cases h
        exact ⟨h1, (hout _).mp rfl, .inr ⟨hs, rfl⟩⟩
      | some w =>
        rw [hs] at h
        cases w with
        | list l =>
          simp only [Option.getD_some, ebind_ok, mapM_ok] at h
          obtain ⟨st, hf, h⟩ := h
          cases h
          exact ⟨h1, (hout _).mp rfl, .inl ⟨l, hs, hf.imp fun _ _ hab => stepFromVal_ok.mp hab⟩⟩
        | _ => cases h
    · rintro ⟨h1, h2, h3⟩
      refine ⟨(), onlyKeys_ok.mpr h1, ?_⟩
      obtain ⟨o, st⟩ := p
      unfold getOr
      rcases h3 with ⟨l, hs, hf⟩ | ⟨hs, h3⟩
      · rw [hs]
        simp only [Option.getD_some, ebind_ok]
        exact ⟨st, mapM_ok.mpr (hf.imp fun _ _ hab => stepFromVal_ok.mpr hab), by rw [← (hout o).mpr h2]; rfl⟩
      · dsimp only at h3
        subst h3
        rw [hs, ← (hout o).mpr h2]
        rfl
  | _ => simp

/-- The checks before the run see the steps that the plan runs. -/
theorem plan_ids {env : SchemaEnv} {d : Dict} {p : PrePlan} {ids : List String} (hp : PrePlanMeans env d p)
    (hi : StepIds env d ids) : p.steps.map (·.id) = ids := by
  rcases hp.steps with ⟨l, hl, hf⟩ | ⟨hn, hs⟩
  · rcases hi with ⟨l', hl', hf'⟩ | ⟨hn', -⟩
    · rw [hl] at hl'
      cases hl'
      clear hl hp
      revert hf
      generalize p.steps = st
      intro hf
      induction hf generalizing ids with
      | nil => cases hf'; rfl
      | cons hab _ ih =>
        cases hf' with
        | cons hac hf' =>
          obtain ⟨item, rfl, hm⟩ := hab
          obtain ⟨item', he, hi⟩ := hac
          cases he
          rw [List.map_cons, ih hf']
          rw [← (stepIdOf_ne.mpr hm.id).1, (stepIdOf_ne.mpr hi).1]
    · rw [hl] at hn'; cases hn'
  · rcases hi with ⟨l', hl', -⟩ | ⟨-, rfl⟩
    · rw [hn] at hl'; cases hl'
    · rw [hs]; rfl

theorem fitNamed_some {env : ContractEnv} {fitOn : Option String} {ids : List String} (h : FitNamed env fitOn ids)
    {s : String} (hs : s ∈ ids) (hf : env.fittable s = .ok true) : ∃ f, fitOn = some f := by
  rcases h with h | ⟨h, -⟩
  · rw [h s hs] at hf; cases hf
  · exact h

theorem getKey_map_some {β : Type} {l : List (String × β)} {k : String} {r : Option β} :
    (getKey l k).map some = .ok r ↔ ∃ b, Assoc.get l k = some b ∧ r = some b := by
  unfold getKey
  cases Assoc.get l k with
  | none => simp [Except.map]
  | some v => simp [Except.map, eq_comm]

theorem resolveFit_ok {s : Sampling} {f : String} {r : Option (List Nat)} (h : resolveFit s (some f) = .ok r) :
    ∃ rows, r = some rows ∧ IsPart s f rows := by
  cases s with
  | index i =>
    unfold resolveFit at h
    simp only at h
    split at h
    · rename_i hf
      obtain ⟨b, hb, rfl⟩ := getKey_map_some.mp h
      exact ⟨b, rfl, by simpa using hf, hb⟩
    · cases h
  | graph g =>
    unfold resolveFit at h
    simp only at h
    split at h
    · cases h; exact ⟨_, rfl, .inl ⟨by assumption, whereTrue_positions _⟩⟩
    split at h
    · cases h; exact ⟨_, rfl, .inr (.inl ⟨by assumption, whereTrue_positions _⟩)⟩
    split at h
    · cases h; exact ⟨_, rfl, .inr (.inr (.inl ⟨by assumption, whereTrue_positions _⟩))⟩
    split at h
    · cases h; exact ⟨_, rfl, .inr (.inr (.inr ⟨by assumption, whereTrue_positions _⟩))⟩
    · cases h

/-- No part that can be named holds a test sample. -/
theorem part_not_test {s : Sampling} (hs : ValidSampling s) {f : String} {rows : List Nat} (h : IsPart s f rows) :
    ∀ i ∈ rows, ¬ IsTest s i := by
  cases s with
  | index x =>
    obtain ⟨hf, hg⟩ := h
    rintro i hi ⟨hr, b, hb, hib⟩
    rcases hf with rfl | rfl | rfl | rfl
    · exact hs.train _ _ hg hb hr i hi hib
    · obtain ⟨t, ht, hsub⟩ := hs.parts _ (.inl rfl) _ hg
      exact hs.train _ _ ht hb hr i (hsub i hi) hib
    · obtain ⟨t, ht, hsub⟩ := hs.parts _ (.inr rfl) _ hg
      exact hs.train _ _ ht hb hr i (hsub i hi) hib
    · exact hs.val _ _ hg hb hr i hi hib
  | graph g =>
    intro i hi ht
    rcases h with ⟨-, h⟩ | ⟨-, h⟩ | ⟨-, h⟩ | ⟨-, h⟩
    · exact hs.train i ((h.2 i).mp hi) ht
    · exact hs.train i (hs.labeled i ((h.2 i).mp hi)) ht
    · exact hs.train i (hs.unlabeled i ((h.2 i).mp hi)) ht
    · exact hs.val i ((h.2 i).mp hi) ht

/-- C133: a step that learns from data learns from the rows of the part that the configuration names, and from no test
sample, in benchmark mode or not. -/
theorem C133_fit_rows (env : ContractEnv) (cfg : ExperimentConfig) (raw : Dict) (hv : Valid (.dict raw))
    (hp : preflight env cfg raw = .ok ()) (plan : PrePlan)
    (hplan : planFromDict env.schema (.dict cfg.preprocess.plan) = .ok plan) (st : StepPlan) (hst : st ∈ plan.steps)
    (hfit : env.fittable st.id = .ok true) (s : Sampling) (rows : Option (List Nat))
    (hr : resolveFit s cfg.preprocess.fitOn = .ok rows) :
    ∃ f idx, cfg.preprocess.fitOn = some f ∧ rows = some idx ∧ IsPart s f idx ∧
      (ValidSampling s → ∀ i ∈ idx, ¬ IsTest s i) := by
  obtain ⟨pre, views, h1, h2, h3, h4, h5⟩ := (C132_accepts env cfg raw hv).mp hp
  obtain ⟨d, hd, hm⟩ := (C134_meaning env.schema _ plan).mp hplan
  cases hd
  have hmem : st.id ∈ pre := by
    rw [← plan_ids hm h1]
    exact List.mem_map_of_mem hst
  obtain ⟨f, hf⟩ := fitNamed_some h3 hmem hfit
  rw [hf] at hr
  obtain ⟨idx, hidx, hpart⟩ := resolveFit_ok hr
  exact ⟨f, idx, hf, hidx, hpart, fun hs => part_not_test hs hpart⟩

theorem viewFromVal_plan {env : SchemaEnv} {v : PyVal} {n : String} {p : PrePlan}
    (h : viewFromVal env v = .ok (n, some p)) :
    ∃ view d, v = .dict view ∧ Assoc.get view "preprocess" = some (.dict d) ∧ PrePlanMeans env d p := by
  cases v with
  | dict view =>
    unfold viewFromVal at h
    simp only [ebind_ok, pure, Except.pure, Except.ok.injEq, Prod.mk.injEq] at h
    obtain ⟨_, -, _, -, o, ho, -, rfl⟩ := h
    unfold viewPlanOf getOr at ho
    cases hg : Assoc.get view "preprocess" with
    | none => rw [hg] at ho; cases ho
    | some w =>
      rw [hg] at ho
      simp only [Option.getD_some] at ho
      split at ho
      · cases ho
      · cases hpl : planFromDict env w with
        | error e => rw [hpl] at ho; cases ho
        | ok q =>
          rw [hpl] at ho
          cases ho
          obtain ⟨d, rfl, hm⟩ := (C134_meaning env w p).mp hpl
          exact ⟨view, d, rfl, hg, hm⟩
  | _ => cases h

/-- C134: a view is accepted exactly when it is a dictionary with known keys and a name that is not empty, without preprocessing plan or with
one that has a meaning. -/
theorem C134_views (env : SchemaEnv) (v : PyVal) (n : String) (p : Option PrePlan) :
    viewFromVal env v = .ok (n, p) ↔ ∃ view, v = .dict view ∧
      (∀ k ∈ Assoc.keys view, k = "name" ∨ k = "preprocess" ∨ k = "columns" ∨ k = "meta") ∧
      PrintedOr env view "name" "" n ∧ n ≠ "" ∧
      ((p = none ∧ (Assoc.get view "preprocess" = none ∨ Assoc.get view "preprocess" = some .none)) ∨
        ∃ d q, p = some q ∧ Assoc.get view "preprocess" = some (.dict d) ∧ PrePlanMeans env d q) := by
  cases v with
  | dict view =>
    have hname : ∀ s, pyStr env (getOr view "name" (.str "")) = s ↔ PrintedOr env view "name" "" s := by
      intro s
      unfold getOr PrintedOr
      cases Assoc.get view "name" <;> simp [eq_comm, pyStr]
    have hplan : viewPlanOf env view = .ok p ↔
        ((p = none ∧ (Assoc.get view "preprocess" = none ∨ Assoc.get view "preprocess" = some .none)) ∨
        ∃ d q, p = some q ∧ Assoc.get view "preprocess" = some (.dict d) ∧ PrePlanMeans env d q) := by
      unfold viewPlanOf getOr
      cases hg : Assoc.get view "preprocess" with
      | none => simp [eq_comm]
      | some w =>
        rw [Option.getD_some]
        have hm : ∀ w, ((planFromDict env w).map some = .ok p) ↔ ∃ d q, p = some q ∧ w = .dict d ∧ PrePlanMeans env d q := by
          intro w
          constructor
          · intro h
            cases hpl : planFromDict env w with
            | error e => rw [hpl] at h; cases h
            | ok q =>
              rw [hpl] at h
              obtain ⟨d, rfl, hmm⟩ := (C134_meaning env w q).mp hpl
              exact ⟨d, q, (Except.ok.inj h).symm, rfl, hmm⟩
          · rintro ⟨d, q, rfl, rfl, hmm⟩
            rw [(C134_meaning env (.dict d) q).mpr ⟨d, rfl, hmm⟩]
            rfl
        cases w with
        | none => simp [eq_comm]
        | _ => rw [hm]; simp
    unfold viewFromVal
    simp only [ebind_ok, pure, Except.pure, Except.ok.injEq, Prod.mk.injEq, PyVal.dict.injEq, exists_eq_left']
    constructor
    · rintro ⟨_, h1, _, h2, o, ho, hn, rfl⟩
      refine ⟨?_, (hname n).mp hn, ?_, hplan.mp ho⟩
      · intro k hk
        simpa using onlyKeys_ok.mp h1 k hk
      · rw [← hn]
        exact guard_ok.mp h2
    · rintro ⟨h1, h2, h3, h4⟩
      have hn := (hname n).mpr h2
      refine ⟨(), onlyKeys_ok.mpr fun k hk => (by simpa using h1 k hk), (), guard_ok.mpr (by rw [hn]; exact h3), p, hplan.mpr h4, hn, rfl⟩
  | _ =>
    constructor
    · intro h; cases h
    · rintro ⟨_, h, -⟩; cases h

/-- C133: same for the steps of the views. -/
theorem C133_view_rows (env : ContractEnv) (cfg : ExperimentConfig) (raw : Dict) (hv : Valid (.dict raw))
    (hp : preflight env cfg raw = .ok ()) (vc : PlanConfig) (hvc : cfg.views = some vc)
    (views : List (String × Option PrePlan)) (hviews : viewsPlanFromDict env.schema vc.plan = .ok views)
    (n : String) (plan : PrePlan) (hn : (n, some plan) ∈ views) (st : StepPlan) (hst : st ∈ plan.steps)
    (hfit : env.fittable st.id = .ok true) (s : Sampling) (rows : Option (List Nat))
    (hr : resolveFit s cfg.preprocess.fitOn = .ok rows) :
    ∃ f idx, cfg.preprocess.fitOn = some f ∧ rows = some idx ∧ IsPart s f idx ∧
      (ValidSampling s → ∀ i ∈ idx, ¬ IsTest s i) := by
  obtain ⟨pre, ids, h1, h2, h3, h4, h5⟩ := (C132_accepts env cfg raw hv).mp hp
  have hmem : st.id ∈ ids := by
    clear h1 h3 h4 h5
    rw [hvc] at h2
    simp only [AllViewIds] at h2
    unfold viewsPlanFromDict at hviews
    rw [ebind_ok] at hviews
    obtain ⟨_, -, hviews⟩ := hviews
    unfold getOr at hviews
    rcases h2 with ⟨hno, rfl⟩ | ⟨l, parts, hl, rfl, hf⟩
    · cases hg : Assoc.get vc.plan "views" with
      | none =>
        rw [hg] at hviews
        cases hviews
        cases hn
      | some w =>
        rw [hg] at hviews
        cases w with
        | list l => exact absurd hg (hno l)
        | _ => cases hviews
    · rw [hl] at hviews
      simp only [Option.getD_some, mapM_ok] at hviews
      clear hl
      induction hviews generalizing parts with
      | nil => cases hn
      | cons hab _ ih =>
        cases hf with
        | cons hac hf =>
          rw [List.flatten_cons, List.mem_append]
          rcases List.mem_cons.mp hn with heq | hn
          · left
            subst heq
            obtain ⟨view, d, rfl, hg, hm⟩ := viewFromVal_plan hab
            rcases hac with ⟨view', d', he, hg', hids⟩ | ⟨hno, -⟩
            · cases he
              rw [hg] at hg'
              cases hg'
              rw [← plan_ids hm hids]
              exact List.mem_map_of_mem hst
            · exact absurd hg (hno _ _ rfl)
          · right
            exact ih hn _ hf
  obtain ⟨f, hf⟩ := fitNamed_some h4 hmem hfit
  rw [hf] at hr
  obtain ⟨idx, hidx, hpart⟩ := resolveFit_ok hr
  exact ⟨f, idx, hf, hidx, hpart, fun hs => part_not_test hs hpart⟩

/-! ### The hypotheses are met, and what is not guaranteed -/

/-- Plain versions of the string functions; `core.pca` is the only fittable step, no method has a `backend`. -/
def demoContractEnv : ContractEnv where
  schema := demoSchemaEnv
  isAuto s := s == "auto"
  hasBackend _ _ := .ok false
  fittable s := .ok (s == "core.pca")

/-- A configuration in benchmark mode that searches over the backend of the classifier. -/
def demoBench (split : String) (fitOn : List (String × PyVal)) (backends : List PyVal) : Dict :=
  [("run", .dict [("name", .str "toy"), ("seed", .int 1), ("fail_fast", .bool true), ("benchmark_mode", .bool true)]),
   ("dataset", .dict [("id", .str "toy"), ("download", .bool false), ("cache_dir", .str "/data")]),
   ("sampling", .dict [("plan", .dict [("split", .dict [])])]),
   ("preprocess", .dict ([("cache", .bool false),
      ("plan", .dict [("steps", .list [.dict [("id", .str "core.pca"), ("params", .dict [("n", .int 2)])]])])] ++ fitOn)),
   ("method", .dict [("kind", .str "inductive"), ("id", .str "pseudo_label"),
      ("device", .dict [("device", .str "cpu"), ("dtype", .str "float32")]),
      ("params", .dict [("classifier_backend", .str "numpy")])]),
   ("evaluation", .dict [("report_splits", .list [.str "val", .str "test"]), ("metrics", .list [.str "accuracy"]),
      ("split_for_model_selection", .str split)]),
   ("search", .dict [("enabled", .bool true), ("kind", .str "grid"),
      ("objective", .dict [("split", .str split), ("metric", .str "accuracy"), ("direction", .str "maximize"),
        ("aggregate", .str "mean")]),
      ("space", .dict [("method", .dict [("params", .dict [("classifier_backend", .list backends)])])])])]

def demoFitOn : List (String × PyVal) := [("fit_on", .str "train")]

theorem demoBench_valid (split : String) (backends : List PyVal) (hb : ValidList backends) :
    Valid (.dict (demoBench split demoFitOn backends)) := by
  simp [Valid, ValidDict, ValidList, demoBench, demoFitOn, Assoc.keys, hb]

/-- A pinned configuration runs. -/
example : (do
      let c ← lift (configFromDict demoSchemaEnv (demoBench "val" demoFitOn [.str "numpy", .str "sklearn"]))
      preflight demoContractEnv c (demoBench "val" demoFitOn [.str "numpy", .str "sklearn"])) = .ok () := by
  decide +kernel

/-- Without the rows to fit on it does not. -/
example : (do
      let c ← lift (configFromDict demoSchemaEnv (demoBench "val" [] [.str "numpy", .str "sklearn"]))
      preflight demoContractEnv c (demoBench "val" [] [.str "numpy", .str "sklearn"])) =
    .error (.code "E_BENCH_FIT_ON_REQUIRED") := by
  decide +kernel

/-- An `auto` deep inside is found and named. -/
example : (do
      let c ← lift (configFromDict demoSchemaEnv (demoBench "val" demoFitOn [.dict [("device", .str "auto")]]))
      preflight demoContractEnv c (demoBench "val" demoFitOn [.dict [("device", .str "auto")]])) =
    .error (.auto [[.inl "search", .inl "space", .inl "method", .inl "params", .inl "classifier_backend", .inr 0,
      .inl "device"]]) := by
  decide +kernel

/-- C132 is violated: a configuration that passes the contract runs trials, in benchmark mode, whose classifier backend is
left to `auto`. -/
theorem C132_trials_violated :
    ∃ raw cfg sc trials t, Valid (.dict raw) ∧ configFromDict demoSchemaEnv raw = .ok cfg ∧
      cfg.run.benchmarkMode = true ∧ preflight demoContractEnv cfg raw = .ok () ∧ cfg.search = some sc ∧
      sc.enabled = true ∧ searchTrials Draw.demo .grid sc.space = .ok trials ∧ t ∈ trials ∧
      AutoAt demoContractEnv.isAuto (.dict (trialConfig raw t.patch))
        [.key "method", .key "params", .key "classifier_backend"] := by
  have hv := demoBench_valid "val" [.str "numpy", .str "auto"] (by simp [ValidList, Valid])
  generalize hraw : demoBench "val" demoFitOn [.str "numpy", .str "auto"] = raw at hv
  have h1 : (match configFromDict demoSchemaEnv raw with
      | .error _ => false
      | .ok cfg => cfg.run.benchmarkMode && decide (preflight demoContractEnv cfg raw = .ok ()) &&
        (match cfg.search with
         | none => false
         | some sc => sc.enabled &&
           (match searchTrials Draw.demo .grid sc.space with
            | .error _ => false
            | .ok trials => trials.any (fun t => decide (lookup [.key "method", .key "params", .key "classifier_backend"]
                (.dict (trialConfig raw t.patch)) = some (.str "auto")))))) = true := by
    subst hraw
    decide +kernel
  split at h1
  · cases h1
  · rename_i cfg hcfg
    simp only [Bool.and_eq_true, decide_eq_true_eq] at h1
    obtain ⟨⟨hb, hp⟩, h1⟩ := h1
    split at h1
    · cases h1
    · rename_i sc hsc
      simp only [Bool.and_eq_true] at h1
      obtain ⟨he, h1⟩ := h1
      split at h1
      · cases h1
      · rename_i trials htr
        rw [List.any_eq_true] at h1
        obtain ⟨t, ht, h1⟩ := h1
        exact ⟨raw, cfg, sc, trials, t, hv, hcfg, hb, hp, hsc, he, htr, ht,
          [.key "method", .key "params"], "classifier_backend", "auto", rfl, by simp, by simpa using h1, rfl⟩

/-- C132 is violated: the contract lets a search select its parameters by their score on the test samples. -/
theorem C132_test_violated :
    ∃ raw cfg sc, Valid (.dict raw) ∧ configFromDict demoSchemaEnv raw = .ok cfg ∧
      cfg.run.benchmarkMode = true ∧ preflight demoContractEnv cfg raw = .ok () ∧ cfg.search = some sc ∧
      sc.enabled = true ∧ sc.objective.split = "test" := by
  have hv := demoBench_valid "test" [.str "numpy"] (by simp [ValidList, Valid])
  generalize hraw : demoBench "test" demoFitOn [.str "numpy"] = raw at hv
  have h1 : (match configFromDict demoSchemaEnv raw with
      | .error _ => false
      | .ok cfg => cfg.run.benchmarkMode && decide (preflight demoContractEnv cfg raw = .ok ()) &&
        (match cfg.search with
         | none => false
         | some sc => sc.enabled && decide (sc.objective.split = "test"))) = true := by
    subst hraw
    decide +kernel
  split at h1
  · cases h1
  · rename_i cfg hcfg
    simp only [Bool.and_eq_true, decide_eq_true_eq] at h1
    obtain ⟨⟨hb, hp⟩, h1⟩ := h1
    split at h1
    · cases h1
    · rename_i sc hsc
      simp only [Bool.and_eq_true, decide_eq_true_eq] at h1
      exact ⟨raw, cfg, sc, hv, hcfg, hb, hp, hsc, h1.1, h1.2⟩

/-- C133: a step that learns, with its rows. -/
example : (do
      let c ← configFromDict demoSchemaEnv (demoBench "val" demoFitOn [.str "numpy"])
      let p ← planFromDict demoSchemaEnv (.dict c.preprocess.plan)
      let r ← resolveFit (.index ⟨[("train", [4, 1]), ("val", [2]), ("test", [0, 3])], []⟩) c.preprocess.fitOn
      pure (p.steps.map StepPlan.id, r)) = (.ok (["core.pca"], some [4, 1]) : Except PyErr _) := by
  decide +kernel

example : resolveFit (.graph ⟨[true, false, true], [false, true, false], [false, false, false],
    [true, false, false], [false, false, true]⟩) (some "train_unlabeled") = .ok (some [2]) := by
  decide +kernel

/-- The test samples cannot be named. -/
theorem C133_no_test (s : Sampling) (f : String) (h : f ≠ "train" ∧ f ≠ "train_labeled" ∧ f ≠ "train_unlabeled" ∧ f ≠ "val") :
    resolveFit s (some f) = .error .valueError := by
  cases s with
  | index i => simp [resolveFit, h]
  | graph g => simp [resolveFit, h]

/-- C134 is violated for plans written by hand: a single modality given as a text is read as its letters, so the step is for
no modality of the library. -/
theorem C134_modality_violated :
    ∃ p st, planFromDict demoSchemaEnv (.dict [("steps", .list [.dict [("id", .str "text.tfidf"),
        ("modalities", .str "text")]])]) = .ok p ∧ st ∈ p.steps ∧ st.enabled = true ∧
      st.modalities = ["t", "e", "x", "t"] := by
  refine ⟨⟨"features.X", [⟨"text.tfidf", [], ["t", "e", "x", "t"], [], true⟩]⟩, _, by decide +kernel, List.mem_singleton.mpr rfl,
    rfl, rfl⟩

example : planFromDict demoSchemaEnv (.dict [("output_key", .str "raw.X"), ("steps", .list [.dict [("step_id", .str "a"),
      ("params", .none), ("enabled", .int 0)], .dict [("id", .str "b"), ("step_id", .str "b"),
      ("modalities", .list [.str "text"]), ("requires_fields", .list [.str "raw.X"])]])]) =
    .ok ⟨"raw.X", [⟨"a", [], [], [], false⟩, ⟨"b", [], ["text"], ["raw.X"], true⟩]⟩ := by
  decide +kernel

end ModSSC.Bench
