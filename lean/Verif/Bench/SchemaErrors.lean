import Verif.Bench.SchemaTrials

/-!
# Which errors a bad configuration raises (C131)
-/

namespace ModSSC.Bench
open ModSSC ModSSC.Bench.Spec

/-- Only configuration errors. -/
def OnlyVal {β : Type} (x : Except PyErr β) : Prop := ∀ e, x = .error e → e = .validation

theorem onlyVal_ok {β : Type} (b : β) : OnlyVal (.ok b : Except PyErr β) := by rintro e ⟨⟩
theorem onlyVal_pure {β : Type} (b : β) : OnlyVal (pure b : Except PyErr β) := by rintro e ⟨⟩
theorem onlyVal_err {β : Type} : OnlyVal (.error .validation : Except PyErr β) := by rintro e ⟨⟩; rfl

theorem onlyVal_bind {α β : Type} {x : Except PyErr α} {f : α → Except PyErr β} (hx : OnlyVal x)
    (hf : ∀ a, OnlyVal (f a)) : OnlyVal (x >>= f) := by
  intro e h
  cases x with
  | error e' => exact hx e (by injection h with h; rw [h])
  | ok a => exact hf a e h

theorem onlyVal_map {α β : Type} {x : Except PyErr α} {f : α → β} (hx : OnlyVal x) : OnlyVal (x.map f) := by
  intro e h
  cases x with
  | error e' => exact hx e (by injection h with h; rw [h])
  | ok a => cases h

theorem onlyVal_ite {β : Type} {P : Prop} [Decidable P] {x y : Except PyErr β} (hx : OnlyVal x) (hy : OnlyVal y) :
    OnlyVal (if P then x else y) := by
  split <;> assumption

/-- Closes goals about straight-line parsers. -/
macro "onlyval" : tactic => `(tactic| (repeat' first
  | exact onlyVal_ok _ | exact onlyVal_pure _ | exact onlyVal_err | assumption
  | (refine onlyVal_bind ?_ (fun _ => ?_)) | (refine onlyVal_ite ?_ ?_) | (refine onlyVal_map ?_) | split))

theorem asMapping_val (v : PyVal) : OnlyVal (asMapping v) := by unfold asMapping; onlyval
theorem checkUnknown_val (d : Dict) (l : List String) : OnlyVal (checkUnknown d l) := by unfold checkUnknown; onlyval
theorem requireStr_val (env : SchemaEnv) (d : Dict) (k : String) : OnlyVal (requireStr env d k) := by
  unfold requireStr; onlyval
theorem requireBool_val (d : Dict) (k : String) : OnlyVal (requireBool d k) := by unfold requireBool; onlyval
theorem optionalStr_val (env : SchemaEnv) (d : Dict) (k : String) : OnlyVal (optionalStr env d k) := by
  unfold optionalStr; onlyval
theorem optionalInt_val (d : Dict) (k : String) : OnlyVal (optionalInt d k) := by unfold optionalInt; onlyval
theorem optionalPositiveInt_val (d : Dict) (k : String) : OnlyVal (optionalPositiveInt d k) := by
  have := optionalInt_val d k
  unfold optionalPositiveInt
  split
  · rename_i e h
    rw [this e h]; exact onlyVal_err
  all_goals onlyval
theorem optionalBool_val (d : Dict) (k : String) (b : Bool) : OnlyVal (optionalBool d k b) := by
  unfold optionalBool; onlyval
theorem optionalMapping_val (d : Dict) (k : String) : OnlyVal (optionalMapping d k) := by
  unfold optionalMapping; onlyval
theorem optionalList_val (d : Dict) (k : String) : OnlyVal (optionalList d k) := by unfold optionalList; onlyval
theorem nonEmpty_val {β : Type} (l : List β) : OnlyVal (nonEmpty l) := by unfold nonEmpty; onlyval

theorem seedLoop_val : ∀ (l : List PyVal) (out : List Int), OnlyVal (seedLoop l out)
  | [], out => by unfold seedLoop; onlyval
  | v :: l, out => by
    have := seedLoop_val l
    unfold seedLoop
    split
    · onlyval
    · split
      · onlyval
      · exact this _

theorem optionalSeedList_val (v : Option PyVal) : OnlyVal (optionalSeedList v) := by
  unfold optionalSeedList
  split
  all_goals first | exact onlyVal_map (seedLoop_val _ _) | onlyval

theorem whenPresent_val {β : Type} {d : Dict} {k : String} {f : PyVal → Except PyErr β} (h : ∀ v, OnlyVal (f v)) :
    OnlyVal (whenPresent d k f) := by
  unfold whenPresent
  split
  · onlyval
  · exact onlyVal_map (h _)

theorem parseProfile_val (env : SchemaEnv) (d : Dict) : OnlyVal (parseProfile env d) := by
  have := optionalStr_val env d "profile"
  unfold parseProfile
  split
  · rename_i e h
    rw [this e h]; exact onlyVal_err
  all_goals onlyval

macro "parserval" : tactic => `(tactic| (repeat' first
  | exact asMapping_val _ | exact checkUnknown_val _ _ | exact requireStr_val _ _ _ | exact requireBool_val _ _
  | exact optionalStr_val _ _ _ | exact optionalInt_val _ _ | exact optionalPositiveInt_val _ _
  | exact optionalBool_val _ _ _ | exact optionalMapping_val _ _ | exact optionalList_val _ _ | exact nonEmpty_val _
  | exact optionalSeedList_val _ | exact parseProfile_val _ _
  | exact onlyVal_ok _ | exact onlyVal_pure _ | exact onlyVal_err | assumption
  | (refine onlyVal_bind ?_ (fun _ => ?_)) | (refine onlyVal_ite ?_ ?_) | (refine onlyVal_map ?_)))

theorem parseLimits_val (env : SchemaEnv) (v : PyVal) : OnlyVal (parseLimitsSome env v) := by
  unfold parseLimitsSome; parserval
theorem parseDataset_val (env : SchemaEnv) (d : Dict) : OnlyVal (parseDataset env d) := by unfold parseDataset; parserval
theorem parsePlan_val (v : PyVal) : OnlyVal (parsePlan v) := by unfold parsePlan; parserval
theorem parsePreprocess_val (env : SchemaEnv) (d : Dict) : OnlyVal (parsePreprocess env d) := by
  unfold parsePreprocess; parserval
theorem parseGraph_val (env : SchemaEnv) (v : PyVal) : OnlyVal (parseGraph env v) := by unfold parseGraph; parserval
theorem parseAugmentation_val (env : SchemaEnv) (v : PyVal) : OnlyVal (parseAugmentation env v) := by
  unfold parseAugmentation; parserval
theorem parseDevice_val (env : SchemaEnv) (d : Dict) : OnlyVal (parseDevice env d) := by unfold parseDevice; parserval
theorem parseBackend_val (env : SchemaEnv) (d : Dict) : OnlyVal (parseBackend env d) := by unfold parseBackend; onlyval
theorem parseEma_val (d : Dict) : OnlyVal (parseEma d) := by unfold parseEma; onlyval
theorem parseFactory_val (env : SchemaEnv) (a : Bool) (d : Dict) : OnlyVal (parseFactory env a d) := by
  unfold parseFactory; parserval
theorem parseClassifier_val (env : SchemaEnv) (d : Dict) : OnlyVal (parseClassifier env d) := by
  have h1 := parseBackend_val env d
  have h2 := parseEma_val d
  unfold parseClassifier; parserval
theorem parseModel_val (env : SchemaEnv) (a : Bool) (d : Dict) : OnlyVal (parseModel env a d) := by
  unfold parseModel
  split
  · onlyval
  · exact onlyVal_ite onlyVal_err (onlyVal_ite (onlyVal_map (parseFactory_val _ _ _))
      (onlyVal_ite (onlyVal_map (parseClassifier_val _ _)) onlyVal_err))
  · onlyval
theorem parseMethod_val (env : SchemaEnv) (a : Bool) (d : Dict) : OnlyVal (parseMethod env a d) := by
  have h1 := parseDevice_val env
  have h2 := parseModel_val env a
  unfold parseMethod
  repeat' first | exact h1 _ | exact h2 _ | parserval
theorem parseEvaluation_val (env : SchemaEnv) (d : Dict) : OnlyVal (parseEvaluation env d) := by
  unfold parseEvaluation; parserval
theorem parseObjective_val (env : SchemaEnv) (d : Dict) : OnlyVal (parseObjective env d) := by
  unfold parseObjective; parserval
theorem checkLeaf_val (p : List String) : OnlyVal (checkLeaf p) := by unfold checkLeaf; onlyval
theorem checkTrials_val (k : String) (a b : Option Int) : OnlyVal (checkTrials k a b) := by unfold checkTrials; onlyval

mutual
theorem walkSpace_val : ∀ (v : PyVal) (p : List String), OnlyVal (walkSpace v p)
  | .none, _ => by unfold walkSpace; onlyval
  | .bool _, _ => by unfold walkSpace; onlyval
  | .int _, _ => by unfold walkSpace; onlyval
  | .flt _, _ => by unfold walkSpace; onlyval
  | .str _, _ => by unfold walkSpace; onlyval
  | .list l, p => by unfold walkSpace; exact onlyVal_ite onlyVal_err (checkLeaf_val p)
  | .dict d, p => by
    unfold walkSpace
    exact onlyVal_ite onlyVal_err (onlyVal_ite (checkLeaf_val p) (walkSpaceEntries_val d p))
theorem walkSpaceEntries_val : ∀ (d : Dict) (p : List String), OnlyVal (walkSpaceEntries d p)
  | [], _ => by unfold walkSpaceEntries; onlyval
  | (k, v) :: d, p => by
    have h1 := walkSpace_val v (p ++ [k])
    have h2 := walkSpaceEntries_val d p
    unfold walkSpaceEntries
    refine onlyVal_ite onlyVal_err ?_
    split
    · rename_i e h; rw [h1 e h]; exact onlyVal_err
    · exact h2
end

theorem requireReal_val (v : PyVal) : OnlyVal (Hpo.requireReal v) := by unfold Hpo.requireReal; onlyval
theorem requireInt_val (v : PyVal) : OnlyVal (Hpo.requireInt v) := by unfold Hpo.requireInt; onlyval
theorem validate_val (s : Hpo.DistSpec) : OnlyVal (Hpo.validateDistribution s) := by
  have h1 := requireReal_val
  have h2 := requireInt_val
  unfold Hpo.validateDistribution
  repeat' first | exact h1 _ | exact h2 _ | onlyval
theorem distLeaf_val (d : Dict) (p : List String) : OnlyVal (Hpo.distLeaf d p) := by
  unfold Hpo.distLeaf
  refine onlyVal_ite onlyVal_err (onlyVal_ite onlyVal_err (onlyVal_bind ?_ (fun vs => onlyVal_bind (validate_val _) ?_)))
  · unfold Hpo.distValues; onlyval
  · exact fun _ => onlyVal_ok _

mutual
theorem walk_val : ∀ (v : PyVal) (p : List String), OnlyVal (Hpo.walk v p)
  | .none, _ => by unfold Hpo.walk; onlyval
  | .bool _, _ => by unfold Hpo.walk; onlyval
  | .int _, _ => by unfold Hpo.walk; onlyval
  | .flt _, _ => by unfold Hpo.walk; onlyval
  | .str _, _ => by unfold Hpo.walk; onlyval
  | .list l, p => by unfold Hpo.walk; onlyval
  | .dict d, p => by
    unfold Hpo.walk
    exact onlyVal_ite onlyVal_err (onlyVal_ite (onlyVal_bind (distLeaf_val d p) (fun _ => onlyVal_ok _))
      (onlyVal_bind (walkEntries_val d p) (fun _ => onlyVal_ok _)))
theorem walkEntries_val : ∀ (d : Dict) (p : List String), OnlyVal (Hpo.walkEntries d p)
  | [], _ => by unfold Hpo.walkEntries; onlyval
  | (k, v) :: d, p => by
    unfold Hpo.walkEntries
    exact onlyVal_ite onlyVal_err (onlyVal_bind (walk_val v _)
      (fun _ => onlyVal_bind (walkEntries_val d p) (fun _ => onlyVal_ok _)))
end

theorem fromDict_val (d : Dict) : OnlyVal (Hpo.fromDict d) := by
  unfold Hpo.fromDict
  exact onlyVal_ite onlyVal_err (onlyVal_bind (walk_val _ _) (fun _ => onlyVal_ite onlyVal_err (onlyVal_ok _)))

theorem parseSearch_val (env : SchemaEnv) (v : PyVal) : OnlyVal (parseSearch env v) := by
  unfold parseSearch
  refine onlyVal_bind (asMapping_val _) (fun d => onlyVal_bind (checkUnknown_val _ _) (fun _ => ?_))
  refine onlyVal_bind (requireBool_val _ _) (fun _ => onlyVal_bind (requireStr_val _ _ _) (fun _ => ?_))
  refine onlyVal_bind (onlyVal_ite (onlyVal_ok _) onlyVal_err) (fun _ => onlyVal_bind (optionalInt_val _ _) (fun _ => ?_))
  refine onlyVal_bind (optionalInt_val _ _) (fun _ => onlyVal_bind (checkTrials_val _ _ _) (fun _ => ?_))
  refine onlyVal_bind (optionalInt_val _ _) (fun _ => onlyVal_bind (onlyVal_ite onlyVal_err (onlyVal_ok _)) (fun _ => ?_))
  refine onlyVal_bind (parseObjective_val _ _) (fun _ => onlyVal_bind (optionalMapping_val _ _) (fun _ => ?_))
  refine onlyVal_bind (nonEmpty_val _) (fun _ => onlyVal_bind (walkSpace_val _ _) (fun _ => ?_))
  exact onlyVal_bind (fromDict_val _) (fun _ => onlyVal_pure _)

theorem parseRun_val {env : SchemaEnv} {d : Dict}
    (h : ∀ s v, Assoc.get d "run" = some (.dict s) → Assoc.get s "seed" = some v → OnlyVal (pyIntOf env v)) :
    OnlyVal (parseRun env d) := by
  unfold parseRun
  intro e he
  rcases hm : asMapping (getOr d "run" (.dict [])) with e' | s
  · rw [hm] at he
    injection he with he
    subst he
    exact asMapping_val _ _ hm
  · rw [hm] at he
    have hseed : OnlyVal (pyIntOf env (getOr s "seed" (.int 0))) := by
      unfold getOr
      rcases hg : Assoc.get s "seed" with _ | v
      · exact onlyVal_ok _
      · refine h s v ?_ hg
        unfold getOr asMapping at hm
        rcases hr : Assoc.get d "run" with _ | r
        · rw [hr] at hm; injection hm with hm; subst hm; cases hg
        · rw [hr] at hm
          simp only [Option.getD_some] at hm
          split at hm
          · injection hm with hm; subst hm; rfl
          · cases hm
    have : OnlyVal (asMapping (.dict s) >>= fun run => (do
        checkUnknown run ["name", "seed", "seeds", "output_dir", "fail_fast", "log_level", "benchmark_mode",
          "allow_custom_factories"]
        let bm ← optionalBool run "benchmark_mode" false
        let ff ← optionalBool run "fail_fast" true
        (if bm && !ff then .error .validation else .ok ())
        let name ← requireStr env run "name"
        let seed ← pyIntOf env (getOr run "seed" (.int 0))
        let seeds ← optionalSeedList (Assoc.get run "seeds")
        let logLevel ← optionalStr env run "log_level"
        let allow ← optionalBool run "allow_custom_factories" false
        pure (⟨name, seed, pyStr env (getOr run "output_dir" (.str "modssc_cache/output")), seeds, ff, logLevel, bm,
          allow⟩ : RunConfig) : Except PyErr RunConfig)) := by
      change OnlyVal (do
        checkUnknown s ["name", "seed", "seeds", "output_dir", "fail_fast", "log_level", "benchmark_mode",
          "allow_custom_factories"]
        let bm ← optionalBool s "benchmark_mode" false
        let ff ← optionalBool s "fail_fast" true
        (if bm && !ff then .error .validation else .ok ())
        let name ← requireStr env s "name"
        let seed ← pyIntOf env (getOr s "seed" (.int 0))
        let seeds ← optionalSeedList (Assoc.get s "seeds")
        let logLevel ← optionalStr env s "log_level"
        let allow ← optionalBool s "allow_custom_factories" false
        pure (⟨name, seed, pyStr env (getOr s "output_dir" (.str "modssc_cache/output")), seeds, ff, logLevel, bm,
          allow⟩ : RunConfig) : Except PyErr RunConfig)
      parserval
    exact this e he

/-- C131, proved part: if a seed of the run section, when given, is a number (or a text `int` accepts), then a
configuration is either accepted or refused with a configuration error.  Missing: other seeds
(`C131_seed_violated`). -/
theorem C131_errors_partial (env : SchemaEnv) (data : Dict)
    (hseed : ∀ s v, Assoc.get data "run" = some (.dict s) → Assoc.get s "seed" = some v →
      (∃ i, v = .int i) ∨ (∃ b, v = .bool b) ∨ (∃ q, v = .flt q) ∨ ∃ t i, v = .str t ∧ env.parseInt t = some i) :
    (∃ c, configFromDict env data = .ok c) ∨ configFromDict env data = .error .validation := by
  have hrun : OnlyVal (parseRun env data) := parseRun_val (fun s v h1 h2 => by
    rcases hseed s v h1 h2 with ⟨i, rfl⟩ | ⟨b, rfl⟩ | ⟨q, rfl⟩ | ⟨t, i, rfl, ht⟩
    · exact onlyVal_ok _
    · exact onlyVal_ok _
    · exact onlyVal_ok _
    · simp only [pyIntOf, ht]; exact onlyVal_ok _)
  have : OnlyVal (configFromDict env data) := by
    unfold configFromDict
    refine onlyVal_bind (checkUnknown_val _ _) (fun _ => onlyVal_bind hrun (fun r => ?_))
    refine onlyVal_bind (whenPresent_val (parseLimits_val env)) (fun _ => onlyVal_bind (parseDataset_val env _) (fun _ => ?_))
    refine onlyVal_bind (parsePlan_val _) (fun _ => onlyVal_bind (parsePreprocess_val env _) (fun _ => ?_))
    refine onlyVal_bind (whenPresent_val parsePlan_val) (fun _ => onlyVal_bind (whenPresent_val (parseGraph_val env)) (fun _ => ?_))
    refine onlyVal_bind (whenPresent_val (parseAugmentation_val env)) (fun _ => onlyVal_bind (parseMethod_val env _ _) (fun _ => ?_))
    exact onlyVal_bind (parseEvaluation_val env _) (fun _ => onlyVal_bind (whenPresent_val (parseSearch_val env))
      (fun _ => onlyVal_pure _))
  rcases h : configFromDict env data with e | c
  · exact .inr (by rw [this e h])
  · exact .inl ⟨c, rfl⟩

/-- C131 is violated: an empty or unreadable seed escapes as a plain Python error. -/
theorem C131_seed_violated :
    (∀ env, configFromDict env [("run", .dict [("name", .str "toy"), ("seed", .none)])] =
      if env.blank "toy" then .error .validation else .error .typeError) ∧
    configFromDict demoSchemaEnv [("run", .dict [("name", .str "toy"), ("seed", .none)])] = .error .typeError ∧
    configFromDict demoSchemaEnv [("run", .dict [("name", .str "toy"), ("seed", .str "one")])] = .error .valueError := by
  refine ⟨?_, by decide +kernel, by decide +kernel⟩
  intro env
  cases h : env.blank "toy" <;>
    simp [configFromDict, parseRun, checkUnknown, Assoc.keys, getOr, Assoc.get, asMapping, optionalBool, requireStr, h,
      bind, Except.bind, pyIntOf]

/-- C129: a custom model factory is only ever accepted when the run section allows it. -/
theorem C129_factory (env : SchemaEnv) (ht : env.blank "torch" = false) (data : Dict) (c : ExperimentConfig)
    (h : configFromDict env data = .ok c) (name : String) (params : Dict) (hm : c.method.model = some (.factory name params)) :
    ∃ s, Assoc.get data "run" = some (.dict s) ∧ Assoc.get s "allow_custom_factories" = some (.bool true) := by
  rw [C129_meaning env ht] at h
  obtain ⟨s, -, hmm⟩ := h.method
  have h1 := hmm.model
  rw [hm] at h1
  obtain ⟨md, -, ha, -⟩ := h1
  obtain ⟨rs, hrs, hr⟩ := h.run
  have hrd : Assoc.get data "run" = some (.dict rs) := by
    rcases hrs with hrs | ⟨-, rfl⟩
    · exact hrs
    · have := hr.name.1; cases this
  refine ⟨rs, hrd, ?_⟩
  have h2 := hr.allowFactories
  rw [ha] at h2
  rcases h2 with h2 | ⟨-, h2⟩
  · exact h2
  · cases h2

/-- Refused: an unknown key, a model of both sorts, a space outside `method.params`, a random search without trials. -/
example : (configFromDict demoSchemaEnv (("plot", .bool true) :: demoConfig "grid" (.list [.int 1]))) =
    .error .validation := by decide +kernel
example : (configFromDict demoSchemaEnv (demoConfig "grid" (.list []))) = .error .validation := by decide +kernel
example : (configFromDict demoSchemaEnv (demoConfig "bayes" (.list [.int 1]))) = .error .validation := by decide +kernel

end ModSSC.Bench
