import Verif.Bench.ContractSpec
import Verif.Bench.LimitsProps
import Verif.Bench.ProtoProps
import Verif.Bench.SchemaTrials

/-!
# The benchmark contract, plans and fit rows (C132, C133, C134)
-/

namespace ModSSC.Bench
open ModSSC ModSSC.Bench.Spec
open ModSSC.Hpo (searchTrials deepMerge Draw Kind Trial)
open ModSSC.Hpo.Spec (Valid ValidList ValidDict getPath)

/-! ### The scan for `auto` -/

theorem valid_item {l : List PyVal} (h : Valid (.list l)) {v : PyVal} (hm : v ∈ l) : Valid v := by
  unfold Valid at h
  induction l with
  | nil => cases hm
  | cons w l ih =>
    unfold ValidList at h
    rcases List.mem_cons.mp hm with rfl | hm
    · exact h.1
    · exact ih hm h.2

theorem mem_scanAutoDict {isAuto : String → Bool} {d : Dict} {q : List (String ⊕ Nat)} :
    q ∈ scanAutoDict isAuto d ↔ ∃ k v, (k, v) ∈ d ∧
      (autoEntry isAuto k v = true ∧ q = [.inl k] ∨ ∃ p ∈ scanAuto isAuto v, q = .inl k :: p) := by
  induction d with
  | nil => simp [scanAutoDict]
  | cons e d ih =>
    obtain ⟨k, v⟩ := e
    rw [scanAutoDict, List.mem_append, List.mem_append, ih]
    constructor
    · rintro ((h | h) | ⟨k', v', hm, h⟩)
      · split at h
        · rename_i ha
          exact ⟨k, v, by simp, .inl ⟨ha, by simpa using h⟩⟩
        · cases h
      · obtain ⟨p, hp, rfl⟩ := List.mem_map.mp h
        exact ⟨k, v, by simp, .inr ⟨p, hp, rfl⟩⟩
      · exact ⟨k', v', List.mem_cons_of_mem _ hm, h⟩
    · rintro ⟨k', v', hm, h⟩
      rcases List.mem_cons.mp hm with heq | hm
      · cases heq
        rcases h with ⟨ha, rfl⟩ | ⟨p, hp, rfl⟩
        · left; left; rw [if_pos ha]; simp
        · left; right; exact List.mem_map.mpr ⟨p, hp, rfl⟩
      · exact .inr ⟨k', v', hm, h⟩

theorem mem_scanAutoList {isAuto : String → Bool} {l : List PyVal} {n : Nat} {q : List (String ⊕ Nat)} :
    q ∈ scanAutoList isAuto l n ↔ ∃ (i : Nat) (v : PyVal), l[i]? = some v ∧ ∃ p ∈ scanAuto isAuto v, q = .inr (n + i) :: p := by
  induction l generalizing n with
  | nil => simp [scanAutoList]
  | cons v l ih =>
    rw [scanAutoList, List.mem_append, ih]
    constructor
    · rintro (h | ⟨i, w, hw, p, hp, rfl⟩)
      · obtain ⟨p, hp, rfl⟩ := List.mem_map.mp h
        exact ⟨0, v, rfl, p, hp, rfl⟩
      · exact ⟨i + 1, w, hw, p, hp, by rw [Nat.add_right_comm n 1 i, Nat.add_assoc]⟩
    · rintro ⟨i, w, hw, p, hp, rfl⟩
      cases i with
      | zero =>
        cases hw
        exact .inl (List.mem_map.mpr ⟨p, hp, rfl⟩)
      | succ i => exact .inr ⟨i, w, hw, p, hp, by rw [Nat.add_right_comm n 1 i, Nat.add_assoc]⟩

theorem autoKeys_iff (k : String) :
    k ∈ autoKeys ↔ (k = "device" ∨ k = "backend" ∨ k = "classifier_backend" ∨ k = "profile") := by
  simp [autoKeys]

theorem autoEntry_iff {isAuto : String → Bool} {k : String} {v : PyVal} :
    autoEntry isAuto k v = true ↔ ∃ s, v = .str s ∧ isAuto s = true ∧ k ∈ autoKeys := by
  unfold autoEntry
  cases v <;> simp

/-- Same as the scan, from the value itself. -/
theorem scanAuto_iff (isAuto : String → Bool) (v : PyVal) (hv : Valid v) (q : List Step) :
    q ∈ (scanAuto isAuto v).map (List.map toStep) ↔ AutoAt isAuto v q := by
  have key : ∀ v, Valid v → ∀ q, (q ∈ (scanAuto isAuto v).map (List.map toStep) ↔ AutoAt isAuto v q) := by
    intro v
    induction v using PyVal.induct with
    | list l ih =>
      intro hv q
      rw [scanAuto, List.mem_map]
      constructor
      · rintro ⟨p, hp, rfl⟩
        obtain ⟨i, w, hw, r, hr, rfl⟩ := mem_scanAutoList.mp hp
        obtain ⟨a, k, s, h1, h2, h3, h4⟩ := (ih w (List.mem_of_getElem? hw) (valid_item hv (List.mem_of_getElem? hw)) _).mp
          (List.mem_map.mpr ⟨r, hr, rfl⟩)
        refine ⟨.item i :: a, k, s, ?_, h2, ?_, h4⟩
        · simp [toStep, h1]
        · simp only [List.map_cons, toStep, Nat.zero_add, lookup, hw, Option.bind_some]
          exact h3
      · rintro ⟨a, k, s, rfl, h2, h3, h4⟩
        cases a with
        | nil => simp [lookup] at h3
        | cons st a =>
          cases st with
          | key k' => simp [lookup] at h3
          | item i =>
            simp only [List.cons_append, lookup, Option.bind_eq_some_iff] at h3
            obtain ⟨w, hw, h3⟩ := h3
            obtain ⟨r, hr, hre⟩ := List.mem_map.mp ((ih w (List.mem_of_getElem? hw)
              (valid_item hv (List.mem_of_getElem? hw)) _).mpr ⟨a, k, s, rfl, h2, h3, h4⟩)
            refine ⟨.inr i :: r, mem_scanAutoList.mpr ⟨i, w, hw, r, hr, by simp⟩, ?_⟩
            simp [toStep, hre]
    | dict d ih =>
      intro hv q
      have hnd : (Assoc.keys d).Nodup := by unfold Valid at hv; exact hv.1
      rw [scanAuto, List.mem_map]
      constructor
      · rintro ⟨p, hp, rfl⟩
        obtain ⟨k, w, hm, h⟩ := mem_scanAutoDict.mp hp
        have hg := Assoc.get_of_mem hnd hm
        rcases h with ⟨ha, rfl⟩ | ⟨r, hr, rfl⟩
        · obtain ⟨s, rfl, hs, hk⟩ := autoEntry_iff.mp ha
          refine ⟨[], k, s, rfl, (autoKeys_iff k).mp hk, ?_, hs⟩
          simp [toStep, lookup, hg]
        · obtain ⟨a, k', s, h1, h2, h3, h4⟩ := (ih (k, w) hm (Bench.valid_get hv hg) _).mp
            (List.mem_map.mpr ⟨r, hr, rfl⟩)
          refine ⟨.key k :: a, k', s, ?_, h2, ?_, h4⟩
          · simp [toStep, h1]
          · simp only [List.map_cons, toStep, lookup, hg, Option.bind_some]
            exact h3
      · rintro ⟨a, k, s, rfl, h2, h3, h4⟩
        cases a with
        | nil =>
          simp only [List.nil_append, lookup, Option.bind_eq_some_iff] at h3
          obtain ⟨w, hw, h3⟩ := h3
          cases h3
          exact ⟨[.inl k], mem_scanAutoDict.mpr ⟨k, .str s, Assoc.mem_of_get hw,
            .inl ⟨autoEntry_iff.mpr ⟨s, rfl, h4, (autoKeys_iff k).mpr h2⟩, rfl⟩⟩, rfl⟩
        | cons st a =>
          cases st with
          | item i => simp [lookup] at h3
          | key k' =>
            simp only [List.cons_append, lookup, Option.bind_eq_some_iff] at h3
            obtain ⟨w, hw, h3⟩ := h3
            obtain ⟨r, hr, hre⟩ := List.mem_map.mp ((ih (k', w) (Assoc.mem_of_get hw) (Bench.valid_get hv hw) _).mpr
              ⟨a, k, s, rfl, h2, h3, h4⟩)
            refine ⟨.inl k' :: r, mem_scanAutoDict.mpr ⟨k', w, Assoc.mem_of_get hw, .inr ⟨r, hr, rfl⟩⟩, ?_⟩
            simp [toStep, hre]
    | _ =>
      intro _ q
      simp only [scanAuto, List.map_nil, List.not_mem_nil, false_iff]
      rintro ⟨a, k, s, rfl, -, h3, -⟩
      cases a with
      | nil => simp [lookup] at h3
      | cons st a => cases st <;> simp [lookup] at h3
  exact key v hv q

/-! ### Which configurations pass -/

theorem rbind_ok {α β : Type} {x : Except Refusal α} {f : α → Except Refusal β} {b : β} :
    (x >>= f) = .ok b ↔ ∃ a, x = .ok a ∧ f a = .ok b := by
  cases x with
  | error e => simp [bind, Except.bind]
  | ok a => simp [bind, Except.bind]

theorem rthen_ok {x : Except Refusal Unit} {y : Except Refusal Unit} :
    (x >>= fun _ => y) = .ok () ↔ x = .ok () ∧ y = .ok () := by
  rw [rbind_ok]
  exact ⟨fun ⟨_, h1, h2⟩ => ⟨h1, h2⟩, fun ⟨h1, h2⟩ => ⟨(), h1, h2⟩⟩

theorem demand_ok {p : Bool} {c : String} : demand p c = .ok () ↔ p = true := by
  unfold demand
  split <;> simp_all

theorem lift_ok {β : Type} {x : Except PyErr β} {b : β} : lift x = .ok b ↔ x = .ok b := by
  cases x <;> simp [lift]

theorem requiresFit_true {env : ContractEnv} {ids : List String} :
    requiresFit env ids = .ok true ↔ ∃ a s b, ids = a ++ s :: b ∧ (∀ t ∈ a, env.fittable t = .ok false) ∧
      env.fittable s = .ok true := by
  induction ids with
  | nil => simp [requiresFit]
  | cons s l ih =>
    rw [requiresFit]
    constructor
    · split
      · intro h; cases h
      · rename_i h; intro _; exact ⟨[], s, l, rfl, by simp, h⟩
      · rename_i h
        rw [ih]
        rintro ⟨a, t, b, rfl, h1, h2⟩
        refine ⟨s :: a, t, b, rfl, ?_, h2⟩
        simpa [h] using h1
    · rintro ⟨a, t, b, heq, h1, h2⟩
      cases a with
      | nil =>
        simp only [List.nil_append, List.cons.injEq] at heq
        obtain ⟨rfl, rfl⟩ := heq
        rw [h2]
      | cons u a =>
        simp only [List.cons_append, List.cons.injEq] at heq
        obtain ⟨rfl, rfl⟩ := heq
        rw [h1 s (by simp)]
        exact ih.mpr ⟨a, t, b, rfl, fun t ht => h1 t (List.mem_cons_of_mem _ ht), h2⟩

theorem requiresFit_false {env : ContractEnv} {ids : List String} :
    requiresFit env ids = .ok false ↔ ∀ t ∈ ids, env.fittable t = .ok false := by
  induction ids with
  | nil => simp [requiresFit]
  | cons s l ih =>
    rw [requiresFit, List.forall_mem_cons, ← ih]
    split <;> rename_i h <;> simp [h]

theorem fitCheck_ok {env : ContractEnv} {fitOn : Option String} {ids : List String} :
    fitCheck env fitOn ids = .ok () ↔ FitNamed env fitOn ids := by
  unfold fitCheck FitNamed
  rw [rbind_ok]
  constructor
  · rintro ⟨r, h1, h2⟩
    rw [lift_ok] at h1
    rw [demand_ok] at h2
    cases r with
    | false => exact .inl (requiresFit_false.mp h1)
    | true =>
      refine .inr ⟨?_, requiresFit_true.mp h1⟩
      cases fitOn with
      | none => simp at h2
      | some f => exact ⟨f, rfl⟩
  · rintro (h | ⟨⟨f, rfl⟩, h⟩)
    · exact ⟨false, lift_ok.mpr (requiresFit_false.mpr h), demand_ok.mpr rfl⟩
    · exact ⟨true, lift_ok.mpr (requiresFit_true.mpr h), demand_ok.mpr rfl⟩

theorem selectionCheck_ok {cfg : ExperimentConfig} :
    selectionCheck cfg = .ok () ↔ ∃ sel, cfg.evaluation.selection = some sel ∧ sel ∈ cfg.evaluation.report ∧
      ∀ s, cfg.search = some s → s.enabled = true → s.objective.split = sel := by
  unfold selectionCheck
  cases cfg.evaluation.selection with
  | none => simp
  | some sel =>
    simp only [rthen_ok, demand_ok, decide_eq_true_eq, Option.some.injEq, exists_eq_left']
    refine and_congr_right fun _ => ?_
    unfold searchAgrees
    cases cfg.search with
    | none => simp
    | some s => cases he : s.enabled <;> simp [he]

theorem getOr_none {d : Dict} {k : String} : getOr d k .none = .none ↔ ∀ v, Assoc.get d k = some v → v = .none := by
  unfold getOr
  cases Assoc.get d k <;> simp

theorem backendCheck_ok {env : ContractEnv} {m : MethodConfig} :
    backendCheck env m = .ok () ↔ env.hasBackend m.kind m.id = .ok false ∨ env.hasBackend m.kind m.id = .ok true ∧
      ∃ v, Assoc.get m.params "backend" = some v ∧ v ≠ .none ∧ env.schema.lower (pyStr env.schema v) ≠ "auto" := by
  unfold backendCheck
  rw [rbind_ok]
  constructor
  · rintro ⟨b, h1, h2⟩
    rw [lift_ok] at h1
    cases b with
    | false => exact .inl h1
    | true =>
      refine .inr ⟨h1, ?_⟩
      unfold getOr at h2
      cases hg : Assoc.get m.params "backend" with
      | none => simp [hg] at h2
      | some v =>
        simp only [hg, if_true, Option.getD_some] at h2
        split at h2
        · cases h2
        · rename_i hv
          rw [demand_ok, decide_eq_true_eq] at h2
          exact ⟨_, rfl, hv, h2⟩
  · rintro (h | ⟨h, v, h1, h2, h3⟩)
    · exact ⟨false, lift_ok.mpr h, rfl⟩
    · refine ⟨true, lift_ok.mpr h, ?_⟩
      simp only [getOr, h1, if_true, Option.getD_some]
      rw [demand_ok, decide_eq_true_eq]; exact h3

theorem graphAuto_false {env : ContractEnv} {g : Option GraphConfig} :
    graphAuto env g = false ↔ ∀ g' s, g = some g' → g'.enabled = true → Assoc.get g'.spec "backend" = some (.str s) →
      env.schema.lower s ≠ "auto" := by
  unfold graphAuto
  cases g with
  | none => simp
  | some g =>
    simp only [Bool.and_eq_false_imp, Option.some.injEq, forall_eq_apply_imp_iff]
    constructor
    · rintro h g' s rfl he hb
      have := h he
      rw [hb] at this
      simpa using this
    · intro h he
      split
      · rename_i s hs
        simpa using h g s rfl he hs
      · rfl

theorem modelAuto_false {m : Option ModelConfig} :
    modelAuto m = false ↔ ∀ id b p e, m = some (.classifier id b p e) → b ≠ "auto" := by
  unfold modelAuto
  split
  · rename_i i b p e
    rw [decide_eq_false_iff_not]
    constructor
    · rintro h _ _ _ _ h'
      cases h'
      exact h
    · intro h
      exact h _ _ _ _ rfl
  · rename_i h
    simp only [true_iff]
    intro id b p e he
    exact absurd he (h id b p e)

theorem scan_empty {isAuto : String → Bool} {raw : Dict} (hv : Valid (.dict raw)) :
    scanAuto isAuto (.dict raw) = [] ↔ ∀ q, ¬ AutoAt isAuto (.dict raw) q := by
  rw [← List.map_eq_nil_iff (f := List.map toStep), List.eq_nil_iff_forall_not_mem]
  exact forall_congr' fun q => not_congr (scanAuto_iff isAuto _ hv q)

theorem contract_ok {env : ContractEnv} {cfg : ExperimentConfig} {raw : Dict} (hv : Valid (.dict raw))
    {pre views : List String} :
    contractPreflight env cfg raw pre views = .ok () ↔
      (cfg.run.benchmarkMode = true → Pinned env cfg raw ∧ FitNamed env cfg.preprocess.fitOn pre ∧
        FitNamed env cfg.preprocess.fitOn views) := by
  unfold contractPreflight
  cases cfg.run.benchmarkMode with
  | false => simp
  | true =>
    simp only [Bool.not_true, Bool.false_eq_true, if_false, forall_const, rthen_ok, demand_ok, selectionCheck_ok,
      backendCheck_ok, fitCheck_ok, Bool.not_eq_true', decide_eq_true_eq, graphAuto_false, modelAuto_false]
    have hs : (if scanAuto env.isAuto (.dict raw) = [] then (Except.ok () : Except Refusal Unit)
        else .error (.auto (scanAuto env.isAuto (.dict raw)))) = .ok () ↔ ∀ q, ¬ AutoAt env.isAuto (.dict raw) q := by
      rw [← scan_empty hv]
      split <;> simp_all
    rw [hs]
    constructor
    · rintro ⟨h1, h2, h3, h4, h5, h6, h7, h8, h9, h10, h11⟩
      exact ⟨⟨h1, h2, h3, h4, h5, h6, h7, h8, h9⟩, h10, h11⟩
    · rintro ⟨⟨h1, h2, h3, h4, h5, h6, h7, h8, h9⟩, h10, h11⟩
      exact ⟨h1, h2, h3, h4, h5, h6, h7, h8, h9, h10, h11⟩

theorem truthy_none : PyVal.none.truthy = false := rfl

theorem stepIdOf_ne {env : SchemaEnv} {item : Dict} {s : String} :
    (stepIdOf env item = s ∧ s ≠ "") ↔ IdIs env item s := by
  unfold stepIdOf IdIs getOr
  cases h1 : Assoc.get item "id" with
  | none =>
    cases h2 : Assoc.get item "step_id" with
    | none => simp [truthy_none]
    | some w =>
      cases hw : w.truthy <;> simp [truthy_none, hw] <;> tauto
  | some v =>
    cases hv : v.truthy with
    | true => simp [hv]; tauto
    | false =>
      cases h2 : Assoc.get item "step_id" with
      | none => simp [hv, truthy_none]
      | some w =>
        cases hw : w.truthy <;> simp [hv, hw] <;> tauto

theorem stepIdItem_ok {env : SchemaEnv} {v : PyVal} {s : String} :
    stepIdItem env v = .ok s ↔ ∃ item, v = .dict item ∧ IdIs env item s := by
  unfold stepIdItem
  cases v with
  | dict item =>
    simp only [PyVal.dict.injEq, exists_eq_left', ← stepIdOf_ne]
    split
    · simp_all
    · simp only [Except.ok.injEq]
      constructor
      · rintro rfl; exact ⟨rfl, by assumption⟩
      · exact And.left
  | _ => simp

theorem stepIds_ok {env : SchemaEnv} {plan : Dict} {ids : List String} :
    stepIds env plan = .ok ids ↔ StepIds env plan ids := by
  unfold stepIds StepIds getOr
  cases h : Assoc.get plan "steps" with
  | none =>
    simp only [Option.getD_none, List.mapM_nil, reduceCtorEq, false_and, exists_false, false_or, true_and]
    exact ⟨fun h => by cases h; rfl, fun h => by rw [h]; rfl⟩
  | some v =>
    cases v with
    | list l =>
      simp only [Option.getD_some, mapM_ok, Option.some.injEq, PyVal.list.injEq, exists_eq_left', reduceCtorEq,
        false_and, or_false]
      constructor <;> intro h <;> refine h.imp ?_ <;> intro a b hab
      · exact stepIdItem_ok.mp hab
      · exact stepIdItem_ok.mpr hab
    | _ => simp

theorem viewStepIds_ok {env : SchemaEnv} {v : PyVal} {p : List String} :
    viewStepIds env v = .ok p ↔
      (∃ view d, v = .dict view ∧ Assoc.get view "preprocess" = some (.dict d) ∧ StepIds env d p) ∨
      (∀ view d, v = .dict view → Assoc.get view "preprocess" ≠ some (.dict d)) ∧ p = [] := by
  unfold viewStepIds getOr
  cases v with
  | dict view =>
    cases h : Assoc.get view "preprocess" with
    | none =>
      simp [h, eq_comm]
      rintro rfl _ _ rfl
      simp [h]
    | some w =>
      cases w with
      | dict d => simp [h, stepIds_ok]
      | _ =>
        simp [h, eq_comm]
        rintro rfl _ _ rfl
        simp [h]
  | _ => simp [eq_comm]

theorem viewsStepIds_ok {env : SchemaEnv} {plan : Dict} {ids : List String} :
    viewsStepIds env plan = .ok ids ↔ ViewIds env plan ids := by
  unfold viewsStepIds ViewIds getOr
  cases h : Assoc.get plan "views" with
  | none => simp [Except.map, pure, Except.pure, eq_comm]
  | some v =>
    cases v with
    | list l =>
      constructor
      · intro h
        right
        dsimp only [Option.getD_some] at h
        cases hm : l.mapM (viewStepIds env) with
        | error e => rw [hm] at h; cases h
        | ok parts =>
          rw [hm] at h
          cases h
          exact ⟨l, parts, rfl, rfl, (mapM_ok.mp hm).imp fun _ _ hab => viewStepIds_ok.mp hab⟩
      · rintro (⟨h, -⟩ | ⟨l', parts, hl, rfl, h⟩)
        · exact absurd rfl (h l)
        · cases hl
          have : l.mapM (viewStepIds env) = .ok parts := mapM_ok.mpr (h.imp fun _ _ hab => viewStepIds_ok.mpr hab)
          dsimp only [Option.getD_some]
          rw [this]
          rfl
    | _ => simp [eq_comm]

/-- C132: which configurations may run.  The steps can be read and fittable ones have their rows named; in benchmark mode
the configuration also leaves nothing to be chosen at run time. -/
theorem C132_accepts (env : ContractEnv) (cfg : ExperimentConfig) (raw : Dict) (hv : Valid (.dict raw)) :
    preflight env cfg raw = .ok () ↔
      ∃ pre views, StepIds env.schema cfg.preprocess.plan pre ∧ AllViewIds env.schema cfg.views views ∧
        FitNamed env cfg.preprocess.fitOn pre ∧ FitNamed env cfg.preprocess.fitOn views ∧
        (cfg.run.benchmarkMode = true → Pinned env cfg raw) := by
  have hview : ∀ views, lift (match cfg.views with
      | none => .ok []
      | some v => viewsStepIds env.schema v.plan) = .ok views ↔ AllViewIds env.schema cfg.views views := by
    intro views
    rw [lift_ok]
    unfold AllViewIds
    cases cfg.views with
    | none => simp [eq_comm]
    | some v => exact viewsStepIds_ok
  unfold preflight
  simp only [rbind_ok, lift_ok (x := stepIds _ _), stepIds_ok, contract_ok hv, fitCheck_ok]
  constructor
  · rintro ⟨pre, h1, views, h2, _, h3, _, h4, h5⟩
    rw [fitCheck_ok] at h4
    exact ⟨pre, views, h1, (hview _).mp h2, h4, h5, fun hb => (h3 hb).1⟩
  · rintro ⟨pre, views, h1, h2, h3, h4, h5⟩
    exact ⟨pre, h1, views, (hview _).mpr h2, (), fun hb => ⟨h5 hb, h3, h4⟩, (), fitCheck_ok.mpr h3, h4⟩

theorem rbind_err {α β : Type} {x : Except Refusal α} {f : α → Except Refusal β} {e : Refusal}
    (h : (x >>= f) = .error e) : x = .error e ∨ ∃ a, x = .ok a ∧ f a = .error e := by
  cases x with
  | error e' => left; simpa [bind, Except.bind] using h
  | ok a => exact .inr ⟨a, rfl, h⟩

/-- Not a list of `auto` entries. -/
def NotAuto {β : Type} (x : Except Refusal β) : Prop := ∀ ps, x ≠ .error (.auto ps)

theorem notAuto_demand (p : Bool) (c : String) : NotAuto (demand p c) := by
  intro ps
  unfold demand
  split <;> simp

theorem notAuto_lift {β : Type} (x : Except PyErr β) : NotAuto (lift x) := by
  intro ps
  cases x <;> simp [lift]

theorem notAuto_bind {α β : Type} {x : Except Refusal α} {f : α → Except Refusal β} (h : NotAuto x)
    (hf : ∀ a, NotAuto (f a)) : NotAuto (x >>= f) := by
  intro ps he
  rcases rbind_err he with he | ⟨a, -, he⟩
  · exact h ps he
  · exact hf a ps he

theorem notAuto_fitCheck (env : ContractEnv) (f : Option String) (ids : List String) : NotAuto (fitCheck env f ids) :=
  notAuto_bind (notAuto_lift _) fun _ => notAuto_demand _ _

theorem notAuto_selection (cfg : ExperimentConfig) : NotAuto (selectionCheck cfg) := by
  unfold selectionCheck
  split
  · rintro ps ⟨⟩
  · exact notAuto_bind (notAuto_demand _ _) fun _ => notAuto_demand _ _

theorem notAuto_backend (env : ContractEnv) (m : MethodConfig) : NotAuto (backendCheck env m) := by
  refine notAuto_bind (notAuto_lift _) fun b => ?_
  split
  · split
    · rintro ps ⟨⟩
    · exact notAuto_demand _ _
  · rintro ps ⟨⟩

/-- C132: when a configuration is refused for entries left to `auto`, the message lists exactly those entries, at any
depth of the configuration. -/
theorem C132_message (env : ContractEnv) (cfg : ExperimentConfig) (raw : Dict) (hv : Valid (.dict raw))
    (ps : List (List (String ⊕ Nat))) (h : preflight env cfg raw = .error (.auto ps)) :
    cfg.run.benchmarkMode = true ∧ ps ≠ [] ∧
      ∀ q, q ∈ ps.map (List.map toStep) ↔ AutoAt env.isAuto (.dict raw) q := by
  have hc : ∀ (p : Bool) (c : String) {y : Except Refusal Unit},
      (demand p c >>= fun _ => y) = .error (.auto ps) → y = .error (.auto ps) := by
    intro p c y hy
    rcases rbind_err hy with hy | ⟨_, -, hy⟩
    · exact absurd hy (notAuto_demand _ _ _)
    · exact hy
  unfold preflight at h
  rcases rbind_err h with h | ⟨pre, -, h⟩
  · exact absurd h (notAuto_lift _ _)
  rcases rbind_err h with h | ⟨views, -, h⟩
  · exact absurd h (notAuto_lift _ _)
  rcases rbind_err h with h | ⟨_, -, h⟩
  · unfold contractPreflight at h
    cases hb : cfg.run.benchmarkMode with
    | false => simp [hb] at h
    | true =>
      simp only [hb, Bool.not_true, Bool.false_eq_true, if_false] at h
      have h := hc _ _ (hc _ _ (hc _ _ (hc _ _ (hc _ _ (hc _ _ h)))))
      rcases rbind_err h with h | ⟨_, -, h⟩
      · exact absurd h (notAuto_selection _ _)
      rcases rbind_err h with h | ⟨_, -, h⟩
      · exact absurd h (notAuto_backend _ _ _)
      rcases rbind_err h with h | ⟨_, -, h⟩
      · split at h
        · cases h
        · rename_i hne
          cases h
          exact ⟨rfl, hne, scanAuto_iff _ _ hv⟩
      · exact absurd h (notAuto_bind (notAuto_fitCheck _ _ _) (fun _ => notAuto_fitCheck _ _ _) _)
  · exact absurd h (notAuto_bind (notAuto_fitCheck _ _ _) (fun _ => notAuto_fitCheck _ _ _) _)

theorem lookup_key {d : Dict} {k : String} {q : List Step} :
    lookup (.key k :: q) (.dict d) = (Assoc.get d k).bind (lookup q) := by
  simp [lookup]

/-- C132 (partial): a trial of a search keeps everything the contract pins, except for the parameters of the method: entries
left to `auto` can only appear there.  Missing: that they do not appear there, see `C132_trials_violated`. -/
theorem C132_trials_partial (env : ContractEnv) (hl : EnvLaw env.schema) (raw : Dict) (hv : Valid (.dict raw))
    (cfg : ExperimentConfig) (h : configFromDict env.schema raw = .ok cfg) (hb : cfg.run.benchmarkMode = true)
    (hp : preflight env cfg raw = .ok ()) (sc : SearchConfig) (hs : cfg.search = some sc)
    {σ : Type} (D : Draw σ) (hD : D.Lawful) (kind : Kind σ) (trials : List Trial)
    (ht : searchTrials D kind sc.space = .ok trials) (t : Trial) (hm : t ∈ trials) :
    (∃ cfg', configFromDict env.schema (trialConfig raw t.patch) = .ok cfg' ∧ cfg'.run.benchmarkMode = true ∧
      cfg'.dataset = cfg.dataset ∧ cfg'.dataset.download = false ∧ cfg'.limits = cfg.limits ∧ cfg'.graph = cfg.graph ∧
      cfg'.preprocess = cfg.preprocess ∧ cfg'.views = cfg.views ∧ cfg'.evaluation = cfg.evaluation ∧
      cfg'.search = cfg.search ∧ cfg'.method.device = cfg.method.device ∧ cfg'.method.model = cfg.method.model) ∧
    ∀ q, AutoAt env.isAuto (.dict (trialConfig raw t.patch)) q → ∃ r, q = .key "method" :: .key "params" :: r := by
  obtain ⟨-, -, -, -, -, -, hpin⟩ := (C132_accepts env cfg raw hv).mp hp
  have hpin := hpin hb
  constructor
  · obtain ⟨p, hc, -⟩ := C130_trials env.schema hl raw hv cfg h sc hs D hD kind trials ht t hm
    exact ⟨_, hc, hb, rfl, hpin.offline, rfl, rfl, rfl, rfl, rfl, rfl, rfl, rfl⟩
  · have hmean := h
    rw [C129_meaning env.schema hl.torch] at hmean
    have hso := hmean.search
    rw [hs] at hso
    obtain ⟨sv, hsv, ss, rfl, hsm⟩ := hso
    have hvs : Valid (.dict sc.space) := valid_mapOpt (Bench.valid_get hv hsv) hsm.space
    have hcp := fun q hq => Hpo.C23_only_method_params D hD kind sc.space hvs trials ht t hm raw q hq
    rintro q ⟨a, k, s, rfl, hk, hlk, hs⟩
    by_contra hne
    refine hpin.noAuto (a ++ [.key k]) ⟨a, k, s, rfl, hk, ?_, hs⟩
    unfold trialConfig at hlk
    cases a with
    | nil =>
      rw [List.nil_append, lookup_key] at hlk ⊢
      have hkm : k ≠ "method" := by rintro rfl; simp at hk
      have := hcp _ (apart_single hkm)
      rw [getPath_single, getPath_single] at this
      rwa [this] at hlk
    | cons st a =>
      cases st with
      | item i => simp [lookup] at hlk
      | key k1 =>
        rw [List.cons_append, lookup_key] at hlk ⊢
        by_cases hkm : k1 = "method"
        · subst hkm
          have hsect : ∃ m, Assoc.get raw "method" = some (.dict m) := by
            obtain ⟨s, hsect, hmm⟩ := hmean.method
            rcases hsect with hsect | ⟨-, rfl⟩
            · exact ⟨s, hsect⟩
            · cases hmm.id.1
          obtain ⟨m, hm1⟩ := hsect
          rw [Option.bind_eq_some_iff] at hlk
          obtain ⟨mv, hmv, hlk⟩ := hlk
          have two : ∀ k2, k2 ≠ "params" → ∀ r, lookup (.key k2 :: r) mv = some (.str s) →
              (Assoc.get raw "method").bind (lookup (.key k2 :: r)) = some (.str s) := by
            intro k2 hk2 r hr
            cases mv with
            | dict md =>
              have hap : Hpo.Spec.Apart ["method", "params"] ["method", k2] := by
                constructor
                · rintro ⟨t, ht⟩
                  simp only [List.cons_append, List.nil_append, List.cons.injEq] at ht
                  exact hk2 ht.2.1.symm
                · rintro ⟨t, ht⟩
                  simp only [List.cons_append, List.nil_append, List.cons.injEq] at ht
                  exact hk2 ht.2.1
              have := hcp _ hap
              rw [Hpo.getPath_dict_cons, Hpo.getPath_dict_cons, hmv, hm1] at this
              simp only [Option.bind_some, getPath_single] at this
              rw [lookup_key, this] at hr
              rw [hm1, Option.bind_some, lookup_key]
              exact hr
            | _ => simp [lookup] at hr
          cases a with
          | nil =>
            refine two k ?_ [] hlk
            rintro rfl
            simp at hk
          | cons st a =>
            cases st with
            | item i =>
              cases mv with
              | list l =>
                have hdm : getPath (.dict (deepMerge raw t.patch)) ["method", "kind"] = getPath (.dict raw) ["method", "kind"] :=
                  hcp _ (by constructor <;> rintro ⟨t, ht⟩ <;> simp at ht)
                rw [Hpo.getPath_dict_cons, Hpo.getPath_dict_cons, hmv, hm1] at hdm
                simp only [Option.bind_some, getPath_single] at hdm
                obtain ⟨s, hsect, hmm⟩ := hmean.method
                rcases hsect with hsect | ⟨-, rfl⟩
                · rw [hm1] at hsect
                  cases hsect
                  rw [hmm.kind.1] at hdm
                  cases hdm
                · cases hmm.id.1
              | _ => simp [lookup] at hlk
            | key k2 =>
              by_cases hk2 : k2 = "params"
              · subst hk2
                exact absurd ⟨_, rfl⟩ hne
              · exact two k2 hk2 _ hlk
        · have := hcp _ (apart_single hkm)
          rw [getPath_single, getPath_single] at this
          rwa [this] at hlk

end ModSSC.Bench
