import Verif.Bench.ReportSpec
import Verif.ExceptLemmas
import Mathlib.Tactic.Linarith
import Mathlib.Tactic.FieldSimp
import Mathlib.Algebra.Order.BigOperators.Group.List

/-!
# Run reports and sweep summaries (C154, C155)
-/

namespace ModSSC.Bench
open ModSSC ModSSC.Bench.Spec

theorem eok_bind {α β : Type} (a : α) (f : α → Except PyErr β) : ((Except.ok a : Except PyErr α) >>= f) = f a := rfl

/-! ### Leaves of a document -/

/-- The values listed for a path (helper). -/
def forPath (q : List String) (l : List (List String × Rat)) : List Rat :=
  l.filterMap (fun x => if x.1 = q then some x.2 else none)

theorem forPath_append (q : List String) (l m : List (List String × Rat)) :
    forPath q (l ++ m) = forPath q l ++ forPath q m := by
  unfold forPath; rw [List.filterMap_append]

theorem forPath_eq_nil {q : List String} {l : List (List String × Rat)} (h : ∀ x ∈ l, x.1 ≠ q) : forPath q l = [] := by
  unfold forPath
  rw [List.filterMap_eq_nil_iff]
  intro x hx
  rw [if_neg (h x hx)]

theorem leavesDict_prefix (d : List (String × PyVal)) (pre : List String)
    (h : ∀ p ∈ d, ∀ pre : List String, ∀ x ∈ leaves pre p.2, pre <+: x.1) :
    ∀ x ∈ leavesDict pre d, ∃ k, k ∈ Assoc.keys d ∧ (pre ++ [k]) <+: x.1 := by
  induction d with
  | nil => intro x hx; simp [leavesDict] at hx
  | cons p d ih =>
    obtain ⟨k, v⟩ := p
    intro x hx
    rw [leavesDict, List.mem_append] at hx
    rcases hx with hx | hx
    · exact ⟨k, by simp [Assoc.keys], h (k, v) (by simp) _ x hx⟩
    · obtain ⟨k', hk', hp⟩ := ih (fun p hp => h p (by simp [hp])) x hx
      exact ⟨k', by simp only [Assoc.keys, List.map_cons, List.mem_cons] at hk' ⊢; exact .inr hk', hp⟩

theorem leaves_prefix (v : PyVal) : ∀ pre : List String, ∀ x ∈ leaves pre v, pre <+: x.1 := by
  induction v using PyVal.induct with
  | none => intro pre x hx; simp [leaves] at hx
  | bool b => intro pre x hx; simp [leaves] at hx
  | int i => intro pre x hx; simp [leaves] at hx; subst hx; exact List.prefix_refl _
  | flt q => intro pre x hx; simp [leaves] at hx; subst hx; exact List.prefix_refl _
  | str s => intro pre x hx; simp [leaves] at hx
  | list l _ => intro pre x hx; simp [leaves] at hx
  | dict d ih =>
    intro pre x hx
    rw [leaves] at hx
    obtain ⟨k, -, hp⟩ := leavesDict_prefix d pre ih x hx
    exact (List.prefix_append pre [k]).trans hp

theorem valAt_dict_cons (d : Dict) (k : String) (p : List String) :
    valAt (.dict d) (k :: p) = (Assoc.get d k).bind (fun v => valAt v p) := by rw [valAt]

theorem prefix_key {pre p : List String} {k k' : String} (h : (pre ++ [k']) <+: (pre ++ k :: p)) : k' = k := by
  rw [List.prefix_append_right_inj] at h
  simpa using h

theorem leavesDict_forPath (d : List (String × PyVal)) (hd : (Assoc.keys d).Nodup) (pre : List String) (k : String)
    (p : List String)
    (ih : ∀ e ∈ d, ∀ pre : List String, forPath (pre ++ p) (leaves pre e.2) = ((valAt e.2 p).bind number).toList) :
    forPath (pre ++ k :: p) (leavesDict pre d) = ((valAt (.dict d) (k :: p)).bind number).toList := by
  rw [valAt_dict_cons]
  induction d with
  | nil => simp [leavesDict, forPath]
  | cons e d ihd =>
    obtain ⟨k', v⟩ := e
    simp only [Assoc.keys, List.map_cons, List.nodup_cons] at hd
    rw [leavesDict, forPath_append, Assoc.get_cons]
    by_cases hk : k' = k
    · subst hk
      have h1 := ih (k', v) (by simp) (pre ++ [k'])
      rw [List.append_assoc, List.singleton_append] at h1
      rw [h1]
      have h2 : forPath (pre ++ k' :: p) (leavesDict pre d) = [] := by
        apply forPath_eq_nil
        intro x hx hxe
        obtain ⟨k2, hk2, hp⟩ := leavesDict_prefix d pre (fun e _ => leaves_prefix e.2) x hx
        rw [hxe] at hp
        rw [prefix_key hp] at hk2
        exact hd.1 hk2
      rw [h2]
      simp
    · have h2 : forPath (pre ++ k :: p) (leaves (pre ++ [k']) v) = [] := by
        apply forPath_eq_nil
        intro x hx hxe
        have hp := leaves_prefix v _ x hx
        rw [hxe] at hp
        exact hk (prefix_key hp)
      rw [h2, List.nil_append, ihd hd.2 (fun e he => ih e (by simp [he]))]
      simp [hk]

theorem uniqueKeys_child {d : Dict} (h : UniqueKeys (.dict d)) {e : String × PyVal} (he : e ∈ d) : UniqueKeys e.2 := by
  intro p e' hp
  apply h (e.1 :: p)
  rw [valAt_dict_cons, Assoc.get_of_mem (h [] d (by rw [valAt])) (v := e.2) (k := e.1) he]
  exact hp

theorem leaves_forPath (v : PyVal) : UniqueKeys v → ∀ (pre p : List String),
    forPath (pre ++ p) (leaves pre v) = ((valAt v p).bind number).toList := by
  induction v using PyVal.induct with
  | none => intro _ pre p; cases p <;> simp [leaves, forPath, valAt, number]
  | bool b => intro _ pre p; cases p <;> simp [leaves, forPath, valAt, number]
  | int i => intro _ pre p; cases p <;> simp [leaves, forPath, valAt, number]
  | flt q => intro _ pre p; cases p <;> simp [leaves, forPath, valAt, number]
  | str s => intro _ pre p; cases p <;> simp [leaves, forPath, valAt, number]
  | list l _ => intro _ pre p; cases p <;> simp [leaves, forPath, valAt, number]
  | dict d ih =>
    intro hu pre p
    rw [leaves]
    cases p with
    | nil =>
      rw [List.append_nil, forPath_eq_nil]
      · simp [valAt, number]
      · intro x hx hxe
        obtain ⟨k, -, hp⟩ := leavesDict_prefix d pre (fun e _ => leaves_prefix e.2) x hx
        rw [hxe] at hp
        have := hp.length_le
        simp at this
    | cons k p =>
      exact leavesDict_forPath d (hu [] d (by rw [valAt])) pre k p
        (fun e he pre' => ih e he (uniqueKeys_child hu he) pre' p)

/-! ### Collecting values -/

theorem get_foldl_push (l : List (List String × Rat)) (q : List String) :
    ∀ m : List (List String × List Rat), Assoc.get (l.foldl pushValue m) q =
      if forPath q l = [] then Assoc.get m q else some ((Assoc.get m q).getD [] ++ forPath q l) := by
  induction l with
  | nil => intro m; simp [forPath]
  | cons x l ih =>
    intro m
    rw [List.foldl_cons, ih]
    have hx : forPath q (x :: l) = (if x.1 = q then [x.2] else []) ++ forPath q l := by
      unfold forPath
      rw [List.filterMap_cons]
      split_ifs <;> simp_all
    rw [hx]
    unfold pushValue
    by_cases h : x.1 = q
    · subst h
      rw [Assoc.get_set_self]
      simp only [if_true, List.singleton_append]
      by_cases h2 : forPath x.1 l = []
      · simp [h2]
      · simp [h2]
    · rw [Assoc.get_set_other _ _ (fun h' => h h'.symm)]
      simp [h]

theorem nodup_foldl_push (l : List (List String × Rat)) :
    ∀ m : List (List String × List Rat), (Assoc.keys m).Nodup → (Assoc.keys (l.foldl pushValue m)).Nodup := by
  induction l with
  | nil => intro m h; exact h
  | cons x l ih => intro m h; exact ih _ (Assoc.nodup_keys_set h _ _)

theorem forPath_flatMap (ds : List Dict) (hu : ∀ d ∈ ds, UniqueKeys (.dict d)) (q : List String) :
    forPath q (ds.flatMap (fun d => leaves [] (.dict d))) = ds.filterMap (fun d => metricAt d q) := by
  induction ds with
  | nil => simp [forPath]
  | cons d ds ih =>
    rw [List.flatMap_cons, forPath_append, ih (fun d hd => hu d (by simp [hd])), List.filterMap_cons]
    have h := leaves_forPath (.dict d) (hu d (by simp)) [] q
    rw [List.nil_append] at h
    rw [h]
    unfold metricAt
    cases (valAt (.dict d) q).bind number <;> rfl

/-! ### Nested setting -/

/-- The dictionary found at a key, or an empty one (helper). -/
theorem valAt_setNested_self (p : List String) (hp : p ≠ []) (v : PyVal) :
    ∀ d : Dict, ∃ d', setNested d p v = .ok d' ∧ valAt (.dict d') p = some v := by
  induction p with
  | nil => exact absurd rfl hp
  | cons k p ih =>
    intro d
    cases p with
    | nil => exact ⟨_, rfl, by rw [valAt_dict_cons, Assoc.get_set_self]; simp [valAt]⟩
    | cons k' ks =>
      obtain ⟨e, he, hv⟩ := ih (by simp) (subDict d k)
      refine ⟨Assoc.set d k (.dict e), ?_, ?_⟩
      · rw [setNested, he]; rfl
      · rw [valAt_dict_cons, Assoc.get_set_self]; exact hv

theorem valAt_setNested_other (p : List String) (v : PyVal) :
    ∀ (d d' : Dict) (q : List String), setNested d p v = .ok d' → ¬ p <+: q → ¬ q <+: p →
      valAt (.dict d') q = valAt (.dict d) q := by
  induction p with
  | nil => intro d d' q h; cases h
  | cons k p ih =>
    intro d d' q h hpq hqp
    cases q with
    | nil => exact absurd (List.nil_prefix) hqp
    | cons k2 q =>
      rw [valAt_dict_cons, valAt_dict_cons]
      cases p with
      | nil =>
        simp only [setNested] at h
        cases h
        by_cases hk : k2 = k
        · subst hk; exact absurd (by simp) hpq
        · rw [Assoc.get_set_other _ _ hk]
      | cons k' ks =>
        rw [setNested] at h
        cases he : setNested (subDict d k) (k' :: ks) v with
        | error x => rw [he] at h; cases h
        | ok e =>
          rw [he] at h
          cases h
          by_cases hk : k2 = k
          · subst hk
            rw [Assoc.get_set_self, Option.bind_some]
            have hpq' : ¬ (k' :: ks) <+: q := fun hh => hpq (by rw [List.cons_prefix_cons]; exact ⟨rfl, hh⟩)
            have hqp' : ¬ q <+: (k' :: ks) := fun hh => hqp (by rw [List.cons_prefix_cons]; exact ⟨rfl, hh⟩)
            rw [ih _ _ q he hpq' hqp']
            cases q with
            | nil => exact absurd (List.nil_prefix) hqp'
            | cons k3 q =>
              cases hg : Assoc.get d k2 with
              | none => simp [subDict, hg, valAt]
              | some w => cases w <;> simp [subDict, hg, valAt]
          · rw [Assoc.get_set_other _ _ hk]

theorem fillMetrics_ok (sqrt : Rat → Rat) (m : List (List String × List Rat)) (hne : ∀ e ∈ m, e.1 ≠ []) :
    ∀ d : Dict, ∃ d', fillMetrics sqrt m d = .ok d' := by
  induction m with
  | nil => intro d; exact ⟨d, rfl⟩
  | cons e m ih =>
    intro d
    obtain ⟨p, vs⟩ := e
    obtain ⟨d1, h1, -⟩ := valAt_setNested_self p (hne (p, vs) (by simp)) (summaryOf sqrt vs) d
    obtain ⟨d2, h2⟩ := ih (fun e he => hne e (by simp [he])) d1
    refine ⟨d2, ?_⟩
    rw [fillMetrics, h1, eok_bind, h2]

theorem fillMetrics_other (sqrt : Rat → Rat) (m : List (List String × List Rat)) (q : List String)
    (hq : ∀ e ∈ m, ¬ e.1 <+: q ∧ ¬ q <+: e.1) :
    ∀ d d' : Dict, fillMetrics sqrt m d = .ok d' → valAt (.dict d') q = valAt (.dict d) q := by
  induction m with
  | nil => intro d d' h; cases h; rfl
  | cons e m ih =>
    intro d d' h
    obtain ⟨p, vs⟩ := e
    rw [fillMetrics] at h
    cases h1 : setNested d p (summaryOf sqrt vs) with
    | error x => rw [h1] at h; cases h
    | ok d1 =>
      rw [h1, eok_bind] at h
      rw [ih (fun e he => hq e (by simp [he])) d1 d' h]
      exact valAt_setNested_other p _ d d1 q h1 (hq (p, vs) (by simp)).1 (hq (p, vs) (by simp)).2

theorem fillMetrics_self (sqrt : Rat → Rat) (m : List (List String × List Rat)) (hn : (Assoc.keys m).Nodup)
    (hne : ∀ e ∈ m, e.1 ≠ []) (hpf : ∀ e ∈ m, ∀ e' ∈ m, e.1 <+: e'.1 → e.1 = e'.1) :
    ∀ d d' : Dict, fillMetrics sqrt m d = .ok d' → ∀ e ∈ m, valAt (.dict d') e.1 = some (summaryOf sqrt e.2) := by
  induction m with
  | nil => intro d d' _ e he; simp at he
  | cons e0 m ih =>
    intro d d' h e he
    obtain ⟨p, vs⟩ := e0
    simp only [Assoc.keys, List.map_cons, List.nodup_cons] at hn
    rw [fillMetrics] at h
    obtain ⟨d1, h1, hv⟩ := valAt_setNested_self p (hne (p, vs) (by simp)) (summaryOf sqrt vs) d
    rw [h1, eok_bind] at h
    rcases List.mem_cons.mp he with rfl | he
    · rw [fillMetrics_other sqrt m p _ d1 d' h, hv]
      intro e' he'
      have hne' : e'.1 ≠ p := fun hh => hn.1 (by rw [← hh]; exact List.mem_map_of_mem he')
      exact ⟨fun hh => hne' (hpf e' (by simp [he']) (p, vs) (by simp) hh),
        fun hh => hne' (hpf (p, vs) (by simp) e' (by simp [he']) hh).symm⟩
    · exact ih hn.2 (fun e he => hne e (by simp [he]))
        (fun e he e' he' => hpf e (by simp [he]) e' (by simp [he'])) d1 d' h e he

/-! ### Entries -/

theorem entryOf_success (pystr : PyVal → String) (hps : ∀ v, pystr v ≠ "success") (f : ReportFile) (e : RunEntry)
    (h : entryOf pystr f = .ok e) : successMetrics e = successful f.doc := by
  unfold entryOf at h
  cases hr : runBlock f.doc with
  | error x => rw [hr] at h; cases h
  | ok run =>
    rw [hr] at h
    simp only [Except.map, Except.ok.injEq] at h
    subst h
    unfold successMetrics successful statusOf getNone
    have hrun : valAt (.dict f.doc) ["run", "status"] = Assoc.get run "status" := by
      rw [valAt_dict_cons]
      unfold runBlock at hr
      cases hg : Assoc.get f.doc "run" with
      | none => rw [hg] at hr; simp only [Except.ok.injEq] at hr; subst hr; rfl
      | some v =>
        rw [hg] at hr
        cases v <;> simp at hr
        subst hr
        rw [Option.bind_some, valAt_dict_cons]
        cases Assoc.get _ "status" <;> simp [valAt]
    have hm : valAt (.dict f.doc) ["metrics"] = Assoc.get f.doc "metrics" := by
      rw [valAt_dict_cons]; cases Assoc.get f.doc "metrics" <;> simp [valAt]
    rw [hrun, hm]
    cases Assoc.get f.doc "metrics" with
    | none => cases Assoc.get run "status" with
      | none => rfl
      | some w => cases w <;> rfl
    | some w =>
      cases w <;> cases Assoc.get run "status" with
      | none => rfl
      | some w => cases w <;> simp [hps]

theorem entries_success (pystr : PyVal → String) (hps : ∀ v, pystr v ≠ "success") :
    ∀ (files : List ReportFile) (es : List RunEntry), files.mapM (entryOf pystr) = .ok es →
      es.length = files.length ∧ es.filterMap successMetrics = files.filterMap (fun f => successful f.doc) := by
  intro files
  induction files with
  | nil => intro es h; cases h; exact ⟨rfl, rfl⟩
  | cons f files ih =>
    intro es h
    rw [List.mapM_cons] at h
    cases h1 : entryOf pystr f with
    | error x => rw [h1] at h; cases h
    | ok e =>
      rw [h1] at h
      cases h2 : files.mapM (entryOf pystr) with
      | error x => rw [h2] at h; cases h
      | ok es' =>
        rw [h2] at h
        cases h
        obtain ⟨h3, h4⟩ := ih es' h2
        refine ⟨by simp [h3], ?_⟩
        rw [List.filterMap_cons, List.filterMap_cons, entryOf_success pystr hps f e h1, h4]

/-- What a summary consists of (helper). -/
theorem sweepSummary_parts {pystr : PyVal → String} {sqrt : Rat → Rat} {requested : List Int} {files : List ReportFile}
    {S : SweepSummary} (h : sweepSummary pystr sqrt requested files = .ok S) :
    ∃ es ms, files.mapM (entryOf pystr) = .ok es ∧ fillMetrics sqrt (sortItems (collectValues es)) [] = .ok ms ∧
      S = { requestedSeeds := requested, requestedRunCount := requested.length, completedRunCount := es.length,
            successfulRunCount := (es.filterMap successMetrics).length,
            failedRunCount := es.length - (es.filterMap successMetrics).length,
            status := sweepStatus (es.length - (es.filterMap successMetrics).length) (es.filterMap successMetrics).length,
            metrics := ms, runs := es } := by
  unfold sweepSummary at h
  cases h1 : files.mapM (entryOf pystr) with
  | error x => rw [h1] at h; cases h
  | ok es =>
    rw [h1, eok_bind] at h
    cases h2 : fillMetrics sqrt (sortItems (collectValues es)) [] with
    | error x => rw [h2] at h; cases h
    | ok ms =>
      rw [h2, eok_bind] at h
      cases h
      exact ⟨es, ms, rfl, h2, rfl⟩

theorem sortItems_perm (m : List (List String × List Rat)) : (sortItems m).Perm m := List.perm_insertionSort _ _

theorem collect_keys_ne (es : List RunEntry) : ∀ e ∈ collectValues es, e.1 ≠ [] := by
  intro e he hnil
  have hk : e.1 ∈ Assoc.keys (collectValues es) := List.mem_map_of_mem he
  rw [Assoc.mem_keys_iff] at hk
  obtain ⟨vs, hvs⟩ := hk
  unfold collectValues at hvs
  rw [get_foldl_push, hnil] at hvs
  have : forPath [] ((es.filterMap successMetrics).flatMap (fun d => leaves [] (.dict d))) = [] := by
    apply forPath_eq_nil
    intro x hx hxe
    rw [List.mem_flatMap] at hx
    obtain ⟨d, -, hx⟩ := hx
    rw [leaves] at hx
    obtain ⟨k, -, hp⟩ := leavesDict_prefix d [] (fun e _ => leaves_prefix e.2) x hx
    rw [hxe] at hp
    simp at hp
  rw [if_pos this] at hvs
  simp at hvs

/-! ### C154 -/

/-- C154: the summary is written whenever the `run` sections are mappings, whatever the metrics contain. -/
theorem C154_total (pystr : PyVal → String) (sqrt : Rat → Rat) (requested : List Int) (files : List ReportFile)
    (h : ∀ f ∈ files, valAt (.dict f.doc) ["run"] = none ∨ ∃ d, valAt (.dict f.doc) ["run"] = some (.dict d)) :
    ∃ S, sweepSummary pystr sqrt requested files = .ok S := by
  have h1 : ∃ es, files.mapM (entryOf pystr) = .ok es := by
    induction files with
    | nil => exact ⟨[], rfl⟩
    | cons f files ih =>
      obtain ⟨es, hes⟩ := ih (fun f hf => h f (by simp [hf]))
      have hf : ∃ e, entryOf pystr f = .ok e := by
        have h0 := h f (by simp)
        have hm : valAt (.dict f.doc) ["run"] = Assoc.get f.doc "run" := by
          rw [valAt_dict_cons]; cases Assoc.get f.doc "run" <;> simp [valAt]
        rw [hm] at h0
        unfold entryOf runBlock
        rcases h0 with h0 | ⟨d, h0⟩ <;> rw [h0] <;> exact ⟨_, rfl⟩
      obtain ⟨e, he⟩ := hf
      exact ⟨e :: es, by rw [List.mapM_cons, he, hes]; rfl⟩
  obtain ⟨es, hes⟩ := h1
  obtain ⟨ms, hms⟩ := fillMetrics_ok sqrt (sortItems (collectValues es))
    (fun e he => collect_keys_ne es e ((sortItems_perm _).mem_iff.mp he)) []
  exact ⟨_, by unfold sweepSummary; rw [hes, eok_bind, hms, eok_bind]⟩

theorem get_collect (es : List RunEntry) (ds : List Dict) (hds : es.filterMap successMetrics = ds)
    (hu : ∀ d ∈ ds, UniqueKeys (.dict d)) (q : List String) :
    Assoc.get (collectValues es) q =
      if ds.filterMap (fun d => metricAt d q) = [] then none else some (ds.filterMap (fun d => metricAt d q)) := by
  unfold collectValues
  rw [get_foldl_push, hds, forPath_flatMap ds hu]
  simp

theorem nodup_collect (es : List RunEntry) : (Assoc.keys (collectValues es)).Nodup := by
  unfold collectValues
  exact nodup_foldl_push _ _ (by simp [Assoc.keys])

/-- C154 (partial): at the path of every metric that a successful run reports, the summary holds the summary of exactly the
values of the successful runs, in the order of the runs; it holds nothing at paths unrelated to reported ones.  Missing:
metrics of which one lies below another (`C154_metric_violated`). -/
theorem C154_metric_partial (pystr : PyVal → String) (hps : ∀ v, pystr v ≠ "success") (sqrt : Rat → Rat)
    (requested : List Int) (files : List ReportFile) (S : SweepSummary)
    (h : sweepSummary pystr sqrt requested files = .ok S)
    (hu : ∀ f ∈ files, ∀ d, successful f.doc = some d → UniqueKeys (.dict d))
    (hpf : ∀ p q, valuesOf files p ≠ [] → valuesOf files q ≠ [] → p <+: q → p = q) :
    (∀ p, valuesOf files p ≠ [] → valAt (.dict S.metrics) p = some (summaryOf sqrt (valuesOf files p))) ∧
    (∀ q, (∀ p, valuesOf files p ≠ [] → ¬ p <+: q ∧ ¬ q <+: p) → q ≠ [] → valAt (.dict S.metrics) q = none) := by
  obtain ⟨es, ms, h1, h2, rfl⟩ := sweepSummary_parts h
  obtain ⟨-, hds⟩ := entries_success pystr hps files es h1
  have hu' : ∀ d ∈ files.filterMap (fun f => successful f.doc), UniqueKeys (.dict d) := by
    intro d hd
    rw [List.mem_filterMap] at hd
    obtain ⟨f, hf, hd⟩ := hd
    exact hu f hf d hd
  have hget := get_collect es _ hds hu'
  have hmem : ∀ e ∈ sortItems (collectValues es), valuesOf files e.1 ≠ [] ∧ e.2 = valuesOf files e.1 := by
    intro e he
    have he' := (sortItems_perm _).mem_iff.mp he
    have := Assoc.get_of_mem (nodup_collect es) (k := e.1) (v := e.2) he'
    rw [hget e.1] at this
    split_ifs at this with hnil
    exact ⟨hnil, (Option.some.inj this).symm⟩
  refine ⟨?_, ?_⟩
  · intro p hp
    have hg : Assoc.get (collectValues es) p = if valuesOf files p = [] then none else some (valuesOf files p) := hget p
    rw [if_neg hp] at hg
    have hin : (p, valuesOf files p) ∈ sortItems (collectValues es) :=
      (sortItems_perm _).mem_iff.mpr (Assoc.mem_of_get hg)
    exact fillMetrics_self sqrt _ (((sortItems_perm _).map _).nodup_iff.mpr (nodup_collect es))
      (fun e he => collect_keys_ne es e ((sortItems_perm _).mem_iff.mp he))
      (fun e he e' he' => hpf e.1 e'.1 (hmem e he).1 (hmem e' he').1) [] ms h2 _ hin
  · intro q hq hne
    rw [fillMetrics_other sqrt _ q (fun e he => hq e.1 (hmem e he).1) [] ms h2]
    cases q with
    | nil => exact absurd rfl hne
    | cons k q => rw [valAt_dict_cons]; rfl

theorem listMin_spec (vs : List Rat) : ∀ v, listMin v vs ∈ v :: vs ∧ ∀ x ∈ v :: vs, listMin v vs ≤ x := by
  induction vs with
  | nil => intro v; simp [listMin]
  | cons w vs ih =>
    intro v
    obtain ⟨h1, h2⟩ := ih (if w < v then w else v)
    have he : listMin v (w :: vs) = listMin (if w < v then w else v) vs := rfl
    rw [he]
    have h3 := h2 _ (List.mem_cons_self)
    refine ⟨?_, ?_⟩
    · rcases List.mem_cons.mp h1 with h | h
      · rw [h]; split_ifs <;> simp
      · simp [h]
    · intro x hx
      rcases List.mem_cons.mp hx with rfl | hx
      · refine h3.trans ?_
        split_ifs with h
        · exact h.le
        · exact le_refl _
      · rcases List.mem_cons.mp hx with rfl | hx
        · refine h3.trans ?_
          split_ifs with h
          · exact le_refl _
          · exact not_lt.mp h
        · exact h2 x (by simp [hx])

theorem listMax_spec (vs : List Rat) : ∀ v, listMax v vs ∈ v :: vs ∧ ∀ x ∈ v :: vs, x ≤ listMax v vs := by
  induction vs with
  | nil => intro v; simp [listMax]
  | cons w vs ih =>
    intro v
    obtain ⟨h1, h2⟩ := ih (if v < w then w else v)
    have he : listMax v (w :: vs) = listMax (if v < w then w else v) vs := rfl
    rw [he]
    have h3 := h2 _ (List.mem_cons_self)
    refine ⟨?_, ?_⟩
    · rcases List.mem_cons.mp h1 with h | h
      · rw [h]; split_ifs <;> simp
      · simp [h]
    · intro x hx
      rcases List.mem_cons.mp hx with rfl | hx
      · refine le_trans ?_ h3
        split_ifs with h
        · exact h.le
        · exact le_refl _
      · rcases List.mem_cons.mp hx with rfl | hx
        · refine le_trans ?_ h3
          split_ifs with h
          · exact le_refl _
          · exact not_lt.mp h
        · exact h2 x (by simp [hx])

/-- C154: the summary of a metric gives the number of values, their exact mean, the population standard deviation (0 for a
single value), the least and the greatest value and the values themselves. -/
theorem C154_stats (sqrt : Rat → Rat) (vs : List Rat) (h : vs ≠ []) : Describes sqrt (summaryOf sqrt vs) vs := by
  cases vs with
  | nil => exact absurd rfl h
  | cons v vs =>
    have hl : ((v :: vs).length : Rat) ≠ 0 := by
      have : 0 < (v :: vs).length := by simp
      exact_mod_cast this.ne'
    refine ⟨?_, ?_, ⟨fmean (v :: vs), ?_, ?_, ?_⟩, ⟨listMin v vs, ?_, listMin_spec vs v⟩, ⟨listMax v vs, ?_, listMax_spec vs v⟩⟩
    · simp [summaryOf, valAt, Assoc.get]
    · simp [summaryOf, valAt, Assoc.get]
    · simp [summaryOf, valAt, Assoc.get]
    · unfold fmean; exact div_mul_cancel₀ _ hl
    · have hlen : ((v :: vs).length = 1) = ¬ ((v :: vs).length > 1) := by simp [List.length_pos_iff]
      simp only [summaryOf, valAt, Assoc.get, List.find?, hlen]
      unfold pvariance
      simp only [pow_two]
      split_ifs <;> simp_all
    · simp [summaryOf, valAt, Assoc.get]
    · simp [summaryOf, valAt, Assoc.get]

/-- C154: the mean lies between the least and the greatest value, whatever the runs report. -/
theorem C154_mean_between (sqrt : Rat → Rat) (vs : List Rat) (h : vs ≠ []) :
    ∃ lo mean hi, valAt (summaryOf sqrt vs) ["min"] = some (.flt lo) ∧ valAt (summaryOf sqrt vs) ["mean"] = some (.flt mean) ∧
      valAt (summaryOf sqrt vs) ["max"] = some (.flt hi) ∧ lo ≤ mean ∧ mean ≤ hi := by
  obtain ⟨-, -, ⟨m, hm, hsum, -⟩, ⟨lo, hlo, -, hle⟩, ⟨hi, hhi, -, hge⟩⟩ := C154_stats sqrt vs h
  have hpos : (0 : Rat) < vs.length := by
    have : 0 < vs.length := List.length_pos_iff.mpr h
    exact_mod_cast this
  refine ⟨lo, m, hi, hlo, hm, hhi, ?_, ?_⟩
  · have := List.card_nsmul_le_sum vs lo hle
    rw [nsmul_eq_mul] at this
    nlinarith
  · have := List.sum_le_card_nsmul vs hi hge
    rw [nsmul_eq_mul] at this
    nlinarith

/-- C154: the summary of a metric does not depend on the order of the runs, except for the list of values itself. -/
theorem C154_order (sqrt : Rat → Rat) (vs ws : List Rat) (h : vs.Perm ws) :
    ∀ k, k ≠ "values" → valAt (summaryOf sqrt vs) [k] = valAt (summaryOf sqrt ws) [k] := by
  intro k hk
  cases vs with
  | nil => rw [List.nil_perm.mp h]
  | cons v vs =>
    cases ws with
    | nil => exact absurd h.length_eq (by simp)
    | cons w ws =>
      have hlen : vs.length = ws.length := by simpa using h.length_eq
      have hmean : fmean (v :: vs) = fmean (w :: ws) := by unfold fmean; rw [h.sum_eq, h.length_eq]
      have hvar : pvariance (v :: vs) = pvariance (w :: ws) := by
        unfold pvariance; rw [hmean, (h.map _).sum_eq, h.length_eq]
      have hmin : listMin v vs = listMin w ws := by
        obtain ⟨a1, a2⟩ := listMin_spec vs v
        obtain ⟨b1, b2⟩ := listMin_spec ws w
        exact le_antisymm (a2 _ (h.mem_iff.mpr b1)) (b2 _ (h.mem_iff.mp a1))
      have hmax : listMax v vs = listMax w ws := by
        obtain ⟨a1, a2⟩ := listMax_spec vs v
        obtain ⟨b1, b2⟩ := listMax_spec ws w
        exact le_antisymm (b2 _ (h.mem_iff.mp a1)) (a2 _ (h.mem_iff.mpr b1))
      have hk' : ¬ ("values" = k) := fun h => hk h.symm
      simp only [summaryOf, valAt, Assoc.get, List.find?, List.length_cons, hlen, hmean, hvar, hmin, hmax, hk', decide_false]

/-- C154: every report read appears once, in order, with its own seed, status, error and metrics. -/
theorem C154_runs (pystr : PyVal → String) (sqrt : Rat → Rat) (requested : List Int) (files : List ReportFile)
    (S : SweepSummary) (h : sweepSummary pystr sqrt requested files = .ok S) :
    S.runs.length = files.length ∧
    ∀ (i : Nat) (f : ReportFile) (e : RunEntry), files[i]? = some f → S.runs[i]? = some e →
      e.runJson = f.path ∧ e.runDir = f.dir ∧
      e.seed = (valAt (.dict f.doc) ["run", "seed"]).getD .none ∧
      e.errorCode = (valAt (.dict f.doc) ["run", "error_code"]).getD .none ∧
      e.error = (valAt (.dict f.doc) ["error"]).getD .none ∧
      e.metrics = (valAt (.dict f.doc) ["metrics"]).getD .none ∧
      (∀ s, valAt (.dict f.doc) ["run", "status"] = some (.str s) → e.status = s) := by
  obtain ⟨es, ms, h1, h2, rfl⟩ := sweepSummary_parts h
  have key : ∀ f e, entryOf pystr f = .ok e → e.runJson = f.path ∧ e.runDir = f.dir ∧
      e.seed = (valAt (.dict f.doc) ["run", "seed"]).getD .none ∧
      e.errorCode = (valAt (.dict f.doc) ["run", "error_code"]).getD .none ∧
      e.error = (valAt (.dict f.doc) ["error"]).getD .none ∧
      e.metrics = (valAt (.dict f.doc) ["metrics"]).getD .none ∧
      (∀ s, valAt (.dict f.doc) ["run", "status"] = some (.str s) → e.status = s) := by
    intro f e he
    unfold entryOf at he
    cases hr : runBlock f.doc with
    | error x => rw [hr] at he; cases he
    | ok run =>
      rw [hr] at he
      simp only [Except.map, Except.ok.injEq] at he
      subst he
      have hone : ∀ k, valAt (.dict f.doc) [k] = Assoc.get f.doc k := by
        intro k; rw [valAt_dict_cons]; cases Assoc.get f.doc k <;> simp [valAt]
      have hrun : ∀ k, valAt (.dict f.doc) ["run", k] = Assoc.get run k := by
        intro k
        rw [valAt_dict_cons]
        unfold runBlock at hr
        cases hg : Assoc.get f.doc "run" with
        | none => rw [hg] at hr; simp only [Except.ok.injEq] at hr; subst hr; rfl
        | some v =>
          rw [hg] at hr
          cases v <;> simp at hr
          subst hr
          rw [Option.bind_some, valAt_dict_cons]
          cases Assoc.get _ k <;> simp [valAt]
      simp only [hrun, hone]
      refine ⟨trivial, trivial, rfl, rfl, rfl, rfl, ?_⟩
      intro s hs
      simp only [statusOf, hs]
  clear h h2
  induction files generalizing es with
  | nil => cases h1; simp
  | cons f files ih =>
    rw [List.mapM_cons] at h1
    cases h3 : entryOf pystr f with
    | error x => rw [h3] at h1; cases h1
    | ok e =>
      rw [h3] at h1
      cases h4 : files.mapM (entryOf pystr) with
      | error x => rw [h4] at h1; cases h1
      | ok es' =>
        rw [h4] at h1
        cases h1
        obtain ⟨h5, h6⟩ := ih es' h4
        refine ⟨by simpa using h5, ?_⟩
        intro i f' e' hf he
        cases i with
        | zero => simp at hf he; subst hf; subst he; exact key f e h3
        | succ i => exact h6 i f' e' (by simpa using hf) (by simpa using he)

theorem length_filterMap_eq_iff {α β : Type} (f : α → Option β) (l : List α) :
    l.length - (l.filterMap f).length = 0 ↔ ∀ x ∈ l, (f x).isSome := by
  have hle : ∀ l : List α, (l.filterMap f).length ≤ l.length := List.length_filterMap_le f
  induction l with
  | nil => simp
  | cons a l ih =>
    have := hle l
    rw [List.filterMap_cons]
    cases h : f a with
    | none => simp only [List.length_cons, List.forall_mem_cons, h]; simp; omega
    | some b =>
      simp only [List.length_cons, List.forall_mem_cons, h, Option.isSome_some, true_and, ← ih]
      omega

/-- C154 (partial): when every requested seed left a report, the status of the sweep is `success` exactly if every run
succeeded, `failed` exactly if some run did not and none did, and the counts add up.  Missing: runs that left no report are not
counted as failed (`C154_status_violated`). -/
theorem C154_status_partial (pystr : PyVal → String) (hps : ∀ v, pystr v ≠ "success") (sqrt : Rat → Rat)
    (requested : List Int) (files : List ReportFile) (S : SweepSummary) (hall : files.length = requested.length)
    (h : sweepSummary pystr sqrt requested files = .ok S) :
    S.requestedSeeds = requested ∧ S.requestedRunCount = requested.length ∧ S.completedRunCount = requested.length ∧
    S.successfulRunCount + S.failedRunCount = requested.length ∧
    S.successfulRunCount = (files.filter (fun f => (successful f.doc).isSome)).length ∧
    (S.status = "success" ↔ ∀ f ∈ files, (successful f.doc).isSome) ∧
    (S.status = "failed" ↔ files ≠ [] ∧ ∀ f ∈ files, successful f.doc = none) ∧
    (S.status = "success" ∨ S.status = "partial_failure" ∨ S.status = "failed") := by
  obtain ⟨es, ms, h1, h2, rfl⟩ := sweepSummary_parts h
  obtain ⟨hlen, hds⟩ := entries_success pystr hps files es h1
  have hle := List.length_filterMap_le (fun f : ReportFile => successful f.doc) files
  have hs := length_filterMap_eq_iff (fun f : ReportFile => successful f.doc) files
  simp only [hds, hlen]
  have hf : (files.filterMap (fun f => successful f.doc)).length = (files.filter (fun f => (successful f.doc).isSome)).length := by
    clear h h1 h2 hlen hds hle hs hall
    induction files with
    | nil => rfl
    | cons f files ih =>
      rw [List.filterMap_cons, List.filter_cons]
      cases hc : successful f.doc with
      | none => simpa using ih
      | some d => simpa using ih
  have hz : (files.filterMap (fun f => successful f.doc)).length = 0 ↔ ∀ f ∈ files, successful f.doc = none := by
    rw [List.length_eq_zero_iff, List.filterMap_eq_nil_iff]
  refine ⟨by trivial, by trivial, hall, by omega, hf, ?_, ?_, ?_⟩
  · rw [← hs]
    unfold sweepStatus
    split_ifs with h1 h2
    · exact ⟨fun _ => h1, fun _ => rfl⟩
    · exact ⟨fun h => absurd h (by decide), fun h => absurd h h1⟩
    · exact ⟨fun h => absurd h (by decide), fun h => absurd h h1⟩
  · rw [← hz]
    unfold sweepStatus
    have hnil : files ≠ [] ↔ 0 < files.length := List.length_pos_iff.symm
    rw [hnil]
    split_ifs with h1 h2
    · constructor
      · intro h; simp at h
      · intro h; omega
    · constructor
      · intro h; simp at h
      · intro h; exact absurd h.2 h2
    · constructor
      · intro _; omega
      · intro _; rfl
  · unfold sweepStatus
    split_ifs <;> simp

/-- A successful report with the given metrics (helper for examples). -/
def demoReport (seed : Int) (metrics : PyVal) : Dict :=
  [("run", .dict [("seed", .int seed), ("status", .str "success")]), ("metrics", metrics)]

/-- C154 violated: a sweep over two seeds, of which one run fails before it writes a report, exits with code 1 but leaves a
summary with status `success` and no failed run. -/
theorem C154_status_violated :
    ∃ (single : Int → RunOut) (files : List ReportFile) (S : SweepSummary),
      (sweepEnd (sweepLoop single false [1, 2] ⟨[], [], 0⟩).1 none).summary = some [1] ∧
      (sweepEnd (sweepLoop single false [1, 2] ⟨[], [], 0⟩).1 none).out = .ok 1 ∧
      files.map (fun f => valAt (.dict f.doc) ["run", "seed"]) = [some (.int 1)] ∧
      sweepSummary (fun _ => "") id [1, 2] files = .ok S ∧ S.status = "success" ∧ S.failedRunCount = 0 := by
  refine ⟨fun s => if s = 1 then .code 0 else .raised .typeError,
    [⟨"run.json", "", demoReport 1 (.dict [("test", .dict [("accuracy", .flt (1/2))])])⟩], ?_⟩
  refine ⟨_, by decide +kernel, by decide +kernel, by decide +kernel, rfl, by decide +kernel, by decide +kernel⟩

/-- C154 violated: when one run reports a number where another reports a dictionary, the values of the dictionary are written
into the summary of the number: here the mean of `acc` is replaced by the summary of `acc.mean`. -/
theorem C154_metric_violated :
    ∃ (files : List ReportFile) (S : SweepSummary),
      sweepSummary (fun _ => "") id [1, 2] files = .ok S ∧ valuesOf files ["acc"] = [1/2] ∧
      (valAt (.dict S.metrics) ["acc", "mean"]).bind number = none ∧
      valAt (.dict S.metrics) ["acc", "mean", "values"] = some (.list [.flt 1]) := by
  refine ⟨[⟨"a", "", demoReport 1 (.dict [("acc", .flt (1/2))])⟩,
    ⟨"b", "", demoReport 2 (.dict [("acc", .dict [("mean", .flt 1)])])⟩], ?_⟩
  exact ⟨_, rfl, by decide +kernel, by decide +kernel, by decide +kernel⟩

/-! ### A sweep that meets the hypotheses -/

theorem uniqueKeys_dict {d : Dict} (h : (Assoc.keys d).Nodup) (hc : ∀ e ∈ d, UniqueKeys e.2) : UniqueKeys (.dict d) := by
  intro p d' hp
  cases p with
  | nil => simp [valAt] at hp; subst hp; exact h
  | cons k p =>
    rw [valAt_dict_cons, Option.bind_eq_some_iff] at hp
    obtain ⟨v, hv, hp⟩ := hp
    exact hc (k, v) (Assoc.mem_of_get hv) p d' hp

theorem uniqueKeys_flt (q : Rat) : UniqueKeys (.flt q) := by
  intro p d hp
  cases p <;> simp [valAt] at hp

theorem reported_mem (files : List ReportFile)
    (hu : ∀ d ∈ files.filterMap (fun f => successful f.doc), UniqueKeys (.dict d)) (p : List String)
    (hp : valuesOf files p ≠ []) :
    p ∈ ((files.filterMap (fun f => successful f.doc)).flatMap (fun d => leaves [] (.dict d))).map (·.1) := by
  unfold valuesOf at hp
  rw [← forPath_flatMap _ hu] at hp
  by_contra hn
  exact hp (forPath_eq_nil (fun x hx hxe => hn (by rw [← hxe]; exact List.mem_map_of_mem hx)))

/-- Two successful runs and a failed one. -/
def demoFiles : List ReportFile :=
  [⟨"a", "", demoReport 1 (.dict [("test", .dict [("accuracy", .flt (1/2)), ("f1", .flt (1/4))])])⟩,
   ⟨"b", "", [("run", .dict [("seed", .int 2), ("status", .str "failed")]), ("metrics", .none)]⟩,
   ⟨"c", "", demoReport 3 (.dict [("test", .dict [("accuracy", .flt 1), ("f1", .flt (3/4))])])⟩]

theorem demoFiles_unique : ∀ d ∈ demoFiles.filterMap (fun f => successful f.doc), UniqueKeys (.dict d) := by
  have h : demoFiles.filterMap (fun f => successful f.doc) =
      [[("test", .dict [("accuracy", .flt (1/2)), ("f1", .flt (1/4))])],
       [("test", .dict [("accuracy", .flt 1), ("f1", .flt (3/4))])]] := by decide +kernel
  rw [h]
  intro d hd
  simp only [List.mem_cons, List.not_mem_nil, or_false] at hd
  rcases hd with rfl | rfl <;>
    (apply uniqueKeys_dict (by decide)
     intro e he
     simp only [List.mem_cons, List.not_mem_nil, or_false] at he
     subst he
     apply uniqueKeys_dict (by decide)
     intro e he
     simp only [List.mem_cons, List.not_mem_nil, or_false] at he
     rcases he with rfl | rfl <;> exact uniqueKeys_flt _)

example : ∃ S, sweepSummary (fun _ => "") id [1, 2, 3] demoFiles = .ok S ∧ S.status = "partial_failure" ∧
    S.failedRunCount = 1 ∧ valAt (.dict S.metrics) ["test", "accuracy", "mean"] = some (.flt (3/4)) :=
  ⟨_, rfl, by decide +kernel, by decide +kernel, by decide +kernel⟩

example : (∀ f ∈ demoFiles, ∀ d, successful f.doc = some d → UniqueKeys (.dict d)) ∧
    (∀ p q, valuesOf demoFiles p ≠ [] → valuesOf demoFiles q ≠ [] → p <+: q → p = q) ∧
    valuesOf demoFiles ["test", "accuracy"] = [1/2, 1] := by
  refine ⟨fun f hf d hd => demoFiles_unique d (List.mem_filterMap.mpr ⟨f, hf, hd⟩), ?_, by decide +kernel⟩
  intro p q hp hq
  have hp := reported_mem _ demoFiles_unique p hp
  have hq := reported_mem _ demoFiles_unique q hq
  have hl : ((demoFiles.filterMap (fun f => successful f.doc)).flatMap (fun d => leaves [] (.dict d))).map (·.1) =
      [["test", "accuracy"], ["test", "f1"], ["test", "accuracy"], ["test", "f1"]] := by decide +kernel
  rw [hl] at hp hq
  simp only [List.mem_cons, List.not_mem_nil, or_false] at hp hq
  rcases hp with rfl | rfl | rfl | rfl <;> rcases hq with rfl | rfl | rfl | rfl <;> decide

/-! ### C155 -/

theorem requireKeys_ok (d : Dict) (ks : List String) (u : Unit) : requireKeys d ks = .ok u ↔ ∀ k ∈ ks, (Assoc.get d k).isSome := by
  unfold requireKeys
  have h : ∀ k, Assoc.has d k = true ↔ (Assoc.get d k).isSome := by
    intro k
    rw [Assoc.has_iff, Assoc.mem_keys_iff, Option.isSome_iff_exists]
  by_cases hk : ks.all (fun k => Assoc.has d k) = true
  · rw [if_pos hk]
    rw [List.all_eq_true] at hk
    simp only [true_iff]
    exact fun k hm => (h k).mp (hk k hm)
  · rw [if_neg hk]
    simp only [reduceCtorEq, false_iff]
    intro hh
    exact hk (List.all_eq_true.mpr (fun k hm => (h k).mpr (hh k hm)))

theorem requireSection_ok (d : Dict) (name : String) (ks : List String) (s : Dict) :
    requireSection d name ks = .ok s ↔ Assoc.get d name = some (.dict s) ∧ ∀ k ∈ ks, (Assoc.get s k).isSome := by
  unfold requireSection
  cases hg : Assoc.get d name with
  | none => simp
  | some v =>
    cases v with
    | dict e =>
      simp only [requireMapping, eok_bind, ebind_ok, Option.some.injEq, PyVal.dict.injEq]
      constructor
      · rintro ⟨u, hu, hs⟩
        cases hs
        exact ⟨rfl, (requireKeys_ok _ _ _).mp hu⟩
      · rintro ⟨rfl, hk⟩
        exact ⟨(), (requireKeys_ok _ _ _).mpr hk, rfl⟩
    | none => simp [requireMapping, ebind_ok]
    | bool b => simp [requireMapping, ebind_ok]
    | int i => simp [requireMapping, ebind_ok]
    | flt q => simp [requireMapping, ebind_ok]
    | str s => simp [requireMapping, ebind_ok]
    | list l => simp [requireMapping, ebind_ok]

theorem valAt_one (d : Dict) (k : String) : valAt (.dict d) [k] = Assoc.get d k := by
  rw [valAt_dict_cons]; cases Assoc.get d k <;> simp [valAt]

/-- A value has something below a key exactly if it is a dictionary with that key (helper). -/
theorem valAt_cons_isSome (d : Dict) (k k' : String) (p : List String) :
    (valAt (.dict d) (k :: k' :: p)).isSome ↔ ∃ s, Assoc.get d k = some (.dict s) ∧ (valAt (.dict s) (k' :: p)).isSome := by
  rw [valAt_dict_cons]
  cases hg : Assoc.get d k with
  | none => simp
  | some v => cases v <;> simp [valAt]

/-- C155: a payload is accepted exactly if it has every documented entry, and the fallback events are a list. -/
theorem C155_schema (p : Dict) :
    validatePayload p = .ok () ↔
      (∀ q ∈ requiredPaths, (valAt (.dict p) q).isSome) ∧ ∃ l, valAt (.dict p) ["fallback_events"] = some (.list l) := by
  unfold validatePayload
  simp only [ebind_ok, requireSection_ok, requireKeys_ok, valAt_one]
  constructor
  · rintro ⟨_, h0, run, ⟨hr, hrk⟩, hh, ⟨hhs, hhk⟩, r, ⟨hre, hrek⟩, dv, ⟨hdv, hdvk⟩, bk, ⟨hbk, hbkk⟩, dt, ⟨hdt, hdtk⟩, nm,
      ⟨hnm, hnmk⟩, pr, ⟨hpr, hprk⟩, vr, ⟨hvr, hvrk⟩, hf⟩
    simp only [List.forall_mem_cons, List.not_mem_nil, false_imp_iff, implies_true, and_true] at h0 hrk hhk hrek hdvk hbkk hdtk hnmk hprk hvrk
    constructor
    · unfold requiredPaths
      simp only [List.forall_mem_cons, List.not_mem_nil, false_imp_iff, implies_true, and_true, valAt_cons_isSome, valAt_one,
        hr, hhs, hre, hdv, hbk, hdt, hnm, hpr, hvr, Option.some.injEq, PyVal.dict.injEq, exists_eq_left']
      tauto
    · cases hfe : Assoc.get p "fallback_events" with
      | none => rw [hfe] at hf; cases hf
      | some v => rw [hfe] at hf; cases v <;> first | exact ⟨_, rfl⟩ | cases hf
  · rintro ⟨h, l, hl⟩
    unfold requiredPaths at h
    simp only [List.forall_mem_cons, List.not_mem_nil, false_imp_iff, implies_true, and_true, valAt_cons_isSome, valAt_one] at h
    obtain ⟨h1, h2, h3, h4, h5, ⟨run, hr, r1⟩, ⟨_, hr2, r2⟩, ⟨_, hr3, r3⟩, ⟨_, hr4, r4⟩, ⟨_, hr5, r5⟩, ⟨_, hr6, r6⟩,
      ⟨_, hr7, r7⟩, ⟨_, hr8, r8⟩, ⟨_, hr9, r9⟩, ⟨hs, hhs, s1⟩, ⟨_, hhs2, s2⟩, ⟨re, hre, e1⟩, ⟨_, hre2, e2⟩,
      ⟨_, hd1, dv, hdv, d1⟩, ⟨_, hd2, _, hdv2, d2⟩, ⟨_, hb1, bk, hbk, b1⟩, ⟨_, hb2, _, hbk2, b2⟩,
      ⟨_, ht1, dt, hdt, t1⟩, ⟨_, ht2, _, hdt2, t2⟩, ⟨_, hn1, nm, hnm, n1⟩, ⟨_, hn2, _, hnm2, n2⟩,
      ⟨pr, hpr, p1⟩, ⟨_, hpr2, p2⟩, ⟨_, hpr3, p3⟩, ⟨_, hpr4, p4⟩, ⟨vr, hvr, v1⟩, ⟨_, hvr2, v2⟩, ⟨_, hvr3, v3⟩, ⟨_, hvr4, v4⟩⟩ := h
    simp only [hr, hhs, hre, hpr, hvr, Option.some.injEq, PyVal.dict.injEq] at hr2 hr3 hr4 hr5 hr6 hr7 hr8 hr9 hhs2 hre2 hd1 hd2 hb1 hb2 ht1 ht2 hn1 hn2 hpr2 hpr3 hpr4 hvr2 hvr3 hvr4
    subst hr2 hr3 hr4 hr5 hr6 hr7 hr8 hr9 hhs2 hre2 hd1 hd2 hb1 hb2 ht1 ht2 hn1 hn2 hpr2 hpr3 hpr4 hvr2 hvr3 hvr4
    simp only [hdv, hbk, hdt, hnm, Option.some.injEq, PyVal.dict.injEq] at hdv2 hbk2 hdt2 hnm2
    subst hdv2 hbk2 hdt2 hnm2
    refine ⟨(), ?_, run, ⟨hr, ?_⟩, hs, ⟨hhs, ?_⟩, re, ⟨hre, ?_⟩, dv, ⟨hdv, ?_⟩, bk, ⟨hbk, ?_⟩, dt, ⟨hdt, ?_⟩, nm, ⟨hnm, ?_⟩,
      pr, ⟨hpr, ?_⟩, vr, ⟨hvr, ?_⟩, ?_⟩
    · simp only [List.forall_mem_cons, List.not_mem_nil, false_imp_iff, implies_true, and_true, hr, hhs, hre, hpr, hvr, hl,
        Option.isSome_some, true_and]
      tauto
    · simp only [List.forall_mem_cons, List.not_mem_nil, false_imp_iff, implies_true, and_true]; tauto
    · simp only [List.forall_mem_cons, List.not_mem_nil, false_imp_iff, implies_true, and_true]; tauto
    · simp only [List.forall_mem_cons, List.not_mem_nil, false_imp_iff, implies_true, and_true, hdv, hbk, hdt, hnm,
        Option.isSome_some, true_and]; tauto
    · simp only [List.forall_mem_cons, List.not_mem_nil, false_imp_iff, implies_true, and_true]; tauto
    · simp only [List.forall_mem_cons, List.not_mem_nil, false_imp_iff, implies_true, and_true]; tauto
    · simp only [List.forall_mem_cons, List.not_mem_nil, false_imp_iff, implies_true, and_true]; tauto
    · simp only [List.forall_mem_cons, List.not_mem_nil, false_imp_iff, implies_true, and_true]; tauto
    · simp only [List.forall_mem_cons, List.not_mem_nil, false_imp_iff, implies_true, and_true]; tauto
    · simp only [List.forall_mem_cons, List.not_mem_nil, false_imp_iff, implies_true, and_true]; tauto
    · rw [hl]

/-- C155: a report is written as it was built, and only if it has every documented entry. -/
theorem C155_written (f : RunFacts) (doc : Dict) (h : writeRunSummary f = .ok doc) :
    doc = payloadOf f ∧ (∀ q ∈ requiredPaths, (valAt (.dict doc) q).isSome) ∧
    valAt (.dict doc) ["run", "status"] = some (.str f.status) ∧ valAt (.dict doc) ["run", "seed"] = some (.int f.seed) ∧
    valAt (.dict doc) ["metrics"] = some f.metrics ∧ valAt (.dict doc) ["error"] = some f.error ∧
    valAt (.dict doc) ["run", "error_code"] = some f.errorCode := by
  unfold writeRunSummary at h
  rw [ebind_ok] at h
  obtain ⟨u, hu, hd⟩ := h
  cases hd
  exact ⟨rfl, ((C155_schema _).mp hu).1, rfl, rfl, rfl, rfl, rfl⟩

/-- The sections that `_run_experiment_single` passes (main.py:550, 585-620, 982-985; runtime.py:35-46): the keys are fixed,
the values vary over the run. -/
structure MainSections (f : RunFacts) : Prop where
  hashes : ∃ a b, f.hashes = [("config_hash", a), ("effective_config_hash", b)]
  resolution : ∃ dr dv br bv tr tv nr nv sp lm, f.resolution =
    [("device", .dict [("requested", dr), ("resolved", dv)]), ("backend", .dict [("requested", br), ("resolved", bv)]),
     ("dtype", .dict [("requested", tr), ("resolved", tv)]), ("normalization", .dict [("requested", nr), ("resolved", nv)]),
     ("splits", sp), ("limits", lm)]
  protocol : ∃ a b c d, f.protocol =
    [("kind", a), ("use_test_split", b), ("report_splits", c), ("split_for_model_selection", d)]
  versions : ∃ py impl plat ms np sk tc tg sha ex cu cd, f.versions =
    [("python", py), ("python_implementation", impl), ("platform", plat), ("modssc", ms), ("numpy", np),
     ("scikit_learn", sk), ("torch", tc), ("torch_geometric", tg), ("git_sha", sha), ("executable", ex), ("cuda", cu),
     ("cudnn", cd)]

/-- C155: the report of a run is never refused, whether the run failed or not and whatever it resolved, measured or
recorded. -/
theorem C155_never_refused (f : RunFacts) (hf : MainSections f) : writeRunSummary f = .ok (payloadOf f) := by
  obtain ⟨⟨a, b, hh⟩, ⟨dr, dv, br, bv, tr, tv, nr, nv, sp, lm, hr⟩, ⟨k, us, rs, ms, hp⟩, ⟨py, impl, plat, mo, np, sk, tc, tg, sha, ex, cu, cd, hv⟩⟩ := hf
  have : validatePayload (payloadOf f) = .ok () := by
    rw [C155_schema]
    refine ⟨?_, f.fallbackEvents, rfl⟩
    unfold requiredPaths
    unfold payloadOf
    rw [hh, hr, hp, hv]
    simp only [List.forall_mem_cons, List.not_mem_nil, false_imp_iff, implies_true, and_true]
    refine ⟨rfl, rfl, rfl, rfl, rfl, rfl, rfl, rfl, rfl, rfl, rfl, rfl, rfl, rfl, rfl, rfl, rfl, rfl, rfl, rfl, rfl, rfl, rfl,
      rfl, rfl, rfl, rfl, rfl, rfl, rfl, rfl, rfl, rfl, rfl⟩
  unfold writeRunSummary
  rw [this, eok_bind]

/-- A failed run (helper for the example). -/
def demoFacts : RunFacts :=
  { name := "toy", seed := 1, runId := "abc", startedAt := "t0", finishedAt := "t1", status := "failed", benchmarkMode := false,
    configPath := .none, errorCode := .str "E", hashes := [("config_hash", .str "x"), ("effective_config_hash", .str "y")],
    resolution :=
      [("device", .dict [("requested", .str "cpu"), ("resolved", .none)]),
       ("backend", .dict [("requested", .dict []), ("resolved", .dict [])]),
       ("dtype", .dict [("requested", .dict []), ("resolved", .dict [])]),
       ("normalization", .dict [("requested", .dict []), ("resolved", .dict [])]), ("splits", .dict []), ("limits", .none)],
    protocol := [("kind", .str "inductive"), ("use_test_split", .none), ("report_splits", .list []),
      ("split_for_model_selection", .none)],
    versions := [("python", .str "3.12"), ("python_implementation", .str "CPython"), ("platform", .str "linux"),
      ("modssc", .none), ("numpy", .none), ("scikit_learn", .none), ("torch", .none), ("torch_geometric", .none),
      ("git_sha", .none), ("executable", .str "python"), ("cuda", .none), ("cudnn", .none)],
    config := [], artifacts := [], metrics := .none, hpo := .none, fallbackEvents := [], error := .str "ValueError: x" }

example : MainSections demoFacts :=
  ⟨⟨_, _, rfl⟩, ⟨_, _, _, _, _, _, _, _, _, _, rfl⟩, ⟨_, _, _, _, rfl⟩,
   ⟨_, _, _, _, _, _, _, _, _, _, _, _, rfl⟩⟩

end ModSSC.Bench
