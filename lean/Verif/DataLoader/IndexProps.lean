import Verif.DataLoader.IndexModel
import Verif.DataLoader.IndexSpec

/-!
# C28: the index is a map; C29: garbage collection
-/

namespace ModSSC.DataLoader.Index
open ModSSC IndexSpec

/-! ## Helper lemmas -/

theorem gcLoop_sublist (rows : List (String × Row)) : ∀ seen, (gcLoop rows seen).Sublist (rows.map (·.1)) := by
  induction rows with
  | nil => intro seen; simp [gcLoop]
  | cons p rows ih =>
    intro seen
    obtain ⟨fp, r⟩ := p
    simp only [gcLoop, List.map_cons]
    split
    · exact (ih seen).cons_cons _
    · exact (ih _).cons _

/-- Which rows the loop deletes: those whose URI was seen before. -/
theorem mem_gcLoop (rows : List (String × Row)) : ∀ (seen : List String), (rows.map (·.1)).Nodup →
    ∀ fp, fp ∈ gcLoop rows seen ↔
      ∃ pre r post, rows = pre ++ (fp, r) :: post ∧
        (r.manifest.uri ∈ seen ∨ ∃ q ∈ pre, q.2.manifest.uri = r.manifest.uri) := by
  induction rows with
  | nil => intro seen _ fp; simp [gcLoop]
  | cons p rows ih =>
    intro seen hn fp
    obtain ⟨fp0, r0⟩ := p
    rw [List.map_cons, List.nodup_cons] at hn
    simp only [gcLoop]
    by_cases hs : r0.manifest.uri ∈ seen
    · rw [if_pos hs, List.mem_cons, ih seen hn.2]
      constructor
      · rintro (rfl | ⟨pre, r, post, rfl, h⟩)
        · exact ⟨[], r0, rows, rfl, Or.inl hs⟩
        · refine ⟨(fp0, r0) :: pre, r, post, rfl, ?_⟩
          rcases h with h | ⟨q, hq, h⟩
          · exact Or.inl h
          · exact Or.inr ⟨q, by simp [hq], h⟩
      · rintro ⟨pre, r, post, h, h'⟩
        cases pre with
        | nil =>
          simp only [List.nil_append, List.cons.injEq, Prod.mk.injEq] at h
          exact Or.inl h.1.1.symm
        | cons q pre =>
          simp only [List.cons_append, List.cons.injEq] at h
          obtain ⟨rfl, rfl⟩ := h
          right
          refine ⟨pre, r, post, rfl, ?_⟩
          rcases h' with h' | ⟨q, hq, h'⟩
          · exact Or.inl h'
          · rcases List.mem_cons.mp hq with rfl | hq
            · exact Or.inl (h' ▸ hs)
            · exact Or.inr ⟨q, hq, h'⟩
    · rw [if_neg hs, ih _ hn.2]
      constructor
      · rintro ⟨pre, r, post, rfl, h⟩
        refine ⟨(fp0, r0) :: pre, r, post, rfl, ?_⟩
        rcases h with h | ⟨q, hq, h⟩
        · rcases List.mem_cons.mp h with h | h
          · exact Or.inr ⟨(fp0, r0), by simp, h.symm⟩
          · exact Or.inl h
        · exact Or.inr ⟨q, by simp [hq], h⟩
      · rintro ⟨pre, r, post, h, h'⟩
        cases pre with
        | nil =>
          simp only [List.nil_append, List.cons.injEq, Prod.mk.injEq] at h
          obtain ⟨⟨rfl, rfl⟩, rfl⟩ := h
          rcases h' with h' | ⟨q, hq, _⟩
          · exact absurd h' hs
          · simp at hq
        | cons q pre =>
          simp only [List.cons_append, List.cons.injEq] at h
          obtain ⟨rfl, rfl⟩ := h
          refine ⟨pre, r, post, rfl, ?_⟩
          rcases h' with h' | ⟨q, hq, h'⟩
          · exact Or.inl (by simp [h'])
          · rcases List.mem_cons.mp hq with rfl | hq
            · exact Or.inl (by simp [← h'])
            · exact Or.inr ⟨q, hq, h'⟩

theorem foldl_purge (fps : List String) : ∀ (c : Cache) (k : String),
    Assoc.get (fps.foldl purge c).index k = (if k ∈ fps then none else Assoc.get c.index k) ∧
    Assoc.get (fps.foldl purge c).dirs k = (if k ∈ fps then none else Assoc.get c.dirs k) ∧
    Assoc.get (fps.foldl purge c).manifests k = (if k ∈ fps then none else Assoc.get c.manifests k) := by
  induction fps with
  | nil => intro c k; simp
  | cons fp fps ih =>
    intro c k
    rw [List.foldl_cons]
    obtain ⟨h1, h2, h3⟩ := ih (purge c fp) k
    rw [h1, h2, h3]
    simp only [purge, Assoc.get_erase, List.mem_cons]
    by_cases hk : k = fp
    · simp [hk]
    · simp [hk]

theorem foldl_purge_nodup (fps : List String) : ∀ (c : Cache), (Assoc.keys c.index).Nodup →
    (Assoc.keys (fps.foldl purge c).index).Nodup := by
  induction fps with
  | nil => intro c h; exact h
  | cons fp fps ih => intro c h; exact ih _ (Assoc.nodup_keys_erase h fp)

theorem foldl_purge_nodup' (fps : List String) : ∀ (c : Cache), (Assoc.keys c.manifests).Nodup →
    (Assoc.keys (fps.foldl purge c).manifests).Nodup := by
  induction fps with
  | nil => intro c h; exact h
  | cons fp fps ih => intro c h; exact ih _ (Assoc.nodup_keys_erase h fp)

theorem mem_iff_get {β : Type} {d : List (String × β)} (hd : (Assoc.keys d).Nodup) {k : String} {v : β} :
    (k, v) ∈ d ↔ Assoc.get d k = some v :=
  ⟨fun h => Assoc.get_of_mem hd h, fun h => Assoc.mem_of_get h⟩

/-- With distinct keys a key occurs at one position only. -/
theorem position_unique {β : Type} (pre : List (String × β)) : ∀ (pre' : List (String × β))
    (q q' : String × β) (post post' : List (String × β)), q.1 = q'.1 →
    ((pre ++ q :: post).map (·.1)).Nodup → pre ++ q :: post = pre' ++ q' :: post' →
    pre = pre' ∧ q = q' := by
  induction pre with
  | nil =>
    intro pre' q q' post post' hq hn e
    cases pre' with
    | nil =>
      simp only [List.nil_append, List.cons.injEq] at e
      exact ⟨rfl, e.1⟩
    | cons y ys =>
      simp only [List.nil_append, List.cons_append, List.cons.injEq] at e
      rw [List.nil_append, List.map_cons, List.nodup_cons] at hn
      exact absurd (List.mem_map.mpr ⟨q', by rw [e.2]; simp, hq.symm⟩) hn.1
  | cons z zs ih =>
    intro pre' q q' post post' hq hn e
    cases pre' with
    | nil =>
      simp only [List.nil_append, List.cons_append, List.cons.injEq] at e
      rw [List.cons_append, List.map_cons, List.nodup_cons] at hn
      refine absurd ?_ hn.1
      rw [e.1, ← hq]
      exact List.mem_map.mpr ⟨q, by simp, rfl⟩
    | cons y ys =>
      simp only [List.cons_append, List.cons.injEq] at e
      rw [List.cons_append, List.map_cons, List.nodup_cons] at hn
      obtain ⟨h1, h2⟩ := ih ys q q' post post' hq hn.2 e.2
      exact ⟨by rw [e.1, h1], h2⟩

/-! ## C29 -/

/-- **C29 (exactly the newest).** For every index content and every tie-break of the database's sort:
afterwards the index holds a part of the old rows, unchanged; exactly one row per canonical URI that
was present; and that row is at least as new as every old row of its URI. -/
theorem C29_gc_newest (S : Sql) (hS : S.Lawful) (c : Cache) (hc : (Assoc.keys c.index).Nodup) :
    GcSpec (fun r : Row => r.manifest.uri) (fun r : Row => r.manifest.createdAt)
      (fun fp => Assoc.get c.index fp) (fun fp => Assoc.get (gc S c).2.index fp) := by
  have hp := hS.byUriDate_perm c.index
  have hn : ((S.byUriDate c.index).map (·.1)).Nodup := (hp.map _).nodup_iff.mpr hc
  have hsort := hS.byUriDate_sorted c.index
  have hget : ∀ fp, Assoc.get (gc S c).2.index fp =
      if fp ∈ gcLoop (S.byUriDate c.index) [] then none else Assoc.get c.index fp :=
    fun fp => (foldl_purge _ c fp).1
  have hmem : ∀ fp r, Assoc.get c.index fp = some r ↔ (fp, r) ∈ S.byUriDate c.index := by
    intro fp r
    rw [← mem_iff_get hc, hp.mem_iff]
  -- a kept row is the first of its URI
  have hfirst : ∀ fp r, (fp, r) ∈ S.byUriDate c.index → fp ∉ gcLoop (S.byUriDate c.index) [] →
      ∃ pre post, S.byUriDate c.index = pre ++ (fp, r) :: post ∧
        ∀ q ∈ pre, q.2.manifest.uri ≠ r.manifest.uri := by
    intro fp r hr hk
    obtain ⟨pre, post, e⟩ := List.append_of_mem hr
    refine ⟨pre, post, e, fun q hq hu => hk ?_⟩
    rw [mem_gcLoop _ [] hn]
    exact ⟨pre, r, post, e, Or.inr ⟨q, hq, hu⟩⟩
  refine ⟨?_, ?_, ?_, ?_⟩
  · intro fp
    simp only [hget]
    split
    · exact Or.inr rfl
    · exact Or.inl rfl
  · intro fp r hr fp' r' hr' hu
    simp only [hget] at hr
    split at hr
    · simp at hr
    · rename_i hk
      obtain ⟨pre, post, e, hf⟩ := hfirst fp r ((hmem fp r).mp hr) hk
      have hm' := (hmem fp' r').mp hr'
      rw [e] at hm' hsort
      rcases List.mem_append.mp hm' with h | h
      · exact absurd hu (hf _ h)
      · rcases List.mem_cons.mp h with h | h
        · simp only [Prod.mk.injEq] at h
          rw [h.2]
        · have := (List.pairwise_append.mp hsort).2.1
          rw [List.pairwise_cons] at this
          rcases this.1 _ h with h | ⟨_, h⟩
          · simp only at hu h
            rw [hu] at h
            exact absurd h (lt_irrefl _)
          · exact h
  · intro fp r fp' r' hr hr' hu
    simp only [hget] at hr hr'
    split at hr
    · simp at hr
    · rename_i hk
      split at hr'
      · simp at hr'
      · rename_i hk'
        obtain ⟨pre, post, e, hf⟩ := hfirst fp r ((hmem fp r).mp hr) hk
        have hm' := (hmem fp' r').mp hr'
        rw [e] at hm'
        rcases List.mem_append.mp hm' with h | h
        · exact absurd hu.symm (hf _ h)
        · rcases List.mem_cons.mp h with h | h
          · simp only [Prod.mk.injEq] at h
            exact h.1.symm
          · exfalso
            apply hk'
            obtain ⟨a, b, rfl⟩ := List.append_of_mem h
            rw [mem_gcLoop _ [] hn]
            refine ⟨pre ++ (fp, r) :: a, r', b, by rw [e]; simp, Or.inr ⟨(fp, r), by simp, hu⟩⟩
  · intro fp r hr
    simp only [hget]
    have hm := (hmem fp r).mp hr
    -- take the first row of that URI
    obtain ⟨q, hq, hu, pre, post, e, hpre⟩ : ∃ q ∈ S.byUriDate c.index,
        q.2.manifest.uri = r.manifest.uri ∧
        ∃ pre post, S.byUriDate c.index = pre ++ q :: post ∧
          ∀ x ∈ pre, x.2.manifest.uri ≠ r.manifest.uri := by
      generalize S.byUriDate c.index = l at hm
      induction l with
      | nil => simp at hm
      | cons x l ih =>
        by_cases hx : x.2.manifest.uri = r.manifest.uri
        · exact ⟨x, by simp, hx, [], l, rfl, by simp⟩
        · rcases List.mem_cons.mp hm with h | h
          · subst h; exact absurd rfl hx
          · obtain ⟨q, hq, hu, pre, post, e, hpre⟩ := ih h
            refine ⟨q, by simp [hq], hu, x :: pre, post, by rw [e]; rfl, ?_⟩
            intro y hy
            rcases List.mem_cons.mp hy with rfl | hy
            · exact hx
            · exact hpre y hy
    refine ⟨q.1, q.2, ?_, hu⟩
    rw [if_neg, hmem]
    · exact hq
    · rw [mem_gcLoop _ [] hn]
      rintro ⟨pre', r', post', e', h⟩
      rcases h with h | ⟨x, hx, hxu⟩
      · simp at h
      -- positions of a key are unique
      have hpe : pre = pre' ∧ q = (q.1, r') := by
        rw [e] at hn e'
        exact position_unique pre pre' q (q.1, r') post post' rfl hn e'
      obtain ⟨rfl, hqr⟩ := hpe
      rw [hqr] at hu
      exact hpre x hx (hxu.trans hu)

/-- **C29 (what is deleted).** The answer lists, without repetition, exactly the fingerprints whose row
disappeared; their processed directory and manifest are gone, and those of every other fingerprint
are untouched. -/
theorem C29_gc_files (S : Sql) (hS : S.Lawful) (c : Cache) (hc : (Assoc.keys c.index).Nodup) :
    (gc S c).1.Nodup ∧
    (∀ fp, fp ∈ (gc S c).1 ↔ (∃ r, Assoc.get c.index fp = some r) ∧ Assoc.get (gc S c).2.index fp = none) ∧
    (∀ fp, fp ∈ (gc S c).1 → Assoc.get (gc S c).2.dirs fp = none ∧ Assoc.get (gc S c).2.manifests fp = none) ∧
    (∀ fp, fp ∉ (gc S c).1 → Assoc.get (gc S c).2.dirs fp = Assoc.get c.dirs fp ∧
      Assoc.get (gc S c).2.manifests fp = Assoc.get c.manifests fp) := by
  have hp := hS.byUriDate_perm c.index
  have hn : ((S.byUriDate c.index).map (·.1)).Nodup := (hp.map _).nodup_iff.mpr hc
  have hsub := gcLoop_sublist (S.byUriDate c.index) []
  have hf := foldl_purge (gcLoop (S.byUriDate c.index) []) c
  refine ⟨hn.sublist hsub, ?_, ?_, ?_⟩
  · intro fp
    show fp ∈ gcLoop (S.byUriDate c.index) [] ↔ _ ∧ Assoc.get (List.foldl purge c _).index fp = none
    rw [(hf fp).1]
    constructor
    · intro h
      refine ⟨?_, if_pos h⟩
      obtain ⟨q, hq, e⟩ := List.mem_map.mp (hsub.subset h)
      exact ⟨q.2, e ▸ (Assoc.get_of_mem hc (hp.mem_iff.mp hq))⟩
    · rintro ⟨⟨r, hr⟩, h⟩
      by_contra hk
      rw [if_neg hk, hr] at h
      simp at h
  · intro fp h
    obtain ⟨_, h2, h3⟩ := hf fp
    exact ⟨h2.trans (if_pos h), h3.trans (if_pos h)⟩
  · intro fp h
    obtain ⟨_, h2, h3⟩ := hf fp
    exact ⟨h2.trans (if_neg h), h3.trans (if_neg h)⟩

/-- **C29 (purging a dataset).** `purge_dataset` returns, without repetition, exactly the fingerprints
indexed under that URI, removes their rows, directories and manifests, and touches nothing else. -/
theorem C29_purge_dataset (S : Sql) (hS : S.Lawful) (uri : String) (c : Cache)
    (hc : (Assoc.keys c.index).Nodup) :
    (purgeDataset S uri c).1.Nodup ∧
    (∀ fp, fp ∈ (purgeDataset S uri c).1 ↔ ∃ r, Assoc.get c.index fp = some r ∧ r.manifest.uri = uri) ∧
    (∀ fp, fp ∈ (purgeDataset S uri c).1 → Assoc.get (purgeDataset S uri c).2.index fp = none ∧
      Assoc.get (purgeDataset S uri c).2.dirs fp = none ∧
      Assoc.get (purgeDataset S uri c).2.manifests fp = none) ∧
    (∀ fp, fp ∉ (purgeDataset S uri c).1 →
      Assoc.get (purgeDataset S uri c).2.index fp = Assoc.get c.index fp ∧
      Assoc.get (purgeDataset S uri c).2.dirs fp = Assoc.get c.dirs fp ∧
      Assoc.get (purgeDataset S uri c).2.manifests fp = Assoc.get c.manifests fp) := by
  have hp := hS.byDate_perm (c.index.filter (fun p => decide (p.2.manifest.uri = uri)))
  have hf := foldl_purge ((find S uri c).map (·.1)) c
  have hmem : ∀ fp, fp ∈ (find S uri c).map (·.1) ↔
      ∃ r, Assoc.get c.index fp = some r ∧ r.manifest.uri = uri := by
    intro fp
    rw [List.mem_map]
    constructor
    · rintro ⟨q, hq, rfl⟩
      have := hp.mem_iff.mp hq
      rw [List.mem_filter] at this
      exact ⟨q.2, Assoc.get_of_mem hc this.1, by simpa using this.2⟩
    · rintro ⟨r, hr, hu⟩
      exact ⟨(fp, r), hp.mem_iff.mpr (List.mem_filter.mpr ⟨Assoc.mem_of_get hr, by simpa using hu⟩), rfl⟩
  refine ⟨?_, hmem, ?_, ?_⟩
  · exact (hp.map _).nodup_iff.mpr (hc.sublist (List.Sublist.map _ List.filter_sublist))
  · intro fp h
    obtain ⟨h1, h2, h3⟩ := hf fp
    exact ⟨h1.trans (if_pos h), h2.trans (if_pos h), h3.trans (if_pos h)⟩
  · intro fp h
    obtain ⟨h1, h2, h3⟩ := hf fp
    exact ⟨h1.trans (if_neg h), h2.trans (if_neg h), h3.trans (if_neg h)⟩

/-! ## C28 -/

/-- The abstract operation an operation implements. -/
def Op.abs : Op → SOp Row
  | .download fp size m => .download fp ⟨m, size⟩
  | .purge fp => .purge fp
  | .purgeDataset uri => .purgeDataset uri
  | .gc => .gc
  | .rebuild _ => .rebuild

/-- What a directory listing says about a fingerprint: its readable manifest and its processed
directory. -/
def onDisk (c : Cache) (fp : String) : Option Row :=
  match Assoc.get c.manifests fp, Assoc.get c.dirs fp with
  | some (.good m), some s => some ⟨m, s⟩
  | _, _ => none

theorem rebuild_fold (files : List (String × ManFile)) : ∀ (c : Cache), (Assoc.keys files).Nodup →
    (Assoc.keys c.index).Nodup →
    (files.foldl rebuildStep c).dirs = c.dirs ∧ (files.foldl rebuildStep c).manifests = c.manifests ∧
    (Assoc.keys (files.foldl rebuildStep c).index).Nodup ∧
    ∀ fp, Assoc.get (files.foldl rebuildStep c).index fp =
      match Assoc.get files fp, Assoc.get c.dirs fp with
      | some (.good m), some s => some ⟨m, s⟩
      | _, _ => Assoc.get c.index fp := by
  induction files with
  | nil => intro c _ h; simp [h]
  | cons p files ih =>
    intro c hn hc
    unfold Assoc.keys at hn
    rw [List.map_cons, List.nodup_cons] at hn
    have hstep : (rebuildStep c p).dirs = c.dirs ∧ (rebuildStep c p).manifests = c.manifests ∧
        (Assoc.keys (rebuildStep c p).index).Nodup ∧
        ∀ fp, Assoc.get (rebuildStep c p).index fp =
          if p.1 = fp then
            (match some p.2, Assoc.get c.dirs fp with
              | some (.good m), some s => some ⟨m, s⟩
              | _, _ => Assoc.get c.index fp)
          else Assoc.get c.index fp := by
      unfold rebuildStep
      cases hp : p.2 with
      | bad => simp [hc]
      | good m =>
        simp only
        split
        · rename_i hd
          obtain ⟨s, hs⟩ := Assoc.mem_keys_iff.mp (Assoc.has_iff.mp hd)
          refine ⟨rfl, rfl, Assoc.nodup_keys_set hc _ _, ?_⟩
          intro fp
          simp only [upsert, Assoc.get_set]
          by_cases he : p.1 = fp
          · subst he; simp [hs]
          · rw [if_neg he, if_neg (fun e => he e.symm)]
        · rename_i hd
          refine ⟨rfl, rfl, hc, ?_⟩
          intro fp
          by_cases he : p.1 = fp
          · subst he
            have : Assoc.get c.dirs p.1 = none :=
              Assoc.get_eq_none_iff.mpr (fun h => hd (Assoc.has_iff.mpr h))
            simp [this]
          · rw [if_neg he]
    obtain ⟨s1, s2, s3, s4⟩ := hstep
    obtain ⟨i1, i2, i3, i4⟩ := ih (rebuildStep c p) hn.2 s3
    rw [List.foldl_cons]
    refine ⟨i1.trans s1, i2.trans s2, i3, ?_⟩
    intro fp
    rw [i4, s4, s1, Assoc.get_cons]
    by_cases he : p.1 = fp
    · subst he
      have : Assoc.get files p.1 = none := Assoc.get_eq_none_iff.mpr hn.1
      simp [this]
    · simp [he]

/-- **C28 (rebuild).** From any state of the index (missing, stale or corrupt) and any listing order,
`rebuild_index` produces exactly one row for each fingerprint whose manifest is readable and whose
processed directory exists, with that manifest's data and the directory's size; nothing else. -/
theorem C28_rebuild (c : Cache) (hc : (Assoc.keys c.manifests).Nodup) (files : List (String × ManFile))
    (hf : files.Perm c.manifests) :
    ((rebuild files c).index.map (·.1)).Nodup ∧
    (∀ fp r, (fp, r) ∈ (rebuild files c).index ↔
      ∃ m s, Assoc.get c.manifests fp = some (.good m) ∧ Assoc.get c.dirs fp = some s ∧ r = ⟨m, s⟩) ∧
    (rebuild files c).dirs = c.dirs ∧ (rebuild files c).manifests = c.manifests := by
  have hn : (Assoc.keys files).Nodup := (hf.map _).nodup_iff.mpr hc
  obtain ⟨h1, h2, h3, h4⟩ := rebuild_fold files { c with index := [] } hn (by simp [Assoc.keys])
  refine ⟨h3, ?_, h1, h2⟩
  intro fp r
  have hget : Assoc.get files fp = Assoc.get c.manifests fp := by
    cases hg : Assoc.get files fp with
    | some v => exact (Assoc.get_of_mem hc (hf.mem_iff.mp (Assoc.mem_of_get hg))).symm
    | none =>
      symm
      rw [Assoc.get_eq_none_iff] at hg ⊢
      exact fun h => hg ((hf.map _).mem_iff.mpr h)
  show (fp, r) ∈ (files.foldl rebuildStep { c with index := [] }).index ↔ _
  rw [mem_iff_get h3, h4, hget]
  cases Assoc.get c.manifests fp with
  | none => simp
  | some v =>
    cases v with
    | bad => simp
    | good m =>
      cases Assoc.get c.dirs fp with
      | none => simp
      | some s => simp [eq_comm]

/-- The invariant of histories: the index says exactly what is on disk. -/
structure Inv (c : Cache) : Prop where
  idx : (Assoc.keys c.index).Nodup
  man : (Assoc.keys c.manifests).Nodup
  agree : ∀ fp, (∃ m s, Assoc.get c.manifests fp = some (.good m) ∧ Assoc.get c.dirs fp = some s ∧
      Assoc.get c.index fp = some ⟨m, s⟩) ∨
    (Assoc.get c.manifests fp = none ∧ Assoc.get c.dirs fp = none ∧ Assoc.get c.index fp = none)

theorem inv_purges {c : Cache} (h : Inv c) (fps : List String) : Inv (fps.foldl purge c) where
  idx := foldl_purge_nodup fps c h.idx
  man := foldl_purge_nodup' fps c h.man
  agree := by
    intro fp
    obtain ⟨h1, h2, h3⟩ := foldl_purge fps c fp
    rw [h1, h2, h3]
    split
    · exact Or.inr ⟨rfl, rfl, rfl⟩
    · exact h.agree fp

theorem inv_rebuild {c : Cache} (h : Inv c) {files : List (String × ManFile)}
    (hf : files.Perm c.manifests) : Inv (rebuild files c) ∧
      ∀ fp, Assoc.get (rebuild files c).index fp = Assoc.get c.index fp := by
  obtain ⟨h1, h2, h3, h4⟩ := C28_rebuild c h.man files hf
  have heq : ∀ fp, Assoc.get (rebuild files c).index fp = Assoc.get c.index fp := by
    intro fp
    rcases h.agree fp with ⟨m, s, hm, hs, hi⟩ | ⟨hm, hs, hi⟩
    · rw [hi, ← mem_iff_get h1, h2]
      exact ⟨m, s, hm, hs, rfl⟩
    · rw [hi]
      cases hg : Assoc.get (rebuild files c).index fp with
      | none => rfl
      | some r =>
        rw [← mem_iff_get h1, h2] at hg
        obtain ⟨m, s, hm', _⟩ := hg
        rw [hm] at hm'
        simp at hm'
  refine ⟨⟨h1, by rw [h4]; exact h.man, ?_⟩, heq⟩
  intro fp
  rw [heq, h3, h4]
  exact h.agree fp

theorem inv_step (S : Sql) {c : Cache} (h : Inv c) (op : Op) (hv : op.Valid c) : Inv (op.run S c) := by
  cases op with
  | download fp size m =>
    refine ⟨Assoc.nodup_keys_set h.idx _ _, Assoc.nodup_keys_set h.man _ _, ?_⟩
    intro k
    simp only [Op.run, download, upsert, Assoc.get_set]
    by_cases hk : k = fp
    · left
      exact ⟨m, size, by simp [hk]⟩
    · simpa [hk] using h.agree k
  | purge fp => exact inv_purges h [fp]
  | purgeDataset uri => exact inv_purges h _
  | gc => exact inv_purges h _
  | rebuild files => exact (inv_rebuild h hv).1

theorem inv_history (S : Sql) {ops : List Op} {c : Cache} (h : History S ops c) : Inv c := by
  induction h with
  | init => exact ⟨by simp [Assoc.keys], by simp [Assoc.keys], fun fp => Or.inr ⟨rfl, rfl, rfl⟩⟩
  | step op _ hv ih => exact inv_step S ih op hv

/-- **C28 (the index is a map).** After any history of downloads, purges, dataset purges, garbage
collections and rebuilds, each further operation acts on the rows exactly as the map specification
says: a download sets one entry, a purge removes one, purging a dataset removes exactly its entries,
garbage collection keeps one newest entry per URI, a rebuild changes nothing. -/
theorem C28_refines_map (S : Sql) (hS : S.Lawful) (ops : List Op) (c : Cache) (h : History S ops c)
    (op : Op) (hv : op.Valid c) :
    Step (fun r : Row => r.manifest.uri) (fun r : Row => r.manifest.createdAt)
      (fun fp => Assoc.get c.index fp) op.abs (fun fp => Assoc.get (op.run S c).index fp) := by
  have hi := inv_history S h
  cases op with
  | download fp size m =>
    intro k
    simp only [Op.run, download, upsert, Assoc.get_set]
    by_cases hk : k = fp <;> simp [hk]
  | purge fp =>
    intro k
    simp only [Op.run, purge, Assoc.get_erase]
  | purgeDataset uri =>
    intro k
    obtain ⟨_, h1, h2, h3⟩ := C29_purge_dataset S hS uri c hi.idx
    simp only [Op.run]
    by_cases hk : k ∈ (purgeDataset S uri c).1
    · obtain ⟨r, hr, hu⟩ := (h1 k).mp hk
      rw [(h2 k hk).1, hr]
      simp [Option.filter, hu]
    · rw [(h3 k hk).1]
      cases hr : Assoc.get c.index k with
      | none => rfl
      | some r =>
        have : r.manifest.uri ≠ uri := fun e => hk ((h1 k).mpr ⟨r, hr, e⟩)
        simp [Option.filter, this]
  | gc => exact C29_gc_newest S hS c hi.idx
  | rebuild files => exact fun k => (inv_rebuild hi hv).2 k

/-- **C28 (what is listed).** After any history, `index_list` has exactly one row per stored variant
(readable manifest and processed directory present), carrying that manifest's data and the
directory's size, and is sorted newest first. -/
theorem C28_list (S : Sql) (hS : S.Lawful) (ops : List Op) (c : Cache) (h : History S ops c) :
    ((list S c).map (·.1)).Nodup ∧
    (∀ fp r, (fp, r) ∈ list S c ↔
      ∃ m s, Assoc.get c.manifests fp = some (.good m) ∧ Assoc.get c.dirs fp = some s ∧ r = ⟨m, s⟩) ∧
    (list S c).Pairwise (fun a b => b.2.manifest.createdAt ≤ a.2.manifest.createdAt) := by
  have hi := inv_history S h
  have hp := hS.byDate_perm c.index
  refine ⟨(hp.map _).nodup_iff.mpr hi.idx, ?_, hS.byDate_sorted _⟩
  intro fp r
  rw [show (fp, r) ∈ list S c ↔ (fp, r) ∈ c.index from hp.mem_iff, mem_iff_get hi.idx]
  rcases hi.agree fp with ⟨m, s, h1, h2, h3⟩ | ⟨h1, h2, h3⟩
  · rw [h3, h1, h2]
    constructor
    · intro e
      exact ⟨m, s, rfl, rfl, (Option.some.inj e).symm⟩
    · rintro ⟨m', s', e1, e2, rfl⟩
      simp only [Option.some.injEq, ManFile.good.injEq] at e1 e2
      rw [e1, e2]
  · simp [h1, h3]

/-- The data of the last download of `fp` in a history (specification). -/
def lastDownload (ops : List Op) (fp : String) : Option Row :=
  ops.foldl (fun acc op => match op with
    | .download k s m => if k = fp then some ⟨m, s⟩ else acc
    | _ => acc) none

/-- **C28 (latest manifest).** After any history, a listed variant carries the data of its most recent
download. -/
theorem C28_latest_manifest (S : Sql) (hS : S.Lawful) (ops : List Op) (c : Cache)
    (h : History S ops c) (fp : String) (r : Row) (hr : (fp, r) ∈ list S c) :
    lastDownload ops fp = some r := by
  have key : ∀ fp r, Assoc.get c.index fp = some r → lastDownload ops fp = some r := by
    clear hr fp r
    induction h with
    | init => intro fp r h; simp at h
    | @step ops c op hh hv ih =>
      intro fp r hr
      have hst := C28_refines_map S hS ops c hh op hv
      unfold lastDownload at ih ⊢
      rw [List.foldl_append]
      cases op with
      | download k s m =>
        have := hst fp
        simp only at this
        rw [hr] at this
        simp only [List.foldl_cons, List.foldl_nil]
        by_cases hk : fp = k
        · rw [if_pos hk] at this
          rw [if_pos hk.symm, this]
        · rw [if_neg hk] at this
          rw [if_neg (fun e => hk e.symm)]
          exact ih fp r this.symm
      | purge k =>
        have := hst fp
        simp only at this
        rw [hr] at this
        split at this
        · simp at this
        · exact ih fp r this.symm
      | purgeDataset u =>
        have := hst fp
        simp only at this
        rw [hr] at this
        exact ih fp r (Option.filter_eq_some_iff.mp this.symm).1
      | gc =>
        rcases hst.part fp with h | h
        · exact ih fp r (h.symm.trans hr)
        · rw [hr] at h; simp at h
      | rebuild files =>
        have := hst fp
        exact ih fp r (this.symm.trans hr)
  have hi := inv_history S h
  exact key fp r ((mem_iff_get hi.idx).mp ((hS.byDate_perm c.index).mem_iff.mp hr))

/-! ## Non-vacuity -/

/-- A database sorting stably (used in the examples). -/
def demoSql : Sql where
  byDate l := l.insertionSort (fun a b => b.2.manifest.createdAt ≤ a.2.manifest.createdAt)
  byUriDate l := l.insertionSort (fun a b =>
    a.2.manifest.uri < b.2.manifest.uri ∨
      a.2.manifest.uri = b.2.manifest.uri ∧ b.2.manifest.createdAt ≤ a.2.manifest.createdAt)

theorem demoSql_lawful : demoSql.Lawful where
  byDate_perm l := List.perm_insertionSort _ l
  byDate_sorted l := by
    haveI : Std.Total (fun a b : String × Row => b.2.manifest.createdAt ≤ a.2.manifest.createdAt) :=
      ⟨fun a b => le_total _ _⟩
    haveI : IsTrans (String × Row) (fun a b => b.2.manifest.createdAt ≤ a.2.manifest.createdAt) :=
      ⟨fun a b c h1 h2 => le_trans h2 h1⟩
    exact List.pairwise_insertionSort _ l
  byUriDate_perm l := List.perm_insertionSort _ l
  byUriDate_sorted l := by
    haveI : Std.Total (fun a b : String × Row => a.2.manifest.uri < b.2.manifest.uri ∨
      a.2.manifest.uri = b.2.manifest.uri ∧ b.2.manifest.createdAt ≤ a.2.manifest.createdAt) := by
      refine ⟨fun a b => ?_⟩
      rcases lt_trichotomy a.2.manifest.uri b.2.manifest.uri with h | h | h
      · exact Or.inl (Or.inl h)
      · rcases le_total a.2.manifest.createdAt b.2.manifest.createdAt with h' | h'
        · exact Or.inr (Or.inr ⟨h.symm, h'⟩)
        · exact Or.inl (Or.inr ⟨h, h'⟩)
      · exact Or.inr (Or.inl h)
    haveI : IsTrans (String × Row) (fun a b => a.2.manifest.uri < b.2.manifest.uri ∨
      a.2.manifest.uri = b.2.manifest.uri ∧ b.2.manifest.createdAt ≤ a.2.manifest.createdAt) := by
      refine ⟨fun a b c h1 h2 => ?_⟩
      rcases h1 with h1 | ⟨h1, h1'⟩ <;> rcases h2 with h2 | ⟨h2, h2'⟩
      · exact Or.inl (lt_trans h1 h2)
      · exact Or.inl (h2 ▸ h1)
      · exact Or.inl (h1 ▸ h2)
      · exact Or.inr ⟨h1.trans h2, le_trans h2' h1'⟩
    exact List.pairwise_insertionSort _ l

/-- Manifest of a demo variant. -/
def demoManifest (uri date : String) : Manifest := ⟨uri, "toy", "iris", none, some "tabular", date⟩

/-- A cache with two variants of one dataset and one of another, after a history of four operations. -/
def demoOps : List Op :=
  [.download "f1" 10 (demoManifest "toy:iris" "2024"), .download "f2" 20 (demoManifest "toy:iris" "2025"),
   .download "f3" 30 (demoManifest "toy:wine" "2023"), .download "f1" 11 (demoManifest "toy:iris" "2026")]

theorem demo_history : History demoSql demoOps (demoOps.foldl (Op.run demoSql) {}) :=
  .step (.download "f1" 11 (demoManifest "toy:iris" "2026"))
    (.step (.download "f3" 30 (demoManifest "toy:wine" "2023"))
      (.step (.download "f2" 20 (demoManifest "toy:iris" "2025"))
        (.step (.download "f1" 10 (demoManifest "toy:iris" "2024")) .init trivial) trivial) trivial) trivial

example : (gc demoSql (demoOps.foldl (Op.run demoSql) {})).1 = ["f2"] := by decide +kernel

example : (list demoSql (Op.run demoSql (demoOps.foldl (Op.run demoSql) {}) .gc)).map (·.1) = ["f1", "f3"] := by
  decide +kernel

end ModSSC.DataLoader.Index
