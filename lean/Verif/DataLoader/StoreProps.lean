import Verif.DataLoader.StoreLemmas

/-!
# C27: crashes during a download; C65: the processed store round trip
-/

namespace ModSSC.DataLoader.Store
open ModSSC

variable {A M : Type}

theorem manifest_step_rm (order : List String) (d : Disk A M) (n : Nat) :
    (runOps ((rmtreeOps order d).take n) d).manifest = d.manifest := by
  have : ∀ (ops : List (Op A M)), (∀ op ∈ ops, (∃ n, op = .rmFile n) ∨ op = .rmDir) →
      ∀ d : Disk A M, (runOps ops d).manifest = d.manifest := by
    intro ops
    induction ops with
    | nil => intro _ d; rfl
    | cons op ops ih =>
      intro h d
      show (runOps ops (op.run d)).manifest = d.manifest
      rw [ih (fun o ho => h o (by simp [ho]))]
      rcases h op (by simp) with ⟨n, rfl⟩ | rfl <;> rfl
  apply this
  intro op hop
  have := List.mem_of_mem_take hop
  unfold rmtreeOps at this
  split at this
  · simp at this
  · simp only [List.mem_append, List.mem_map, List.mem_singleton] at this
    rcases this with ⟨n, _, rfl⟩ | rfl
    · exact Or.inl ⟨n, rfl⟩
    · exact Or.inr rfl

theorem manifest_step_save (isText : A → Bool) (ds : Dataset A M) (d : Disk A M) (n : Nat) :
    (runOps ((saveOps isText ds).take n) d).manifest = d.manifest := by
  have : ∀ (ops : List (Op A M)),
      (∀ op ∈ ops, op = .mkdir ∨ (∃ n, op = .beginWrite n) ∨ (∃ n f, op = .endWrite n f)) →
      ∀ d : Disk A M, (runOps ops d).manifest = d.manifest := by
    intro ops
    induction ops with
    | nil => intro _ d; rfl
    | cons op ops ih =>
      intro h d
      show (runOps ops (op.run d)).manifest = d.manifest
      rw [ih (fun o ho => h o (by simp [ho]))]
      rcases h op (by simp) with rfl | ⟨n, rfl⟩ | ⟨n, f, rfl⟩ <;> rfl
  apply this
  intro op hop
  have := List.mem_of_mem_take hop
  unfold saveOps at this
  rcases List.mem_cons.mp this with rfl | this
  · exact Or.inl rfl
  · obtain ⟨p, _, hp⟩ := List.mem_flatMap.mp this
    simp only [List.mem_cons, List.not_mem_nil, or_false] at hp
    rcases hp with rfl | rfl
    · exact Or.inr (Or.inl ⟨_, rfl⟩)
    · exact Or.inr (Or.inr ⟨_, _, rfl⟩)

/-- What an interrupted store leaves behind, by crash point. -/
theorem crash_cases (isText : A → Bool) (order : List String) {ds : Dataset A M} (hw : ds.WF)
    (n : Nat) (d : Disk A M) :
    ((storeCrash isText order ds n d).manifest = d.manifest ∧
      ((∃ e, load (storeCrash isText order ds n d) = .error e) ∨
        load (storeCrash isText order ds n d) = load d ∨
        load (storeCrash isText order ds n d) = .ok ds)) ∨
    load (storeCrash isText order ds n d) = .ok ds := by
  unfold storeCrash storeOps
  rw [List.append_assoc, List.take_append, runOps_append]
  by_cases h1 : n ≤ (rmtreeOps order d).length
  · have : n - (rmtreeOps order d).length = 0 := by omega
    rw [this, List.take_zero]
    refine Or.inl ⟨manifest_step_rm order d n, ?_⟩
    rcases rmtree_take order n d with h | h
    · exact Or.inl h
    · exact Or.inr (Or.inl h)
  · rw [List.take_of_length_le (by omega : (rmtreeOps order d).length ≤ n), rmtree_full]
    generalize n - (rmtreeOps order d).length = k
    rw [List.take_append, runOps_append]
    by_cases h2 : (saveOps isText ds).length ≤ k
    · right
      rw [List.take_of_length_le h2]
      obtain ⟨fs', e1, e2⟩ := save_run isText hw { d with dir := none } rfl
      rw [e1]
      have hl := loadFiles_saved hw e2
      generalize k - (saveOps isText ds).length = j
      rcases j with _ | _ | _ | j <;> simpa [runOps, Op.run, load] using hl
    · left
      have : k - (saveOps isText ds).length = 0 := by omega
      rw [this, List.take_zero]
      refine ⟨manifest_step_save isText ds { d with dir := none } k, Or.inl ?_⟩
      apply load_bad
      obtain ⟨pre, hpre, hno⟩ := saveOps_split isText ds
      rw [hpre] at h2 ⊢
      have hk : k ≤ pre.length := by simp at h2; omega
      rw [List.take_append, show k - pre.length = 0 from by omega, List.take_zero, List.append_nil]
      refine bad_run (pre.take k) ?_ ?_
      · intro op hop
        exact hno op (List.mem_of_mem_take hop)
      · intro fs hfs
        simp at hfs

theorem store_full (isText : A → Bool) (order : List String) {ds : Dataset A M} (hw : ds.WF)
    (d : Disk A M) : load (store isText order ds d) = .ok ds ∧
      isCached (store isText order ds d) = true ∧ (store isText order ds d).indexed = true := by
  unfold store storeOps
  rw [runOps_append, runOps_append, rmtree_full]
  obtain ⟨fs', e1, e2⟩ := save_run isText hw { d with dir := none } rfl
  rw [e1]
  have hl := loadFiles_saved hw e2
  refine ⟨?_, ?_, ?_⟩
  · simpa [runOps, Op.run, load] using hl
  · simp [runOps, Op.run, isCached]
  · simp [runOps, Op.run]

/-- **C65 (store round trip).** Whatever the cache directory held before, after a complete store
(forced or not) the dataset is cached, indexed, and loads as exactly the dataset stored: train and
test features, labels, edges, masks and metadata. -/
theorem C65_store_load (isText : A → Bool) (order : List String) (ds : Dataset A M)
    (hw : ds.WF) (d : Disk A M) :
    isCached (store isText order ds d) = true ∧ load (store isText order ds d) = .ok ds ∧
      (store isText order ds d).indexed = true := by
  obtain ⟨h1, h2, h3⟩ := store_full isText order hw d
  exact ⟨h2, h1, h3⟩

/-- **C65 (no two arrays share a file).** The file names used for the arrays of one dataset, whatever
the mask names and array kinds, are pairwise distinct and distinct from `meta.json`/`layout.json`. -/
theorem C65_files_distinct (isText : A → Bool) (ds : Dataset A M) (hw : ds.WF) :
    ((dsFiles isText ds).map (·.1)).Nodup :=
  dsFiles_nodup isText hw

/-- Demo datasets: strings as arrays, numbers as metadata. -/
def demoOld : Dataset String Nat where
  train := Split.mk "oldX" "oldY" (some "oldE") (some [("train", "m1"), ("X", "m2")])
  info := 1

/-- Demo dataset with a test split. -/
def demoNew : Dataset String Nat where
  train := Split.mk "newX" "newY" none none
  test := some (Split.mk "tX" "tY" none (some [("y", "m3")]))
  info := 2

/-- Which of the demo arrays are text. -/
def demoText (s : String) : Bool := s.toList.getLast? == some 'X'

theorem demoOld_wf : demoOld.WF := by
  constructor
  · intro ms h; obtain rfl := Option.some.inj h; decide
  · intro t h; simp [demoOld] at h

theorem demoNew_wf : demoNew.WF := by
  constructor
  · intro ms h; simp [demoNew] at h
  · intro t h; obtain rfl := Option.some.inj h
    intro ms h; obtain rfl := Option.some.inj h; decide

/-- Order in which the operating system lists the old directory. -/
def demoOrder : List String := ["train_y.npy", "layout.json", "train_X.jsonl.gz"]

example : load (store demoText demoOrder demoNew (store demoText [] demoOld {})) = .ok demoNew :=
  (C65_store_load demoText demoOrder demoNew demoNew_wf _).2.1

/-- **C27 (first download, the part that holds).** Starting from any directory state without a
manifest (nothing cached, or the remains of earlier interrupted downloads), a store interrupted after
any number of operations leaves a state that is not reported as cached, or that loads completely.
(Partial: forced re-downloads, where a manifest is already present, are missing: there the claim is
false, see `C27_force_violated`.) -/
theorem C27_first_download_partial (isText : A → Bool) (order : List String) (ds : Dataset A M)
    (hw : ds.WF) (n : Nat) (d : Disk A M) (hd : d.manifest = none) :
    isCached (storeCrash isText order ds n d) = false ∨
      load (storeCrash isText order ds n d) = .ok ds := by
  rcases crash_cases isText order hw n d with ⟨h, _⟩ | h
  · left
    unfold isCached
    rw [h, hd]
    simp
  · exact Or.inr h

/-- **C27 (recovery after an interrupted first download, part).** After such a crash the next ordinary
`load_dataset` (not forced) returns the dataset and leaves it completely stored.  No chain of
interrupted first downloads needs manual repair. -/
theorem C27_first_download_recovers_partial (isText : A → Bool) (order order' : List String)
    (ds : Dataset A M) (hw : ds.WF) (n : Nat) (d : Disk A M) (hd : d.manifest = none) :
    (loadDataset isText order' (.ok ds) true false (storeCrash isText order ds n d)).1 = .ok ds ∧
    isCached (loadDataset isText order' (.ok ds) true false (storeCrash isText order ds n d)).2 = true ∧
    load (loadDataset isText order' (.ok ds) true false (storeCrash isText order ds n d)).2 = .ok ds := by
  unfold loadDataset
  by_cases hc : isCached (storeCrash isText order ds n d) = true
  · have hl : load (storeCrash isText order ds n d) = .ok ds := by
      rcases C27_first_download_partial isText order ds hw n d hd with h | h
      · rw [h] at hc; simp at hc
      · exact h
    simp [hc, hl]
  · obtain ⟨h1, h2, _⟩ := store_full isText order' hw (storeCrash isText order ds n d)
    simp [hc, h1, h2]

example : ({} : Disk String Nat).manifest = none := rfl
example : isCached (storeCrash demoText [] demoNew 5 {}) = false := by decide +kernel

/-- **C27 (no mixture).** Interrupt a download at any point, forced or not, over any previous state:
what loads afterwards, if anything does, is exactly the previously loadable dataset or exactly the
new one, never a mixture of files of both. -/
theorem C27_never_mixed_partial (isText : A → Bool) (order : List String) (ds : Dataset A M)
    (hw : ds.WF) (n : Nat) (d : Disk A M) (r : Dataset A M)
    (h : load (storeCrash isText order ds n d) = .ok r) : load d = .ok r ∨ r = ds := by
  rcases crash_cases isText order hw n d with ⟨_, ⟨e, he⟩ | he | he⟩ | he
  · rw [he] at h; simp at h
  · left; rw [← he]; exact h
  · right; rw [he] at h; exact (Except.ok.inj h).symm
  · right; rw [he] at h; exact (Except.ok.inj h).symm

/-- **C27 (forcing repairs).** A later forced download repairs every state whatsoever. -/
theorem C27_force_repairs_partial (isText : A → Bool) (order : List String) (ds : Dataset A M)
    (hw : ds.WF) (d : Disk A M) :
    (loadDataset isText order (.ok ds) true true d).1 = .ok ds ∧
    isCached (loadDataset isText order (.ok ds) true true d).2 = true ∧
    load (loadDataset isText order (.ok ds) true true d).2 = .ok ds := by
  obtain ⟨h1, h2, _⟩ := store_full isText order hw d
  unfold loadDataset
  simp [h1, h2]

/-- **C27 is violated by forced re-downloads.** A dataset is stored; a forced re-download is killed
while the old directory is being cleared.  The dataset still looks cached (the old manifest is
there), it does not load, and every later ordinary `load_dataset` fails the same way and changes
nothing, although the provider would deliver. -/
theorem C27_force_violated :
    ∃ (old new : Dataset String Nat) (order : List String) (n : Nat),
      let d0 := store demoText [] old {}
      let d := storeCrash demoText order new n d0
      load d0 = .ok old ∧ isCached d = true ∧ load d = .error .fileNotFound ∧
        loadDataset demoText [] (.ok new) true false d = (.error .fileNotFound, d) := by
  refine ⟨demoOld, demoNew, demoOrder, 1, ?_⟩
  decide +kernel

/-- **C27 is violated by purging, too.** `purge_fingerprint` removes the directory before the
manifest: killed in between the first and the last unlink, the dataset looks cached and does not
load. -/
theorem C27_purge_violated :
    ∃ (old : Dataset String Nat) (order : List String) (n : Nat),
      let d := purgeCrash order n (store demoText [] old {})
      isCached d = true ∧ load d = .error .fileNotFound := by
  refine ⟨demoOld, demoOrder, 2, ?_⟩
  decide +kernel

/-- **C27 (a corrupt array is healed, part).** If an ordinary `load_dataset` finds a cached dataset
whose numeric array is damaged (reported as a manifest error), it purges the entry, downloads again
and returns the provider's dataset, completely stored. -/
theorem C27_corrupt_healed_partial (isText : A → Bool) (order : List String) (ds : Dataset A M)
    (hw : ds.WF) (d : Disk A M) (hc : isCached d = true) (hl : load d = .error .cacheError) :
    (loadDataset isText order (.ok ds) true false d).1 = .ok ds ∧
    load (loadDataset isText order (.ok ds) true false d).2 = .ok ds := by
  obtain ⟨h1, _, _⟩ := store_full isText order hw (purge d)
  unfold loadDataset
  simp [hc, hl, h1]

example : isCached (Op.run (.beginWrite "train_y.npy") (store demoText [] demoOld {})) = true ∧
    load (Op.run (.beginWrite "train_y.npy") (store demoText [] demoOld {})) = .error .cacheError := by
  decide +kernel

/-- **C27 (offline use, part).** Without `download` nothing is ever written (a corrupt entry is purged,
nothing else), and the answer is the cached dataset or an error. -/
theorem C27_offline_partial (isText : A → Bool) (order : List String)
    (p : Except PyErr (Dataset A M)) (force : Bool) (d : Disk A M) :
    ((loadDataset isText order p false force d).2 = d ∨
      (loadDataset isText order p false force d).2 = purge d ∧ load d = .error .cacheError) ∧
    ∀ r, (loadDataset isText order p false force d).1 = .ok r → load d = .ok r := by
  unfold loadDataset
  by_cases h : force = false ∧ isCached d = true
  · rw [if_pos h]
    cases hl : load d with
    | ok v => simp
    | error e => cases e <;> simp
  · rw [if_neg h]
    simp

end ModSSC.DataLoader.Store
