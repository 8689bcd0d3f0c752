import Verif.DataLoader.StoreProps

/-!
# The order in which a purge removes things (C27)
-/

namespace ModSSC.DataLoader.Store
open ModSSC

variable {A M : Type}

theorem rm_keeps (ops : List (Op A M)) (h : ∀ o ∈ ops, (∃ n, o = .rmFile n) ∨ o = .rmDir) (d : Disk A M) :
    (runOps ops d).manifest = d.manifest ∧ (runOps ops d).indexed = d.indexed := by
  induction ops generalizing d with
  | nil => exact ⟨rfl, rfl⟩
  | cons o os ih =>
    have h1 := ih (fun o' ho' => h o' (List.mem_cons_of_mem _ ho')) (o.run d)
    rcases h o List.mem_cons_self with ⟨n, rfl⟩ | rfl
    · exact h1
    · exact h1

theorem rmtreeOps_kind (order : List String) (d : Disk A M) : ∀ o ∈ rmtreeOps order d, (∃ n, o = .rmFile n) ∨ o = .rmDir := by
  intro o ho
  unfold rmtreeOps at ho
  split at ho
  · cases ho
  · rcases List.mem_append.mp ho with h | h
    · obtain ⟨n, -, rfl⟩ := List.mem_map.mp h
      exact .inl ⟨n, rfl⟩
    · exact .inr (by simpa using h)

theorem rmtreeOps_dir (order : List String) (d : Disk A M) : (runOps (rmtreeOps order d) d).dir = none := by
  unfold rmtreeOps
  split
  · rename_i h; exact h
  · simp [runOps, List.foldl_append, Op.run]

/-- **C27 (purging in order, part).**  A purge removes the directory, then the manifest, then the index row: at whatever moment it is
killed, the manifest is gone only if the directory is, and the row only if the manifest is; each of the three removals is a
separate moment, and a purge that is not killed removes all. -/
theorem C27_purge_order_partial (order : List String) (d : Disk A M) :
    (∀ n, (purgeCrash order n d).manifest = d.manifest ∧ (purgeCrash order n d).indexed = d.indexed ∨
      (purgeCrash order n d).dir = none ∧ (purgeCrash order n d).manifest = none) ∧
    (∃ n, purgeCrash order n d = { d with dir := none } ∧ purgeCrash order (n + 1) d = { d with dir := none, manifest := none } ∧
      ∀ m, n + 2 ≤ m → purgeCrash order m d = { dir := none, manifest := none, indexed := false }) ∧
    purgeCrash order 0 d = d := by
  have hfull : runOps (rmtreeOps order d) d = { d with dir := none } := by
    obtain ⟨h1, h2⟩ := rm_keeps _ (rmtreeOps_kind order d) d
    have h3 := rmtreeOps_dir order d
    cases h : runOps (rmtreeOps order d) d with
    | mk a b c =>
      rw [h] at h1 h2 h3
      simp only at h1 h2 h3
      rw [h1, h2, h3]
  refine ⟨fun n => ?_, ⟨(rmtreeOps order d).length, ?_, ?_, ?_⟩, ?_⟩
  · unfold purgeCrash
    simp only
    by_cases c1 : n ≤ (rmtreeOps order d).length
    · rw [if_pos c1]
      exact .inl (rm_keeps _ (fun o ho => rmtreeOps_kind order d o (List.mem_of_mem_take ho)) d)
    · rw [if_neg c1]
      by_cases c2 : n = (rmtreeOps order d).length + 1
      · rw [if_pos c2, hfull]
        exact .inr ⟨rfl, rfl⟩
      · rw [if_neg c2]
        exact .inr ⟨rfl, rfl⟩
  · unfold purgeCrash
    simp only
    rw [if_pos le_rfl, List.take_length, hfull]
  · unfold purgeCrash
    simp only
    rw [if_neg (by omega), if_pos trivial, hfull]
  · intro m hm
    unfold purgeCrash
    simp only
    rw [if_neg (by omega), if_neg (by omega)]
  · unfold purgeCrash
    simp only
    rw [if_pos (Nat.zero_le _)]
    rfl

example : purgeCrash demoOrder 0 (store demoText [] demoOld {}) ≠ purgeCrash demoOrder 99 (store demoText [] demoOld {}) := by
  decide +kernel

end ModSSC.DataLoader.Store
