import Verif.Bench.RunSpec
import Verif.Bench.SchemaTrials
import Verif.IntRepr

/-!
# Run directories, reports and exit codes (C135, C136)
-/

namespace ModSSC.Bench
open ModSSC ModSSC.Bench.Spec

/-! ### Free names -/

theorem pad2_inj (m n : Nat) (h : pad2 m = pad2 n) : m = n := by
  have big : ∀ a b : Nat, a < 10 → 10 ≤ b → "0" ++ a.repr ≠ b.repr := by
    intro a b ha hb he
    have := congrArg String.toList he
    rw [String.toList_append, Nat.repr_eq_ofList_toDigits, Nat.repr_eq_ofList_toDigits, String.toList_ofList,
      String.toList_ofList, String.toList_ofList, Nat.toDigits_of_lt_base ha, Nat.toDigits_of_base_le (n := b) (by omega) (by omega)] at this
    obtain ⟨h1, -⟩ := List.append_inj' this rfl
    have h0 : Nat.toDigits 10 0 = Nat.toDigits 10 (b / 10) := by rw [← h1]; rfl
    have := toDigits_inj _ _ h0
    omega
  unfold pad2 at h
  split at h <;> split at h
  · exact natRepr_inj _ _ (by simpa using h)
  · exact absurd h (big _ _ (by omega) (by omega))
  · exact absurd h.symm (big _ _ (by omega) (by omega))
  · exact natRepr_inj _ _ h

theorem suffixed_inj {path : String} {m n : Nat} (h : suffixed path m = suffixed path n) : m = n := by
  unfold suffixed at h
  exact pad2_inj m n (by simpa using h)

theorem nextLoop_spec (taken : List String) (path : String) (fuel n : Nat) :
    ∃ k, n ≤ k ∧ k ≤ n + fuel ∧ nextLoop taken path fuel n = suffixed path k ∧
      (∀ m, n ≤ m → m < k → suffixed path m ∈ taken) ∧ (k < n + fuel → suffixed path k ∉ taken) := by
  induction fuel generalizing n with
  | zero => exact ⟨n, le_refl _, le_refl _, rfl, fun m h1 h2 => by omega, fun h => by omega⟩
  | succ fuel ih =>
    rw [nextLoop]
    split
    · rename_i h
      obtain ⟨k, h1, h2, h3, h4, h5⟩ := ih (n + 1)
      refine ⟨k, by omega, by omega, h3, ?_, fun hk => h5 (by omega)⟩
      intro m hm1 hm2
      rcases Nat.eq_or_lt_of_le hm1 with rfl | hlt
      · exact h
      · exact h4 m hlt hm2
    · rename_i h
      exact ⟨n, le_refl _, by omega, rfl, fun m h1 h2 => by omega, fun _ => h⟩

/-- C135: the directory name picked is free; it is the wanted name if that is free, and otherwise the wanted name with the
first free number. -/
theorem C135_fresh (taken : List String) (path : String) :
    nextDir taken path ∉ taken ∧ (path ∉ taken → nextDir taken path = path) ∧
      (path ∈ taken → ∃ k, 1 ≤ k ∧ nextDir taken path = suffixed path k ∧ ∀ m, 1 ≤ m → m < k → suffixed path m ∈ taken) := by
  unfold nextDir
  split
  · rename_i hp
    obtain ⟨k, h1, h2, h3, h4, h5⟩ := nextLoop_spec taken path taken.length 1
    refine ⟨?_, fun h => absurd hp h, fun _ => ⟨k, h1, h3, h4⟩⟩
    rw [h3]
    by_cases hk : k < 1 + taken.length
    · exact h5 hk
    · -- all numbers up to the number of directories are taken, and so is the name itself
      exfalso
      have hsub : (path :: (List.range taken.length).map (fun m => suffixed path (m + 1))) ⊆ taken := by
        intro x hx
        rcases List.mem_cons.mp hx with rfl | hx
        · exact hp
        · obtain ⟨m, hm, rfl⟩ := List.mem_map.mp hx
          rw [List.mem_range] at hm
          exact h4 (m + 1) (by omega) (by omega)
      have hnd : (path :: (List.range taken.length).map (fun m => suffixed path (m + 1))).Nodup := by
        rw [List.nodup_cons]
        constructor
        · intro hx
          obtain ⟨m, -, hm⟩ := List.mem_map.mp hx
          have := congrArg (fun s : String => s.toList.length) hm
          simp [suffixed] at this
        · refine List.Nodup.map ?_ List.nodup_range
          intro a b hab
          have := suffixed_inj hab
          omega
      have := (List.Nodup.subperm hnd hsub).length_le
      simp at this
  · rename_i hp
    exact ⟨hp, fun _ => rfl, fun h => absurd h hp⟩

example : nextDir ["runs/a", "runs/a__r01"] "runs/a" = "runs/a__r02" := by decide +kernel
example : nextDir ["runs/a"] "runs/b" = "runs/b" := by decide +kernel

/-! ### Concurrent runs -/

/-- Every running process has a directory of its own, with its own files, and what was there before is untouched. -/
structure Apart' (d : Disk) (w : World) : Prop where
  mine : ∀ p dir, Home w p dir → dir ∉ Assoc.keys d ∧ ∃ fs, Assoc.get w.disk dir = some fs ∧ ∀ f q, Assoc.get fs f = some q → q = p
  alone : ∀ p q dir, Home w p dir → Home w q dir → p = q
  old : ∀ dir fs, Assoc.get d dir = some fs → Assoc.get w.disk dir = some fs

theorem home_put {w : World} {p q : Nat} {ph : Phase} {dir : String} (h : Home (w.put p ph) q dir) :
    (q = p ∧ (ph = .owns dir ∨ ∃ t, ph = .moving dir t)) ∨ (q ≠ p ∧ Home w q dir) := by
  unfold Home World.put at h
  simp only at h
  split at h
  · exact .inl ⟨by assumption, h⟩
  · exact .inr ⟨by assumption, h⟩

/-- A process that gives up its directory. -/
theorem apart_drop {d : Disk} {w : World} (h : Apart' d w) (p : Nat) (ph : Phase)
    (hph : ∀ dir, (ph = .owns dir ∨ ∃ t, ph = .moving dir t) → Home w p dir) : Apart' d (w.put p ph) := by
  have hh : ∀ q dir, Home (w.put p ph) q dir → Home w q dir := by
    intro q dir hq
    rcases home_put hq with ⟨rfl, hq'⟩ | ⟨-, hq'⟩
    · exact hph dir hq'
    · exact hq'
  exact ⟨fun q dir hq => h.mine q dir (hh q dir hq), fun q r dir hq hr => h.alone q r dir (hh _ _ hq) (hh _ _ hr), h.old⟩

theorem apart_step {d : Disk} {w : World} (h : Apart' d w) (p : Nat) (a : Act)
    (ha : (∀ path, a ≠ .pickRoot path) ∧ a ≠ .mkRoot ∧ ∀ f, a ≠ .writeRoot f)
    (hr : a = .rename → ∀ dir target, w.phase p = .moving dir target → target ∉ Assoc.keys w.disk) :
    Apart' d (w.step p a) := by
  have old_key : ∀ dir, dir ∈ Assoc.keys d → dir ∈ Assoc.keys w.disk := by
    intro dir hd
    obtain ⟨fs, hfs⟩ := Assoc.mem_keys_iff.mp hd
    exact Assoc.mem_keys_iff.mpr ⟨fs, h.old dir fs hfs⟩
  cases a with
  | pick path =>
    simp only [World.step]
    split
    · exact apart_drop h p _ (by rintro dir (h | ⟨t, h⟩) <;> cases h)
    · exact h
  | mkdir =>
    simp only [World.step]
    split
    · rename_i dir hph
      split
      · exact apart_drop h p _ (by rintro dir (h | ⟨t, h⟩) <;> cases h)
      · rename_i hno
        have hno : dir ∉ Assoc.keys w.disk := fun hk => hno (Assoc.has_iff.mpr hk)
        have other : ∀ q dir', Home w q dir' → dir' ≠ dir := by
          rintro q dir' hq rfl
          obtain ⟨fs, hfs, -⟩ := (h.mine q dir' hq).2
          exact hno (Assoc.mem_keys_iff.mpr ⟨fs, hfs⟩)
        refine ⟨?_, ?_, ?_⟩
        · intro q dir' hq
          rcases home_put hq with ⟨rfl, hq | ⟨t, hq⟩⟩ | ⟨-, hq⟩
          · cases hq
            refine ⟨fun hd => hno (old_key _ hd), [], ?_, fun f q hf => by cases hf⟩
            exact Assoc.get_set_self _ _ _
          · cases hq
          · obtain ⟨h1, fs, h2, h3⟩ := h.mine q dir' hq
            refine ⟨h1, fs, ?_, h3⟩
            show Assoc.get (Assoc.set w.disk dir []) dir' = _
            rw [Assoc.get_set_other _ _ (other q dir' hq)]
            exact h2
        · intro q r dir' hq hr'
          rcases home_put hq with ⟨rfl, hq | ⟨t, hq⟩⟩ | ⟨-, hq2⟩
          · cases hq
            rcases home_put hr' with ⟨rfl, -⟩ | ⟨-, hr2⟩
            · rfl
            · exact absurd rfl (other r _ hr2)
          · cases hq
          · rcases home_put hr' with ⟨rfl, hr' | ⟨t, hr'⟩⟩ | ⟨-, hr'⟩
            · cases hr'
              exact absurd rfl (other q _ hq2)
            · cases hr'
            · exact h.alone q r dir' hq2 hr'
        · intro dir' fs hd
          show Assoc.get (Assoc.set w.disk dir []) dir' = _
          rw [Assoc.get_set_other, h.old dir' fs hd]
          rintro rfl
          exact hno (old_key _ (Assoc.mem_keys_iff.mpr ⟨fs, hd⟩))
    · exact h
  | write file =>
    simp only [World.step]
    split
    · rename_i dir hph
      split
      · have hmine := h.mine p dir (.inl hph)
        obtain ⟨hnd, fs, hfs, hown⟩ := hmine
        have hdisk : writeFile w.disk dir file p = Assoc.set w.disk dir (Assoc.set fs file p) := by
          unfold writeFile; rw [hfs]
        refine ⟨?_, fun q r dir' hq hr' => h.alone q r dir' hq hr', ?_⟩
        · intro q dir' hq
          obtain ⟨h1, fs', h2, h3⟩ := h.mine q dir' hq
          refine ⟨h1, ?_⟩
          show ∃ fs, Assoc.get (writeFile w.disk dir file p) dir' = some fs ∧ _
          rw [hdisk]
          by_cases hdd : dir' = dir
          · subst hdd
            have hqp : q = p := h.alone q p _ hq (.inl hph)
            subst hqp
            refine ⟨_, Assoc.get_set_self _ _ _, fun f r hf => ?_⟩
            rw [Assoc.get_set] at hf
            split at hf
            · cases hf; rfl
            · exact hown f r hf
          · rw [Assoc.get_set_other _ _ hdd]
            exact ⟨fs', h2, h3⟩
        · intro dir' fs' hd
          show Assoc.get (writeFile w.disk dir file p) dir' = _
          rw [hdisk, Assoc.get_set_other, h.old dir' fs' hd]
          rintro rfl
          exact hnd (Assoc.mem_keys_iff.mpr ⟨fs', hd⟩)
      · exact apart_drop h p _ (by rintro dir (h | ⟨t, h⟩) <;> cases h)
    · exact h
  | pickNew path =>
    simp only [World.step]
    split
    · rename_i dir hph
      refine apart_drop h p _ ?_
      rintro dir' (h | ⟨t, h⟩)
      · cases h
      · cases h; exact .inl hph
    · exact h
  | rename =>
    have hr := hr rfl
    simp only [World.step]
    split
    · rename_i dir target hph
      have hfree := hr dir target hph
      have hnone := Assoc.get_eq_none_iff.mpr hfree
      have hhome : Home w p dir := .inr ⟨target, hph⟩
      obtain ⟨hnd, fs, hfs, hown⟩ := h.mine p dir hhome
      rw [hnone, hfs]
      simp only
      have hne : target ≠ dir := by
        rintro rfl
        rw [hnone] at hfs; cases hfs
      have other : ∀ q dir', q ≠ p → Home w q dir' → dir' ≠ dir ∧ dir' ≠ target := by
        intro q dir' hqp hq
        constructor
        · rintro rfl
          exact hqp (h.alone q p _ hq hhome)
        · rintro rfl
          obtain ⟨-, fs', hfs', -⟩ := h.mine q _ hq
          rw [hnone] at hfs'; cases hfs'
      refine ⟨?_, ?_, ?_⟩
      · intro q dir' hq
        rcases home_put hq with ⟨rfl, hq | ⟨t, hq⟩⟩ | ⟨hqp, hq⟩
        · cases hq
          refine ⟨fun hd => hfree (old_key _ hd), fs, ?_, hown⟩
          exact Assoc.get_set_self _ _ _
        · cases hq
        · obtain ⟨h1, fs', h2, h3⟩ := h.mine q dir' hq
          obtain ⟨o1, o2⟩ := other q dir' hqp hq
          refine ⟨h1, fs', ?_, h3⟩
          show Assoc.get (Assoc.set (Assoc.erase w.disk dir) target fs) dir' = _
          rw [Assoc.get_set_other _ _ o2, Assoc.get_erase, if_neg o1]
          exact h2
      · intro q r dir' hq hr'
        rcases home_put hq with ⟨rfl, hq | ⟨t, hq⟩⟩ | ⟨hqp, hq2⟩
        · cases hq
          rcases home_put hr' with ⟨rfl, -⟩ | ⟨hrp, hr2⟩
          · rfl
          · exact absurd rfl (other r _ hrp hr2).2
        · cases hq
        · rcases home_put hr' with ⟨rfl, hr' | ⟨t, hr'⟩⟩ | ⟨-, hr'⟩
          · cases hr'
            exact absurd rfl (other q _ hqp hq2).2
          · cases hr'
          · exact h.alone q r dir' hq2 hr'
      · intro dir' fs' hd
        have hk := old_key dir' (Assoc.mem_keys_iff.mpr ⟨fs', hd⟩)
        show Assoc.get (Assoc.set (Assoc.erase w.disk dir) target fs) dir' = _
        rw [Assoc.get_set_other, Assoc.get_erase, if_neg, h.old dir' fs' hd]
        · rintro rfl
          exact hnd (Assoc.mem_keys_iff.mpr ⟨fs', hd⟩)
        · rintro rfl
          exact hfree hk
    · exact h
  | pickRoot path => exact absurd rfl (ha.1 path)
  | mkRoot => exact absurd rfl ha.2.1
  | writeRoot f => exact absurd rfl (ha.2.2 f)

theorem apart_run {d : Disk} (s : List (Nat × Act)) {w : World} (h : Apart' d w) (hs : OnlyRuns s)
    (hf : FreeRenames w s) : Apart' d (w.run s) := by
  induction s generalizing w with
  | nil => exact h
  | cons e s ih =>
    obtain ⟨p, a⟩ := e
    obtain ⟨h1, h2⟩ := hf
    exact ih (apart_step h p a (hs _ List.mem_cons_self) h1) (fun e he => hs e (List.mem_cons_of_mem _ he)) h2

/-- C135 (partial): however many runs there are and however they interleave, every run has a directory that did not exist
before, with no other run in it and no file of another run, and nothing that was on disk before changes.  Missing: runs
that rename their directory onto a name another run has just taken (`C135_rename_violated`), and sweeps
(`C135_sweep_violated`). -/
theorem C135_exclusive_partial (d : Disk) (s : List (Nat × Act)) (hs : OnlyRuns s) (hf : FreeRenames (.init d) s) :
    (∀ p dir, Home ((World.init d).run s) p dir → dir ∉ Assoc.keys d ∧
      ∃ fs, Assoc.get ((World.init d).run s).disk dir = some fs ∧ ∀ f q, Assoc.get fs f = some q → q = p) ∧
    (∀ p q dir, Home ((World.init d).run s) p dir → Home ((World.init d).run s) q dir → p = q) ∧
    ∀ dir fs, Assoc.get d dir = some fs → Assoc.get ((World.init d).run s).disk dir = some fs := by
  have h0 : Apart' d (World.init d) := by
    refine ⟨?_, ?_, fun _ _ h => h⟩
    · rintro p dir (h | ⟨t, h⟩) <;> cases h
    · rintro p q dir (h | ⟨t, h⟩) <;> cases h
  have h := apart_run s h0 hs hf
  exact ⟨h.mine, h.alone, h.old⟩

theorem freeRenames_of_none {s : List (Nat × Act)} (hs : ∀ e ∈ s, e.2 ≠ .rename) (w : World) : FreeRenames w s := by
  induction s generalizing w with
  | nil => trivial
  | cons e s ih =>
    obtain ⟨p, a⟩ := e
    exact ⟨fun ha => absurd ha (hs _ List.mem_cons_self), ih (fun e he => hs e (List.mem_cons_of_mem _ he)) _⟩

/-- C135: runs without a search never rename, so for them nothing is missing. -/
theorem C135_no_search (d : Disk) (s : List (Nat × Act)) (hs : OnlyRuns s) (hn : ∀ e ∈ s, e.2 ≠ .rename) :
    (∀ p dir, Home ((World.init d).run s) p dir → dir ∉ Assoc.keys d ∧
      ∃ fs, Assoc.get ((World.init d).run s).disk dir = some fs ∧ ∀ f q, Assoc.get fs f = some q → q = p) ∧
    (∀ p q dir, Home ((World.init d).run s) p dir → Home ((World.init d).run s) q dir → p = q) ∧
    ∀ dir fs, Assoc.get d dir = some fs → Assoc.get ((World.init d).run s).disk dir = some fs :=
  C135_exclusive_partial d s hs (freeRenames_of_none hn _)

/-- C135: two runs that want one name at the same time: the later `mkdir` stops its run. -/
example : let w : World := World.run (World.init [("runs/a", [("run.json", 7)])]) [(0, .pick "runs/a"), (1, .pick "runs/a"), (0, .mkdir), (1, .mkdir), (2, .pick "runs/a"), (2, .mkdir), (0, .write "run.json")]
    w.phase 0 = .owns "runs/a__r01" ∧ w.phase 1 = .stopped ∧ w.phase 2 = .owns "runs/a__r02" ∧
      w.disk = [("runs/a", [("run.json", 7)]), ("runs/a__r01", [("run.json", 0)]), ("runs/a__r02", [])] := by
  decide +kernel

/-- C135 is violated: a run that ends a search renames its directory onto the one that another run has just made; both
then write into one directory. -/
theorem C135_rename_violated :
    ∃ s, OnlyRuns s ∧ Home ((World.init []).run s) 0 "b" ∧ Home ((World.init []).run s) 1 "b" ∧
      Assoc.get ((World.init []).run s).disk "b" = some [("config.yaml", 1)] := by
  refine ⟨[(0, .pick "a"), (0, .mkdir), (0, .write "config.yaml"), (0, .pickNew "b"), (1, .pick "b"), (1, .mkdir), (0, .rename),
    (1, .write "config.yaml")], ?_, .inl (by decide +kernel), .inl (by decide +kernel), by decide +kernel⟩
  intro e he
  simp only [List.mem_cons, List.not_mem_nil, or_false] at he
  rcases he with rfl | rfl | rfl | rfl | rfl | rfl | rfl | rfl <;> simp

/-- C135 is violated: two sweeps started in the same second share their root directory, and one summary is lost. -/
theorem C135_sweep_violated :
    ∃ s : List (Nat × Act), (∀ f, (0, Act.writeRoot f) ∈ s ↔ f = "summary.json") ∧
      (∀ f, (1, Act.writeRoot f) ∈ s ↔ f = "summary.json") ∧
      ((World.init []).run s).disk = [("s", [("summary.json", 1)])] := by
  refine ⟨[(0, .pickRoot "s"), (1, .pickRoot "s"), (0, .mkRoot), (1, .mkRoot), (0, .writeRoot "summary.json"),
    (1, .writeRoot "summary.json")], ?_, ?_, by decide +kernel⟩
  · intro f; simp
  · intro f; simp

end ModSSC.Bench
