import Verif.DataLoader.LockModel

/-!
# C26: the dataset cache lock

The claim is false of the code: the `finally` clause also runs when `os.open` found the lock held, and
unlinks the holder's file.  `C26_mutual_exclusion_violated` is the negation.  What is true is proved as
`_partial`.
-/

namespace ModSSC.DataLoader.Lock
open ModSSC

/-- **C26 (specification).** Mutual exclusion in one state: no two processes are in the body. -/
def Exclusive (pc : Nat → PC) : Prop := ∀ p q, pc p = .inside → pc q = .inside → p = q

/-- **C26 is violated.** There is a schedule of three processes, none of them killed, after which two
are inside the lock of the same fingerprint. -/
theorem C26_mutual_exclusion_violated :
    ∃ (sched : List Act) (s : St), run init sched = some s ∧ (∀ p, Act.kill p ∉ sched) ∧
      ¬ Exclusive s.pc := by
  refine ⟨[.tryOpen 0, .tryOpen 1, .unlink 1, .tryOpen 2], _, rfl, by simp, ?_⟩
  intro h
  exact absurd (h 0 2 (by decide) (by decide)) (by decide)

/-- **C26 is violated already by two processes** when the refused one simply tries again. -/
theorem C26_retry_violated :
    ∃ (sched : List Act) (s : St), run init sched = some s ∧
      (∀ a ∈ sched, a ∈ [Act.tryOpen 0, .tryOpen 1, .unlink 1]) ∧ ¬ Exclusive s.pc := by
  refine ⟨[.tryOpen 0, .tryOpen 1, .unlink 1, .tryOpen 1], _, rfl, by decide, ?_⟩
  intro h
  exact absurd (h 0 1 (by decide) (by decide)) (by decide)

/-- **C26 (the holder is disturbed).** Whenever a refused process finishes its `with` statement, the
lock file is gone, even if another process is still inside. -/
theorem C26_holder_disturbed_violated :
    ∃ (sched : List Act) (s : St), run init sched = some s ∧ s.pc 0 = .inside ∧ s.file = false := by
  exact ⟨[.tryOpen 0, .tryOpen 1, .unlink 1], _, rfl, by decide, by decide⟩

/-- A schedule in which no refused process reaches its clean-up. -/
def NoRefusedCleanup : St → List Act → Prop
  | _, [] => True
  | s, a :: l => (∀ p, a = .unlink p → s.pc p ≠ .refused) ∧
      ∀ s', step s a = some s' → NoRefusedCleanup s' l

/-- The invariant: whoever is inside or leaving owns the file, and there is at most one of them. -/
def Inv (s : St) : Prop :=
  (∀ p, s.pc p = .inside ∨ s.pc p = .leaving → s.file = true) ∧
  (∀ p q, (s.pc p = .inside ∨ s.pc p = .leaving) → (s.pc q = .inside ∨ s.pc q = .leaving) → p = q)

theorem inv_step (s s' : St) (a : Act) (hs : Inv s) (h : step s a = some s')
    (hn : ∀ p, a = .unlink p → s.pc p ≠ .refused) : Inv s' := by
  obtain ⟨h1, h2⟩ := hs
  cases a with
  | tryOpen p =>
    simp only [step] at h
    split at h
    · rename_i hp
      split at h
      · rename_i hf
        obtain rfl := Option.some.inj h
        refine ⟨fun q hq => hf, fun q r hq hr => ?_⟩
        simp only [St.setPc] at hq hr
        split at hq
        · simp at hq
        · split at hr
          · simp at hr
          · exact h2 q r hq hr
      · rename_i hf
        obtain rfl := Option.some.inj h
        refine ⟨fun q hq => rfl, fun q r hq hr => ?_⟩
        simp only [St.setPc] at hq hr
        split at hq
        · split at hr
          · simp_all
          · exact absurd (h1 r hr) hf
        · exact absurd (h1 q hq) hf
    · simp at h
  | finish p =>
    simp only [step] at h
    split at h
    · rename_i hp
      obtain rfl := Option.some.inj h
      have key : ∀ q, ((s.setPc p .leaving).pc q = .inside ∨ (s.setPc p .leaving).pc q = .leaving) →
          (s.pc q = .inside ∨ s.pc q = .leaving) := by
        intro q hq
        simp only [St.setPc] at hq
        split at hq
        · rename_i e; subst e; exact Or.inl hp
        · exact hq
      exact ⟨fun q hq => h1 q (key q hq), fun q r hq hr => h2 q r (key q hq) (key r hr)⟩
    · simp at h
  | unlink p =>
    simp only [step] at h
    split at h
    · rename_i hp
      obtain rfl := Option.some.inj h
      have hl : s.pc p = .leaving := by
        rcases hp with hp | hp
        · exact hp
        · exact absurd hp (hn p rfl)
      have none : ∀ q, ¬ ((s.setPc p .out).pc q = .inside ∨ (s.setPc p .out).pc q = .leaving) := by
        intro q hq
        simp only [St.setPc] at hq
        split at hq
        · simp at hq
        · rename_i hne
          exact hne (h2 q p hq (Or.inr hl))
      exact ⟨fun q hq => absurd hq (none q), fun q r hq _ => absurd hq (none q)⟩
    · simp at h
  | kill p =>
    simp only [step] at h
    split at h
    · simp at h
    · obtain rfl := Option.some.inj h
      have key : ∀ q, ((s.setPc p .dead).pc q = .inside ∨ (s.setPc p .dead).pc q = .leaving) →
          (s.pc q = .inside ∨ s.pc q = .leaving) := by
        intro q hq
        simp only [St.setPc] at hq
        split at hq
        · simp at hq
        · exact hq
      exact ⟨fun q hq => h1 q (key q hq), fun q r hq hr => h2 q r (key q hq) (key r hr)⟩

theorem inv_run (l : List Act) : ∀ (s s' : St), Inv s → run s l = some s' → NoRefusedCleanup s l →
    Inv s' := by
  induction l with
  | nil =>
    intro s s' hs h _
    obtain rfl := Option.some.inj h
    exact hs
  | cons a l ih =>
    intro s s' hs h hn
    simp only [run] at h
    obtain ⟨s1, h1, h2⟩ := Option.bind_eq_some_iff.mp h
    exact ih s1 s' (inv_step s s1 a hs h1 hn.1) h2 (hn.2 s1 h1)

/-- **C26 (mutual exclusion until the first refused clean-up, partial).** For every number of
processes and every schedule, with any number of kills and of refused attempts: as long as no
*refused* process has run its clean-up, at most one process is inside, and while one is inside the
lock file exists.  (Partial: schedules in which a refused process unlinks the file are missing;
there the claim is false.) -/
theorem C26_exclusion_partial (sched : List Act) (s : St) (h : run init sched = some s)
    (hn : NoRefusedCleanup init sched) :
    Exclusive s.pc ∧ ((∃ p, s.pc p = .inside) → s.file = true) := by
  have hi : Inv s := inv_run sched init s ⟨by simp [init], by simp [init]⟩ h hn
  exact ⟨fun p q hp hq => hi.2 p q (Or.inl hp) (Or.inl hq), fun ⟨p, hp⟩ => hi.1 p (Or.inl hp)⟩

/-- The hypotheses are met by a schedule with two refused attempts, a release and a second entry. -/
example : ∃ s, run init [.tryOpen 0, .tryOpen 1, .tryOpen 2, .finish 0, .unlink 0, .tryOpen 3] = some s ∧
    NoRefusedCleanup init [.tryOpen 0, .tryOpen 1, .tryOpen 2, .finish 0, .unlink 0, .tryOpen 3] ∧
    s.pc 3 = .inside ∧ s.pc 1 = .refused := by
  refine ⟨_, rfl, ?_, by decide, by decide⟩
  refine ⟨by simp, fun s h => ?_⟩
  obtain rfl := Option.some.inj h
  refine ⟨by simp, fun s h => ?_⟩
  obtain rfl := Option.some.inj h
  refine ⟨by simp, fun s h => ?_⟩
  obtain rfl := Option.some.inj h
  refine ⟨by simp, fun s h => ?_⟩
  obtain rfl := Option.some.inj h
  refine ⟨?_, fun s h => ?_⟩
  · intro p hp
    obtain rfl := Act.unlink.inj hp
    decide
  obtain rfl := Option.some.inj h
  exact ⟨by simp, fun s _ => trivial⟩

/-- **C26 (a held lock refuses, part that holds).** In every state with the lock file present, an
attempt by any process fails and that process never gets inside by it; the other processes and the
file are as before until the refused process's clean-up. -/
theorem C26_held_refuses_partial (s s' : St) (p : Nat) (hf : s.file = true)
    (h : step s (.tryOpen p) = some s') :
    s'.pc p = .refused ∧ s'.file = true ∧ ∀ q, q ≠ p → s'.pc q = s.pc q := by
  simp only [step] at h
  split at h
  · obtain rfl := Option.some.inj h
    simp [St.setPc, hf]
    intro q hq
    simp [hq]
  · simp at h

/-- **C26 (a lock left by a killed process, part that holds).** The same clean-up has one benefit: a
lock file left behind by a killed holder blocks exactly one attempt; after that attempt's clean-up
any process can enter. -/
theorem C26_stale_lock_partial (s : St) (p q : Nat) (hpq : p ≠ q) (hf : s.file = true)
    (hp : s.pc p = .out) (hq : s.pc q = .out) :
    ∃ s', run s [.tryOpen p, .unlink p, .tryOpen q] = some s' ∧ s'.pc q = .inside ∧ s'.pc p = .out := by
  simp [run, step, hp, hf, St.setPc, hq, hpq, hpq.symm]

example : ∃ s, run init [.tryOpen 0, .kill 0] = some s ∧ s.file = true ∧ s.pc 1 = .out := ⟨_, rfl, rfl, rfl⟩

end ModSSC.DataLoader.Lock
