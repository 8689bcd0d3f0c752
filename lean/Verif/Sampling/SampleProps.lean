import Verif.Sampling.SplitProps
import Verif.Sampling.LabelProps

/-!
# C11-C14: the `sample()` pipeline

The dataset is represented by its label vector `y` (one label per training sample / node) and, for
inductive data, the size of the official test split if there is one.
-/

namespace ModSSC.Sampling
open ModSSC Spec

variable {σ : Type}

/-! ### helpers -/

theorem bind_ok {α β : Type} {x : Except PyErr α} {f : α → Except PyErr β} {b : β} :
    (x >>= f) = .ok b ↔ ∃ a, x = .ok a ∧ f a = .ok b := by
  cases x <;> simp [bind, Except.bind]

/-- All three split parts partition the pool, whichever splitter is used. -/
theorem runSplit_spec {R : Rng σ} (hR : R.Lawful) {argsort : List Int → List Nat}
    (hA : IsArgsort argsort) (split : SplitSpec) (y : List Int) (official : Bool) (s : σ)
    (p : Parts) (h : runSplit R argsort split y.length y official s = .ok p) :
    ((p.train ++ p.val) ++ p.test).Perm (List.range y.length) ∧
      p.train.Pairwise (· < ·) ∧ p.val.Pairwise (· < ·) ∧ p.test.Pairwise (· < ·) ∧
      (official = true → p.test = []) := by
  cases split with
  | holdout tf vf strat shuf =>
    cases official with
    | true =>
      simp only [runSplit] at h
      obtain ⟨q, s', e, h1, h2, h3, h4, h5, -⟩ := holdout_main hR hA y.length y 0 vf strat s (fun _ => le_refl _)
      rw [e] at h
      obtain rfl : q = p := by simpa [Except.map] using h
      refine ⟨h1, h2, h3, h4, fun _ => ?_⟩
      rw [← List.length_eq_zero_iff, h5]
      have : pyRound ((0 : Rat) * (y.length : Rat)) = 0 := by rw [zero_mul]; decide +kernel
      unfold clampedSize
      rw [this]; simp
    | false =>
      simp only [runSplit] at h
      obtain ⟨q, s', e, h1, h2, h3, h4, -⟩ := holdout_main hR hA y.length y tf vf strat s (fun _ => le_refl _)
      rw [e] at h
      obtain rfl : q = p := by simpa [Except.map] using h
      exact ⟨h1, h2, h3, h4, by simp⟩
  | kfold k fold strat shuf vf =>
    by_cases hbad : k ≤ 1 ∨ fold < 0 ∨ k ≤ fold
    · cases official <;>
      · simp only [runSplit] at h
        rw [C04_kfold_rejects _ _ _ _ hbad] at h
        simp [Except.map] at h
    · have hb : 2 ≤ k ∧ 0 ≤ fold ∧ fold < k := by omega
      cases official with
      | true =>
        simp only [runSplit] at h
        obtain ⟨folds, -, -, -, -, hf⟩ := kfold_main hR hA y.length y k hb.1 strat shuf 0 s (fun _ => le_refl _)
        obtain ⟨q, s', e, -, h1, h2, h3, h4, h5⟩ := hf fold hb.2.1 hb.2.2
        rw [e] at h
        obtain rfl : (⟨q.train, q.test, []⟩ : Parts) = p := by simpa [Except.map] using h
        have hv : q.val = [] := by
          rw [← List.length_eq_zero_iff, h5]; simp
        refine ⟨?_, h2, h4, List.Pairwise.nil, by simp⟩
        rw [hv] at h1
        simpa using h1
      | false =>
        simp only [runSplit] at h
        obtain ⟨folds, -, -, -, -, hf⟩ := kfold_main hR hA y.length y k hb.1 strat shuf vf s (fun _ => le_refl _)
        obtain ⟨q, s', e, -, h1, h2, h3, h4, h5⟩ := hf fold hb.2.1 hb.2.2
        rw [e] at h
        obtain rfl : q = p := by simpa [Except.map] using h
        exact ⟨h1, h2, h3, h4, by simp⟩

theorem imbalanceIf_subset {R : Rng σ} (hR : R.Lawful) {argsort : List Int → List Nat}
    (which : ApplyTo) (idx : List Nat) (hinc : idx.Pairwise (· < ·)) (y : List Int)
    (spec : ImbalanceSpec) (s : σ) (out : List Nat × σ)
    (h : imbalanceIf R argsort which idx y spec s = .ok out) :
    StrictlyIncreasing out.1 ∧ ∀ x ∈ out.1, x ∈ idx := by
  unfold imbalanceIf at h
  split at h
  · exact C10_imbalance_subset hR idx (nodup_of_pairwise_lt hinc) y spec s out.1 out.2 h
  · obtain rfl : (idx, s) = out := by simpa using h
    exact ⟨hinc, fun x hx => hx⟩

theorem npSort_of_strict {l : List Nat} (h : l.Pairwise (· < ·)) : npSort l = l :=
  npSort_eq_self (h.imp (by intro a b h; omega))

theorem mem_setdiff {a b : List Nat} {x : Nat} : x ∈ setdiff a b ↔ x ∈ a ∧ x ∉ b := by
  simp [setdiff, mem_npSort]

theorem setdiff_strict (a b : List Nat) : (setdiff a b).Pairwise (· < ·) :=
  pairwise_lt_of_le_nodup ((npSort_sorted _).sublist (List.dedup_sublist _)) (List.nodup_dedup _)

/-- The pieces a successful `buildInductive` is made of. -/
theorem buildInductive_pieces {R : Rng σ} (hR : R.Lawful) {argsort : List Int → List Nat}
    (hA : IsArgsort argsort) (y : List Int) (nTest : Option Nat) (plan : SamplingPlan)
    (seeds : Seeds σ) (r : IndResult)
    (h : buildInductive R argsort y nTest plan seeds = .ok r) :
    ∃ (parts : Parts) (sI : σ),
      runSplit R argsort plan.split y.length y
        (nTest.isSome && plan.policy.respectOfficialTest && !plan.policy.allowOverrideOfficial)
        seeds.split = .ok parts ∧
      imbalanceIf R argsort .train parts.train y plan.imbalance seeds.imb = .ok (r.train, sI) ∧
      ((parts.train ++ parts.val) ++ parts.test).Perm (List.range y.length) ∧
      StrictlyIncreasing r.train ∧ (∀ x ∈ r.train, x ∈ parts.train) ∧
      r.val = parts.val ∧ StrictlyIncreasing r.val ∧
      StrictlyIncreasing r.labeled ∧ (∀ x ∈ r.labeled, x ∈ r.train) ∧
      r.unlabeled = setdiff r.train r.labeled ∧
      (if (nTest.isSome && plan.policy.respectOfficialTest && !plan.policy.allowOverrideOfficial) = true
        then r.testRef = .test ∧ r.test = List.range (nTest.getD 0) ∧ parts.test = []
        else r.testRef = .train ∧ r.test = parts.test ∧ StrictlyIncreasing r.test) := by
  unfold buildInductive at h
  simp only [bind_ok] at h
  obtain ⟨parts, hparts, adj, hadj, lab0, hlab0, lab, hlab, hr⟩ := h
  obtain ⟨hp, h1, h2, h3, h4⟩ := runSplit_spec hR hA plan.split y _ seeds.split parts hparts
  obtain ⟨a1, a2⟩ := imbalanceIf_subset hR .train parts.train h1 y plan.imbalance seeds.imb adj hadj
  obtain ⟨l1, l2⟩ := C06_labeled_subset hR adj.1 y plan.labeling seeds.label lab0.1 lab0.2 hlab0
  obtain ⟨b1, b2⟩ := imbalanceIf_subset hR .labeled lab0.1 l1 y plan.imbalance adj.2 lab hlab
  obtain rfl := (Except.ok.inj hr).symm
  refine ⟨parts, adj.2, hparts, ?_, hp, ?_, ?_, ?_, ?_, ?_, ?_, ?_, ?_⟩
  · simpa only [npSort_of_strict a1] using hadj
  · simpa only [npSort_of_strict a1] using a1
  · simpa only [npSort_of_strict a1] using a2
  · exact npSort_of_strict h2
  · rw [npSort_of_strict h2]; exact h2
  · simpa only [npSort_of_strict b1] using b1
  · simp only [npSort_of_strict b1, npSort_of_strict a1]
    exact fun x hx => l2 x (b2 x hx)
  · simp only [npSort_of_strict b1, npSort_of_strict a1]
    exact npSort_of_strict (setdiff_strict _ _)
  · split
    · rename_i hu
      refine ⟨by simp [hu], ?_, h4 hu⟩
      simp only [hu, if_true]
      exact npSort_of_strict (range_strict _)
    · rename_i hu
      refine ⟨rfl, ?_, ?_⟩
      · exact npSort_of_strict h3
      · rw [npSort_of_strict h3]; exact h3

theorem checkIdx_ok {n : Nat} {l : List Nat} (h : IndexSet n l) : checkIdx (some n) l = .ok () := by
  unfold checkIdx
  split
  · rfl
  · rw [if_neg (not_not.mpr (nodup_of_pairwise_lt h.1))]
    simpa using h.2

theorem overlaps_false {a b : List Nat} (h : NoOverlap a b) : overlaps a b = false := by
  unfold overlaps
  simp only [List.any_eq_false, List.elem_eq_mem, decide_eq_true_eq]
  exact h

/-! ### C11 -/

/-- **C11 (result).** Whenever `sample()` on a non-graph dataset returns, all index arrays are sorted,
duplicate-free and in range, train, val (and test when it refers to the training pool) are pairwise
disjoint, and labeled/unlabeled partition train. -/
theorem C11_sample_partition {R : Rng σ} (hR : R.Lawful) {argsort : List Int → List Nat}
    (hA : IsArgsort argsort) (y : List Int) (nTest : Option Nat) (plan : SamplingPlan)
    (seeds : Seeds σ) (r : IndResult)
    (h : sampleInductive R argsort y nTest plan seeds = .ok r) :
    IndexSet y.length r.train ∧ IndexSet y.length r.val ∧
    IndexSet y.length r.labeled ∧ IndexSet y.length r.unlabeled ∧
    NoOverlap r.train r.val ∧ Splits r.train r.labeled r.unlabeled ∧
    (r.testRef = .train → IndexSet y.length r.test ∧ NoOverlap r.train r.test ∧ NoOverlap r.val r.test) ∧
    (r.testRef = .test → ∃ m, nTest = some m ∧ IndexSet m r.test) := by
  unfold sampleInductive at h
  simp only [bind_ok] at h
  obtain ⟨r', hb, _, -, hr⟩ := h
  obtain rfl := (Except.ok.inj hr).symm
  obtain ⟨parts, sI, -, -, hp, t1, t2, v1, v2, l1, l2, u, htest⟩ :=
    buildInductive_pieces hR hA y nTest plan seeds r hb
  have hnd : ((parts.train ++ parts.val) ++ parts.test).Nodup := hp.nodup_iff.mpr List.nodup_range
  have hin : ∀ x, x ∈ parts.train ∨ x ∈ parts.val ∨ x ∈ parts.test → x < y.length := by
    intro x hx
    have := hp.mem_iff (a := x)
    simp only [List.mem_append, List.mem_range] at this
    exact this.mp (by tauto)
  have hno := noOverlap_of_nodup_append hnd
  have hno2 := noOverlap_of_nodup_append (List.nodup_append.mp hnd).1
  refine ⟨⟨t1, fun x hx => hin x (Or.inl (t2 x hx))⟩,
    ⟨v2, fun x hx => hin x (Or.inr (Or.inl (v1 ▸ hx)))⟩,
    ⟨l1, fun x hx => hin x (Or.inl (t2 x (l2 x hx)))⟩,
    ⟨by rw [u]; exact setdiff_strict _ _, ?_⟩, ?_, ⟨?_, ?_⟩, ?_, ?_⟩
  · intro x hx
    rw [u, mem_setdiff] at hx
    exact hin x (Or.inl (t2 x hx.1))
  · intro x hx hv
    rw [v1] at hv
    exact hno2 x (t2 x hx) hv
  · intro x hx hx2
    rw [u, mem_setdiff] at hx2
    exact hx2.2 hx
  · intro x
    rw [u, mem_setdiff]
    constructor
    · intro hx
      by_cases hl : x ∈ r.labeled
      · exact Or.inl hl
      · exact Or.inr ⟨hx, hl⟩
    · rintro (hx | hx)
      · exact l2 x hx
      · exact hx.1
  · intro href
    split at htest
    · rw [htest.1] at href; simp at href
    · obtain ⟨-, e, inc⟩ := htest
      refine ⟨⟨inc, fun x hx => hin x (Or.inr (Or.inr (e ▸ hx)))⟩, ?_, ?_⟩
      · intro x hx hx2
        exact hno x (by simp [t2 x hx]) (e ▸ hx2)
      · intro x hx hx2
        exact hno x (by simp [v1 ▸ hx]) (e ▸ hx2)
  · intro href
    split at htest
    · rename_i hu
      cases hn : nTest with
      | none => rw [hn] at hu; simp at hu
      | some m =>
        refine ⟨m, rfl, ?_⟩
        rw [htest.2.1, hn]
        exact ⟨range_strict _, by simp⟩
    · rw [htest.1] at href; simp at href

/-- **C11 (no spurious rejection).** The final validation never rejects a result built by the
pipeline: `sample()` returns exactly what the pipeline built. -/
theorem C11_validation_never_rejects {R : Rng σ} (hR : R.Lawful) {argsort : List Int → List Nat}
    (hA : IsArgsort argsort) (y : List Int) (nTest : Option Nat) (plan : SamplingPlan)
    (seeds : Seeds σ) :
    sampleInductive R argsort y nTest plan seeds = buildInductive R argsort y nTest plan seeds := by
  unfold sampleInductive
  cases hb : buildInductive R argsort y nTest plan seeds with
  | error e => simp [bind, Except.bind]
  | ok r =>
    obtain ⟨parts, sI, -, -, hp, t1, t2, v1, v2, l1, l2, u, htest⟩ :=
      buildInductive_pieces hR hA y nTest plan seeds r hb
    have hnd : ((parts.train ++ parts.val) ++ parts.test).Nodup := hp.nodup_iff.mpr List.nodup_range
    have hin : ∀ x, x ∈ parts.train ∨ x ∈ parts.val ∨ x ∈ parts.test → x < y.length := by
      intro x hx
      have := hp.mem_iff (a := x)
      simp only [List.mem_append, List.mem_range] at this
      exact this.mp (by tauto)
    have hno := noOverlap_of_nodup_append hnd
    have hno2 := noOverlap_of_nodup_append (List.nodup_append.mp hnd).1
    have c1 : checkIdx (some y.length) r.train = .ok () :=
      checkIdx_ok ⟨t1, fun x hx => hin x (Or.inl (t2 x hx))⟩
    have c2 : checkIdx (some y.length) r.val = .ok () :=
      checkIdx_ok ⟨v2, fun x hx => hin x (Or.inr (Or.inl (v1 ▸ hx)))⟩
    have c3 : checkIdx (some y.length) r.labeled = .ok () :=
      checkIdx_ok ⟨l1, fun x hx => hin x (Or.inl (t2 x (l2 x hx)))⟩
    have c4 : checkIdx (some y.length) r.unlabeled = .ok () := by
      refine checkIdx_ok ⟨by rw [u]; exact setdiff_strict _ _, fun x hx => ?_⟩
      rw [u, mem_setdiff] at hx
      exact hin x (Or.inl (t2 x hx.1))
    have c5 : checkIdx (if r.testRef = .train then some y.length else nTest) r.test = .ok () := by
      split at htest
      · rename_i hu
        rw [htest.1, if_neg (by simp)]
        cases hn : nTest with
        | none => rw [hn] at hu; simp at hu
        | some m =>
          apply checkIdx_ok
          rw [htest.2.1, hn]
          exact ⟨range_strict _, by simp⟩
      · obtain ⟨href, e, inc⟩ := htest
        rw [href, if_pos rfl]
        exact checkIdx_ok ⟨inc, fun x hx => hin x (Or.inr (Or.inr (e ▸ hx)))⟩
    have o1 : overlaps r.train r.val = false := by
      apply overlaps_false
      intro x hx hv
      rw [v1] at hv
      exact hno2 x (t2 x hx) hv
    have o2 : ¬ (r.testRef = .train ∧ (overlaps r.train r.test = true ∨ overlaps r.val r.test = true)) := by
      rintro ⟨href, ho⟩
      split at htest
      · rw [htest.1] at href; simp at href
      · obtain ⟨-, e, inc⟩ := htest
        have a : overlaps r.train r.test = false := by
          apply overlaps_false
          intro x hx hx2
          exact hno x (by simp [t2 x hx]) (e ▸ hx2)
        have b : overlaps r.val r.test = false := by
          apply overlaps_false
          intro x hx hx2
          exact hno x (by simp [v1 ▸ hx]) (e ▸ hx2)
        rw [a, b] at ho
        simp at ho
    have o3 : overlaps r.labeled r.unlabeled = false := by
      apply overlaps_false
      intro x hx hx2
      rw [u, mem_setdiff] at hx2
      exact hx2.2 hx
    have o4 : npSort (r.labeled ++ r.unlabeled) = npSort r.train := by
      apply npSort_congr
      rw [List.perm_ext_iff_of_nodup]
      · intro x
        rw [List.mem_append, u, mem_setdiff]
        constructor
        · rintro (hx | hx)
          · exact l2 x hx
          · exact hx.1
        · intro hx
          by_cases hl : x ∈ r.labeled
          · exact Or.inl hl
          · exact Or.inr ⟨hx, hl⟩
      · rw [List.nodup_append]
        refine ⟨nodup_of_pairwise_lt l1, by rw [u]; exact nodup_of_pairwise_lt (setdiff_strict _ _), ?_⟩
        rintro a ha b hb rfl
        rw [u, mem_setdiff] at hb
        exact hb.2 ha
      · exact nodup_of_pairwise_lt t1
    have hval : validateInductive y.length nTest r = .ok () := by
      unfold validateInductive
      simp only [bind, Except.bind, c1, c2, c3, c4, c5]
      rw [if_neg (by simp [o1]), if_neg o2, if_neg (by simp [o3]), if_neg (by simp [o4])]
    simp [bind, Except.bind, hval]

/-- A concrete run of the whole pipeline, with imbalance on the training set and labels. -/
example : sampleInductive Rng.demo stableArgsort [0,0,0,0,0,1,1,1,1,1] none
    { split := .holdout (1/5) (1/4) true true, labeling := { mode := .count, value := 2 },
      imbalance := { kind := .subsampleMaxPerClass, maxPerClass := some 2 } } ⟨0, 0, 0⟩
    = .ok { train := [0, 1, 5, 6], val := [3, 8], test := [4, 9], labeled := [0, 5],
            unlabeled := [1, 6], testRef := .train } := by decide +kernel

/-! ### C12 -/

/-- **C12 (respected).** With an official test split of size `m`, `respect_official_test` and no
override, the test indices are exactly `0..m-1` of the official test split, and no training sample is
set aside as test: when the training set is not subsampled, train and val cover it. -/
theorem C12_official_test_respected {R : Rng σ} (hR : R.Lawful) {argsort : List Int → List Nat}
    (hA : IsArgsort argsort) (y : List Int) (m : Nat) (plan : SamplingPlan)
    (seeds : Seeds σ) (r : IndResult)
    (h : sampleInductive R argsort y (some m) plan seeds = .ok r)
    (h1 : plan.policy.respectOfficialTest = true) (h2 : plan.policy.allowOverrideOfficial = false) :
    r.testRef = .test ∧ r.test = List.range m ∧
    (plan.imbalance.kind = .none ∨ plan.imbalance.applyTo = .labeled →
      ∀ i, i < y.length ↔ i ∈ r.train ∨ i ∈ r.val) := by
  rw [C11_validation_never_rejects hR hA] at h
  obtain ⟨parts, sI, -, himb, hp, t1, t2, v1, v2, l1, l2, u, htest⟩ :=
    buildInductive_pieces hR hA y (some m) plan seeds r h
  have hu : ((some m).isSome && plan.policy.respectOfficialTest
    && !plan.policy.allowOverrideOfficial) = true := by simp [h1, h2]
  rw [if_pos hu] at htest
  obtain ⟨a, b, c⟩ := htest
  refine ⟨a, b, fun hno i => ?_⟩
  have htrain : ∀ x, x ∈ r.train ↔ x ∈ parts.train := by
    intro x
    unfold imbalanceIf at himb
    split at himb
    · rename_i happ
      have hk : plan.imbalance.kind = .none := by
        rcases hno with h | h
        · exact h
        · rw [happ] at h; simp at h
      obtain ⟨out, e, hp⟩ := C10_none (R := R) (argsort := argsort) parts.train y plan.imbalance hk seeds.imb
      rw [e] at himb
      obtain ⟨rfl, -⟩ : out = r.train ∧ seeds.imb = sI := by simpa using himb
      exact hp.mem_iff
    · obtain ⟨e, -⟩ : parts.train = r.train ∧ seeds.imb = sI := by simpa using himb
      rw [e]
  have := hp.mem_iff (a := i)
  rw [c] at this
  simp only [List.append_nil, List.mem_append, List.mem_range] at this
  rw [htrain, v1, ← this]

/-- **C12 (otherwise).** Without an official test split, or when it is not respected or overridden,
the test indices refer to the training pool. -/
theorem C12_otherwise_not_referenced {R : Rng σ} (hR : R.Lawful) {argsort : List Int → List Nat}
    (hA : IsArgsort argsort) (y : List Int) (nTest : Option Nat) (plan : SamplingPlan)
    (seeds : Seeds σ) (r : IndResult)
    (h : sampleInductive R argsort y nTest plan seeds = .ok r)
    (hno : nTest = none ∨ plan.policy.respectOfficialTest = false ∨
      plan.policy.allowOverrideOfficial = true) :
    r.testRef = .train := by
  rw [C11_validation_never_rejects hR hA] at h
  obtain ⟨parts, sI, -, himb, hp, t1, t2, v1, v2, l1, l2, u, htest⟩ :=
    buildInductive_pieces hR hA y nTest plan seeds r h
  rw [if_neg] at htest
  · exact htest.1
  · rcases hno with h | h | h <;> simp [h]

example : (sampleInductive Rng.demo stableArgsort [0,0,1,1] (some 3)
    { split := .holdout (1/2) (1/2) false true } ⟨0, 0, 0⟩).map (fun r => (r.test, r.testRef, r.train, r.val))
    = .ok ([0, 1, 2], .test, [0, 1], [2, 3]) := by decide +kernel

/-! ### C13 -/

theorem maskMeets_iff {a b : List Bool} : maskMeets a b = true ↔ ∃ i, On a i ∧ On b i := by
  unfold maskMeets On
  simp only [List.any_eq_true, id]
  constructor
  · rintro ⟨x, hx, rfl⟩
    obtain ⟨i, hi, he⟩ := List.getElem_of_mem hx
    rw [List.getElem_zipWith] at he
    simp only [List.length_zipWith] at hi
    simp only [Bool.and_eq_true] at he
    refine ⟨i, ?_, ?_⟩
    · rw [List.getElem?_eq_getElem (by omega)]; simp [he.1]
    · rw [List.getElem?_eq_getElem (by omega)]; simp [he.2]
  · rintro ⟨i, h1, h2⟩
    obtain ⟨i1, e1⟩ := List.getElem?_eq_some_iff.mp h1
    obtain ⟨i2, e2⟩ := List.getElem?_eq_some_iff.mp h2
    refine ⟨true, ?_, rfl⟩
    have : (List.zipWith (fun x1 x2 => x1 && x2) a b)[i]'(by simp [List.length_zipWith]; omega) = true := by
      rw [List.getElem_zipWith, e1, e2]; rfl
    rw [← this]
    exact List.getElem_mem _

theorem idxToMask_ok {n : Nat} {idx : List Nat} {m : List Bool} (h : idxToMask n idx = .ok m) :
    m.length = n ∧ (∀ i ∈ idx, i < n) ∧ ∀ i, On m i ↔ i ∈ idx := by
  unfold idxToMask at h
  split at h
  · rename_i hall
    obtain rfl := Except.ok.inj h
    have hall' : ∀ i ∈ idx, i < n := by simpa using hall
    refine ⟨by simp, hall', fun i => ?_⟩
    unfold On
    rw [List.getElem?_map]
    by_cases hi : i < n
    · simp [List.getElem?_range hi]
    · have : (List.range n)[i]? = none := by simp; omega
      rw [this]
      simp only [Option.map_none, reduceCtorEq, false_iff]
      exact fun h => hi (hall' i h)
  · simp at h

theorem idxToMask_some {n : Nat} {idx : List Nat} (h : ∀ i ∈ idx, i < n) :
    ∃ m, idxToMask n idx = .ok m := by
  unfold idxToMask
  rw [if_pos (by simpa using h)]
  exact ⟨_, rfl⟩

theorem mem_maskToIdx {m : List Bool} {i : Nat} : i ∈ maskToIdx m ↔ On m i := by
  unfold maskToIdx On
  simp only [List.mem_filter, List.mem_range, List.getD_eq_getElem?_getD]
  constructor
  · rintro ⟨h, h2⟩
    rw [List.getElem?_eq_getElem h] at h2 ⊢
    simpa using h2
  · intro h
    obtain ⟨hi, he⟩ := List.getElem?_eq_some_iff.mp h
    exact ⟨hi, by rw [h]; rfl⟩

theorem maskToIdx_strict (m : List Bool) : (maskToIdx m).Pairwise (· < ·) :=
  (range_strict _).filter _

/-- The pieces of a successful graph sampling before validation. -/
theorem buildGraph_pieces {R : Rng σ} (hR : R.Lawful) {argsort : List Int → List Nat}
    (y : List Int) (official : Option OfficialMasks) (plan : SamplingPlan)
    (seeds : Seeds σ) (m : Masks) (h : buildGraph R argsort y official plan seeds = .ok m) :
    ∃ base, baseMasks R argsort y official plan seeds.split = .ok base ∧
      m.train = base.train ∧ m.val = base.val ∧ m.test = base.test ∧
      m.labeled.length = y.length ∧ m.train.length = y.length ∧
      (∀ i, On m.labeled i → On m.train i) ∧
      m.unlabeled = List.zipWith (fun t l => t && !l) m.train m.labeled := by
  unfold buildGraph at h
  simp only [bind_ok] at h
  obtain ⟨base, hbase, lab0, hlab0, lab, hlab, lm, hlm, um, hum, hr⟩ := h
  obtain ⟨l1, l2⟩ := C06_labeled_subset hR _ y plan.labeling seeds.label lab0.1 lab0.2 hlab0
  obtain ⟨b1, b2⟩ := imbalanceIf_subset hR .labeled lab0.1 l1 y plan.imbalance seeds.imb lab hlab
  obtain ⟨m1, m2, m3⟩ := idxToMask_ok hlm
  obtain rfl := (Except.ok.inj hr).symm
  unfold maskAnd at hum
  split at hum
  · rename_i hlen
    obtain rfl := (Except.ok.inj hum).symm
    refine ⟨base, hbase, rfl, rfl, rfl, m1, ?_, ?_, ?_⟩
    · simp only [List.length_map] at hlen; simp only; omega
    · intro i hi
      rw [m3] at hi
      exact mem_maskToIdx.mp (l2 i (b2 i hi))
    · simp only
      rw [List.zipWith_map_right]
  · simp at hum

/-- **C13 (result).** Whenever graph sampling returns, all masks have one entry per node, train, val
and test are pairwise disjoint, labeled is inside train and unlabeled is exactly train minus
labeled. -/
theorem C13_masks_consistent {R : Rng σ} {argsort : List Int → List Nat}
    (y : List Int) (official : Option OfficialMasks) (plan : SamplingPlan)
    (seeds : Seeds σ) (m : Masks) (h : sampleGraph R argsort y official plan seeds = .ok m) :
    (m.train.length = y.length ∧ m.val.length = y.length ∧ m.test.length = y.length ∧
      m.labeled.length = y.length ∧ m.unlabeled.length = y.length) ∧
    MasksDisjoint m.train m.val ∧ MasksDisjoint m.train m.test ∧ MasksDisjoint m.val m.test ∧
    (∀ i, On m.labeled i → On m.train i) ∧
    (∀ i, On m.unlabeled i ↔ On m.train i ∧ ¬ On m.labeled i) := by
  unfold sampleGraph at h
  simp only [bind_ok] at h
  obtain ⟨m', hb, _, hv, hr⟩ := h
  obtain rfl := (Except.ok.inj hr).symm
  unfold validateGraph at hv
  split at hv
  · simp at hv
  · rename_i hl
    split at hv
    · simp at hv
    · rename_i hlab
      split at hv
      · simp at hv
      · rename_i hun
        split at hv
        · simp at hv
        · rename_i hd
          have hl' : m.train.length = y.length ∧ m.val.length = y.length ∧ m.test.length = y.length ∧
            m.labeled.length = y.length ∧ m.unlabeled.length = y.length := by
            refine ⟨?_, ?_, ?_, ?_, ?_⟩ <;> (by_contra hc; exact hl (by tauto))
          have hdis : ∀ a b : List Bool, ¬ maskMeets a b = true → MasksDisjoint a b := by
            intro a b hab i hi
            exact hab (maskMeets_iff.mpr ⟨i, hi⟩)
          refine ⟨hl', hdis _ _ (fun h => hd (Or.inl h)), hdis _ _ (fun h => hd (Or.inr (Or.inl h))),
            hdis _ _ (fun h => hd (Or.inr (Or.inr h))), ?_, ?_⟩
          · intro i hi
            by_contra hc
            apply hlab
            rw [maskMeets_iff]
            refine ⟨i, hi, ?_⟩
            have hi' : i < m.labeled.length := (List.getElem?_eq_some_iff.mp hi).1
            have hit : i < m.train.length := by omega
            unfold On at hc ⊢
            rw [List.getElem?_map]
            rw [List.getElem?_eq_getElem hit] at hc ⊢
            simpa using hc
          · intro i
            have hun' := not_not.mp hun
            rw [hun']
            unfold On
            rw [List.getElem?_zipWith]
            by_cases hi : i < y.length
            · rw [List.getElem?_eq_getElem (by omega), List.getElem?_eq_getElem (by omega)]
              simp
            · rw [List.getElem?_eq_none (by omega), List.getElem?_eq_none (by omega)]
              simp

/-- **C13 (official masks).** Official masks (when the plan uses them) are passed through unchanged,
and overlapping or wrongly sized official masks are never accepted. -/
theorem C13_official_masks {R : Rng σ} {argsort : List Int → List Nat}
    (hR : R.Lawful) (y : List Int) (o : OfficialMasks) (plan : SamplingPlan)
    (hu : plan.policy.useOfficialGraphMasks = true)
    (seeds : Seeds σ) (m : Masks) (h : sampleGraph R argsort y (some o) plan seeds = .ok m) :
    m.train = o.train ∧ m.val = o.val ∧ m.test = o.test ∧
    MasksDisjoint o.train o.val ∧ MasksDisjoint o.train o.test ∧ MasksDisjoint o.val o.test ∧
    o.train.length = y.length ∧ o.val.length = y.length ∧ o.test.length = y.length := by
  have hc := C13_masks_consistent y (some o) plan seeds m h
  unfold sampleGraph at h
  simp only [bind_ok] at h
  obtain ⟨m', hb, _, hv, hr⟩ := h
  obtain rfl := (Except.ok.inj hr).symm
  obtain ⟨base, hbase, e1, e2, e3, -⟩ := buildGraph_pieces hR y (some o) plan seeds m hb
  have : base = o := by
    unfold baseMasks at hbase
    rw [hu] at hbase
    exact (Except.ok.inj hbase).symm
  subst this
  rw [← e1, ← e2, ← e3]
  exact ⟨rfl, rfl, rfl, hc.2.1, hc.2.2.1, hc.2.2.2.1, hc.1.1, hc.1.2.1, hc.1.2.2.1⟩

/-- **C13 (generated masks).** When masks are generated, every node is in exactly one of train, val
and test, and the final validation never rejects. -/
theorem C13_generated_masks {R : Rng σ} (hR : R.Lawful) {argsort : List Int → List Nat}
    (hA : IsArgsort argsort) (y : List Int) (official : Option OfficialMasks) (plan : SamplingPlan)
    (hu : plan.policy.useOfficialGraphMasks = false ∨ official = none)
    (seeds : Seeds σ) (m : Masks) (h : buildGraph R argsort y official plan seeds = .ok m) :
    sampleGraph R argsort y official plan seeds = .ok m ∧
    ∀ i, i < y.length ↔ On m.train i ∨ On m.val i ∨ On m.test i := by
  obtain ⟨base, hbase, e1, e2, e3, l1, l2, hsub, hun⟩ :=
    buildGraph_pieces hR y official plan seeds m h
  have hgen : ∃ parts, runSplit R argsort plan.split y.length y false seeds.split = .ok parts ∧
      idxToMask y.length parts.train = .ok base.train ∧
      idxToMask y.length parts.val = .ok base.val ∧ idxToMask y.length parts.test = .ok base.test := by
    unfold baseMasks at hbase
    have : ∀ x, (do
        let parts ← runSplit R argsort plan.split y.length y false seeds.split
        let tr ← idxToMask y.length parts.train
        let va ← idxToMask y.length parts.val
        let te ← idxToMask y.length parts.test
        Except.ok (⟨tr, va, te⟩ : OfficialMasks)) = Except.ok x →
        ∃ parts, runSplit R argsort plan.split y.length y false seeds.split = .ok parts ∧
          idxToMask y.length parts.train = .ok x.train ∧
          idxToMask y.length parts.val = .ok x.val ∧ idxToMask y.length parts.test = .ok x.test := by
      intro x hx
      simp only [bind_ok] at hx
      obtain ⟨parts, h1, tr, h2, va, h3, te, h4, h5⟩ := hx
      obtain rfl := (Except.ok.inj h5).symm
      exact ⟨parts, h1, h2, h3, h4⟩
    split at hbase
    · rename_i h2
      rcases hu with hu | hu
      · simp [hu] at h2
      · simp at hu
    · exact this base hbase
  obtain ⟨parts, hsplit, g1, g2, g3⟩ := hgen
  obtain ⟨hp, -, -, -, -⟩ := runSplit_spec hR hA plan.split y false seeds.split parts hsplit
  have hnd : ((parts.train ++ parts.val) ++ parts.test).Nodup := hp.nodup_iff.mpr List.nodup_range
  have hno := noOverlap_of_nodup_append hnd
  have hno2 := noOverlap_of_nodup_append (List.nodup_append.mp hnd).1
  obtain ⟨a1, -, a3⟩ := idxToMask_ok g1
  obtain ⟨b1, -, b3⟩ := idxToMask_ok g2
  obtain ⟨c1, -, c3⟩ := idxToMask_ok g3
  rw [← e1] at a1 a3
  rw [← e2] at b1 b3
  rw [← e3] at c1 c3
  have hval : validateGraph y.length m = .ok () := by
    unfold validateGraph
    rw [if_neg, if_neg, if_neg (not_not.mpr hun), if_neg]
    · rintro (h | h | h)
      · obtain ⟨i, h1, h2⟩ := maskMeets_iff.mp h
        exact hno2 i ((a3 i).mp h1) ((b3 i).mp h2)
      · obtain ⟨i, h1, h2⟩ := maskMeets_iff.mp h
        exact hno i (by simp [(a3 i).mp h1]) ((c3 i).mp h2)
      · obtain ⟨i, h1, h2⟩ := maskMeets_iff.mp h
        exact hno i (by simp [(b3 i).mp h1]) ((c3 i).mp h2)
    · intro h
      obtain ⟨i, h1, h2⟩ := maskMeets_iff.mp h
      have h3 := hsub i h1
      unfold On at h2 h3
      rw [List.getElem?_map, h3] at h2
      simp at h2
    · rintro (h | h | h | h | h)
      · exact h a1
      · exact h b1
      · exact h c1
      · exact h l1
      · apply h; rw [hun]; simp [l1, l2]
  refine ⟨by simp [sampleGraph, h, hval, bind, Except.bind], fun i => ?_⟩
  rw [a3, b3, c3]
  have := hp.mem_iff (a := i)
  simp only [List.mem_append, List.mem_range, or_assoc] at this
  exact this.symm

example : (sampleGraph Rng.demo stableArgsort [0,0,1,1,0,1] none
    { split := .holdout (1/3) 0 true true, labeling := { mode := .count, value := 2 } } ⟨0, 0, 0⟩).map
      (fun m => (m.train, m.labeled, m.test))
    = .ok ([true, true, true, true, false, false], [true, false, true, false, false, false],
      [false, false, false, false, true, true]) := by decide +kernel

/-! ### C14 -/

/-- **C14 (inductive, subsample).** With `apply_to='train'` and `subsample_max_per_class`, no class of
the returned training set exceeds the cap.  (Partial: graph datasets are missing, see
`C14_graph_violated`.) -/
theorem C14_inductive_train_capped_partial {R : Rng σ} (hR : R.Lawful) {argsort : List Int → List Nat}
    (hA : IsArgsort argsort) (y : List Int) (nTest : Option Nat) (plan : SamplingPlan)
    (seeds : Seeds σ) (r : IndResult)
    (h : sampleInductive R argsort y nTest plan seeds = .ok r)
    (happ : plan.imbalance.applyTo = .train) (hk : plan.imbalance.kind = .subsampleMaxPerClass)
    (cap : Nat) (hcap : 1 ≤ cap) (hc : plan.imbalance.maxPerClass = some (cap : Int)) (c : Int) :
    classSize y r.train c ≤ cap := by
  rw [C11_validation_never_rejects hR hA] at h
  obtain ⟨parts, sI, hs, himb, hp, -⟩ := buildInductive_pieces hR hA y nTest plan seeds r h
  obtain ⟨-, h1, -⟩ := runSplit_spec hR hA plan.split y _ seeds.split parts hs
  unfold imbalanceIf at himb
  rw [if_pos happ] at himb
  have hy : ∀ i ∈ parts.train, i < y.length := by
    intro i hi
    have := hp.mem_iff.mp (List.mem_append_left _ (List.mem_append_left _ hi))
    simpa using this
  obtain ⟨out, s', e, hcnt⟩ := C10_subsample_cap hR (argsort := argsort) parts.train
    (nodup_of_pairwise_lt h1) y hy plan.imbalance hk cap hcap hc seeds.imb
  rw [e] at himb
  obtain ⟨rfl, -⟩ : out = r.train ∧ s' = sI := by simpa using himb
  rw [hcnt c]
  omega

/-- **C14 (inductive, long tail).** With `apply_to='train'` and `long_tail`, the returned training set
is the long-tailed version of the training part of the split: class by class it keeps
`min(size, max(min_per_class, round(top * alpha^rank)))` samples.  (Partial: not for graphs.) -/
theorem C14_inductive_long_tail_partial {R : Rng σ} (hR : R.Lawful) {argsort : List Int → List Nat}
    (hA : IsArgsort argsort) (y : List Int) (nTest : Option Nat) (plan : SamplingPlan)
    (seeds : Seeds σ) (r : IndResult)
    (h : sampleInductive R argsort y nTest plan seeds = .ok r)
    (happ : plan.imbalance.applyTo = .train) (hk : plan.imbalance.kind = .longTail)
    (alpha : Rat) (ha : plan.imbalance.alpha = some alpha) (ha0 : 0 < alpha) (ha1 : alpha < 1) :
    ∃ before : Parts, (∃ off, runSplit R argsort plan.split y.length y off seeds.split = .ok before) ∧
      (∀ x ∈ r.train, x ∈ before.train) ∧
      (before.train ≠ [] → ∃ (rank : Int → Nat) (top : Nat), IsFrequencyRank y before.train rank ∧
        (∃ c ∈ classesOf y before.train, classSize y before.train c = top) ∧
        (∀ c ∈ classesOf y before.train, classSize y before.train c ≤ top) ∧
        ∀ c ∈ classesOf y before.train, ∃ want : Int,
          IsNearestEven ((top : Rat) * alpha ^ rank c) want ∧
          (classSize y r.train c : Int)
            = min (classSize y before.train c : Int) (max plan.imbalance.minPerClass want)) := by
  rw [C11_validation_never_rejects hR hA] at h
  obtain ⟨parts, sI, hs, himb, hp, -, t2, -⟩ := buildInductive_pieces hR hA y nTest plan seeds r h
  obtain ⟨-, h1, -⟩ := runSplit_spec hR hA plan.split y _ seeds.split parts hs
  refine ⟨parts, ⟨_, hs⟩, t2, fun hne => ?_⟩
  unfold imbalanceIf at himb
  rw [if_pos happ] at himb
  have hy : ∀ i ∈ parts.train, i < y.length := by
    intro i hi
    have := hp.mem_iff.mp (List.mem_append_left _ (List.mem_append_left _ hi))
    simpa using this
  obtain ⟨out, s', rank, top, e, q1, q2, q3, q4⟩ := C10_long_tail hR hA parts.train hne
    (nodup_of_pairwise_lt h1) y hy plan.imbalance hk alpha ha ha0 ha1 seeds.imb
  rw [e] at himb
  obtain ⟨rfl, -⟩ : out = r.train ∧ s' = sI := by simpa using himb
  exact ⟨rank, top, q1, q2, q3, q4⟩

/-- The long tail on a concrete dataset: 4 + 4 samples become 4 + 2. -/
example : (sampleInductive Rng.demo stableArgsort [0,0,0,0,1,1,1,1] none
    { split := .holdout 0 0 false true,
      imbalance := { kind := .longTail, alpha := some (1/2) } } ⟨0, 0, 0⟩).map (fun r => r.train)
    = .ok [0, 1, 2, 3, 4, 5] := by decide +kernel

/-- **C14 violated (graphs).** The graph path silently ignores `apply_to='train'`: a plan asking for at
most one training node per class returns a training mask with four nodes of one class. -/
theorem C14_graph_violated :
    ∃ (y : List Int) (plan : SamplingPlan) (m : Masks),
      plan.imbalance.applyTo = .train ∧ plan.imbalance.kind = .subsampleMaxPerClass ∧
      plan.imbalance.maxPerClass = some 1 ∧
      sampleGraph Rng.demo stableArgsort y none plan ⟨0, 0, 0⟩ = .ok m ∧
      classSize y (maskToIdx m.train) 0 = 4 :=
  ⟨[0, 0, 0, 0],
    { split := .holdout 0 0 false true,
      imbalance := { kind := .subsampleMaxPerClass, maxPerClass := some 1 } },
    ⟨[true, true, true, true], [false, false, false, false], [false, false, false, false],
      [true, false, false, false], [false, true, true, true]⟩, by decide +kernel⟩

end ModSSC.Sampling
