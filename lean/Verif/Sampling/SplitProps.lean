import Verif.Sampling.SplitLemmas

/-!
# C01-C05: holdout and k-fold splitting

`R` is any generator satisfying numpy's contract, `argsort` any (possibly unstable) argsort.
The hypothesis `strat = true → n ≤ y.length` says that stratified splitting is given one label per
sample; without it numpy raises `IndexError`.
-/

namespace ModSSC.Sampling
open ModSSC Spec

variable {σ : Type}

theorem holdout_main {R : Rng σ} (hR : R.Lawful) {argsort : List Int → List Nat}
    (hA : IsArgsort argsort) (n : Nat) (y : List Int) (tf vf : Rat) (strat : Bool) (s : σ)
    (hy : strat = true → n ≤ y.length) :
    ∃ p s', makeHoldoutSplit R argsort n y tf vf strat s = .ok (p, s') ∧
      ((p.train ++ p.val) ++ p.test).Perm (List.range n) ∧
      p.train.Pairwise (· < ·) ∧ p.val.Pairwise (· < ·) ∧ p.test.Pairwise (· < ·) ∧
      p.test.length = clampedSize tf n ∧
      p.val.length = clampedSize vf (n - p.test.length) ∧
      (strat = true → ∀ c : Int,
        (p.test.countP (fun i => decide (y.getD i 0 = c))
          = (List.range n).countP (fun i => decide (y.getD i 0 = c)) * p.test.length / n ∨
         p.test.countP (fun i => decide (y.getD i 0 = c))
          = (List.range n).countP (fun i => decide (y.getD i 0 = c)) * p.test.length / n + 1) ∧
        (p.val.countP (fun i => decide (y.getD i 0 = c))
          = (p.train ++ p.val).countP (fun i => decide (y.getD i 0 = c)) * p.val.length
              / (p.train ++ p.val).length ∨
         p.val.countP (fun i => decide (y.getD i 0 = c))
          = (p.train ++ p.val).countP (fun i => decide (y.getD i 0 = c)) * p.val.length
              / (p.train ++ p.val).length + 1)) := by
  unfold makeHoldoutSplit
  have hrange : ∀ i ∈ List.range n, i < n := by simp
  obtain ⟨tv, test, s1, e1, p1, inc1, inct, l1, st1⟩ := splitOnce_spec hR hA strat (List.range n) y
    (clampedSize tf n) s (by simpa using clampedSize_le tf n) (range_strict n)
    (fun h i hi => by have := hy h; have := hrange i hi; omega)
  have hsub : ∀ i ∈ tv, i < n := fun i hi =>
    hrange i (p1.mem_iff.mp (List.mem_append_left _ hi))
  obtain ⟨train, val, s2, e2, p2, inc2, incv, l2, st2⟩ := splitOnce_spec hR hA strat tv y
    (clampedSize vf tv.length) s1 (clampedSize_le _ _) inc1
    (fun h i hi => by have := hy h; have := hsub i hi; omega)
  have hlen : tv.length = n - test.length := by
    have := p1.length_eq
    simp at this; omega
  refine ⟨⟨train, val, test⟩, s2, ?_, ?_, inc2, incv, inct, l1, ?_, ?_⟩
  · simp [e1, e2, bind, Except.bind]
  · exact (p2.append_right _).trans p1
  · rw [l2, hlen]
  · intro h c
    have a1 := st1 h c
    have a2 := st2 h c
    simp only [List.length_range] at a1
    simp only
    rw [p2.countP_eq, p2.length_eq, l1, l2]
    exact ⟨a1, a2⟩

/-- **C01.** `make_holdout_split` returns sorted, duplicate-free, pairwise disjoint index arrays
whose union is `{0, ..., n-1}`. -/
theorem C01_holdout_partition {R : Rng σ} (hR : R.Lawful) {argsort : List Int → List Nat}
    (hA : IsArgsort argsort) (n : Nat) (y : List Int) (tf vf : Rat) (strat : Bool) (s : σ)
    (hy : strat = true → n ≤ y.length) :
    ∃ p s', makeHoldoutSplit R argsort n y tf vf strat s = .ok (p, s') ∧
      IsPartition n p.train p.val p.test := by
  obtain ⟨p, s', h, h1, h2, h3, h4, -⟩ := holdout_main hR hA n y tf vf strat s hy
  exact ⟨p, s', h, isPartition_of_perm h1 h2 h3 h4⟩

/-- The hypotheses of C01 are met by a concrete generator, and the result is not degenerate. -/
example : (makeHoldoutSplit Rng.demo stableArgsort 10 [0,0,0,0,0,0,1,1,1,1] (2/5) (1/3) true 0).map (·.1)
      = .ok ⟨[0, 1, 2, 6], [3, 7], [4, 5, 8, 9]⟩ := by decide +kernel

/-- **C02.** The test part has exactly `round(test_fraction*n)` elements clamped to `[0,n]`, the val
part exactly `round(val_fraction*(n-|test|))` clamped, with or without stratification. -/
theorem C02_holdout_sizes {R : Rng σ} (hR : R.Lawful) {argsort : List Int → List Nat}
    (hA : IsArgsort argsort) (n : Nat) (y : List Int) (tf vf : Rat) (strat : Bool) (s : σ)
    (hy : strat = true → n ≤ y.length) :
    ∃ p s', makeHoldoutSplit R argsort n y tf vf strat s = .ok (p, s') ∧
      IsRoundedSize (tf * n) n p.test.length ∧
      IsRoundedSize (vf * ((n - p.test.length : Nat) : Rat)) (n - p.test.length) p.val.length ∧
      p.train.length = n - p.test.length - p.val.length := by
  obtain ⟨p, s', h, h1, -, -, -, h5, h6, -⟩ := holdout_main hR hA n y tf vf strat s hy
  refine ⟨p, s', h, ⟨_, pyRound_nearest _, ?_⟩, ⟨_, pyRound_nearest _, ?_⟩, ?_⟩
  · rw [h5]; unfold clampedSize; omega
  · conv_lhs => rw [h6]
    unfold clampedSize; omega
  · have := h1.length_eq
    simp at this; omega

/-- Rounding is half-to-even: 2.5 -> 2 and 3.5 -> 4, and the sizes are attained. -/
example : clampedSize (1/4) 10 = 2 ∧ clampedSize (1/4) 14 = 4 ∧ clampedSize (-1) 3 = 0 ∧
    clampedSize 7 3 = 3 := by decide +kernel

/-- **C03.** A class with `c` members among the `n` samples contributes `⌊c*h/n⌋` or `⌊c*h/n⌋+1`
members to a stratified test part of `h` samples; the same holds for the validation part relative to
the samples left after removing the test part. -/
theorem C03_stratified_within_one {R : Rng σ} (hR : R.Lawful) {argsort : List Int → List Nat}
    (hA : IsArgsort argsort) (n : Nat) (y : List Int) (tf vf : Rat) (s : σ)
    (hy : n ≤ y.length) :
    ∃ p s', makeHoldoutSplit R argsort n y tf vf true s = .ok (p, s') ∧ ∀ c : Int,
      (classSize y p.test c = classSize y (List.range n) c * p.test.length / n ∨
       classSize y p.test c = classSize y (List.range n) c * p.test.length / n + 1) ∧
      (classSize y p.val c
          = classSize y (p.train ++ p.val) c * p.val.length / (p.train ++ p.val).length ∨
       classSize y p.val c
          = classSize y (p.train ++ p.val) c * p.val.length / (p.train ++ p.val).length + 1) := by
  obtain ⟨p, s', h, h1, -, -, -, -, -, h6⟩ := holdout_main hR hA n y tf vf true s (fun _ => hy)
  have hb : ∀ i ∈ (p.train ++ p.val) ++ p.test, i < y.length := by
    intro i hi
    have := h1.mem_iff.mp hi
    simp at this; omega
  refine ⟨p, s', h, fun c => ?_⟩
  rw [classSize_eq (idx := p.test) (fun i hi => hb i (by simp [hi])),
    classSize_eq (idx := List.range n) (fun i hi => by simp at hi; omega),
    classSize_eq (idx := p.val) (fun i hi => hb i (by simp [hi])),
    classSize_eq (idx := p.train ++ p.val) (fun i hi => hb i (List.mem_append_left _ hi))]
  exact h6 rfl c

/-- A case where one class gets the floor and the other floor+1 (5*3/9 = 1 rest 6, 4*3/9 = 1 rest 3). -/
example : (makeHoldoutSplit Rng.demo stableArgsort 9 [0,0,0,0,0,1,1,1,1] (1/3) 0 true 0).map
    (fun r => (classSize [0,0,0,0,0,1,1,1,1] r.1.test 0, classSize [0,0,0,0,0,1,1,1,1] r.1.test 1))
      = .ok (2, 1) := by decide +kernel

theorem kfold_main {R : Rng σ} (hR : R.Lawful) {argsort : List Int → List Nat}
    (hA : IsArgsort argsort) (n : Nat) (y : List Int) (k : Int) (hk : 2 ≤ k)
    (strat shuffle : Bool) (vf : Rat) (s : σ) (hy : strat = true → n ≤ y.length) :
    ∃ folds : List (List Nat), folds.length = k.toNat ∧ folds.flatten.Perm (List.range n) ∧
      (strat = false → ∀ i, i < k.toNat → (folds.getD i []).length
          = if i < n % k.toNat then n / k.toNat + 1 else n / k.toNat) ∧
      (strat = true → ∀ i, i < k.toNat → ∀ c,
        (folds.getD i []).countP (fun j => decide (y.getD j 0 = c))
          = if i < (List.range n).countP (fun j => decide (y.getD j 0 = c)) % k.toNat
            then (List.range n).countP (fun j => decide (y.getD j 0 = c)) / k.toNat + 1
            else (List.range n).countP (fun j => decide (y.getD j 0 = c)) / k.toNat) ∧
      ∀ fold, 0 ≤ fold → fold < k →
        ∃ p s', makeKfoldSplit R argsort n y k fold strat shuffle vf s = .ok (p, s') ∧
          p.test = npSort (folds.getD fold.toNat []) ∧
          ((p.train ++ p.val) ++ p.test).Perm (List.range n) ∧
          p.train.Pairwise (· < ·) ∧ p.val.Pairwise (· < ·) ∧ p.test.Pairwise (· < ·) ∧
          p.val.length = if 0 < vf then clampedSize vf (n - p.test.length) else 0 := by
  obtain ⟨folds, s1, e1, l1, p1, b1, b2⟩ := folds_spec hR n y k.toNat (by omega) strat shuffle s hy
  refine ⟨folds, l1, p1, b1, b2, ?_⟩
  intro fold h0 hlt
  have hi : fold.toNat < folds.length := by omega
  have hg : folds.getD fold.toNat [] = folds[fold.toNat] := by
    simp [List.getD_eq_getElem?_getD, hi]
  have hsplit : ((folds.eraseIdx fold.toNat).flatten ++ folds.getD fold.toNat []).Perm
      (List.range n) := by
    refine List.Perm.trans ?_ p1
    rw [hg]
    have := (List.perm_append_comm (l₁ := (folds.eraseIdx fold.toNat).flatten)
      (l₂ := folds[fold.toNat]))
    refine this.trans ?_
    rw [← List.flatten_cons]
    exact (List.getElem_cons_eraseIdx_perm hi).flatten
  have hnd : ((folds.eraseIdx fold.toNat).flatten ++ folds.getD fold.toNat []).Nodup :=
    hsplit.nodup_iff.mpr List.nodup_range
  set test := npSort (folds.getD fold.toNat []) with htest
  set pool := npSort ((folds.eraseIdx fold.toNat).flatten) with hpool
  have hpt : (pool ++ test).Perm (List.range n) :=
    ((npSort_perm _).append (npSort_perm _)).trans hsplit
  have hpinc : pool.Pairwise (· < ·) := npSort_strict (List.nodup_append.mp hnd).1
  have htinc : test.Pairwise (· < ·) := npSort_strict (List.nodup_append.mp hnd).2.1
  have hplen : pool.length = n - test.length := by
    have := hpt.length_eq
    simp at this; omega
  have hk1 : ¬ k ≤ 1 := by omega
  have hf1 : ¬ (fold < 0 ∨ k ≤ fold) := by omega
  unfold makeKfoldSplit
  simp only [hk1, hf1, if_false, e1, bind, Except.bind, ← hpool, ← htest]
  split
  · rename_i hvf
    obtain ⟨train, val, s2, e2, p2, inc2, incv, l2, -⟩ := splitOnce_spec hR hA strat pool y
      (clampedSize vf pool.length) s1 (clampedSize_le _ _) hpinc
      (fun h i hi => by
        have := hy h
        have := hpt.mem_iff.mp (List.mem_append_left _ hi)
        simp at this; omega)
    refine ⟨⟨train, val, test⟩, s2, ?_, rfl, (p2.append_right _).trans hpt, inc2, incv, htinc, ?_⟩
    · simp [e2]
    · rw [l2, hplen]
  · exact ⟨_, _, rfl, rfl, by simpa using hpt, hpinc, by simp, htinc, by simp⟩

/-- **C04 (each fold).** For every fold, train, val and test partition the samples. -/
theorem C04_kfold_partition {R : Rng σ} (hR : R.Lawful) {argsort : List Int → List Nat}
    (hA : IsArgsort argsort) (n : Nat) (y : List Int) (k fold : Int) (hk : 2 ≤ k)
    (h0 : 0 ≤ fold) (hlt : fold < k) (strat shuffle : Bool) (vf : Rat) (s : σ)
    (hy : strat = true → n ≤ y.length) :
    ∃ p s', makeKfoldSplit R argsort n y k fold strat shuffle vf s = .ok (p, s') ∧
      IsPartition n p.train p.val p.test := by
  obtain ⟨folds, -, -, -, -, h⟩ := kfold_main hR hA n y k hk strat shuffle vf s hy
  obtain ⟨p, s', e, -, h1, h2, h3, h4, -⟩ := h fold h0 hlt
  exact ⟨p, s', e, isPartition_of_perm h1 h2 h3 h4⟩

/-- **C04 (across folds).** With the same generator state, the test parts of different folds are
disjoint and every sample is in the test part of some fold. -/
theorem C04_kfold_tests_partition {R : Rng σ} (hR : R.Lawful) {argsort : List Int → List Nat}
    (hA : IsArgsort argsort) (n : Nat) (y : List Int) (k : Int) (hk : 2 ≤ k)
    (strat shuffle : Bool) (vf : Rat) (s : σ) (hy : strat = true → n ≤ y.length) :
    (∀ f g p q s1 s2, f ≠ g →
      makeKfoldSplit R argsort n y k f strat shuffle vf s = .ok (p, s1) →
      makeKfoldSplit R argsort n y k g strat shuffle vf s = .ok (q, s2) →
      NoOverlap p.test q.test) ∧
    (∀ i, i < n → ∃ f p s1, 0 ≤ f ∧ f < k ∧
      makeKfoldSplit R argsort n y k f strat shuffle vf s = .ok (p, s1) ∧ i ∈ p.test) := by
  obtain ⟨folds, hl, hp, -, -, h⟩ := kfold_main hR hA n y k hk strat shuffle vf s hy
  have hnd : folds.flatten.Nodup := hp.nodup_iff.mpr List.nodup_range
  have hin : ∀ f p s1, makeKfoldSplit R argsort n y k f strat shuffle vf s = .ok (p, s1) →
      0 ≤ f ∧ f < k := by
    intro f p s1 e
    by_contra hc
    have : f < 0 ∨ k ≤ f := by omega
    have hk1 : ¬ k ≤ 1 := by omega
    unfold makeKfoldSplit at e
    simp [hk1, this] at e
  constructor
  · intro f g p q s1 s2 hne e1 e2
    obtain ⟨f0, f1⟩ := hin f p s1 e1
    obtain ⟨g0, g1⟩ := hin g q s2 e2
    obtain ⟨p', t1, e1', hp', -⟩ := h f f0 f1
    obtain ⟨q', t2, e2', hq', -⟩ := h g g0 g1
    rw [e1] at e1'; rw [e2] at e2'
    obtain ⟨rfl, rfl⟩ : p = p' ∧ s1 = t1 := by simpa using e1'
    obtain ⟨rfl, rfl⟩ : q = q' ∧ s2 = t2 := by simpa using e2'
    intro x hx hx2
    rw [hp', mem_npSort] at hx
    rw [hq', mem_npSort] at hx2
    have hd := (List.nodup_flatten.mp hnd).2
    have a1 : f.toNat < folds.length := by omega
    have a2 : g.toNat < folds.length := by omega
    simp only [List.getD_eq_getElem?_getD, List.getElem?_eq_getElem a1,
      List.getElem?_eq_getElem a2, Option.getD_some] at hx hx2
    rcases Nat.lt_trichotomy f.toNat g.toNat with hlt | heq | hgt
    · exact (List.pairwise_iff_getElem.mp hd _ _ a1 a2 hlt) hx hx2
    · omega
    · exact (List.pairwise_iff_getElem.mp hd _ _ a2 a1 hgt) hx2 hx
  · intro i hi
    have hm : i ∈ folds.flatten := hp.mem_iff.mpr (by simpa using hi)
    obtain ⟨l, hlm, hil⟩ := List.mem_flatten.mp hm
    obtain ⟨j, hj, rfl⟩ := List.getElem_of_mem hlm
    obtain ⟨p, s1, e, hpt, -⟩ := h (j : Int) (by omega) (by omega)
    refine ⟨j, p, s1, by omega, by omega, e, ?_⟩
    rw [hpt, mem_npSort]
    simpa [List.getD_eq_getElem?_getD, hj] using hil

/-- **C04 (rejection).** Fewer than two folds or a fold number out of range is an error. -/
theorem C04_kfold_rejects {R : Rng σ} {argsort : List Int → List Nat} (n : Nat) (y : List Int)
    (k fold : Int) (h : k ≤ 1 ∨ fold < 0 ∨ k ≤ fold) (strat shuffle : Bool) (vf : Rat) (s : σ) :
    makeKfoldSplit R argsort n y k fold strat shuffle vf s = .error .valueError := by
  unfold makeKfoldSplit
  by_cases h1 : k ≤ 1
  · simp [h1]
  · have h2 : fold < 0 ∨ k ≤ fold := by omega
    simp [h1, h2]

/-- A concrete stratified 3-fold split satisfying the hypotheses of C04 and C05. -/
example : (List.range 3).map (fun (f : Nat) =>
      (makeKfoldSplit Rng.demo stableArgsort 7 [0,1,0,1,0,1,0] 3 f true true (1/2) 0).map (·.1))
    = [.ok ⟨[0, 1], [2, 3], [4, 5, 6]⟩, .ok ⟨[0, 1, 4], [5, 6], [2, 3]⟩,
       .ok ⟨[2, 3, 4], [5, 6], [0, 1]⟩] := by decide +kernel

/-- **C05 (plain).** Test folds of plain k-fold differ in size by at most one. -/
theorem C05_kfold_balanced {R : Rng σ} (hR : R.Lawful) {argsort : List Int → List Nat}
    (hA : IsArgsort argsort) (n : Nat) (y : List Int) (k : Int) (hk : 2 ≤ k)
    (shuffle : Bool) (vf : Rat) (s : σ) (f g : Int) (p q : Parts) (s1 s2 : σ)
    (hf : makeKfoldSplit R argsort n y k f false shuffle vf s = .ok (p, s1))
    (hg : makeKfoldSplit R argsort n y k g false shuffle vf s = .ok (q, s2)) :
    p.test.length ≤ q.test.length + 1 := by
  obtain ⟨folds, hl, hp, hb, -, h⟩ := kfold_main hR hA n y k hk false shuffle vf s (by simp)
  have hsz : ∀ f p s1, makeKfoldSplit R argsort n y k f false shuffle vf s = .ok (p, s1) →
      n / k.toNat ≤ p.test.length ∧ p.test.length ≤ n / k.toNat + 1 := by
    intro f p s1 e
    have hin : 0 ≤ f ∧ f < k := by
      by_contra hc
      rw [C04_kfold_rejects n y k f (by omega)] at e
      simp at e
    obtain ⟨p', t1, e', hp', -⟩ := h f hin.1 hin.2
    rw [e] at e'
    obtain ⟨rfl, rfl⟩ : p = p' ∧ s1 = t1 := by simpa using e'
    rw [hp', length_npSort, hb rfl f.toNat (by omega)]
    split <;> omega
  have := hsz f p s1 hf
  have := hsz g q s2 hg
  omega

/-- **C05 (stratified).** With stratification, each class's counts in any two test folds differ by at
most one. -/
theorem C05_kfold_class_balanced {R : Rng σ} (hR : R.Lawful) {argsort : List Int → List Nat}
    (hA : IsArgsort argsort) (n : Nat) (y : List Int) (k : Int) (hk : 2 ≤ k)
    (shuffle : Bool) (vf : Rat) (s : σ) (hy : n ≤ y.length) (f g : Int) (p q : Parts) (s1 s2 : σ)
    (hf : makeKfoldSplit R argsort n y k f true shuffle vf s = .ok (p, s1))
    (hg : makeKfoldSplit R argsort n y k g true shuffle vf s = .ok (q, s2)) (c : Int) :
    classSize y p.test c ≤ classSize y q.test c + 1 := by
  obtain ⟨folds, hl, hp, -, hb, h⟩ := kfold_main hR hA n y k hk true shuffle vf s (fun _ => hy)
  have hsz : ∀ f p s1, makeKfoldSplit R argsort n y k f true shuffle vf s = .ok (p, s1) →
      (List.range n).countP (fun j => decide (y.getD j 0 = c)) / k.toNat ≤ classSize y p.test c ∧
      classSize y p.test c
        ≤ (List.range n).countP (fun j => decide (y.getD j 0 = c)) / k.toNat + 1 := by
    intro f p s1 e
    have hin : 0 ≤ f ∧ f < k := by
      by_contra hc
      rw [C04_kfold_rejects n y k f (by omega)] at e
      simp at e
    obtain ⟨p', t1, e', hp', hperm, -⟩ := h f hin.1 hin.2
    rw [e] at e'
    obtain ⟨rfl, rfl⟩ : p = p' ∧ s1 = t1 := by simpa using e'
    rw [classSize_eq (fun i hi => by
      have := hperm.mem_iff.mp (List.mem_append_right _ hi)
      simp at this; omega)]
    rw [hp', (npSort_perm _).countP_eq, hb rfl f.toNat (by omega)]
    split <;> omega
  have := hsz f p s1 hf
  have := hsz g q s2 hg
  omega

end ModSSC.Sampling
