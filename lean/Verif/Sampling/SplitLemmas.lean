import Verif.Sampling.Lemmas

/-! # Helper lemmas: one split, holdout and k-fold (not claims) -/

namespace ModSSC.Sampling
open ModSSC

variable {σ : Type}

theorem clampedSize_le (f : Rat) (n : Nat) : clampedSize f n ≤ n := by
  unfold clampedSize; omega

theorem randomSplit_spec {R : Rng σ} (hR : R.Lawful) (indices : List Nat) (n : Nat) (s : σ)
    (hn : n ≤ indices.length) (hinc : indices.Pairwise (· < ·)) :
    ∃ keep hold s', randomSplit R indices n s = ((keep, hold), s') ∧
      (keep ++ hold).Perm indices ∧ keep.Pairwise (· < ·) ∧ hold.Pairwise (· < ·) ∧
      hold.length = n := by
  unfold randomSplit
  split
  · refine ⟨_, _, _, rfl, by simp, hinc, by simp, ?_⟩
    simp; omega
  · split
    · refine ⟨_, _, _, rfl, by simp, by simp, hinc, by omega⟩
    · set pr := R.permutation s indices with hpr
      have hp : pr.1.Perm indices := hR.perm _ _
      have hnd : pr.1.Nodup := hp.nodup_iff.mpr (nodup_of_pairwise_lt hinc)
      refine ⟨_, _, _, rfl, ?_, ?_, ?_, ?_⟩
      · refine ((npSort_perm _).append (npSort_perm _)).trans ?_
        refine List.perm_append_comm.trans ?_
        rw [List.take_append_drop]
        exact hp
      · exact npSort_strict (hnd.sublist (List.drop_sublist _ _))
      · exact npSort_strict (hnd.sublist (List.take_sublist _ _))
      · rw [length_npSort, List.length_take, hp.length_eq]
        omega

theorem splitOnce_spec {R : Rng σ} (hR : R.Lawful) {argsort : List Int → List Nat}
    (hA : IsArgsort argsort) (strat : Bool) (indices : List Nat) (y : List Int) (n : Nat) (s : σ)
    (hn : n ≤ indices.length) (hinc : indices.Pairwise (· < ·))
    (hy : strat = true → ∀ i ∈ indices, i < y.length) :
    ∃ keep hold s', splitOnce R argsort strat indices y n s = .ok ((keep, hold), s') ∧
      (keep ++ hold).Perm indices ∧ keep.Pairwise (· < ·) ∧ hold.Pairwise (· < ·) ∧
      hold.length = n ∧
      (strat = true → ∀ c : Int,
        hold.countP (fun i => decide (y.getD i 0 = c))
          = indices.countP (fun i => decide (y.getD i 0 = c)) * n / indices.length ∨
        hold.countP (fun i => decide (y.getD i 0 = c))
          = indices.countP (fun i => decide (y.getD i 0 = c)) * n / indices.length + 1) := by
  unfold splitOnce
  cases strat with
  | true =>
    obtain ⟨keep, hold, s', h1, h2, h3, h4, h5, h6⟩ :=
      stratifiedHoldout_spec hR hA indices y n s hinc (hy rfl)
    refine ⟨keep, hold, s', by simpa using h1, h2, h3, h4, by omega, fun _ => ?_⟩
    simpa using h6 (by omega) (by omega)
  | false =>
    obtain ⟨keep, hold, s', h1, h2, h3, h4, h5⟩ := randomSplit_spec hR indices n s hn hinc
    exact ⟨keep, hold, s', by simp [h1], h2, h3, h4, h5, by simp⟩

/-! ### array_split -/

theorem cut_length {α : Type} (sizes : List Nat) (l : List α) :
    (cut sizes l).length = sizes.length := by
  induction sizes generalizing l with
  | nil => rfl
  | cons n ns ih => simp [cut, ih]

theorem cut_flatten {α : Type} (sizes : List Nat) (l : List α) (h : l.length ≤ sizes.sum) :
    (cut sizes l).flatten = l := by
  induction sizes generalizing l with
  | nil =>
    have : l = [] := by simpa using h
    simp [cut, this]
  | cons n ns ih =>
    simp only [cut, List.flatten_cons]
    rw [ih, List.take_append_drop]
    simp at *; omega

theorem cut_sizes {α : Type} (sizes : List Nat) (l : List α) (h : l.length = sizes.sum) :
    (cut sizes l).map List.length = sizes := by
  induction sizes generalizing l with
  | nil => rfl
  | cons n ns ih =>
    simp only [cut, List.map_cons, List.length_take]
    rw [ih]
    · simp at h; congr 1; omega
    · simp at *; omega

theorem sum_sizes_aux (k r q : Nat) :
    ((List.range k).map (fun i => if i < r then q + 1 else q)).sum = k * q + min k r := by
  induction k with
  | zero => simp
  | succ k ih =>
    rw [List.range_succ, List.map_append, List.sum_append, ih, Nat.add_mul]
    simp only [List.map_cons, List.map_nil, List.sum_cons, List.sum_nil]
    split <;> omega

theorem arraySplitSizes_sum (n k : Nat) (hk : 0 < k) : (arraySplitSizes n k).sum = n := by
  unfold arraySplitSizes
  rw [sum_sizes_aux]
  have := Nat.mod_lt n hk
  have h2 := Nat.div_add_mod n k
  omega

theorem arraySplit_length {α : Type} (l : List α) (k : Nat) : (arraySplit l k).length = k := by
  simp [arraySplit, cut_length, arraySplitSizes]

theorem arraySplit_flatten {α : Type} (l : List α) (k : Nat) (hk : 0 < k) :
    (arraySplit l k).flatten = l :=
  cut_flatten _ _ (by rw [arraySplitSizes_sum _ _ hk])

theorem arraySplit_getElem_length {α : Type} (l : List α) (k : Nat) (hk : 0 < k) (i : Nat)
    (hi : i < k) :
    ((arraySplit l k).getD i []).length = if i < l.length % k then l.length / k + 1
      else l.length / k := by
  have h := cut_sizes (arraySplitSizes l.length k) l (arraySplitSizes_sum _ _ hk).symm
  have h2 : ((arraySplit l k).map List.length).getD i 0 = (arraySplitSizes l.length k).getD i 0 := by
    rw [arraySplit, h]
  have hl := arraySplit_length l k
  simp only [List.getD_eq_getElem?_getD, List.getElem?_map] at h2
  rw [List.getD_eq_getElem?_getD]
  rw [List.getElem?_eq_getElem (by omega)] at h2 ⊢
  simp only [Option.map_some, Option.getD_some] at h2 ⊢
  rw [h2]
  simp [arraySplitSizes, hi]

/-! ### k-fold -/

theorem appendChunks_length {folds chunks : List (List Nat)} (h : folds.length = chunks.length) :
    (appendChunks folds chunks).length = folds.length := by
  simp [appendChunks, h]

theorem appendChunks_flatten {folds chunks : List (List Nat)} (h : folds.length = chunks.length) :
    (appendChunks folds chunks).flatten.Perm (folds.flatten ++ chunks.flatten) := by
  induction folds generalizing chunks with
  | nil => cases chunks with
    | nil => simp [appendChunks]
    | cons _ _ => simp at h
  | cons f fs ih =>
    cases chunks with
    | nil => simp at h
    | cons c cs =>
      have := ih (chunks := cs) (by simpa using h)
      simp only [appendChunks, List.zipWith_cons_cons, List.flatten_cons] at *
      rw [List.perm_iff_count] at *
      intro a
      have := this a
      simp only [List.count_append] at *
      omega

theorem appendChunks_getD {folds chunks : List (List Nat)} (h : folds.length = chunks.length)
    (i : Nat) : (appendChunks folds chunks).getD i [] = folds.getD i [] ++ chunks.getD i [] := by
  simp only [appendChunks, List.getD_eq_getElem?_getD, List.getElem?_zipWith]
  rcases Nat.lt_or_ge i folds.length with hi | hi
  · rw [List.getElem?_eq_getElem hi, List.getElem?_eq_getElem (h ▸ hi)]
    simp
  · rw [List.getElem?_eq_none hi, List.getElem?_eq_none (h ▸ hi)]
    simp

theorem reshuffleFolds_spec {R : Rng σ} (hR : R.Lawful) (shuffle : Bool) (folds : List (List Nat))
    (s : σ) : (reshuffleFolds R shuffle folds s).1.length = folds.length ∧
      ∀ i, ((reshuffleFolds R shuffle folds s).1.getD i []).Perm (folds.getD i []) := by
  induction folds generalizing s with
  | nil => simp [reshuffleFolds]
  | cons f fs ih =>
    simp only [reshuffleFolds]
    set pr : List Nat × σ := (if shuffle = true then R.permutation s f else (f, s)) with hpr
    have hp : pr.1.Perm f := by
      rw [hpr]; split
      · exact hR.perm _ _
      · exact List.Perm.refl _
    have ih' := ih pr.2
    refine ⟨by simp [ih'.1], ?_⟩
    intro i
    cases i with
    | zero => simpa using hp
    | succ i => simpa using ih'.2 i

theorem flatten_perm_of_getD {a b : List (List Nat)} (hl : a.length = b.length)
    (h : ∀ i, (a.getD i []).Perm (b.getD i [])) : a.flatten.Perm b.flatten := by
  induction a generalizing b with
  | nil => cases b with
    | nil => simp
    | cons _ _ => simp at hl
  | cons x xs ih =>
    cases b with
    | nil => simp at hl
    | cons z zs =>
      simp only [List.flatten_cons]
      refine (by simpa using h 0 : x.Perm z).append (ih (by simpa using hl) ?_)
      intro i
      simpa using h (i + 1)

theorem stratifiedKfoldLoop_spec {R : Rng σ} (hR : R.Lawful) (indices : List Nat) (y : List Int)
    (k : Nat) (hk : 0 < k) (shuffle : Bool) (classes : List Int) (hn : classes.Nodup)
    (folds : List (List Nat)) (hl : folds.length = k) (s : σ) :
    (stratifiedKfoldLoop R indices y k shuffle classes folds s).1.length = k ∧
    (stratifiedKfoldLoop R indices y k shuffle classes folds s).1.flatten.Perm
      (folds.flatten ++
        classes.flatMap (fun c => indices.filter (fun i => decide (y.getD i 0 = c)))) ∧
    ∀ i, i < k → ∀ c,
      ((stratifiedKfoldLoop R indices y k shuffle classes folds s).1.getD i []).countP
          (fun j => decide (y.getD j 0 = c))
        = (folds.getD i []).countP (fun j => decide (y.getD j 0 = c)) +
          (if c ∈ classes then
            (if i < indices.countP (fun j => decide (y.getD j 0 = c)) % k
              then indices.countP (fun j => decide (y.getD j 0 = c)) / k + 1
              else indices.countP (fun j => decide (y.getD j 0 = c)) / k) else 0) := by
  induction classes generalizing folds s with
  | nil => simp [stratifiedKfoldLoop, hl]
  | cons c0 rest ih =>
    simp only [List.nodup_cons] at hn
    simp only [stratifiedKfoldLoop]
    set F := indices.filter (fun i => decide (y.getD i 0 = c0)) with hF
    set pr : List Nat × σ := (if shuffle = true then R.permutation s F else (F, s)) with hpr
    have hp : pr.1.Perm F := by
      rw [hpr]; split
      · exact hR.perm _ _
      · exact List.Perm.refl _
    have hlen : folds.length = (arraySplit pr.1 k).length := by rw [arraySplit_length, hl]
    obtain ⟨i1, i2, i3⟩ := ih hn.2 (appendChunks folds (arraySplit pr.1 k))
      (by rw [appendChunks_length hlen, hl]) pr.2
    refine ⟨i1, ?_, ?_⟩
    · refine i2.trans ?_
      have h1 := appendChunks_flatten hlen
      rw [arraySplit_flatten _ _ hk] at h1
      refine (h1.append_right _).trans ?_
      rw [List.flatMap_cons, List.append_assoc]
      exact (List.Perm.refl _).append (hp.append_right _)
    · intro i hi c
      rw [i3 i hi c, appendChunks_getD hlen, List.countP_append]
      have hchunk : ∀ j ∈ (arraySplit pr.1 k).getD i [], y.getD j 0 = c0 := by
        intro j hj
        have hmem : j ∈ (arraySplit pr.1 k).flatten := by
          rw [List.mem_flatten]
          rw [List.getD_eq_getElem?_getD, List.getElem?_eq_getElem (by rw [arraySplit_length]; exact hi)] at hj
          exact ⟨_, List.getElem_mem _, hj⟩
        rw [arraySplit_flatten _ _ hk] at hmem
        have := hp.mem_iff.mp hmem
        simp only [hF, List.mem_filter, decide_eq_true_eq] at this
        exact this.2
      by_cases hc : c = c0
      · subst hc
        have e1 : ((arraySplit pr.1 k).getD i []).countP (fun j => decide (y.getD j 0 = c))
            = ((arraySplit pr.1 k).getD i []).length := by
          rw [List.countP_eq_length]
          intro j hj
          simpa using hchunk j hj
        rw [e1, arraySplit_getElem_length _ _ hk _ hi, hp.length_eq, hF,
          ← List.countP_eq_length_filter]
        simp [hn.1]
      · have e1 : ((arraySplit pr.1 k).getD i []).countP (fun j => decide (y.getD j 0 = c)) = 0 := by
          rw [List.countP_eq_zero]
          intro j hj
          have := hchunk j hj
          rw [this]
          simpa using fun h => hc h.symm
        rw [e1]
        simp [hc]

/-- What both k-fold variants deliver. -/
theorem folds_spec {R : Rng σ} (hR : R.Lawful) (n : Nat) (y : List Int) (k : Nat) (hk : 0 < k)
    (strat shuffle : Bool) (s : σ) (hy : strat = true → n ≤ y.length) :
    ∃ folds s', computeFolds R n y k strat shuffle s = Except.ok (folds, s') ∧
      folds.length = k ∧ folds.flatten.Perm (List.range n) ∧
      (strat = false → ∀ i, i < k → (folds.getD i []).length
          = if i < n % k then n / k + 1 else n / k) ∧
      (strat = true → ∀ i, i < k → ∀ c,
        (folds.getD i []).countP (fun j => decide (y.getD j 0 = c))
          = if i < (List.range n).countP (fun j => decide (y.getD j 0 = c)) % k
            then (List.range n).countP (fun j => decide (y.getD j 0 = c)) / k + 1
            else (List.range n).countP (fun j => decide (y.getD j 0 = c)) / k) := by
  unfold computeFolds
  cases strat with
  | false =>
    refine ⟨(plainKfold R (List.range n) k shuffle s).1, (plainKfold R (List.range n) k shuffle s).2,
      by simp, arraySplit_length _ _, ?_, ?_, by simp⟩
    · cases shuffle
      · simp only [plainKfold]
        rw [arraySplit_flatten _ _ hk]
        exact List.Perm.refl _
      · simp only [plainKfold]
        rw [arraySplit_flatten _ _ hk]
        exact hR.perm _ _
    · intro _ i hi
      cases shuffle
      · simp only [plainKfold]
        rw [arraySplit_getElem_length _ _ hk _ hi]
        simp
      · simp only [plainKfold]
        rw [arraySplit_getElem_length _ _ hk _ hi]
        simp [(hR.perm _ _).length_eq]
  | true =>
    simp only [if_true]
    unfold stratifiedKfold
    have hy' : ∀ i ∈ List.range n, i < y.length := by
      intro i hi
      have := hy rfl
      simp at hi; omega
    rw [gather_ok hy']
    simp only [bind, Except.bind]
    set f : Nat → Int := fun i => y.getD i 0 with hf
    set classes := npUnique ((List.range n).map f) with hcl
    have hcn : classes.Nodup := nodup_npUnique _
    have hcm : ∀ i ∈ List.range n, f i ∈ classes := by
      intro i hi
      rw [hcl, mem_npUnique]
      exact List.mem_map.mpr ⟨i, hi, rfl⟩
    obtain ⟨i1, i2, i3⟩ := stratifiedKfoldLoop_spec hR (List.range n) y k hk shuffle classes hcn
      (List.replicate k []) (by simp) s
    set lo := stratifiedKfoldLoop R (List.range n) y k shuffle classes (List.replicate k []) s with hlo
    have e0 : (List.replicate k ([] : List Nat)).flatten = [] := by simp
    rw [e0, List.nil_append] at i2
    have i2' := i2.trans (flatMap_filter_perm f classes _ hcn hcm)
    have i3' : ∀ i, i < k → ∀ c, (lo.1.getD i []).countP (fun j => decide (y.getD j 0 = c))
          = if i < (List.range n).countP (fun j => decide (y.getD j 0 = c)) % k
            then (List.range n).countP (fun j => decide (y.getD j 0 = c)) / k + 1
            else (List.range n).countP (fun j => decide (y.getD j 0 = c)) / k := by
      intro i hi c
      rw [i3 i hi c]
      have e1 : (List.replicate k ([] : List Nat)).getD i [] = [] := by
        simp [List.getD_eq_getElem?_getD, hi]
      rw [e1]
      by_cases hc : c ∈ classes
      · simp [hc]
      · have : (List.range n).countP (fun j => decide (y.getD j 0 = c)) = 0 := by
          rw [List.countP_eq_zero]
          intro j hj
          have := hcm j hj
          simp only [decide_eq_true_eq]
          rintro rfl
          exact hc this
        rw [this]
        simp [hc]
    split
    · exact ⟨_, _, rfl, i1, i2', by simp, fun _ => i3'⟩
    · obtain ⟨r1, r2⟩ := reshuffleFolds_spec hR shuffle lo.1 lo.2
      refine ⟨_, _, rfl, r1.trans i1, (flatten_perm_of_getD r1 r2).trans i2', by simp, fun _ => ?_⟩
      intro i hi c
      rw [(r2 i).countP_eq]
      exact i3' i hi c

/-! ### from the helpers to the specification vocabulary -/

theorem classSize_eq {y : List Int} {idx : List Nat} (h : ∀ i ∈ idx, i < y.length) (c : Int) :
    Spec.classSize y idx c = idx.countP (fun i => decide (y.getD i 0 = c)) := by
  unfold Spec.classSize
  apply List.countP_congr
  intro i hi
  have := h i hi
  simp [List.getD_eq_getElem?_getD, this]

theorem noOverlap_of_nodup_append {a b : List Nat} (h : (a ++ b).Nodup) : Spec.NoOverlap a b := by
  intro x hx hb
  exact (List.nodup_append.mp h).2.2 x hx x hb rfl

theorem isPartition_of_perm {n : Nat} {train val test : List Nat}
    (h : ((train ++ val) ++ test).Perm (List.range n))
    (h1 : train.Pairwise (· < ·)) (h2 : val.Pairwise (· < ·)) (h3 : test.Pairwise (· < ·)) :
    Spec.IsPartition n train val test := by
  have hnd : ((train ++ val) ++ test).Nodup := h.nodup_iff.mpr List.nodup_range
  have hno := noOverlap_of_nodup_append hnd
  refine ⟨h1, h2, h3, noOverlap_of_nodup_append (List.nodup_append.mp hnd).1, ?_, ?_, ?_⟩
  · intro x hx; exact hno x (by simp [hx])
  · intro x hx; exact hno x (by simp [hx])
  · intro i
    have := h.mem_iff (a := i)
    simp only [List.mem_append, List.mem_range] at this
    rw [← this, or_assoc]

theorem pyRound_nearest (q : Rat) : Spec.IsNearestEven q (pyRound q) := by
  have h1 : ((q.floor : Int) : Rat) ≤ q := Int.floor_le q
  have h2 : q < ((q.floor : Int) : Rat) + 1 := Int.lt_floor_add_one q
  unfold pyRound Spec.IsNearestEven
  simp only
  split
  · refine ⟨?_, ?_, ?_⟩
    · push_cast; linarith
    · linarith
    · rintro (h | h) <;> linarith
  · split
    · refine ⟨?_, ?_, ?_⟩
      · push_cast; linarith
      · push_cast; linarith
      · rintro (h | h) <;> (push_cast at h; linarith)
    · split
      · rename_i h
        refine ⟨by linarith, by linarith, fun _ => ?_⟩
        exact Int.even_iff.mpr h
      · rename_i h
        refine ⟨by push_cast; linarith, by push_cast; linarith, fun _ => ?_⟩
        rw [Int.even_iff]; omega

end ModSSC.Sampling
