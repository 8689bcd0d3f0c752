import Verif.Sampling.SplitLemmas

/-! # Helper lemmas: labeling and imbalance (not claims) -/

namespace ModSSC.Sampling
open ModSSC

variable {σ : Type}

/-! ### sums of integer lists, pointwise -/

theorem sum_le_of_getD {a b : List Int} (hl : a.length = b.length)
    (h : ∀ j, j < a.length → a.getD j 0 ≤ b.getD j 0) : a.sum ≤ b.sum := by
  induction a generalizing b with
  | nil => cases b with
    | nil => simp
    | cons _ _ => simp at hl
  | cons x xs ih =>
    cases b with
    | nil => simp at hl
    | cons z zs =>
      have h0 : x ≤ z := by simpa using h 0 (by simp)
      have := ih (b := zs) (by simpa using hl) (fun j hj => by simpa using h (j + 1) (by simpa using hj))
      simp only [List.sum_cons]; omega

theorem eq_of_getD {a b : List Int} (hl : a.length = b.length)
    (h : ∀ j, j < a.length → a.getD j 0 = b.getD j 0) : a = b := by
  apply List.ext_getElem hl
  intro i h1 h2
  have := h i h1
  simpa [List.getD_eq_getElem?_getD, h1, h2] using this

theorem getD_map_nat (counts : List Nat) (f : Nat → Int) (j : Nat) (hj : j < counts.length) :
    (counts.map f).getD j 0 = f (counts.getD j 0) := by
  simp [List.getD_eq_getElem?_getD, hj]

/-- guaranteed number of labels of a class with `c` members -/
def loOf (m : Int) (c : Nat) : Int := if m ≤ (c : Int) then max m 0 else 0

theorem sum_lo (m : Int) (counts : List Nat) :
    (counts.map (loOf m)).sum
      = max m 0 * ((counts.countP (fun (c : Nat) => decide (m ≤ (c : Int))) : Nat) : Int) := by
  induction counts with
  | nil => simp
  | cons c cs ih =>
    simp only [List.map_cons, List.sum_cons, List.countP_cons, ih, loOf]
    split
    · rename_i h
      simp [h, Int.mul_add]; omega
    · rename_i h
      simp [h]

theorem removeLoop_spec (m target : Int) (counts : List Nat) (order : List Nat) (per : List Int)
    (total : Int) (hnd : order.Nodup) (hlt : ∀ j ∈ order, j < per.length)
    (hlen : per.length = counts.length) (htot : per.sum = total) (hge : target ≤ total)
    (hlo : ∀ j, j < per.length → loOf m (counts.getD j 0) ≤ per.getD j 0)
    (hdone : ∀ j, j < per.length → j ∉ order → per.getD j 0 = loOf m (counts.getD j 0)) :
    (removeLoop m target counts order per total).length = per.length ∧
    (∀ j, j < per.length →
      loOf m (counts.getD j 0) ≤ (removeLoop m target counts order per total).getD j 0 ∧
      (removeLoop m target counts order per total).getD j 0 ≤ per.getD j 0) ∧
    target ≤ (removeLoop m target counts order per total).sum ∧
    ((removeLoop m target counts order per total).sum = target ∨
      ∀ j, j < per.length →
        (removeLoop m target counts order per total).getD j 0 = loOf m (counts.getD j 0)) := by
  induction order, per, total using removeLoop.induct (m := m) (target := target) (counts := counts) with
  | case1 per total =>
    simp only [removeLoop]
    exact ⟨trivial, fun j hj => ⟨hlo j hj, le_refl _⟩, by omega, Or.inr (fun j hj => hdone j hj (by simp))⟩
  | case2 j rest per total hgt hcond ih =>
    rw [removeLoop]
    simp only [hgt, if_true]
    rw [if_pos hcond]
    have hj : j < per.length := hlt j (by simp)
    have hg := fun i => getD_modify per j i (-1) hj
    simp only [← Int.sub_eq_add_neg] at hg
    have hs := sum_modify per j (-1) hj
    simp only [← Int.sub_eq_add_neg] at hs
    have hjlo : loOf m (counts.getD j 0) ≤ per.getD j 0 - 1 := by
      have := hlo j hj
      unfold loOf at *
      split <;> omega
    obtain ⟨i1, i2, i3, i4⟩ := ih hnd (by simpa using hlt) (by simpa using hlen) (by omega) (by omega)
      (by
        intro i hi
        have hi' : i < per.length := by simpa using hi
        rw [hg i]
        by_cases h : j = i
        · subst h; rw [if_pos rfl]; omega
        · rw [if_neg h]; have := hlo i hi'; omega)
      (by
        intro i hi hni
        have hi' : i < per.length := by simpa using hi
        have : j ≠ i := by rintro rfl; simp at hni
        rw [hg i]
        simpa [this] using hdone i hi' hni)
    simp only [List.length_modify] at i1 i2 i4
    refine ⟨i1, fun i hi => ⟨(i2 i hi).1, ?_⟩, i3, i4⟩
    have := (i2 i hi).2
    rw [hg i] at this
    split at this <;> omega
  | case3 j rest per total hgt hcond ih =>
    rw [removeLoop]
    simp only [hgt, if_true]
    rw [if_neg hcond]
    have hj : j < per.length := hlt j (by simp)
    refine ih (List.nodup_cons.mp hnd).2 (fun i hi => hlt i (by simp [hi])) hlen htot hge hlo ?_
    intro i hi hni
    by_cases h : i = j
    · subst h
      have := hlo i hi
      unfold loOf at *
      split at this <;> omega
    · exact hdone i hi (by simp [h, hni])
  | case4 j rest per total hgt =>
    rw [removeLoop]
    simp only [hgt, if_false]
    refine ⟨trivial, fun j hj => ⟨hlo j hj, le_refl _⟩, ?_, Or.inl ?_⟩ <;> omega

theorem addLoop_spec (target : Int) (counts : List Nat) (order : List Nat) (per : List Int)
    (total : Int) (hnd : order.Nodup) (hlt : ∀ j ∈ order, j < per.length)
    (hlen : per.length = counts.length) (htot : per.sum = total) (hge : total ≤ target)
    (hhi : ∀ j, j < per.length → per.getD j 0 ≤ ((counts.getD j 0 : Nat) : Int))
    (hdone : ∀ j, j < per.length → j ∉ order → per.getD j 0 = ((counts.getD j 0 : Nat) : Int)) :
    (addLoop target counts order per total).length = per.length ∧
    (∀ j, j < per.length →
      per.getD j 0 ≤ (addLoop target counts order per total).getD j 0 ∧
      (addLoop target counts order per total).getD j 0 ≤ ((counts.getD j 0 : Nat) : Int)) ∧
    (addLoop target counts order per total).sum ≤ target ∧
    ((addLoop target counts order per total).sum = target ∨
      ∀ j, j < per.length →
        (addLoop target counts order per total).getD j 0 = ((counts.getD j 0 : Nat) : Int)) := by
  induction order, per, total using addLoop.induct (target := target) (counts := counts) with
  | case1 per total =>
    simp only [addLoop]
    exact ⟨trivial, fun j hj => ⟨le_refl _, hhi j hj⟩, by omega, Or.inr (fun j hj => hdone j hj (by simp))⟩
  | case2 j rest per total hgt hcond ih =>
    rw [addLoop]
    simp only [hgt, if_true]
    rw [if_pos hcond]
    have hj : j < per.length := hlt j (by simp)
    have hg := fun i => getD_modify per j i 1 hj
    have hs := sum_modify per j 1 hj
    obtain ⟨i1, i2, i3, i4⟩ := ih hnd (by simpa using hlt) (by simpa using hlen) (by omega) (by omega)
      (by
        intro i hi
        have hi' : i < per.length := by simpa using hi
        rw [hg i]
        by_cases h : j = i
        · subst h; simp; simp at hcond; omega
        · simpa [h] using hhi i hi')
      (by
        intro i hi hni
        have hi' : i < per.length := by simpa using hi
        have : j ≠ i := by rintro rfl; simp at hni
        rw [hg i]
        simpa [this] using hdone i hi' hni)
    simp only [List.length_modify] at i1 i2 i4
    refine ⟨i1, fun i hi => ⟨?_, (i2 i hi).2⟩, i3, i4⟩
    have := (i2 i hi).1
    rw [hg i] at this
    split at this <;> omega
  | case3 j rest per total hgt hcond ih =>
    rw [addLoop]
    simp only [hgt, if_true]
    rw [if_neg hcond]
    refine ih (List.nodup_cons.mp hnd).2 (fun i hi => hlt i (by simp [hi])) hlen htot hge hhi ?_
    intro i hi hni
    by_cases h : i = j
    · subst h
      have := hhi i hi
      omega
    · exact hdone i hi (by simp [h, hni])
  | case4 j rest per total hgt =>
    rw [addLoop]
    simp only [hgt, if_false]
    refine ⟨trivial, fun j hj => ⟨le_refl _, hhi j hj⟩, ?_, Or.inl ?_⟩ <;> omega

/-! ### the whole allocation -/

theorem bump_ge (pos : List Nat) (base : List Int) (h : ∀ i ∈ pos, i < base.length)
    (hn : pos.Nodup) (j : Nat) : base.getD j 0 ≤ (bump base pos).getD j 0 := by
  rw [bump_getD pos base h hn j]; split <;> omega

theorem initialAllocation_length (argsort : List Int → List Nat) (spec : LabelingSpec)
    (counts : List Nat) (nTrain : Nat) (target : Int) :
    (initialAllocation argsort spec counts nTrain target).length = counts.length := by
  unfold initialAllocation
  split
  · simp
  · split
    · rw [bump_length]; simp
    · simp only
      split
      · rw [bump_length]; simp
      · simp

theorem initialAllocation_nonneg {argsort : List Int → List Nat} (hA : IsArgsort argsort)
    (spec : LabelingSpec) (counts : List Nat) (nTrain : Nat) (target : Int)
    (hv : spec.mode = .perClass → 0 ≤ pyInt spec.value) (j : Nat) (hj : j < counts.length) :
    0 ≤ (initialAllocation argsort spec counts nTrain target).getD j 0 := by
  unfold initialAllocation
  split
  · rename_i h
    rw [getD_map_nat _ _ _ hj]
    exact hv h
  · split
    · rename_i h
      refine le_trans ?_ (bump_ge _ _ ?_ ?_ j)
      · rw [getD_map_nat _ _ _ hj]
        exact Int.ediv_nonneg (by omega) (by omega)
      · intro i hi
        have := argsort_lt hA _ (List.mem_of_mem_take hi)
        simpa using this
      · exact (argsort_nodup hA _).sublist (List.take_sublist _ _)
    · simp only
      split
      · refine le_trans ?_ (bump_ge _ _ ?_ ?_ j)
        · rw [getD_map_nat _ _ _ hj]; exact Int.natCast_nonneg _
        · intro i hi
          have := argsort_lt hA _ (List.mem_of_mem_take hi)
          simpa using this
        · exact (argsort_nodup hA _).sublist (List.take_sublist _ _)
      · rw [getD_map_nat _ _ _ hj]; exact Int.natCast_nonneg _

theorem enforceMinCap_getD (m : Int) (counts : List Nat) (per : List Int)
    (hl : per.length = counts.length) (j : Nat) (hj : j < counts.length) :
    (enforceMinCap m counts per).getD j 0
      = min (if m ≤ ((counts.getD j 0 : Nat) : Int) then max (per.getD j 0) m else per.getD j 0)
          ((counts.getD j 0 : Nat) : Int) := by
  have hj2 : j < per.length := by omega
  simp [enforceMinCap, List.getD_eq_getElem?_getD, List.getElem?_zipWith, hj, hj2]

theorem enforceMinCap_length (m : Int) (counts : List Nat) (per : List Int)
    (hl : per.length = counts.length) : (enforceMinCap m counts per).length = counts.length := by
  simp [enforceMinCap, hl]

/-- Adjusting the total: the guaranteed minimum and the cap are kept, and the total becomes
`max target (Σ guaranteed)`. -/
theorem adjustTotal_spec {argsort : List Int → List Nat} (hA : IsArgsort argsort) (m target : Int)
    (counts : List Nat) (per : List Int) (hl : per.length = counts.length)
    (ht : target ≤ (counts.sum : Int))
    (hlo : ∀ j, j < counts.length → loOf m (counts.getD j 0) ≤ per.getD j 0)
    (hhi : ∀ j, j < counts.length → per.getD j 0 ≤ ((counts.getD j 0 : Nat) : Int)) :
    (adjustTotal argsort m target counts per).length = counts.length ∧
    (∀ j, j < counts.length →
      loOf m (counts.getD j 0) ≤ (adjustTotal argsort m target counts per).getD j 0 ∧
      (adjustTotal argsort m target counts per).getD j 0 ≤ ((counts.getD j 0 : Nat) : Int)) ∧
    (adjustTotal argsort m target counts per).sum
      = max target (max m 0 * ((counts.countP (fun (c : Nat) => decide (m ≤ (c : Int))) : Nat) : Int)) := by
  rw [← sum_lo]
  have hsumlo : (counts.map (loOf m)).sum ≤ per.sum := by
    apply sum_le_of_getD (by simp [hl])
    intro j hj
    rw [getD_map_nat _ _ _ (by simpa using hj)]
    exact hlo j (by simpa using hj)
  unfold adjustTotal
  simp only
  split
  · rename_i hgt
    obtain ⟨r1, r2, r3, r4⟩ := removeLoop_spec m target counts
      (argsort (per.map (fun p => -p))) per per.sum (argsort_nodup hA _)
      (fun j hj => by simpa using argsort_lt hA _ hj) hl rfl (by omega)
      (fun j hj => hlo j (by omega))
      (fun j hj hnj => absurd ((hA (per.map (fun p => -p))).1.mem_iff.mpr (by simpa using hj)) hnj)
    set r := removeLoop m target counts (argsort (per.map (fun p => -p))) per per.sum
    refine ⟨by omega, fun j hj => ⟨(r2 j (by omega)).1, le_trans (r2 j (by omega)).2 (hhi j hj)⟩, ?_⟩
    have hlor : (counts.map (loOf m)).sum ≤ r.sum := by
      apply sum_le_of_getD (by simp; omega)
      intro j hj
      rw [getD_map_nat _ _ _ (by simpa using hj)]
      exact (r2 j (by simp at hj; omega)).1
    rcases r4 with h | h
    · omega
    · have : r = counts.map (loOf m) := by
        apply eq_of_getD (by simp; omega)
        intro j hj
        rw [getD_map_nat _ _ _ (by omega)]
        exact h j (by omega)
      rw [this] at r3 ⊢
      omega
  · split
    · rename_i h1 h2
      have hzl : (List.zipWith (fun (c : Nat) (p : Int) => -((c : Int) - p)) counts per).length
          = per.length := by simp [hl]
      obtain ⟨r1, r2, r3, r4⟩ := addLoop_spec target counts
        (argsort (List.zipWith (fun (c : Nat) (p : Int) => -((c : Int) - p)) counts per)) per per.sum
        (argsort_nodup hA _)
        (fun j hj => by have := argsort_lt hA _ hj; omega) hl rfl (by omega)
        (fun j hj => hhi j (by omega))
        (fun j hj hnj => absurd ((hA _).1.mem_iff.mpr (by rw [List.mem_range, hzl]; exact hj)) hnj)
      set r := addLoop target counts
        (argsort (List.zipWith (fun (c : Nat) (p : Int) => -((c : Int) - p)) counts per)) per per.sum
      refine ⟨by omega, fun j hj => ⟨le_trans (hlo j hj) (r2 j (by omega)).1, (r2 j (by omega)).2⟩, ?_⟩
      rcases r4 with h | h
      · omega
      · have : r = counts.map (fun (c : Nat) => (c : Int)) := by
          apply eq_of_getD (by simp; omega)
          intro j hj
          rw [getD_map_nat _ _ _ (by omega)]
          exact h j (by omega)
        have h5 : r.sum = (counts.sum : Int) := by rw [this, sum_map_natCast]
        omega
    · refine ⟨hl, fun j hj => ⟨hlo j hj, hhi j hj⟩, ?_⟩
      omega

theorem allocate_spec {argsort : List Int → List Nat} (hA : IsArgsort argsort)
    (spec : LabelingSpec) (counts : List Nat) (nTrain : Nat) (target : Int)
    (ht : target ≤ (counts.sum : Int))
    (hv : spec.mode = .perClass → 0 ≤ pyInt spec.value) :
    (allocate argsort spec counts nTrain target).length = counts.length ∧
    (∀ j, j < counts.length →
      loOf spec.minPerClass (counts.getD j 0) ≤ (allocate argsort spec counts nTrain target).getD j 0 ∧
      (allocate argsort spec counts nTrain target).getD j 0 ≤ ((counts.getD j 0 : Nat) : Int)) ∧
    (allocate argsort spec counts nTrain target).sum
      = max target (max spec.minPerClass 0 *
          ((counts.countP (fun (c : Nat) => decide (spec.minPerClass ≤ (c : Int))) : Nat) : Int)) := by
  unfold allocate
  have hl := initialAllocation_length argsort spec counts nTrain target
  apply adjustTotal_spec hA _ _ _ _ (enforceMinCap_length _ _ _ hl) ht
  · intro j hj
    rw [enforceMinCap_getD _ _ _ hl j hj]
    have := initialAllocation_nonneg hA spec counts nTrain target hv j hj
    unfold loOf
    split <;> omega
  · intro j hj
    rw [enforceMinCap_getD _ _ _ hl j hj]
    omega

/-! ### drawing -/

theorem choice_facts {R : Rng σ} (hR : R.Lawful) {idx : List Nat} (hnd : idx.Nodup) (s : σ) (k : Nat)
    (hk : k ≤ idx.length) : (R.choice s idx k).1.Nodup ∧ (∀ x ∈ (R.choice s idx k).1, x ∈ idx) ∧
      (R.choice s idx k).1.length = k := by
  have h := hR.choice_subperm s idx k hk
  refine ⟨?_, fun x hx => h.subset hx, hR.choice_length s idx k hk⟩
  obtain ⟨l, hp, hs⟩ := h
  exact hp.nodup_iff.mp (hnd.sublist hs)

/-- A per-class draw: nodup, inside, right class counts. -/
structure DrawOk (idx : List Nat) (y : List Int) (classes : List Int) (out : List Nat)
    (cnt : Int → Nat) : Prop where
  nodup : out.Nodup
  mem : ∀ x ∈ out, x ∈ idx ∧ y.getD x 0 ∈ classes
  count : ∀ c ∈ classes, out.countP (fun i => decide (y.getD i 0 = c)) = cnt c
  count0 : ∀ c, c ∉ classes → out.countP (fun i => decide (y.getD i 0 = c)) = 0

theorem DrawOk.cons {idx : List Nat} {y : List Int} {classes : List Int} {out : List Nat}
    {cnt : Int → Nat} (h : DrawOk idx y classes out cnt) {c : Int} (hc : c ∉ classes)
    {part : List Nat} (hn : part.Nodup) (hm : ∀ x ∈ part, x ∈ idx ∧ y.getD x 0 = c)
    (hl : part.length = cnt c) : DrawOk idx y (c :: classes) (part ++ out) cnt := by
  have hsame : part.countP (fun i => decide (y.getD i 0 = c)) = part.length := by
    rw [List.countP_eq_length]; intro a ha; simpa using (hm a ha).2
  have hother : ∀ c', c' ≠ c → part.countP (fun i => decide (y.getD i 0 = c')) = 0 := by
    intro c' hc'
    rw [List.countP_eq_zero]
    intro a ha
    rw [(hm a ha).2]
    simpa using fun h => hc' h.symm
  refine ⟨?_, ?_, ?_, ?_⟩
  · rw [List.nodup_append]
    refine ⟨hn, h.nodup, ?_⟩
    rintro a ha b hb rfl
    exact hc ((hm a ha).2 ▸ (h.mem a hb).2)
  · intro x hx
    rcases List.mem_append.mp hx with hx | hx
    · exact ⟨(hm x hx).1, List.mem_cons.mpr (Or.inl (hm x hx).2)⟩
    · exact ⟨(h.mem x hx).1, List.mem_cons_of_mem _ (h.mem x hx).2⟩
  · intro c' hc'
    rw [List.countP_append]
    by_cases heq : c' = c
    · subst heq; rw [hsame, hl, h.count0 _ hc]; omega
    · rw [hother c' heq, h.count c' (by simpa [heq] using hc')]; omega
  · intro c' hc'
    simp only [List.mem_cons, not_or] at hc'
    rw [List.countP_append, hother c' hc'.1, h.count0 c' hc'.2]

theorem DrawOk.length_eq {idx : List Nat} {y : List Int} {classes : List Int} {out : List Nat}
    {cnt : Int → Nat} (h : DrawOk idx y classes out cnt) (hn : classes.Nodup) :
    out.length = (classes.map cnt).sum := by
  have hp := flatMap_filter_perm (fun i => y.getD i 0) classes out hn (fun i hi => (h.mem i hi).2)
  rw [← hp.length_eq, List.length_flatMap]
  congr 1
  apply List.map_congr_left
  intro c hc
  rw [← h.count c hc, List.countP_eq_length_filter]

theorem drawLoop_spec {R : Rng σ} (hR : R.Lawful) (idx : List Nat) (hidx : idx.Nodup) (y : List Int)
    (pairs : List (Int × Int)) (cnt : Int → Nat) (hn : (pairs.map (·.1)).Nodup)
    (hcnt : ∀ p ∈ pairs, p.2.toNat = cnt p.1)
    (hle : ∀ p ∈ pairs, p.2 ≤ ((idx.countP (fun i => decide (y.getD i 0 = p.1)) : Nat) : Int))
    (s : σ) :
    ∃ parts s', drawLoop R idx y pairs s = .ok (parts, s') ∧
      DrawOk idx y (pairs.map (·.1)) parts cnt := by
  induction pairs generalizing s with
  | nil => exact ⟨[], s, rfl, ⟨by simp, by simp, by simp, by simp⟩⟩
  | cons p rest ih =>
    obtain ⟨c, n⟩ := p
    simp only [List.map_cons, List.nodup_cons] at hn
    have hih := ih hn.2 (fun p hp => hcnt p (by simp [hp])) (fun p hp => hle p (by simp [hp]))
    have hc := hcnt (c, n) (by simp)
    have hl := hle (c, n) (by simp)
    simp only at hc hl
    rw [List.countP_eq_length_filter] at hl
    unfold drawLoop
    simp only
    split
    · rename_i h0
      obtain ⟨parts, s', e, ok⟩ := hih s
      refine ⟨parts, s', e, ?_⟩
      have := ok.cons (c := c) hn.1 (part := []) (by simp) (by simp) (by simp; omega)
      simpa using this
    · split
      · omega
      · obtain ⟨f1, f2, f3⟩ := choice_facts hR
          (hidx.filter (fun i => decide (y.getD i 0 = c))) s n.toNat (by omega)
        obtain ⟨parts, s', e, ok⟩ := hih
          (R.choice s (idx.filter (fun i => decide (y.getD i 0 = c))) n.toNat).2
        refine ⟨_, s', by rw [e], ?_⟩
        refine ok.cons (c := c) hn.1 f1 ?_ (by rw [f3]; exact hc)
        intro x hx
        simpa using f2 x hx

theorem subsampleLoop_spec {R : Rng σ} (hR : R.Lawful) (idx : List Nat) (hidx : idx.Nodup)
    (y : List Int) (pairs : List (Int × Nat)) (cnt : Int → Nat) (hn : (pairs.map (·.1)).Nodup)
    (hcnt : ∀ p ∈ pairs, min p.2 (idx.countP (fun i => decide (y.getD i 0 = p.1))) = cnt p.1)
    (s : σ) : DrawOk idx y (pairs.map (·.1)) (subsampleLoop R idx y pairs s).1 cnt := by
  induction pairs generalizing s with
  | nil => exact ⟨by simp [subsampleLoop], by simp [subsampleLoop], by simp, by simp [subsampleLoop]⟩
  | cons p rest ih =>
    obtain ⟨c, q⟩ := p
    simp only [List.map_cons, List.nodup_cons] at hn
    have hih := ih hn.2 (fun p hp => hcnt p (by simp [hp]))
    have hc := hcnt (c, q) (by simp)
    simp only at hc
    rw [List.countP_eq_length_filter] at hc
    simp only [subsampleLoop]
    split
    · refine (hih s).cons (c := c) hn.1 (hidx.filter _) ?_ (by simp only; omega)
      intro x hx; simpa using hx
    · obtain ⟨f1, f2, f3⟩ := choice_facts hR
          (hidx.filter (fun i => decide (y.getD i 0 = c))) s q (by omega)
      refine (hih _).cons (c := c) hn.1 f1 ?_ (by omega)
      intro x hx
      simpa using f2 x hx

end ModSSC.Sampling
