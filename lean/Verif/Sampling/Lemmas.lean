import Verif.Sampling.Model
import Verif.Sampling.Spec
import Verif.ListLemmas
import Mathlib.Algebra.BigOperators.Group.List.Lemmas

/-! # Helper lemmas for the sampling model (not claims) -/

namespace ModSSC.Sampling
open ModSSC

variable {σ : Type}

/-! ### class_counts -/

theorem foldl_max_ge (l : List Int) (a : Int) : a ≤ l.foldl max a ∧ ∀ x ∈ l, x ≤ l.foldl max a := by
  induction l generalizing a with
  | nil => simp
  | cons b t ih =>
    have := ih (max a b)
    simp only [List.foldl_cons, List.mem_cons]
    refine ⟨by omega, ?_⟩
    rintro x (rfl | h)
    · omega
    · exact this.2 x h

theorem foldl_min_le (l : List Int) (a : Int) : l.foldl min a ≤ a ∧ ∀ x ∈ l, l.foldl min a ≤ x := by
  induction l generalizing a with
  | nil => simp
  | cons b t ih =>
    have := ih (min a b)
    simp only [List.foldl_cons, List.mem_cons]
    refine ⟨by omega, ?_⟩
    rintro x (rfl | h)
    · omega
    · exact this.2 x h

theorem le_npMax {l : List Int} {x : Int} (h : x ∈ l) : x ≤ npMax l := (foldl_max_ge l _).2 x h
theorem npMin_le {l : List Int} {x : Int} (h : x ∈ l) : npMin l ≤ x := (foldl_min_le l _).2 x h

/-- The two code paths of `class_counts` agree: distinct labels with multiplicity. -/
theorem classCounts_spec (y : List Int) :
    ∃ classes : List Int, classes.Nodup ∧ classes.Pairwise (· ≤ ·) ∧ (∀ c, c ∈ classes ↔ c ∈ y) ∧
      classCounts y = classes.map (fun c => (c, y.count c)) := by
  unfold classCounts
  split
  · rename_i h
    have : y = [] := by simpa using h
    subst this
    exact ⟨[], by simp⟩
  · split
    · rename_i h1 h2
      refine ⟨(((List.range ((npMax y).toNat + 1)).filter
          (fun n : Nat => decide (y.count (n : Int) ≠ 0))).map (fun n : Nat => (n : Int))),
        ?_, ?_, ?_, ?_⟩
      · refine List.Nodup.map (fun a b h => by exact_mod_cast h) ?_
        exact List.nodup_range.filter _
      · rw [List.pairwise_map]
        refine List.Pairwise.imp ?_ ((List.pairwise_lt_range (n := (npMax y).toNat + 1)).filter _)
        intro a b h
        exact_mod_cast Nat.le_of_lt h
      · intro c
        simp only [List.mem_map, List.mem_filter, List.mem_range, decide_eq_true_eq]
        constructor
        · rintro ⟨n, ⟨_, hn⟩, rfl⟩
          exact List.count_pos_iff.mp (Nat.pos_of_ne_zero hn)
        · intro hc
          have h3 := le_npMax hc
          have h4 := npMin_le hc
          have h5 : ((c.toNat : Nat) : Int) = c := by omega
          refine ⟨c.toNat, ⟨by omega, ?_⟩, h5⟩
          rw [h5]
          have := List.count_pos_iff.mpr hc
          omega
      · rw [List.filter_map, List.map_map, ]
        rfl
    · refine ⟨npUnique y, nodup_npUnique y, npUnique_sorted y, fun c => mem_npUnique, rfl⟩

theorem sum_counts (y classes : List Int) (hn : classes.Nodup) (hm : ∀ c, c ∈ classes ↔ c ∈ y) :
    (classes.map (fun c => y.count c)).sum = y.length := by
  have hp : classes.Perm y.dedup := by
    rw [List.perm_ext_iff_of_nodup hn (List.nodup_dedup y)]
    intro a; rw [hm, List.mem_dedup]
  rw [(hp.map (fun c => y.count c)).sum_eq]
  exact List.sum_map_count_dedup_eq_length y

/-! ### bump -/

theorem bump_length (pos : List Nat) (base : List Int) : (bump base pos).length = base.length := by
  induction pos generalizing base with
  | nil => rfl
  | cons i t ih =>
    have := ih (base.modify i (· + 1))
    simp only [bump, List.foldl_cons] at *
    rw [this]; simp

theorem bump_sum (pos : List Nat) (base : List Int) (h : ∀ i ∈ pos, i < base.length) :
    (bump base pos).sum = base.sum + pos.length := by
  induction pos generalizing base with
  | nil => simp [bump]
  | cons i t ih =>
    have h1 := ih (base.modify i (· + 1)) (by intro j hj; simp; exact h j (by simp [hj]))
    have h2 := sum_modify base i 1 (h i (by simp))
    simp only [bump, List.foldl_cons] at *
    rw [h1, h2]
    simp; omega

theorem bump_getD (pos : List Nat) (base : List Int) (h : ∀ i ∈ pos, i < base.length)
    (hn : pos.Nodup) (j : Nat) :
    (bump base pos).getD j 0 = base.getD j 0 + (if j ∈ pos then 1 else 0) := by
  induction pos generalizing base with
  | nil => simp [bump]
  | cons i t ih =>
    have hn' := List.nodup_cons.mp hn
    have h1 := ih (base.modify i (· + 1)) (by intro j hj; simp; exact h j (by simp [hj])) hn'.2
    have h2 := getD_modify base i j 1 (h i (by simp))
    simp only [bump, List.foldl_cons] at *
    rw [h1, h2]
    by_cases hij : i = j
    · subst hij; simp [hn'.1]
    · have : j ≠ i := fun h => hij h.symm
      simp [hij, this]

theorem argsort_lt {f : List Int → List Nat} (hf : IsArgsort f) (ks : List Int) {i : Nat}
    (h : i ∈ f ks) : i < ks.length := by
  have := (hf ks).1.mem_iff.mp h
  simpa using this

theorem argsort_nodup {f : List Int → List Nat} (hf : IsArgsort f) (ks : List Int) :
    (f ks).Nodup := (hf ks).1.nodup_iff.mpr List.nodup_range

theorem argsort_length {f : List Int → List Nat} (hf : IsArgsort f) (ks : List Int) :
    (f ks).length = ks.length := by simpa using (hf ks).1.length_eq

/-! ### largest remainder quotas -/

theorem base_sum_cast (counts : List Nat) (h t : Nat) :
    (counts.map (fun (c : Nat) => ((c * h / t : Nat) : Int))).sum
      = ((counts.map (fun (c : Nat) => c * h / t)).sum : Int) := by
  rw [← sum_map_natCast, List.map_map]; rfl

theorem holdoutQuotas_length {argsort : List Int → List Nat} (counts : List Nat) (h t : Nat) :
    (holdoutQuotas argsort counts h t).length = counts.length := by
  unfold holdoutQuotas
  simp only
  split
  · rw [bump_length]; simp
  · simp

/-- Each quota is the floor of the expected count or one more, and the quotas add up to `h`. -/
theorem holdoutQuotas_spec {argsort : List Int → List Nat} (hA : IsArgsort argsort)
    (counts : List Nat) (h t : Nat) (ht : 0 < t) (hsum : counts.sum = t) :
    (holdoutQuotas argsort counts h t).sum = h ∧
    ∀ i, i < counts.length →
      (holdoutQuotas argsort counts h t).getD i 0 = ((counts.getD i 0 * h / t : Nat) : Int) ∨
      (holdoutQuotas argsort counts h t).getD i 0 = ((counts.getD i 0 * h / t : Nat) : Int) + 1 := by
  have hne : counts ≠ [] := by rintro rfl; simp at hsum; omega
  have e1 := sum_map_mul_div counts h t
  have e2 := sum_mod_lt counts h t ht hne
  rw [hsum] at e1
  have hbase := base_sum_cast counts h t
  set B := (counts.map (fun (c : Nat) => c * h / t)).sum with hB
  set M := (counts.map (fun (c : Nat) => c * h % t)).sum with hM
  have hBh : B ≤ h := by
    have : B * t ≤ h * t := by rw [Nat.mul_comm h t]; omega
    exact Nat.le_of_mul_le_mul_right this ht
  have hrem : h - B < counts.length := by
    have : (h - B) * t < counts.length * t := by
      rw [Nat.sub_mul, Nat.mul_comm h t]; omega
    exact Nat.lt_of_mul_lt_mul_right this
  have hget : ∀ i, i < counts.length →
      (counts.map (fun (c : Nat) => ((c * h / t : Nat) : Int))).getD i 0
        = ((counts.getD i 0 * h / t : Nat) : Int) := by
    intro i hi
    simp [List.getD_eq_getElem?_getD, hi]
  unfold holdoutQuotas
  simp only
  rw [hbase]
  split
  · have htn : ((h : Int) - (B : Int)).toNat = h - B := by omega
    rw [htn]
    have hpos : ∀ i ∈ (argsort (counts.map (fun (c : Nat) => -((c * h % t : Nat) : Int)))).take (h - B),
        i < (counts.map (fun (c : Nat) => ((c * h / t : Nat) : Int))).length := by
      intro i hi
      have := argsort_lt hA _ (List.mem_of_mem_take hi)
      simpa using this
    have hnd : ((argsort (counts.map (fun (c : Nat) => -((c * h % t : Nat) : Int)))).take (h - B)).Nodup :=
      (argsort_nodup hA _).sublist (List.take_sublist _ _)
    constructor
    · rw [bump_sum _ _ hpos, hbase, List.length_take, argsort_length hA]
      simp only [List.length_map]
      omega
    · intro i hi
      rw [bump_getD _ _ hpos hnd, hget i hi]
      split
      · right; rfl
      · left; omega
  · constructor
    · rw [hbase]; omega
    · intro i hi; left; exact hget i hi

/-! ### the class loops -/

theorem countP_filter_disjoint {l : List Nat} {f : Nat → Int} {a b : Int} (h : a ≠ b) :
    (l.filter (fun i => decide (f i = a))).countP (fun i => decide (f i = b)) = 0 := by
  rw [List.countP_eq_zero]
  intro x hx
  simp only [List.mem_filter, decide_eq_true_eq] at hx
  simp [hx.2, h]

theorem stratifiedLoop_perm {R : Rng σ} (hR : R.Lawful) (indices : List Nat) (y : List Int)
    (pairs : List (Int × Int)) (s : σ) :
    ((stratifiedLoop R indices y pairs s).1.1 ++ (stratifiedLoop R indices y pairs s).1.2).Perm
      ((pairs.map (·.1)).flatMap (fun c => indices.filter (fun i => decide (y.getD i 0 = c)))) := by
  induction pairs generalizing s with
  | nil => simp [stratifiedLoop]
  | cons p rest ih =>
    obtain ⟨c, q⟩ := p
    simp only [stratifiedLoop, List.map_cons, List.flatMap_cons]
    set pr := R.permutation s (indices.filter (fun i => decide (y.getD i 0 = c))) with hpr
    have hp : pr.1.Perm (indices.filter (fun i => decide (y.getD i 0 = c))) := hR.perm _ _
    have ih' := ih pr.2
    set lo := stratifiedLoop R indices y rest pr.2 with hlo
    set n := (min (max q 0) (pr.1.length : Int)).toNat
    calc ((pr.1.drop n ++ lo.1.1) ++ (pr.1.take n ++ lo.1.2)).Perm
          ((pr.1.take n ++ pr.1.drop n) ++ (lo.1.1 ++ lo.1.2)) := by
            rw [List.perm_iff_count]; intro a; simp only [List.count_append]; omega
      _ |>.Perm _ := by
            rw [List.take_append_drop]
            exact hp.append ih'

theorem stratifiedLoop_hold_count {R : Rng σ} (hR : R.Lawful) (indices : List Nat) (y : List Int)
    (pairs : List (Int × Int)) (s : σ) (hn : (pairs.map (·.1)).Nodup) :
    (∀ c q, (c, q) ∈ pairs → 0 ≤ q →
      q ≤ ((indices.countP (fun i => decide (y.getD i 0 = c)) : Nat) : Int) →
      (((stratifiedLoop R indices y pairs s).1.2.countP (fun i => decide (y.getD i 0 = c)) : Nat)
        : Int) = q) ∧
    (∀ c, c ∉ pairs.map (·.1) →
      (stratifiedLoop R indices y pairs s).1.2.countP (fun i => decide (y.getD i 0 = c)) = 0) := by
  induction pairs generalizing s with
  | nil => simp [stratifiedLoop]
  | cons p rest ih =>
    obtain ⟨c0, q0⟩ := p
    simp only [List.map_cons, List.nodup_cons] at hn
    simp only [stratifiedLoop]
    set F := indices.filter (fun i => decide (y.getD i 0 = c0)) with hF
    set pr := R.permutation s F with hpr
    have hp : pr.1.Perm F := hR.perm _ _
    have ih' := ih pr.2 hn.2
    set lo := stratifiedLoop R indices y rest pr.2 with hlo
    set n := (min (max q0 0) (pr.1.length : Int)).toNat with hnn
    have hsame : (pr.1.take n).countP (fun i => decide (y.getD i 0 = c0)) = (pr.1.take n).length := by
      rw [List.countP_eq_length]
      intro a ha
      have := hp.mem_iff.mp (List.mem_of_mem_take ha)
      simp only [hF, List.mem_filter] at this
      exact this.2
    have hother : ∀ c, c0 ≠ c → (pr.1.take n).countP (fun i => decide (y.getD i 0 = c)) = 0 := by
      intro c hc
      rw [List.countP_eq_zero]
      intro a ha
      have := hp.mem_iff.mp (List.mem_of_mem_take ha)
      simp only [hF, List.mem_filter, decide_eq_true_eq] at this
      rw [this.2]
      simpa using hc
    constructor
    · intro c q hmem hq0 hqc
      simp only [List.countP_append]
      rcases List.mem_cons.mp hmem with h | h
      · obtain ⟨rfl, rfl⟩ : c = c0 ∧ q = q0 := by simpa using h
        have h0 := ih'.2 c hn.1
        rw [hsame, h0, List.length_take]
        have hl : pr.1.length = indices.countP (fun i => decide (y.getD i 0 = c)) := by
          rw [hp.length_eq, hF, List.countP_eq_length_filter]
        rw [← hl] at hqc
        omega
      · have hne : c0 ≠ c := by
          rintro rfl
          exact hn.1 (List.mem_map.mpr ⟨(c0, q), h, rfl⟩)
        rw [hother c hne]
        have := ih'.1 c q h hq0 hqc
        rw [Nat.zero_add]
        exact this
    · intro c hc
      simp only [List.map_cons, List.mem_cons, not_or] at hc
      simp only [List.countP_append]
      rw [hother c (fun h => hc.1 h.symm), ih'.2 c hc.2]

theorem gather_ok {y : List Int} {idx : List Nat} (h : ∀ i ∈ idx, i < y.length) :
    gather y idx = .ok (idx.map (fun i => y.getD i 0)) := by
  unfold gather
  rw [if_pos]
  simpa using h

theorem count_map_eq_countP (idx : List Nat) (f : Nat → Int) (c : Int) :
    (idx.map f).count c = idx.countP (fun i => decide (f i = c)) := by
  rw [List.count, List.countP_map]
  apply List.countP_congr
  intro x _
  simp

/-- Everything about `stratified_holdout` in one place. -/
theorem stratifiedHoldout_spec {R : Rng σ} (hR : R.Lawful) {argsort : List Int → List Nat}
    (hA : IsArgsort argsort) (indices : List Nat) (y : List Int) (h : Int) (s : σ)
    (hinc : indices.Pairwise (· < ·)) (hy : ∀ i ∈ indices, i < y.length) :
    ∃ keep hold s', stratifiedHoldout R argsort indices y h s = .ok ((keep, hold), s') ∧
      (keep ++ hold).Perm indices ∧ keep.Pairwise (· < ·) ∧ hold.Pairwise (· < ·) ∧
      hold.length = (min (max h 0) indices.length).toNat ∧
      (0 ≤ h → h ≤ indices.length → ∀ c : Int,
        hold.countP (fun i => decide (y.getD i 0 = c))
          = indices.countP (fun i => decide (y.getD i 0 = c)) * h.toNat / indices.length ∨
        hold.countP (fun i => decide (y.getD i 0 = c))
          = indices.countP (fun i => decide (y.getD i 0 = c)) * h.toNat / indices.length + 1) := by
  have hnd : indices.Nodup := nodup_of_pairwise_lt hinc
  unfold stratifiedHoldout
  split
  · rename_i hh
    refine ⟨_, _, _, rfl, ?_, npSort_strict hnd, by simp, by simp; omega, ?_⟩
    · simpa using npSort_perm indices
    · intro h0 _ c
      left
      have : h.toNat = 0 := by omega
      simp [this]
  · split
    · rename_i h1 h2
      refine ⟨_, _, _, rfl, ?_, by simp, npSort_strict hnd, ?_, ?_⟩
      · simpa using npSort_perm indices
      · rw [length_npSort]; omega
      · intro h0 h3 c
        left
        rw [(npSort_perm indices).countP_eq]
        have : h.toNat = indices.length := by omega
        rw [this]
        rcases Nat.eq_zero_or_pos indices.length with hz | hz
        · omega
        · rw [Nat.mul_div_cancel _ hz]
    · rename_i h1 h2
      rw [gather_ok hy]
      simp only [bind, Except.bind]
      set f : Nat → Int := fun i => y.getD i 0 with hf
      set ySub := indices.map f with hys
      obtain ⟨classes, hcn, -, hcm, hcc⟩ := classCounts_spec ySub
      rw [hcc]
      have e1 : (classes.map (fun c => (c, ySub.count c))).map (·.1) = classes := by
        rw [List.map_map]; exact List.map_id _
      have e2 : (classes.map (fun c => (c, ySub.count c))).map (·.2)
          = classes.map (fun c => ySub.count c) := by
        rw [List.map_map]; rfl
      rw [e1, e2]
      have hsum : (classes.map (fun c => ySub.count c)).sum = indices.length := by
        rw [sum_counts ySub classes hcn hcm]; simp [hys]
      have ht : 0 < indices.length := by omega
      have hq := holdoutQuotas_spec hA (classes.map (fun c => ySub.count c)) h.toNat
        indices.length ht hsum
      set quotas := holdoutQuotas argsort (classes.map (fun c => ySub.count c)) h.toNat
        indices.length with hquotas
      have hql : quotas.length = classes.length := by
        rw [hquotas, holdoutQuotas_length]; simp
      have hzip : (classes.zip quotas).map (·.1) = classes := by
        rw [List.map_fst_zip]; omega
      set pairs := classes.zip quotas with hpairs
      have hperm := stratifiedLoop_perm hR indices y pairs s
      have hcount := stratifiedLoop_hold_count hR indices y pairs s (by rw [hzip]; exact hcn)
      rw [hzip] at hperm hcount
      set lo := stratifiedLoop R indices y pairs s with hlo
      have hperm2 : (lo.1.1 ++ lo.1.2).Perm indices := by
        refine hperm.trans (flatMap_filter_perm f classes indices hcn ?_)
        intro i hi
        rw [hcm]
        exact List.mem_map.mpr ⟨i, hi, rfl⟩
      have hcls : ∀ c ∈ classes, ∃ q, (c, q) ∈ pairs ∧
          (q = ((ySub.count c * h.toNat / indices.length : Nat) : Int) ∨
           q = ((ySub.count c * h.toNat / indices.length : Nat) : Int) + 1) := by
        intro c hc
        obtain ⟨i, hi, hic⟩ := List.getElem_of_mem hc
        refine ⟨quotas[i]'(by omega), ?_, ?_⟩
        · rw [hpairs, ← hic]
          have : (classes.zip quotas)[i]'(by simp [List.length_zip]; omega)
              = (classes[i], quotas[i]'(by omega)) := by simp
          rw [← this]
          exact List.getElem_mem _
        · have := hq.2 i (by simpa using hi)
          have g1 : quotas.getD i 0 = quotas[i]'(by omega) := by
            simp [List.getD_eq_getElem?_getD, hql, hi]
          have g2 : (classes.map (fun c => ySub.count c)).getD i 0 = ySub.count c := by
            simp [List.getD_eq_getElem?_getD, hi, hic]
          rw [g1, g2] at this
          exact this
      have hcp : ∀ c, ySub.count c = indices.countP (fun i => decide (f i = c)) :=
        fun c => count_map_eq_countP indices f c
      have hexact : ∀ c, lo.1.2.countP (fun i => decide (f i = c))
            = indices.countP (fun i => decide (f i = c)) * h.toNat / indices.length ∨
          lo.1.2.countP (fun i => decide (f i = c))
            = indices.countP (fun i => decide (f i = c)) * h.toNat / indices.length + 1 := by
        intro c
        by_cases hc : c ∈ classes
        · obtain ⟨q, hqm, hqv⟩ := hcls c hc
          have hcpos : 0 < ySub.count c := List.count_pos_iff.mpr ((hcm c).mp hc)
          have hlt : ySub.count c * h.toNat / indices.length < ySub.count c := by
            rw [Nat.div_lt_iff_lt_mul ht]
            exact Nat.mul_lt_mul_of_pos_left (by omega) hcpos
          generalize hfl : ySub.count c * h.toNat / indices.length = fl at hqv hlt
          have hq1 := hcount.1 c q hqm (by omega) (by rw [← hcp c]; omega)
          rw [← hcp c, hfl]
          rcases hqv with h5 | h5
          · left; exact_mod_cast hq1.trans h5
          · right; exact_mod_cast hq1.trans h5
        · left
          rw [hcount.2 c hc]
          have : indices.countP (fun i => decide (f i = c)) = 0 := by
            rw [← hcp c]
            exact List.count_eq_zero.mpr (fun h => hc ((hcm c).mpr h))
          simp [this]
      have hndlo : (lo.1.1 ++ lo.1.2).Nodup := hperm2.nodup_iff.mpr hnd
      refine ⟨_, _, _, rfl, ?_, ?_, ?_, ?_, ?_⟩
      · exact ((npSort_perm _).append (npSort_perm _)).trans hperm2
      · exact npSort_strict (List.nodup_append.mp hndlo).1
      · exact npSort_strict (List.nodup_append.mp hndlo).2.1
      · rw [length_npSort]
        -- the holdout has exactly `h` elements
        have hl : ((lo.1.2.length : Nat) : Int) = quotas.sum := by
          have hmemc : ∀ i ∈ lo.1.2, f i ∈ classes := by
            intro i hi
            rw [hcm]
            exact List.mem_map.mpr ⟨i, hperm2.mem_iff.mp (List.mem_append_right _ hi), rfl⟩
          have hp := flatMap_filter_perm f classes lo.1.2 hcn hmemc
          rw [← hp.length_eq, List.length_flatMap]
          have : quotas = classes.map (fun c =>
              (((lo.1.2.filter (fun i => decide (f i = c))).length : Nat) : Int)) := by
            apply List.ext_getElem
            · simp [hql]
            · intro i h1 h2
              have hi : i < classes.length := by simpa using h2
              have hmem : (classes[i], quotas[i]) ∈ pairs := by
                rw [hpairs]
                have : (classes.zip quotas)[i]'(by simp [List.length_zip]; omega)
                    = (classes[i], quotas[i]) := by simp
                rw [← this]; exact List.getElem_mem _
              have hb := hq.2 i (by simpa using hi)
              have g1 : quotas.getD i 0 = quotas[i] := by
                simp [List.getD_eq_getElem?_getD, h1]
              have g2 : (classes.map (fun c => ySub.count c)).getD i 0 = ySub.count classes[i] := by
                simp [List.getD_eq_getElem?_getD, hi]
              rw [g1, g2] at hb
              have hcpos : 0 < ySub.count classes[i] :=
                List.count_pos_iff.mpr ((hcm _).mp (List.getElem_mem hi))
              have hlt : ySub.count classes[i] * h.toNat / indices.length < ySub.count classes[i] := by
                rw [Nat.div_lt_iff_lt_mul ht]
                exact Nat.mul_lt_mul_of_pos_left (by omega) hcpos
              generalize hfl : ySub.count classes[i] * h.toNat / indices.length = fl at hb hlt
              have := hcount.1 classes[i] quotas[i] hmem (by omega) (by rw [← hcp]; omega)
              rw [List.getElem_map, ← this, List.countP_eq_length_filter]
          rw [this, ← sum_map_natCast, List.map_map]
          rfl
        rw [hq.1] at hl
        have hl2 : lo.1.2.length = h.toNat := by exact_mod_cast hl
        refine hl2.trans ?_
        omega
      · intro _ _ c
        rw [(npSort_perm _).countP_eq]
        exact hexact c

end ModSSC.Sampling
