import Verif.Inductive.TriModel
import Verif.Inductive.TriSpec
import Verif.Inductive.CoProps

/-!
# C57: tri-training
-/

namespace ModSSC.Inductive
open ModSSC Spec DataLoader
open scoped List

variable {M α : Type}

theorem others_eq (i : Fin 3) : others i = peers i := by
  revert i; decide

theorem isFirstMax_unique {row : List Rat} {c c' : Nat} (h : IsFirstMax row c) (h' : IsFirstMax row c') : c = c' := by
  obtain ⟨v, h1, h2, h3⟩ := h
  obtain ⟨v', h1', h2', h3'⟩ := h'
  have e1 := h2 v' (List.mem_of_getElem? h1')
  have e2 := h2' v (List.mem_of_getElem? h1)
  rcases Nat.lt_trichotomy c c' with h | h | h
  · exact absurd (h3' c v h h1) (not_lt.mpr e1)
  · exact h
  · exact absurd (h3 c' v' h h1') (not_lt.mpr e2)

theorem isLargest_unique {row : List Rat} {v v' : Rat} (h : IsLargest row v) (h' : IsLargest row v') : v = v' :=
  le_antisymm (h'.2 v h.1) (h.2 v' h'.1)

theorem meets_all (t : Option Rat) (c : Rat) : meets t c = true ↔ ∀ x, t = some x → x ≤ c := by
  cases t with
  | none => simp [meets]
  | some x => simp [meets]

theorem triPick_spec (C : Clf M α) (hC : C.Shapes) {top : Top} (htop : IsTop top) {P : TriParams}
    {maxNew : Option Nat} (hmax : P.maxNew = maxNew.map fun (k : Nat) => (k : Int)) {Xu : List α}
    {added : List (Nat × Int)} {mj mk : M} {new : List (Nat × Int)}
    (h : triPick C top P Xu added mj mk = .ok new) :
    ∃ conf : Nat → Rat, (∀ p c, BothConfident C Xu P.threshold mj mk p c → conf p = c) ∧
      IsTopSelection (fun p => p ∉ added.map (·.1) ∧ (∃ c, BothConfident C Xu P.threshold mj mk p c) ∧
        ∃ l, SameColumn C Xu mj mk p l) conf maxNew (new.map (·.1)) ∧
      ∀ x ∈ new, SameColumn C Xu mj mk x.1 x.2 := by
  unfold triPick at h
  rw [ebind_ok] at h
  obtain ⟨sj, hsj, h⟩ := h
  rw [ebind_ok] at h
  obtain ⟨sk, hsk, h⟩ := h
  have cj := hC.cols _ _ _ hsj
  have ck := hC.cols _ _ _ hsk
  rw [if_neg (by omega)] at h
  simp only [List.length_map] at h
  have lj := hC.rows _ _ _ hsj
  have lk := hC.rows _ _ _ hsk
  set fresh := ((List.range sj.rows.length).filter fun i =>
    decide ((sj.rows.map Evaluation.argmax).getD i 0 = (sk.rows.map Evaluation.argmax).getD i 0) &&
      (meets P.threshold ((sj.rows.map rowMax).getD i 0) && meets P.threshold ((sk.rows.map rowMax).getD i 0))).filter
        (fun i => decide (i ∉ added.map (·.1))) with hfresh
  have hnd : fresh.Nodup := List.Nodup.filter _ (List.Nodup.filter _ List.nodup_range)
  have rowj : ∀ (p : Nat) (hp : p < Xu.length), sj.rows[p]? = some (sj.rows[p]'(by omega)) ∧
      sj.rows[p]'(by omega) ≠ [] := by
    intro p hp
    refine ⟨List.getElem?_eq_getElem (by omega), fun e => ?_⟩
    have := hC.rect _ _ _ hsj _ (List.getElem_mem (show p < sj.rows.length by omega))
    rw [e] at this
    simp at this
    omega
  have rowk : ∀ (p : Nat) (hp : p < Xu.length), sk.rows[p]? = some (sk.rows[p]'(by omega)) ∧
      sk.rows[p]'(by omega) ≠ [] := by
    intro p hp
    refine ⟨List.getElem?_eq_getElem (by omega), fun e => ?_⟩
    have := hC.rect _ _ _ hsk _ (List.getElem_mem (show p < sk.rows.length by omega))
    rw [e] at this
    simp at this
    omega
  have gj : ∀ (p : Nat) (hp : p < Xu.length), (sj.rows.map Evaluation.argmax).getD p 0
      = Evaluation.argmax (sj.rows[p]'(by omega)) := by
    intro p hp
    rw [List.getD_eq_getElem _ _ (by rw [List.length_map]; omega), List.getElem_map]
  have gk : ∀ (p : Nat) (hp : p < Xu.length), (sk.rows.map Evaluation.argmax).getD p 0
      = Evaluation.argmax (sk.rows[p]'(by omega)) := by
    intro p hp
    rw [List.getD_eq_getElem _ _ (by rw [List.length_map]; omega), List.getElem_map]
  have mj' : ∀ (p : Nat) (hp : p < Xu.length), (sj.rows.map rowMax).getD p 0 = rowMax (sj.rows[p]'(by omega)) := by
    intro p hp
    rw [List.getD_eq_getElem _ _ (by rw [List.length_map]; omega), List.getElem_map]
  have mk' : ∀ (p : Nat) (hp : p < Xu.length), (sk.rows.map rowMax).getD p 0 = rowMax (sk.rows[p]'(by omega)) := by
    intro p hp
    rw [List.getD_eq_getElem _ _ (by rw [List.length_map]; omega), List.getElem_map]
  let conf : Nat → Rat := fun i => ((sj.rows.map rowMax).getD i 0 + (sk.rows.map rowMax).getD i 0) / 2
  have hsame : ∀ p, p ∈ fresh → SameColumn C Xu mj mk p (((sj.rows.map Evaluation.argmax).getD p 0 : Nat) : Int) := by
    intro p hp
    have h1 := List.mem_filter.mp (List.mem_filter.mp hp).1
    have hpl : p < Xu.length := by have := List.mem_range.mp h1.1; omega
    have h2 := h1.2
    simp only [Bool.and_eq_true, decide_eq_true_eq] at h2
    have e := h2.1
    rw [gj p hpl, gk p hpl] at e
    rw [gj p hpl]
    refine ⟨sj, sk, _, _, _, hsj, hsk, (rowj p hpl).1, (rowk p hpl).1, argmax_isFirstMax (rowj p hpl).2, ?_, rfl⟩
    rw [e]
    exact argmax_isFirstMax (rowk p hpl).2
  have hconf : ∀ p c, BothConfident C Xu P.threshold mj mk p c → conf p = c := by
    rintro p c ⟨sj', sk', rj, rk, vj, vk, a1, a2, a3, a4, a5, a6, a7, rfl⟩
    rw [hsj] at a1
    rw [hsk] at a2
    obtain rfl := Except.ok.inj a1
    obtain rfl := Except.ok.inj a2
    have hpl : p < Xu.length := by
      by_contra hh
      rw [List.getElem?_eq_none (by omega)] at a3
      simp at a3
    rw [(rowj p hpl).1, Option.some.injEq] at a3
    rw [(rowk p hpl).1, Option.some.injEq] at a4
    show ((sj.rows.map rowMax).getD p 0 + (sk.rows.map rowMax).getD p 0) / 2 = _
    rw [mj' p hpl, mk' p hpl, a3, a4, isLargest_unique a5 (rowMax_spec (a3 ▸ (rowj p hpl).2)),
      isLargest_unique a6 (rowMax_spec (a4 ▸ (rowk p hpl).2))]
  have hmem : ∀ p, p ∈ fresh ↔ p ∉ added.map (·.1) ∧ (∃ c, BothConfident C Xu P.threshold mj mk p c) ∧
      ∃ l, SameColumn C Xu mj mk p l := by
    intro p
    constructor
    · intro hp
      have h1 := List.mem_filter.mp (List.mem_filter.mp hp).1
      have hpl : p < Xu.length := by have := List.mem_range.mp h1.1; omega
      have h2 := h1.2
      simp only [Bool.and_eq_true, decide_eq_true_eq] at h2
      obtain ⟨-, h3, h4⟩ := h2
      rw [mj' p hpl, meets_all] at h3
      rw [mk' p hpl, meets_all] at h4
      refine ⟨by simpa using (List.mem_filter.mp hp).2, ⟨_, sj, sk, _, _, _, _, hsj, hsk, (rowj p hpl).1,
        (rowk p hpl).1, rowMax_spec (rowj p hpl).2, rowMax_spec (rowk p hpl).2, fun t ht => ⟨h3 t ht, h4 t ht⟩, rfl⟩,
        _, hsame p hp⟩
    · rintro ⟨h0, ⟨c, sj', sk', rj, rk, vj, vk, a1, a2, a3, a4, a5, a6, a7, -⟩, l, sj'', sk'', rj', rk', c', b1, b2,
        b3, b4, b5, b6, -⟩
      rw [hsj] at a1 b1
      rw [hsk] at a2 b2
      obtain rfl := Except.ok.inj a1
      obtain rfl := Except.ok.inj a2
      obtain rfl := Except.ok.inj b1
      obtain rfl := Except.ok.inj b2
      have hpl : p < Xu.length := by
        by_contra hh
        rw [List.getElem?_eq_none (by omega)] at a3
        simp at a3
      rw [(rowj p hpl).1, Option.some.injEq] at a3 b3
      rw [(rowk p hpl).1, Option.some.injEq] at a4 b4
      rw [hfresh, List.mem_filter, List.mem_filter]
      refine ⟨⟨List.mem_range.mpr (by omega), ?_⟩, by simpa using h0⟩
      simp only [Bool.and_eq_true, decide_eq_true_eq]
      rw [gj p hpl, gk p hpl, mj' p hpl, mk' p hpl, meets_all, meets_all]
      refine ⟨?_, ?_, ?_⟩
      · rw [isFirstMax_unique (argmax_isFirstMax (rowj p hpl).2) (b3 ▸ b5),
          isFirstMax_unique (argmax_isFirstMax (rowk p hpl).2) (b4 ▸ b6)]
      · rw [isLargest_unique (rowMax_spec (rowj p hpl).2) (a3 ▸ a5)]
        exact fun t ht => (a7 t ht).1
      · rw [isLargest_unique (rowMax_spec (rowk p hpl).2) (a4 ▸ a6)]
        exact fun t ht => (a7 t ht).2
  have hfst : ∀ l : List Nat, (l.map fun i => (i, (((sj.rows.map Evaluation.argmax).getD i 0 : Nat) : Int))).map (·.1)
      = l := by
    intro l
    rw [List.map_map]
    exact List.map_id _
  refine ⟨conf, hconf, ?_⟩
  by_cases hf : fresh = []
  · rw [if_pos hf] at h
    simp only [Except.ok.injEq] at h
    subst h
    refine ⟨topSel_full List.nodup_nil (fun p => ?_) (by simp), by simp⟩
    rw [← hmem p, hf]
    rfl
  · rw [if_neg hf] at h
    cases maxNew with
    | none =>
      rw [hmax] at h
      simp only [Option.map_none, Except.ok.injEq] at h
      subst h
      refine ⟨?_, ?_⟩
      · rw [hfst]
        exact topSel_full hnd (fun p => (hmem p).symm) (by simp)
      · intro x hx
        obtain ⟨p, hp, rfl⟩ := List.mem_map.mp hx
        exact hsame p hp
    | some k =>
      rw [hmax] at h
      simp only [Option.map_some] at h
      obtain ⟨order, ho, hsel⟩ := top_of_list htop hnd conf k
      rw [show fresh.map (fun i => ((sj.rows.map rowMax).getD i 0 + (sk.rows.map rowMax).getD i 0) / 2)
        = fresh.map conf from rfl, ho] at h
      simp only [bind, Except.bind, Except.ok.injEq] at h
      subst h
      refine ⟨?_, ?_⟩
      · rw [hfst]
        exact topSel_congr (fun p => hmem p) (fun _ _ => rfl) hsel
      · intro x hx
        obtain ⟨p, hp, rfl⟩ := List.mem_map.mp hx
        exact hsame p (hsel.sound p hp)

theorem map_get_self {added : List (Nat × Int)} (h : (added.map (·.1)).Nodup) :
    (added.map (·.1)).map (fun p => (p, (Assoc.get added p).getD 0)) = added := by
  rw [List.map_map]
  conv_rhs => rw [← List.map_id added]
  refine List.map_congr_left fun x hx => ?_
  simp only [Function.comp, id]
  rw [Assoc.get_of_mem h (show (x.1, x.2) ∈ added from hx)]
  rfl

theorem triTrain_ok {C : Clf M α} {X : List α} {y : List Int} {Xu : List α} {boot : List Nat}
    {added : List (Nat × Int)} {m m' : M} (hXy : X.length = y.length) (hb : ∀ i ∈ boot, i < X.length)
    (hnd : (added.map (·.1)).Nodup) (hlt : ∀ p ∈ added.map (·.1), p < Xu.length)
    (h : triTrain C X y Xu boot added m = .ok m') : TriFitted C X y Xu boot added m' := by
  unfold triTrain at h
  simp only [takeIdx_eq hb, takeIdx_eq (X := y) (fun i hi => hXy ▸ hb i hi),
    takeIdx_eq (X := Xu) (idx := npSort (added.map (·.1))) (fun p hp => hlt p (mem_npSort.mp hp)),
    bind, Except.bind] at h
  refine ⟨m, npSort (added.map (·.1)), _, npSort_strict hnd, ?_, by simp, h⟩
  have hz : (npSort (added.map (·.1))).zip
      ((npSort (added.map (·.1))).map fun p => (Assoc.get added p).getD 0)
      = (npSort (added.map (·.1))).map fun p => (p, (Assoc.get added p).getD 0) := by
    rw [List.zip_eq_zipWith, List.zipWith_map_right, List.zipWith_self]
  rw [hz]
  refine ((npSort_perm _).map _).trans ?_
  rw [map_get_self hnd]

theorem triTrainAll_ok {C : Clf M α} {X : List α} {y : List Int} {Xu : List α} {boot : Fin 3 → List Nat}
    {added : Fin 3 → List (Nat × Int)} {m m' : Fin 3 → M} (hXy : X.length = y.length)
    (hb : ∀ i, ∀ j ∈ boot i, j < X.length)
    (hnd : ∀ i, ((added i).map (·.1)).Nodup) (hlt : ∀ i, ∀ p ∈ (added i).map (·.1), p < Xu.length)
    (h : triTrainAll C X y Xu boot added m = .ok m') :
    ∀ i, TriFitted C X y Xu (boot i) (added i) (m' i) := by
  unfold triTrainAll at h
  rw [ebind_ok] at h
  obtain ⟨m0, h0, h⟩ := h
  rw [ebind_ok] at h
  obtain ⟨m1, h1, h⟩ := h
  rw [ebind_ok] at h
  obtain ⟨m2, h2, h⟩ := h
  simp only [Except.ok.injEq] at h
  subst h
  intro i
  match i with
  | 0 => exact triTrain_ok hXy (hb 0) (hnd 0) (hlt 0) h0
  | 1 => exact triTrain_ok hXy (hb 1) (hnd 1) (hlt 1) h1
  | 2 => exact triTrain_ok hXy (hb 2) (hnd 2) (hlt 2) h2

/-- The pseudo-labels of every classifier: different samples, all of them unlabeled ones. -/
def Tidy (Xu : List α) (a : Fin 3 → List (Nat × Int)) : Prop :=
  ∀ i, ((a i).map (·.1)).Nodup ∧ ∀ p ∈ (a i).map (·.1), p < Xu.length

/-- How many pseudo-labels there are. -/
def total (a : Fin 3 → List (Nat × Int)) : Nat := (a 0).length + (a 1).length + (a 2).length

theorem tidy_append {C : Clf M α} (hC : C.Shapes) {Xu : List α} {added new : List (Nat × Int)} {mj mk : M}
    {threshold : Option Rat} {conf : Nat → Rat} {maxNew : Option Nat} {Q : Nat → Prop}
    (h1 : (added.map (·.1)).Nodup ∧ ∀ p ∈ added.map (·.1), p < Xu.length)
    (h2 : IsTopSelection (fun p => p ∉ added.map (·.1) ∧ (∃ c, BothConfident C Xu threshold mj mk p c) ∧ Q p)
      conf maxNew (new.map (·.1))) :
    ((added ++ new).map (·.1)).Nodup ∧ ∀ p ∈ (added ++ new).map (·.1), p < Xu.length := by
  rw [List.map_append]
  refine ⟨List.nodup_append.mpr ⟨h1.1, h2.nodup, ?_⟩, ?_⟩
  · intro a ha b hb hab
    subst hab
    exact (h2.sound a hb).1 ha
  · intro p hp
    rcases List.mem_append.mp hp with hp | hp
    · exact h1.2 p hp
    · obtain ⟨-, ⟨c, sj, sk, rj, rk, vj, vk, a1, -, a3, -⟩, -⟩ := h2.sound p hp
      rw [← hC.rows _ _ _ a1]
      by_contra hh
      rw [List.getElem?_eq_none (by omega)] at a3
      simp at a3

theorem triLoop_spec (C : Clf M α) (hC : C.Shapes) {top : Top} (htop : IsTop top) {P : TriParams}
    {maxNew : Option Nat} (hmax : P.maxNew = maxNew.map fun (k : Nat) => (k : Int)) {X : List α} {y : List Int}
    (hXy : X.length = y.length) (Xu : List α) {boot : Fin 3 → List Nat} (hb : ∀ i, ∀ j ∈ boot i, j < X.length) :
    ∀ (fuel : Nat) (m : Fin 3 → M) (a : Fin 3 → List (Nat × Int)) (t : Nat) (r : TriResult M), Tidy Xu a →
      triLoop C top P X y Xu boot fuel m a t = .ok r →
      ∃ n, Steps (TriStep (SameColumn C Xu) C X y Xu boot P.threshold maxNew) n a r.added ∧ Tidy Xu r.added ∧
        (∀ i, a i <+: r.added i) ∧ n ≤ fuel ∧ r.rounds = t + n ∧ total a + n ≤ total r.added ∧
        (n = fuel ∨ TriStep (SameColumn C Xu) C X y Xu boot P.threshold maxNew r.added r.added) := by
  intro fuel
  induction fuel with
  | zero =>
    intro m a t r ha h
    simp only [triLoop, Except.ok.injEq] at h
    subst h
    exact ⟨0, .zero _, ha, fun i => List.prefix_rfl, le_rfl, rfl, le_rfl, .inl rfl⟩
  | succ fuel ih =>
    intro m a t r ha h
    simp only [triLoop] at h
    rw [ebind_ok] at h
    obtain ⟨ms, hms, h⟩ := h
    rw [ebind_ok] at h
    obtain ⟨p0, h0, h⟩ := h
    rw [ebind_ok] at h
    obtain ⟨p1, h1, h⟩ := h
    rw [ebind_ok] at h
    obtain ⟨p2, h2, h⟩ := h
    have hfit := triTrainAll_ok hXy hb (fun i => (ha i).1) (fun i => (ha i).2) hms
    rw [others_eq] at h0 h1 h2
    obtain ⟨c0, k0, s0, l0⟩ := triPick_spec C hC htop hmax h0
    obtain ⟨c1, k1, s1, l1⟩ := triPick_spec C hC htop hmax h1
    obtain ⟨c2, k2, s2, l2⟩ := triPick_spec C hC htop hmax h2
    have hstep : TriStep (SameColumn C Xu) C X y Xu boot P.threshold maxNew a
        (three (a 0 ++ p0) (a 1 ++ p1) (a 2 ++ p2)) := by
      refine ⟨ms, hfit, fun i => ?_⟩
      match i with
      | 0 => exact ⟨p0, c0, rfl, k0, s0, l0⟩
      | 1 => exact ⟨p1, c1, rfl, k1, s1, l1⟩
      | 2 => exact ⟨p2, c2, rfl, k2, s2, l2⟩
    by_cases hz : p0.length + p1.length + p2.length = 0
    · rw [if_pos hz] at h
      simp only [Except.ok.injEq] at h
      subst h
      refine ⟨0, .zero _, ha, fun i => List.prefix_rfl, Nat.zero_le _, rfl, le_rfl, .inr ?_⟩
      have e0 : p0 = [] := List.length_eq_zero_iff.mp (by omega)
      have e1 : p1 = [] := List.length_eq_zero_iff.mp (by omega)
      have e2 : p2 = [] := List.length_eq_zero_iff.mp (by omega)
      have : three (a 0 ++ p0) (a 1 ++ p1) (a 2 ++ p2) = a := by
        funext i
        rw [e0, e1, e2]
        match i with
        | 0 => exact List.append_nil _
        | 1 => exact List.append_nil _
        | 2 => exact List.append_nil _
      rw [this] at hstep
      exact hstep
    · rw [if_neg hz] at h
      have ha' : Tidy Xu (three (a 0 ++ p0) (a 1 ++ p1) (a 2 ++ p2)) := by
        intro i
        match i with
        | 0 => exact tidy_append hC (ha 0) s0
        | 1 => exact tidy_append hC (ha 1) s1
        | 2 => exact tidy_append hC (ha 2) s2
      obtain ⟨n, r1, r2, r3, r4, r5, r6, r7⟩ := ih ms _ _ r ha' h
      refine ⟨n + 1, .succ hstep r1, r2, fun i => ?_, by omega, by omega, ?_, ?_⟩
      · refine List.IsPrefix.trans ?_ (r3 i)
        match i with
        | 0 => exact List.prefix_append _ _
        | 1 => exact List.prefix_append _ _
        | 2 => exact List.prefix_append _ _
      · have : total (three (a 0 ++ p0) (a 1 ++ p1) (a 2 ++ p2)) = total a + (p0.length + p1.length + p2.length) := by
          unfold total
          simp only [three, List.length_append]
          omega
        omega
      · rcases r7 with r7 | r7
        · exact .inl (by omega)
        · exact .inr r7

/-- **C57 (what holds for every classifier).**  If tri-training returns, it ran at most `max_iter` rounds
and at most as many as there are pseudo-labels; in every round each classifier received, at most once per
sample, the most confident samples on which its two peers score the same *column* highest, with the number
of that column as the label; earlier pseudo-labels stay; and the final models are fitted on the bootstrap
samples and the pseudo-labels.  Missing: the number of the column need not be the class label the peers
predict, see `C57_agreed_label_violated`. -/
theorem C57_agreed_column_partial (C : Clf M α) (hC : C.Shapes) (top : Top) (htop : IsTop top) (maxIter : Int)
    (threshold : Option Rat) (maxNew : Option Nat) (m : Fin 3 → M) (X : List α) (y : List Int)
    (Xu : Option (List α)) (boot : Fin 3 → List Nat) (hb : ∀ i, ∀ j ∈ boot i, j < X.length) (r : TriResult M)
    (h : triFit C top ⟨maxIter, threshold, maxNew.map fun (k : Nat) => (k : Int)⟩ m X y Xu boot = .ok r) :
    ∃ xu, Xu = some xu ∧
      Steps (TriStep (SameColumn C xu) C X y xu boot threshold maxNew) r.rounds (fun _ => []) r.added ∧
      (∀ i, ((r.added i).map (·.1)).Nodup ∧ ∀ x ∈ r.added i, x.1 < xu.length) ∧
      r.rounds ≤ maxIter.toNat ∧ r.rounds ≤ (r.added 0).length + (r.added 1).length + (r.added 2).length ∧
      (∀ i, TriFitted C X y xu (boot i) (r.added i) (r.models i)) ∧
      (r.rounds = maxIter.toNat ∨
        TriStep (SameColumn C xu) C X y xu boot threshold maxNew r.added r.added) := by
  unfold triFit at h
  rw [ebind_ok] at h
  obtain ⟨_, hchk, h⟩ := h
  obtain ⟨hal, -⟩ := checkLabeled_ok hchk
  cases Xu with
  | none => simp at h
  | some xu =>
    simp only at h
    rw [ebind_ok] at h
    obtain ⟨r0, hr0, h⟩ := h
    rw [ebind_ok] at h
    obtain ⟨ms, hms, h⟩ := h
    simp only [Except.ok.injEq] at h
    subst h
    obtain ⟨n, a1, a2, a3, a4, a5, a6, a7⟩ := triLoop_spec C hC htop (maxNew := maxNew) rfl hal xu hb _ _
      (fun _ => []) _ _ (fun i => ⟨List.nodup_nil, by simp⟩) hr0
    have hn : r0.rounds = n := by omega
    have a4 : n ≤ maxIter.toNat := a4
    have a7 : n = maxIter.toNat ∨ _ := a7
    refine ⟨xu, rfl, ?_, fun i => ⟨(a2 i).1, fun x hx => (a2 i).2 _ (List.mem_map_of_mem hx)⟩, ?_, ?_, ?_, ?_⟩
    · show Steps _ r0.rounds _ _
      rw [hn]
      exact a1
    · show r0.rounds ≤ _
      omega
    · show r0.rounds ≤ total r0.added
      have : total (fun _ : Fin 3 => ([] : List (Nat × Int))) = 0 := rfl
      omega
    · exact triTrainAll_ok hal hb (fun i => (a2 i).1) (fun i => (a2 i).2) hms
    · rcases a7 with a7 | a7
      · exact .inl (by show r0.rounds = _; omega)
      · exact .inr a7

/-! ### When the columns are the labels -/

theorem classes_range {l : List Int} {K : Nat} (hs : l.Pairwise (· < ·)) (hm : ∀ x, x ∈ l ↔ 0 ≤ x ∧ x < (K : Int)) :
    l = (List.range K).map fun (c : Nat) => (c : Int) := by
  have hs' : ((List.range K).map fun (c : Nat) => (c : Int)).Pairwise (· < ·) := by
    rw [List.pairwise_map]
    exact List.pairwise_lt_range.imp (by intro a b h; exact_mod_cast h)
  have hp : l ~ (List.range K).map fun (c : Nat) => (c : Int) := by
    rw [List.perm_ext_iff_of_nodup (hs.imp fun h => Int.ne_of_lt h) (hs'.imp fun h => Int.ne_of_lt h)]
    intro x
    rw [hm, List.mem_map]
    constructor
    · rintro ⟨h1, h2⟩
      exact ⟨x.toNat, List.mem_range.mpr (by omega), by omega⟩
    · rintro ⟨c, hc, rfl⟩
      have := List.mem_range.mp hc
      omega
  exact hp.eq_of_pairwise (by intro x y _ _ h1 h2; omega) hs hs'

theorem triFitted_classes {C : Clf M α} {classes : M → List Int} (hS : SortedClasses C classes) {X : List α}
    {y : List Int} {xu : List α} {boot : List Nat} {added : List (Nat × Int)} {m : M} {K : Nat}
    (hK : ∀ l, l ∈ entriesAt y boot ↔ 0 ≤ l ∧ l < (K : Int))
    (ha : ∀ x ∈ added, 0 ≤ x.2 ∧ x.2 < (K : Int)) (h : TriFitted C X y xu boot added m) :
    classes m = (List.range K).map fun (c : Nat) => (c : Int) := by
  obtain ⟨m0, idx, labels, -, hz, hl, hf⟩ := h
  refine classes_range (hS.sorted m) fun x => ?_
  rw [hS.fitted _ _ _ _ hf, List.mem_append, hK]
  refine ⟨fun h => h.elim id fun hx => ?_, .inl⟩
  obtain ⟨q, hq, rfl⟩ := List.getElem_of_mem hx
  have : (idx[q]'(by omega), labels[q]) ∈ idx.zip labels := by
    rw [List.mem_iff_getElem]
    exact ⟨q, by rw [List.length_zip]; omega, by simp⟩
  exact ha _ (hz.mem_iff.mp this)

theorem sameColumn_iff {C : Clf M α} (hC : C.Shapes) {classes : M → List Int} (hS : SortedClasses C classes)
    {xu : List α} {threshold : Option Rat} {mj mk : M} {K : Nat}
    (hj : classes mj = (List.range K).map fun (c : Nat) => (c : Int))
    (hk : classes mk = (List.range K).map fun (c : Nat) => (c : Int)) {p : Nat} {v : Rat}
    (hv : BothConfident C xu threshold mj mk p v) (l : Int) :
    (SameColumn C xu mj mk p l ↔ SameLabel C xu mj mk p l) ∧
    (SameColumn C xu mj mk p l → 0 ≤ l ∧ l < (K : Int)) := by
  obtain ⟨sj, sk, rj, rk, vj, vk, a1, a2, a3, a4, a5, a6, -, -⟩ := hv
  obtain ⟨yj, p1, p2⟩ := hS.predict _ _ _ a1
  obtain ⟨yk, p3, p4⟩ := hS.predict _ _ _ a2
  have hrj : rj.length = K := by
    rw [hC.rect _ _ _ a1 rj (List.mem_of_getElem? a3), hS.width _ _ _ a1, hj]; simp
  have hrk : rk.length = K := by
    rw [hC.rect _ _ _ a2 rk (List.mem_of_getElem? a4), hS.width _ _ _ a2, hk]; simp
  have hcls : ∀ c : Nat, c < K → ((List.range K).map fun (c : Nat) => (c : Int))[c]? = some (c : Int) := by
    intro c hc
    rw [List.getElem?_map, List.getElem?_range hc]
    rfl
  have hlt : ∀ (r : List Rat) (c : Nat), IsFirstMax r c → c < r.length := by
    rintro r c ⟨v, h, -, -⟩
    by_contra hh
    rw [List.getElem?_eq_none (by omega)] at h
    simp at h
  have hfw : SameColumn C xu mj mk p l → SameLabel C xu mj mk p l ∧ 0 ≤ l ∧ l < (K : Int) := by
    rintro ⟨sj', sk', rj', rk', c, b1, b2, b3, b4, b5, b6, rfl⟩
    rw [a1] at b1
    rw [a2] at b2
    obtain rfl := Except.ok.inj b1
    obtain rfl := Except.ok.inj b2
    rw [a3] at b3
    rw [a4] at b4
    obtain rfl := Option.some.inj b3
    obtain rfl := Option.some.inj b4
    have hc : c < K := hrj ▸ hlt _ _ b5
    refine ⟨⟨yj, yk, p1, p3, ?_, ?_⟩, by omega, by omega⟩
    · rw [p2 p rj c a3 b5, hj, hcls c hc]
    · rw [p4 p rk c a4 b6, hk, hcls c hc]
  refine ⟨⟨fun h => (hfw h).1, ?_⟩, fun h => (hfw h).2⟩
  rintro ⟨yj', yk', q1, q3, q5, q6⟩
  rw [p1] at q1
  rw [p3] at q3
  obtain rfl := Except.ok.inj q1
  obtain rfl := Except.ok.inj q3
  have fj := argmax_isFirstMax (r := rj) (by intro e; rw [e] at a5; simpa [IsLargest] using a5.1)
  have fk := argmax_isFirstMax (r := rk) (by intro e; rw [e] at a6; simpa [IsLargest] using a6.1)
  rw [p2 p rj _ a3 fj, hj, hcls _ (hrj ▸ hlt _ _ fj)] at q5
  rw [p4 p rk _ a4 fk, hk, hcls _ (hrk ▸ hlt _ _ fk)] at q6
  have e5 := Option.some.inj q5
  have e6 := Option.some.inj q6
  have e : Evaluation.argmax rk = Evaluation.argmax rj := by omega
  rw [e] at fk
  exact ⟨sj, sk, rj, rk, _, a1, a2, a3, a4, fj, fk, e5.symm⟩

theorem steps_sameLabel {C : Clf M α} (hC : C.Shapes) {classes : M → List Int} (hS : SortedClasses C classes)
    {X : List α} {y : List Int} {xu : List α} {boot : Fin 3 → List Nat} {threshold : Option Rat}
    {maxNew : Option Nat} {K : Nat} (hK : ∀ i l, l ∈ entriesAt y (boot i) ↔ 0 ≤ l ∧ l < (K : Int)) {n : Nat}
    {a a' : Fin 3 → List (Nat × Int)} (h : Steps (TriStep (SameColumn C xu) C X y xu boot threshold maxNew) n a a') :
    (∀ i, ∀ x ∈ a i, 0 ≤ x.2 ∧ x.2 < (K : Int)) →
    Steps (TriStep (SameLabel C xu) C X y xu boot threshold maxNew) n a a' := by
  induction h with
  | zero s => intro _; exact .zero _
  | @succ n s s1 s2 h1 _ ih =>
    intro ha
    obtain ⟨models, hf, hi⟩ := h1
    have hcl := fun i => triFitted_classes hS (hK i) (ha i) (hf i)
    have hiff := fun (i : Fin 3) (p : Nat) (v : Rat)
        (hv : BothConfident C xu threshold (models (peers i).1) (models (peers i).2) p v) (l : Int) =>
      sameColumn_iff hC hS (hcl (peers i).1) (hcl (peers i).2) hv l
    refine .succ ⟨models, hf, fun i => ?_⟩ (ih fun i x hx => ?_)
    · obtain ⟨new, conf, e, c1, c2, c3⟩ := hi i
      refine ⟨new, conf, e, c1, ?_, ?_⟩
      · refine topSel_congr (fun p => ?_) (fun _ _ => rfl) c2
        constructor
        · rintro ⟨q1, ⟨v, hv⟩, l, hl⟩
          exact ⟨q1, ⟨v, hv⟩, l, (hiff i p v hv l).1.mp hl⟩
        · rintro ⟨q1, ⟨v, hv⟩, l, hl⟩
          exact ⟨q1, ⟨v, hv⟩, l, (hiff i p v hv l).1.mpr hl⟩
      · intro x hx
        obtain ⟨q1, ⟨v, hv⟩, -⟩ := c2.sound x.1 (List.mem_map_of_mem hx)
        exact (hiff i x.1 v hv x.2).1.mp (c3 x hx)
    · obtain ⟨new, conf, e, c1, c2, c3⟩ := hi i
      rw [e] at hx
      rcases List.mem_append.mp hx with hx | hx
      · exact ha i x hx
      · obtain ⟨q1, ⟨v, hv⟩, -⟩ := c2.sound x.1 (List.mem_map_of_mem hx)
        exact (hiff i x.1 v hv x.2).2 (c3 x hx)

/-- **C57 (labels).**  If the labels of every bootstrap sample are exactly `0 .. K-1` and the classifier
keeps the classes it was fitted on in increasing order and predicts the class of its first best column,
then in every round each classifier receives the most confident samples on which its peers predict the
same class label, with that label.  Missing: other label sets and bootstrap samples without some class,
where the claim fails, see `C57_agreed_label_violated`. -/
theorem C57_agreed_label_partial (C : Clf M α) (hC : C.Shapes) (classes : M → List Int)
    (hS : SortedClasses C classes) (top : Top) (htop : IsTop top) (maxIter : Int)
    (threshold : Option Rat) (maxNew : Option Nat) (m : Fin 3 → M) (X : List α) (y : List Int)
    (Xu : Option (List α)) (boot : Fin 3 → List Nat) (hb : ∀ i, ∀ j ∈ boot i, j < X.length) (K : Nat)
    (hK : ∀ i l, l ∈ entriesAt y (boot i) ↔ 0 ≤ l ∧ l < (K : Int)) (r : TriResult M)
    (h : triFit C top ⟨maxIter, threshold, maxNew.map fun (k : Nat) => (k : Int)⟩ m X y Xu boot = .ok r) :
    ∃ xu, Xu = some xu ∧
      Steps (TriStep (SameLabel C xu) C X y xu boot threshold maxNew) r.rounds (fun _ => []) r.added := by
  obtain ⟨xu, e, hs, -⟩ := C57_agreed_column_partial C hC top htop maxIter threshold maxNew m X y Xu boot hb r h
  exact ⟨xu, e, steps_sameLabel hC hS hK hs (by simp)⟩

/-! ### Counterexamples -/

/-- A classifier that knows the classes it was fitted on and scores the class named by the sample. -/
def nameClf : Clf (List Int) Int where
  fit _ _ y := if y = [] then .error .valueError else .ok y
  scores m X := if m = [] then .error .valueError
    else .ok ⟨(npUnique m).length, X.map fun (x : Int) => (npUnique m).map fun (c : Int) => if c = x then (1 : Rat) else 0⟩
  predict m X := if m = [] then .error .valueError
    else .ok (X.map fun (x : Int) => (npUnique m).getD
      (Evaluation.argmax ((npUnique m).map fun (c : Int) => if c = x then (1 : Rat) else 0)) 0)

theorem npUnique_ne_nil {m : List Int} (h : m ≠ []) : npUnique m ≠ [] := by
  obtain ⟨a, t, rfl⟩ := List.exists_cons_of_ne_nil h
  exact List.ne_nil_of_mem (mem_npUnique.mpr (List.mem_cons_self ..))

theorem nameClf_scores {m : List Int} {X : List Int} {s : Scores} (h : nameClf.scores m X = .ok s) :
    m ≠ [] ∧ s = ⟨(npUnique m).length,
      X.map fun (x : Int) => (npUnique m).map fun (c : Int) => if c = x then (1 : Rat) else 0⟩ := by
  simp only [nameClf] at h
  by_cases hm : m = []
  · rw [if_pos hm] at h; simp at h
  · rw [if_neg hm] at h
    exact ⟨hm, (Except.ok.inj h).symm⟩

theorem nameClf_shapes : nameClf.Shapes where
  rows m X s h := by rw [(nameClf_scores h).2]; simp
  rect m X s h := by
    rw [(nameClf_scores h).2]
    intro r hr
    obtain ⟨x, -, rfl⟩ := List.mem_map.mp hr
    simp
  cols m X s h := by
    rw [(nameClf_scores h).2]
    exact List.length_pos_iff.mpr (npUnique_ne_nil (nameClf_scores h).1)
  labels m X y h := by
    simp only [nameClf] at h
    by_cases hm : m = []
    · rw [if_pos hm] at h; simp at h
    · rw [if_neg hm] at h
      rw [← Except.ok.inj h]
      simp

theorem nameClf_sorted : SortedClasses nameClf npUnique where
  sorted m := by
    have := List.Pairwise.and (npUnique_sorted m) (nodup_npUnique m)
    exact this.imp (by intro a b h; omega)
  fitted m0 X y m h l := by
    simp only [nameClf] at h
    by_cases hy : y = []
    · rw [if_pos hy] at h; simp at h
    · rw [if_neg hy] at h
      rw [← Except.ok.inj h, mem_npUnique]
  width m X s h := by rw [(nameClf_scores h).2]
  predict m X s h := by
    obtain ⟨hm, rfl⟩ := nameClf_scores h
    refine ⟨_, by simp only [nameClf]; rw [if_neg hm], ?_⟩
    intro p row c hrow hc
    rw [List.getElem?_map] at hrow ⊢
    obtain ⟨x, hx, rfl⟩ := Option.map_eq_some_iff.mp hrow
    rw [hx]
    have hne : ((npUnique m).map fun (c : Int) => if c = x then (1 : Rat) else 0) ≠ [] := by
      simpa using npUnique_ne_nil hm
    have e := isFirstMax_unique hc (argmax_isFirstMax hne)
    have hlt := Evaluation.argmax_lt hne
    rw [List.length_map] at hlt
    subst e
    simp only [Option.map_some]
    rw [List.getD_eq_getElem _ _ hlt, List.getElem?_eq_getElem hlt]

theorem triFitted_nil {C : Clf M α} {X : List α} {y : List Int} {xu : List α} {boot : List Nat} {m : M}
    (h : TriFitted C X y xu boot [] m) : ∃ m0, C.fit m0 (entriesAt X boot) (entriesAt y boot) = .ok m := by
  obtain ⟨m0, idx, labels, -, hz, hl, hf⟩ := h
  have := hz.length_eq
  rw [List.length_zip, List.length_nil] at this
  have e1 : idx = [] := List.length_eq_zero_iff.mp (by omega)
  have e2 : labels = [] := List.length_eq_zero_iff.mp (by omega)
  subst e1 e2
  refine ⟨m0, ?_⟩
  simpa [entriesAt] using hf

theorem name_run {boot : Fin 3 → List Nat} {X y xu : List Int} {l : List (List (Nat × Int))}
    (h : (triFit nameClf (npTop demoArgsort) ⟨1, none, none⟩ (fun _ => []) X y (some xu) boot).map
      (fun r => [r.added 0, r.added 1, r.added 2]) = .ok l) :
    ∃ r, triFit nameClf (npTop demoArgsort) ⟨1, none, none⟩ (fun _ => []) X y (some xu) boot = .ok r ∧
      [r.added 0, r.added 1, r.added 2] = l := by
  cases hr : triFit nameClf (npTop demoArgsort) ⟨1, none, none⟩ (fun _ => []) X y (some xu) boot with
  | error e => rw [hr] at h; simp [Except.map] at h
  | ok r =>
    rw [hr] at h
    exact ⟨r, rfl, Except.ok.inj h⟩

/-- **C57, violated (labels that are not 0..C-1).**  Labels 3 and 7, complete bootstrap samples: both peers
predict class 7 for the unlabeled sample, and classifier 0 receives it with label 1, which is no label of
the data set at all. -/
theorem C57_agreed_label_violated :
    nameClf.Shapes ∧ SortedClasses nameClf npUnique ∧ ∃ r,
      triFit nameClf (npTop demoArgsort) ⟨1, none, none⟩ (fun _ => []) [3, 7] [3, 7] (some [7]) (fun _ => [0, 1]) = .ok r ∧
      r.added 0 = [(0, 1)] ∧
      ∀ m, TriFitted nameClf [3, 7] [3, 7] [7] [0, 1] [] m → nameClf.predict m [7] = .ok [7] := by
  obtain ⟨r, h1, h2⟩ := name_run (boot := fun _ => [0, 1]) (X := [3, 7]) (y := [3, 7]) (xu := [7])
    (l := [[(0, 1)], [(0, 1)], [(0, 1)]]) (by decide +kernel)
  refine ⟨nameClf_shapes, nameClf_sorted, r, h1, (List.cons.inj h2).1, fun m hm => ?_⟩
  obtain ⟨m0, hf⟩ := triFitted_nil hm
  have : m = [3, 7] := (Except.ok.inj hf).symm
  subst this
  decide +kernel

/-- **C57, violated (a bootstrap sample without some class).**  Labels 0, 1, 2; classifier 1 saw only 0 and
2, classifier 2 only 1 and 2.  They predict different classes for the sample, and classifier 0 receives it
as agreed. -/
theorem C57_agreed_label_bootstrap_violated : ∃ (r : TriResult (List Int)) (boot : Fin 3 → List Nat),
      boot 1 = [0, 2] ∧ boot 2 = [1, 2] ∧
      triFit nameClf (npTop demoArgsort) ⟨1, none, none⟩ (fun _ => []) [0, 1, 2] [0, 1, 2] (some [0]) boot = .ok r ∧
      r.added 0 = [(0, 0)] ∧
      (∀ m, TriFitted nameClf [0, 1, 2] [0, 1, 2] [0] (boot 1) [] m → nameClf.predict m [0] = .ok [0]) ∧
      (∀ m, TriFitted nameClf [0, 1, 2] [0, 1, 2] [0] (boot 2) [] m → nameClf.predict m [0] = .ok [1]) := by
  obtain ⟨r, h1, h2⟩ := name_run (boot := three [0, 1, 2] [0, 2] [1, 2]) (X := [0, 1, 2]) (y := [0, 1, 2])
    (xu := [0]) (l := [[(0, 0)], [(0, 0)], [(0, 0)]]) (by decide +kernel)
  refine ⟨r, three [0, 1, 2] [0, 2] [1, 2], rfl, rfl, h1, (List.cons.inj h2).1, fun m hm => ?_, fun m hm => ?_⟩
  · obtain ⟨m0, hf⟩ := triFitted_nil hm
    have : m = [0, 2] := (Except.ok.inj hf).symm
    subst this
    decide +kernel
  · obtain ⟨m0, hf⟩ := triFitted_nil hm
    have : m = [1, 2] := (Except.ok.inj hf).symm
    subst this
    decide +kernel

/-- A run in which the labels are 0 and 1 and every bootstrap sample has both. -/
example : (triFit nameClf (npTop demoArgsort) ⟨5, some (1/2), some 1⟩ (fun _ => []) [0, 1] [0, 1] (some [1, 0, 1])
    (three [0, 1] [1, 0] [1, 0])).map (fun r => [r.added 0, r.added 1, r.added 2])
    = .ok [[(2, 1), (1, 0), (0, 1)], [(2, 1), (1, 0), (0, 1)], [(2, 1), (1, 0), (0, 1)]] := by decide +kernel

/-! ### No classifier is trained in place of another -/

theorem triTrain_keeps {C : Clf M α} {P : M → Prop} (hP : ∀ m X y m', P m → C.fit m X y = .ok m' → P m') {X : List α} {y : List Int}
    {Xu : List α} {boot : List Nat} {added : List (Nat × Int)} {m m' : M} (h0 : P m)
    (h : triTrain C X y Xu boot added m = .ok m') : P m' := by
  simp only [triTrain, ebind_ok] at h
  obtain ⟨Xb, -, yb, -, Xa, -, h⟩ := h
  exact hP _ _ _ _ h0 h

theorem triTrainAll_keeps {C : Clf M α} {P : Fin 3 → M → Prop} (hP : ∀ i m X y m', P i m → C.fit m X y = .ok m' → P i m')
    {X : List α} {y : List Int} {Xu : List α} {boot : Fin 3 → List Nat} {added : Fin 3 → List (Nat × Int)} {ms ms' : Fin 3 → M}
    (h0 : ∀ i, P i (ms i)) (h : triTrainAll C X y Xu boot added ms = .ok ms') : ∀ i, P i (ms' i) := by
  simp only [triTrainAll, ebind_ok] at h
  obtain ⟨m0, e0, m1, e1, m2, e2, h⟩ := h
  obtain rfl := Except.ok.inj h
  intro i
  match i with
  | 0 => exact triTrain_keeps (hP 0) (h0 0) e0
  | 1 => exact triTrain_keeps (hP 1) (h0 1) e1
  | 2 => exact triTrain_keeps (hP 2) (h0 2) e2

theorem triLoop_keeps {C : Clf M α} {top : Top} {T : TriParams} {P : Fin 3 → M → Prop}
    (hP : ∀ i m X y m', P i m → C.fit m X y = .ok m' → P i m') {X : List α} {y : List Int} {Xu : List α} {boot : Fin 3 → List Nat} :
    ∀ {fuel : Nat} {ms : Fin 3 → M} {added : Fin 3 → List (Nat × Int)} {t : Nat} {r : TriResult M}, (∀ i, P i (ms i)) →
      triLoop C top T X y Xu boot fuel ms added t = .ok r → ∀ i, P i (r.models i)
  | 0, ms, added, t, r, h0, h => by
    obtain rfl := Except.ok.inj h
    exact h0
  | fuel + 1, ms, added, t, r, h0, h => by
    simp only [triLoop, ebind_ok] at h
    obtain ⟨ms', e, p0, -, p1, -, p2, -, h⟩ := h
    have h1 := triTrainAll_keeps hP h0 e
    split_ifs at h with hz
    · obtain rfl := Except.ok.inj h
      exact h1
    · exact triLoop_keeps hP h1 h

/-- **C57 (own classifier).**  Each of the three classifiers stays the one it was: whatever holds of classifier `i` before
`fit`, and is kept by training it, holds of classifier `i` afterwards. -/
theorem C57_own (C : Clf M α) (top : Top) (T : TriParams) (m : Fin 3 → M) (X : List α) (y : List Int) (Xu : Option (List α))
    (boot : Fin 3 → List Nat) (r : TriResult M) (h : triFit C top T m X y Xu boot = .ok r) (P : Fin 3 → M → Prop)
    (hP : ∀ i m X y m', P i m → C.fit m X y = .ok m' → P i m') (h0 : ∀ i, P i (m i)) : ∀ i, P i (r.models i) := by
  unfold triFit at h
  obtain ⟨u, -, h⟩ := ebind_ok.mp h
  cases Xu with
  | none => cases h
  | some xu =>
    simp only [ebind_ok] at h
    obtain ⟨r1, e1, ms, e2, h⟩ := h
    obtain rfl := Except.ok.inj h
    exact triTrainAll_keeps hP (triLoop_keeps hP h0 e1) e2

/-- Objects that remember their number. -/
example : ∃ r, triFit (⟨fun m _ _ => .ok m, fun _ X => .ok ⟨1, X.map fun _ => [1]⟩, fun _ X => .ok (X.map fun _ => 0)⟩ : Clf Nat Nat)
    (npTop demoArgsort) ⟨1, none, none⟩ (fun i => i.val) [4, 5] [0, 0] (some [6]) (fun _ => [0, 1]) = .ok r ∧
      ∀ i, r.models i = i.val := by
  have h : ∃ r, triFit (⟨fun m _ _ => .ok m, fun _ X => .ok ⟨1, X.map fun _ => [1]⟩, fun _ X => .ok (X.map fun _ => 0)⟩ : Clf Nat Nat)
      (npTop demoArgsort) ⟨1, none, none⟩ (fun i => i.val) [4, 5] [0, 0] (some [6]) (fun _ => [0, 1]) = .ok r := ⟨_, rfl⟩
  obtain ⟨r, hr⟩ := h
  exact ⟨r, hr, C57_own _ _ _ _ _ _ _ _ r hr (fun i m => m = i.val)
    (fun i m X y m' h e => by rw [← Except.ok.inj e]; exact h) fun _ => rfl⟩

end ModSSC.Inductive
