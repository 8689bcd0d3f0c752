import Verif.Inductive.S4vmModel
import Verif.Inductive.S4vmSpec
import Verif.Inductive.LoopProps
import Verif.Sampling.SplitLemmas
import Verif.Evaluation.Props

/-!
# Proofs about S4VM (C117)
-/

namespace ModSSC.Inductive
open ModSSC ModSSC.Inductive.Spec

variable {M α : Type}

theorem flipAt_length (a b : Int) (pred : List Int) (order : List Nat) :
    (flipAt a b pred order).length = pred.length := by simp [flipAt]

theorem flipAt_get (a b : Int) (pred : List Int) (order : List Nat) (i : Nat) (hi : i < pred.length) :
    (flipAt a b pred order).getD i 0 =
      if i ∈ order then (if pred.getD i 0 = a then b else a) else pred.getD i 0 := by
  rw [List.getD_eq_getElem (flipAt a b pred order) _ (by rw [flipAt_length]; exact hi)]
  unfold flipAt
  rw [List.getElem_map, List.getElem_range]

theorem flipCount_le (rate : Rat) (i n : Nat) : flipCount rate i n ≤ n := by
  obtain ⟨h1, -, h3⟩ := Sampling.pyRound_nearest (min (rate * ((i : Rat) + 1)) (1 / 2) * (n : Rat))
  have hle : min (rate * ((i : Rat) + 1)) (1 / 2) * (n : Rat) ≤ 1 / 2 * n :=
    mul_le_mul_of_nonneg_right (min_le_right _ _) (Nat.cast_nonneg n)
  unfold flipCount
  by_contra hc
  have hc' : (n : Int) + 1 ≤ pyRound (min (rate * ((i : Rat) + 1)) (1 / 2) * (n : Rat)) := by omega
  have hq : (n : Rat) + 1 ≤ (pyRound (min (rate * ((i : Rat) + 1)) (1 / 2) * (n : Rat)) : Rat) := by exact_mod_cast hc'
  have hn : (0 : Rat) ≤ n := Nat.cast_nonneg n
  linarith

/-- The labels of a candidate differ from the predictions of the baseline exactly at the least confident samples. -/
theorem candidateLabels_spec {argsort : List Rat → List Nat} (hA : IsArgsortQ argsort) (rate : Rat) (i : Nat)
    (a b : Int) (pred : List Int) (conf : List Rat) (hl : conf.length = pred.length) :
    ∃ n, FlipNumber rate i pred.length n ∧ n ≤ pred.length ∧
      FlipsLeast conf a b n pred (candidateLabels argsort rate i a b pred conf) := by
  have hnear := Sampling.pyRound_nearest (min (rate * ((i : Rat) + 1)) (1 / 2) * (pred.length : Rat))
  have hle := flipCount_le rate i pred.length
  refine ⟨(flipCount rate i pred.length).toNat, ⟨flipCount rate i pred.length, hnear, by omega⟩, by omega, ?_⟩
  unfold candidateLabels
  by_cases h : flipCount rate i pred.length ≤ 0
  · rw [if_pos h]
    have h0 : (flipCount rate i pred.length).toNat = 0 := by omega
    rw [h0]
    exact ⟨rfl, [], List.nodup_nil, rfl, by simp, by simp, fun _ _ _ => rfl, by simp⟩
  · rw [if_neg h]
    obtain ⟨hp, hs⟩ := hA conf
    have hnd : (argsort conf).Nodup := hp.nodup_iff.mpr List.nodup_range
    have hlen : (argsort conf).length = pred.length := by rw [hp.length_eq, List.length_range, hl]
    have hlt : ∀ j ∈ argsort conf, j < pred.length := fun j hj => by
      have := hp.mem_iff.mp hj
      rw [List.mem_range, hl] at this
      exact this
    refine ⟨flipAt_length _ _ _ _, (argsort conf).take (flipCount rate i pred.length).toNat,
      hnd.sublist (List.take_sublist _ _), ?_, fun j hj => hlt j (List.mem_of_mem_take hj), ?_, ?_, ?_⟩
    · rw [List.length_take, hlen]; omega
    · intro x hx j hj hjn
      have hjm : j ∈ argsort conf := hp.mem_iff.mpr (by rw [List.mem_range, hl]; exact hj)
      rw [← List.take_append_drop (flipCount rate i pred.length).toNat (argsort conf), List.pairwise_append] at hs
      refine hs.2.2 x hx j ?_
      rw [← List.take_append_drop (flipCount rate i pred.length).toNat (argsort conf), List.mem_append] at hjm
      exact hjm.resolve_left hjn
    · intro x hx hxn
      rw [flipAt_get _ _ _ _ _ hx, if_neg hxn]
    · intro x hx
      rw [flipAt_get _ _ _ _ _ (hlt x (List.mem_of_mem_take hx)), if_pos hx]

/-- What the loop returns: the first of the best among the incumbent and the remaining candidates. -/
theorem s4Loop_spec (C : Clf M α) (build : Int → M) (argsort : List Rat → List Nat) (rate : Rat) (seed : Int)
    (X : List α) (y : List Int) (pool : List α) (a b : Int) (pred : List Int) (conf : List Rat) (base : Rat) :
    ∀ (is : List Nat) (best : M) (improve : Rat) (m : M),
      s4Loop C build argsort rate seed X y pool a b pred conf base is best improve = .ok m →
      ∃ cands : List (M × List Int), cands.length = is.length ∧
        (∀ (j : Nat) (i : Nat) (c : M × List Int), is[j]? = some i → cands[j]? = some c →
          s4Candidate C build argsort rate seed X y pool a b pred conf i = .ok c) ∧
        ((m = best ∧ ∀ c ∈ cands, labelScore y c.2 - base ≤ improve) ∨
          ∃ (j : Nat) (c : M × List Int), cands[j]? = some c ∧ m = c.1 ∧ improve < labelScore y c.2 - base ∧
            (∀ c' ∈ cands, labelScore y c'.2 ≤ labelScore y c.2) ∧
            ∀ (j' : Nat) (c' : M × List Int), j' < j → cands[j']? = some c' → labelScore y c'.2 < labelScore y c.2)
  | [], best, improve, m, h => by
    unfold s4Loop at h
    injection h with h
    exact ⟨[], rfl, by simp, .inl ⟨h.symm, by simp⟩⟩
  | i :: is, best, improve, m, h => by
    unfold s4Loop at h
    obtain ⟨c, hc, h⟩ := ebind_ok.mp h
    by_cases hgt : labelScore y c.2 - base > improve
    · rw [if_pos hgt] at h
      obtain ⟨cands, hl, hall, hor⟩ := s4Loop_spec C build argsort rate seed X y pool a b pred conf base is _ _ _ h
      refine ⟨c :: cands, by simp [hl], ?_, .inr ?_⟩
      · intro j i' c' hi hc'
        cases j with
        | zero => simp only [List.getElem?_cons_zero, Option.some.injEq] at hi hc'; rw [← hi, ← hc']; exact hc
        | succ j => simp only [List.getElem?_cons_succ] at hi hc'; exact hall j i' c' hi hc'
      · rcases hor with ⟨hm, hle⟩ | ⟨j, c', hj, hm, hlt, hmax, hfirst⟩
        · refine ⟨0, c, rfl, hm, hgt, ?_, by simp⟩
          intro c' hc'
          rcases List.mem_cons.mp hc' with rfl | hc'
          · exact le_rfl
          · have := hle c' hc'; linarith
        · refine ⟨j + 1, c', by simpa using hj, hm, by linarith, ?_, ?_⟩
          · intro c'' hc''
            rcases List.mem_cons.mp hc'' with rfl | hc''
            · linarith
            · exact hmax c'' hc''
          · intro j' c'' hj' hc''
            cases j' with
            | zero => simp only [List.getElem?_cons_zero, Option.some.injEq] at hc''; rw [← hc'']; linarith
            | succ j' =>
              simp only [List.getElem?_cons_succ] at hc''
              exact hfirst j' c'' (by omega) hc''
    · rw [if_neg hgt] at h
      obtain ⟨cands, hl, hall, hor⟩ := s4Loop_spec C build argsort rate seed X y pool a b pred conf base is _ _ _ h
      refine ⟨c :: cands, by simp [hl], ?_, ?_⟩
      · intro j i' c' hi hc'
        cases j with
        | zero => simp only [List.getElem?_cons_zero, Option.some.injEq] at hi hc'; rw [← hi, ← hc']; exact hc
        | succ j => simp only [List.getElem?_cons_succ] at hi hc'; exact hall j i' c' hi hc'
      · rcases hor with ⟨hm, hle⟩ | ⟨j, c', hj, hm, hlt, hmax, hfirst⟩
        · refine .inl ⟨hm, ?_⟩
          intro c' hc'
          rcases List.mem_cons.mp hc' with rfl | hc'
          · exact not_lt.mp hgt
          · exact hle c' hc'
        · refine .inr ⟨j + 1, c', by simpa using hj, hm, hlt, ?_, ?_⟩
          · intro c'' hc''
            rcases List.mem_cons.mp hc'' with rfl | hc''
            · linarith [not_lt.mp hgt]
            · exact hmax c'' hc''
          · intro j' c'' hj' hc''
            cases j' with
            | zero =>
              simp only [List.getElem?_cons_zero, Option.some.injEq] at hc''
              rw [← hc'']
              linarith [not_lt.mp hgt]
            | succ j' =>
              simp only [List.getElem?_cons_succ] at hc''
              exact hfirst j' c'' (by omega) hc''

theorem labelScore_eq (y p : List Int) (hy : y ≠ []) (hl : p.length = y.length) :
    labelScore y p = Evaluation.Spec.accuracy y p := by
  unfold labelScore
  rw [Evaluation.C24_accuracy_textbook y p hy hl]
  rfl

theorem npUnique_pair {y : List Int} {a b : Int} (h : npUnique y = [a, b]) :
    a < b ∧ ∀ v, v ∈ y ↔ v = a ∨ v = b := by
  have hs := Evaluation.npUnique_strict y
  rw [h] at hs
  refine ⟨by simpa using hs, fun v => ?_⟩
  rw [← mem_npUnique, h]
  simp

/-- **C117 (selection).**  When S4VM succeeds, the labels have exactly two values.  The classifier it keeps is the first
one, among the classifier trained on the labeled samples and the `k` candidates, with the highest accuracy on the labeled
samples.  The `i`-th candidate is trained on all samples; its labels for the pool are the predictions of the
first classifier with the `round(min(rate * (i + 1), 1/2) * n)` least confident ones moved to the other class. -/
theorem C117_selection (C : Clf M α) (hC : C.Shapes) (build : Int → M) {argsort : List Rat → List Nat}
    (hA : IsArgsortQ argsort) (k : Int) (rate : Rat) (seed : Int) (X : List α) (y : List Int) (Xu : Option (List α))
    (m : M) (h : s4vmFit C build argsort k rate seed X y Xu = .ok m) :
    ∃ (pool : List α) (a b : Int) (base : M) (basePred pred : List Int) (sc : Scores) (conf : List Rat)
      (cands : List (M × List Int)),
      Xu = some pool ∧ a < b ∧ (∀ v, v ∈ y ↔ v = a ∨ v = b) ∧
      C.fit (build seed) X y = .ok base ∧ C.predict base X = .ok basePred ∧
      C.predict base pool = .ok pred ∧ C.scores base pool = .ok sc ∧
      conf.length = pool.length ∧ (∀ i < pool.length, IsLargest (sc.rows.getD i []) (conf.getD i 0)) ∧
      cands.length = k.toNat ∧
      (∀ (i : Nat) (c : M × List Int), cands[i]? = some c → ∃ (n : Nat) (labels : List Int),
        FlipNumber rate i pool.length n ∧ FlipsLeast conf a b n pred labels ∧
        C.fit (build (seed + i + 1)) (X ++ pool) (y ++ labels) = .ok c.1 ∧ C.predict c.1 X = .ok c.2) ∧
      ∃ (j : Nat) (p : List Int), ((base, basePred) :: cands)[j]? = some (m, p) ∧
        IsFirstMax (((base, basePred) :: cands).map fun c => Evaluation.Spec.accuracy y c.2) j := by
  unfold s4vmFit at h
  obtain ⟨⟨⟩, hck, h⟩ := ebind_ok.mp h
  obtain ⟨hXy, hyne⟩ := checkLabeled_ok hck
  cases Xu with
  | none => cases h
  | some pool =>
    simp only at h
    split at h
    case h_2 => cases h
    rename_i a b hu
    obtain ⟨hab, hmem⟩ := npUnique_pair hu
    obtain ⟨base, hbase, h⟩ := ebind_ok.mp h
    obtain ⟨bp, hbp, h⟩ := ebind_ok.mp h
    obtain ⟨sc, hsc, h⟩ := ebind_ok.mp h
    obtain ⟨pred, hpred, h⟩ := ebind_ok.mp h
    obtain ⟨conf, hconf, h⟩ := ebind_ok.mp h
    have hrows := hC.rows _ _ _ hsc
    have hrect := hC.rect _ _ _ hsc
    have hcols := hC.cols _ _ _ hsc
    have hconf' : conf = sc.rows.map rowMax := by
      unfold confidences at hconf
      rw [if_neg (by omega)] at hconf
      injection hconf with hconf
      exact hconf.symm
    have hpl : pred.length = pool.length := hC.labels _ _ _ hpred
    have hcl : conf.length = pool.length := by rw [hconf', List.length_map, hrows]
    obtain ⟨cands, hlen, hall, hor⟩ := s4Loop_spec C build argsort rate seed X y pool a b pred conf _ _ _ _ _ h
    rw [List.length_range] at hlen
    have hcand : ∀ (i : Nat) (c : M × List Int), cands[i]? = some c →
        C.fit (build (seed + i + 1)) (X ++ pool) (y ++ candidateLabels argsort rate i a b pred conf) = .ok c.1 ∧
          C.predict c.1 X = .ok c.2 := by
      intro i c hc
      have hi : i < cands.length := (List.getElem?_eq_some_iff.mp hc).1
      have := hall i i c (by rw [List.getElem?_range (by omega)]) hc
      unfold s4Candidate at this
      obtain ⟨m', hm', this⟩ := ebind_ok.mp this
      obtain ⟨p', hp', this⟩ := ebind_ok.mp this
      injection this with this
      subst this
      exact ⟨hm', hp'⟩
    have hbl : bp.length = y.length := by rw [hC.labels _ _ _ hbp, hXy]
    have hsb : labelScore y bp = Evaluation.Spec.accuracy y bp := labelScore_eq y bp hyne hbl
    have hscore : ∀ c ∈ cands, labelScore y c.2 = Evaluation.Spec.accuracy y c.2 := by
      intro c hc
      obtain ⟨i, hi, rfl⟩ := List.mem_iff_getElem.mp hc
      exact labelScore_eq y _ hyne (by
        rw [hC.labels _ _ _ (hcand i _ (List.getElem?_eq_getElem hi)).2, hXy])
    refine ⟨pool, a, b, base, bp, pred, sc, conf, cands, rfl, hab, hmem, hbase, hbp, hpred, hsc, hcl, ?_, hlen, ?_, ?_⟩
    · intro i hi
      have hr : i < sc.rows.length := by omega
      rw [List.getD_eq_getElem conf _ (by omega), List.getD_eq_getElem sc.rows _ hr]
      simp only [hconf', List.getElem_map]
      refine rowMax_spec ?_
      have := hrect _ (List.getElem_mem hr)
      intro h0
      rw [h0] at this
      simp at this
      omega
    · intro i c hc
      obtain ⟨n, hn, -, hfl⟩ := candidateLabels_spec hA rate i a b pred conf (by omega)
      rw [hpl] at hn
      exact ⟨n, _, hn, hfl, hcand i c hc⟩
    · rcases hor with ⟨hm, hle⟩ | ⟨j, c, hj, hm, hlt, hmax, hfirst⟩
      · refine ⟨0, bp, by simp [hm], Evaluation.Spec.accuracy y bp, by simp, ?_, by simp⟩
        intro x hx
        rcases List.mem_map.mp hx with ⟨c, hc, rfl⟩
        rcases List.mem_cons.mp hc with rfl | hc
        · exact le_rfl
        · have := hle c hc
          rw [hscore c hc, hsb] at this
          linarith
      · have hcm : c ∈ cands := List.mem_of_getElem? hj
        refine ⟨j + 1, c.2, by simp [hj, hm], Evaluation.Spec.accuracy y c.2, by simp [hj], ?_, ?_⟩
        · intro x hx
          rcases List.mem_map.mp hx with ⟨c', hc', rfl⟩
          rcases List.mem_cons.mp hc' with rfl | hc'
          · rw [hscore c hcm, hsb] at hlt
            simp only
            linarith
          · have := hmax c' hc'
            rw [hscore c' hc', hscore c hcm] at this
            exact this
        · intro j' x hj' hx
          cases j' with
          | zero =>
            simp only [List.map_cons, List.getElem?_cons_zero, Option.some.injEq] at hx
            rw [hscore c hcm, hsb] at hlt
            rw [← hx]
            linarith
          | succ j' =>
            simp only [List.map_cons, List.getElem?_cons_succ, List.getElem?_map, Option.map_eq_some_iff] at hx
            obtain ⟨c', hc', rfl⟩ := hx
            have := hfirst j' c' (by omega) hc'
            rw [hscore c' (List.mem_of_getElem? hc'), hscore c hcm] at this
            exact this

/-- **C117 (safety).**  The classifier S4VM keeps is never less accurate on the labeled samples than the one trained on
the labeled samples alone, and it is that one whenever the two are equally accurate. -/
theorem C117_safe (C : Clf M α) (hC : C.Shapes) (build : Int → M) {argsort : List Rat → List Nat}
    (hA : IsArgsortQ argsort) (k : Int) (rate : Rat) (seed : Int) (X : List α) (y : List Int) (Xu : Option (List α))
    (m base : M) (h : s4vmFit C build argsort k rate seed X y Xu = .ok m) (hb : C.fit (build seed) X y = .ok base) :
    ∃ p bp, C.predict m X = .ok p ∧ C.predict base X = .ok bp ∧
      Evaluation.Spec.accuracy y bp ≤ Evaluation.Spec.accuracy y p ∧
      (Evaluation.Spec.accuracy y p = Evaluation.Spec.accuracy y bp → m = base) := by
  obtain ⟨pool, a, b, base', bp, pred, sc, conf, cands, -, -, -, hbase, hbp, -, -, -, -, -, hc, j, p, hj, v, hv, hmax,
    hfirst⟩ := C117_selection C hC build hA k rate seed X y Xu m h
  rw [hb] at hbase
  injection hbase with hbase
  subst hbase
  have hjv : Evaluation.Spec.accuracy y p = v := by
    rw [List.getElem?_map, hj] at hv
    simpa using hv
  refine ⟨p, bp, ?_, hbp, ?_, ?_⟩
  · cases j with
    | zero =>
      simp only [List.getElem?_cons_zero, Option.some.injEq, Prod.mk.injEq] at hj
      rw [← hj.1, ← hj.2]; exact hbp
    | succ j =>
      simp only [List.getElem?_cons_succ] at hj
      obtain ⟨_, _, -, -, -, h2⟩ := hc j _ hj
      exact h2
  · rw [hjv]; exact hmax _ (by simp)
  · intro he
    cases j with
    | zero =>
      simp only [List.getElem?_cons_zero, Option.some.injEq, Prod.mk.injEq] at hj
      exact hj.1.symm
    | succ j =>
      have := hfirst 0 (Evaluation.Spec.accuracy y bp) (by omega) (by simp)
      rw [hjv] at he
      exact absurd he.symm (by intro h'; rw [h'] at this; exact lt_irrefl _ this)

/-- **C117 (acceptance).**  With classifiers that always train and predict, S4VM succeeds exactly for non-empty labels,
one per labeled sample and with exactly two different values, when unlabeled samples are given (possibly none). -/
theorem C117_accepts (C : Clf M α) (hC : C.Shapes) (build : Int → M) (argsort : List Rat → List Nat)
    (hfit : ∀ m X y, ∃ m', C.fit m X y = .ok m') (hpr : ∀ m X, ∃ p, C.predict m X = .ok p)
    (hs : ∀ m X, ∃ s, C.scores m X = .ok s) (k : Int) (rate : Rat) (seed : Int) (X : List α) (y : List Int)
    (Xu : Option (List α)) :
    (∃ m, s4vmFit C build argsort k rate seed X y Xu = .ok m) ↔
      X.length = y.length ∧ Xu.isSome ∧ ∃ a b, a < b ∧ ∀ v, v ∈ y ↔ v = a ∨ v = b := by
  constructor
  · rintro ⟨m, h⟩
    unfold s4vmFit at h
    obtain ⟨⟨⟩, hck, h⟩ := ebind_ok.mp h
    obtain ⟨hXy, -⟩ := checkLabeled_ok hck
    cases Xu with
    | none => cases h
    | some pool =>
      simp only at h
      split at h
      · rename_i a b hu
        exact ⟨hXy, rfl, a, b, npUnique_pair hu⟩
      · cases h
  · rintro ⟨hXy, hXu, a, b, hab, hmem⟩
    obtain ⟨pool, rfl⟩ := Option.isSome_iff_exists.mp hXu
    have hyne : y ≠ [] := by
      rintro rfl
      exact absurd ((hmem a).mpr (.inl rfl)) (by simp)
    have hu : npUnique y = [a, b] := by
      refine List.Perm.eq_of_pairwise (le := (· ≤ ·)) (fun a b _ _ => le_antisymm) (npUnique_sorted y) (by simp [hab.le])
        ((List.perm_ext_iff_of_nodup (nodup_npUnique y) (by simp [hab.ne])).mpr fun v => ?_)
      rw [mem_npUnique, hmem]
      simp
    have hck : checkLabeled X y = .ok () := by
      unfold checkLabeled
      rw [if_neg (by simpa using hXy), if_neg hyne]
    have hloop : ∀ (pred : List Int) (conf : List Rat) (bs : Rat) (is : List Nat) (best : M) (imp : Rat),
        ∃ m, s4Loop C build argsort rate seed X y pool a b pred conf bs is best imp = .ok m := by
      intro pred conf bs is
      induction is with
      | nil => exact fun best imp => ⟨best, rfl⟩
      | cons i is ih =>
        intro best imp
        obtain ⟨m, hm⟩ := hfit (build (seed + i + 1)) (X ++ pool) (y ++ candidateLabels argsort rate i a b pred conf)
        obtain ⟨p, hp⟩ := hpr m X
        have hc : s4Candidate C build argsort rate seed X y pool a b pred conf i = .ok (m, p) := by
          unfold s4Candidate
          rw [ebind_of_ok hm, ebind_of_ok hp]
        unfold s4Loop
        rw [ebind_of_ok hc]
        split
        · exact ih _ _
        · exact ih _ _
    obtain ⟨m, hm⟩ := hfit (build seed) X y
    obtain ⟨bp, hbp⟩ := hpr m X
    obtain ⟨s, hsc⟩ := hs m pool
    obtain ⟨pred, hpred⟩ := hpr m pool
    have hcf : confidences s = .ok (s.rows.map rowMax) := by
      unfold confidences
      rw [if_neg (by have := hC.cols _ _ _ hsc; omega)]
    obtain ⟨r, hr⟩ := hloop pred (s.rows.map rowMax) (labelScore y bp) (List.range k.toNat) m 0
    refine ⟨r, ?_⟩
    unfold s4vmFit
    rw [ebind_of_ok hck]
    simp only [hu]
    rw [ebind_of_ok hm, ebind_of_ok hbp, ebind_of_ok hsc, ebind_of_ok hpred, ebind_of_ok hcf]
    exact hr

/-! ### A concrete case -/

/-- A classifier on numbers: `t` says "class 1 from `t` on".  Training takes the smallest sample of class 1. -/
def stepClf : Clf Int Int where
  fit _ X y := .ok (((X.zip y).filter (fun p => p.2 = 1)).map (·.1) |>.foldl min 100)
  predict t X := .ok (X.map fun x => if t ≤ x then 1 else 0)
  scores t X := .ok ⟨2, X.map fun x => if t ≤ x then [0, 1 + (x - t : Rat)] else [1 + (t - x : Rat), 0]⟩

theorem stepClf_shapes : stepClf.Shapes where
  rows := by rintro m X s h; injection h with h; subst h; simp
  rect := by
    rintro m X s h
    injection h with h
    subst h
    intro r hr
    obtain ⟨x, -, rfl⟩ := List.mem_map.mp hr
    dsimp only
    split <;> rfl
  cols := by rintro m X s h; injection h with h; subst h; exact Nat.zero_lt_two
  labels := by rintro m X y h; injection h with h; subst h; simp

example : s4vmFit stepClf (fun _ => 0) demoArgsort 2 (1 / 4) 0 [0, 10] [0, 1] (some [3, 9, 11, 12]) = .ok 10 := by
  decide +kernel

/-- Training changes nothing: the classifier built with seed `s` says "class 1 from `s` on". -/
def seedClf : Clf Int Int := { stepClf with fit := fun m _ _ => .ok m }

/-- The third classifier (threshold 1) beats the baseline (threshold -1) and the first candidate (threshold 0). -/
example : s4vmFit seedClf id demoArgsort 5 (1 / 4) (-1) [0, 1, 2, 3] [0, 1, 1, 1] (some [0, 5]) = .ok 1 := by
  decide +kernel

example : candidateLabels demoArgsort (1 / 4) 0 0 1 [0, 0, 1, 1] [8, 2, 2, 3] = [0, 1, 1, 1] := by decide +kernel

end ModSSC.Inductive
