import Verif.Transductive.PoissonProps
import Mathlib.Data.Fin.VecNotation

/-!
# Poisson learning: acceptance and counterexamples (C102)
-/

namespace ModSSC.Transductive
open ModSSC Spec

set_option linter.unusedSectionVars false

theorem cgLoop_step {K : Type} [Field K] [LinearOrder K] {n : Nat} {sqrt : K → K} {A : (Fin n → K) → (Fin n → K)}
    {tol : K} {x r p : Fin n → K} {rs : K} {fuel k : Nat} (x' r' p' : Fin n → K) (rs' : K) (hd : dot p (A p) ≠ 0)
    (hx : ∀ i, x i + rs / dot p (A p) * p i = x' i) (hr : ∀ i, r i - rs / dot p (A p) * A p i = r' i)
    (hs : dot r' r' = rs') (hp : ∀ i, r' i + rs' / rs * p i = p' i) (ht : ¬ sqrt rs' ≤ tol) :
    cgLoop sqrt A tol (fuel + 1) k x r p rs = cgLoop sqrt A tol fuel (k + 1) x' r' p' rs' := by
  rw [cgLoop]
  simp only
  rw [if_neg hd]
  have e1 : (fun i => x i + rs / dot p (A p) * p i) = x' := funext hx
  have e2 : (fun i => r i - rs / dot p (A p) * A p i) = r' := funext hr
  rw [e1, e2, hs, if_neg ht]
  have e3 : (fun i => r i - rs / dot p (A p) * A p i + rs' / rs * p i) = p' :=
    funext fun i => by rw [hr]; exact hp i
  rw [e3]

/-- The random-walk weights of the path with nodes 0, 1, 2. -/
def pathEdges : List (WEdge Rat) := [⟨0, 1, 1 / 2⟩, ⟨1, 0, 1⟩, ⟨1, 2, 1⟩, ⟨2, 1, 1 / 2⟩]

/-- The path with nodes 0, 1, 2 as an edge list. -/
def pathIndex : List (Int × Int) := [(0, 1), (1, 0), (1, 2), (2, 1)]

theorem path_run (sqrt : Rat → Rat) (hq : ∀ x, 1 / 1000000000000 < x → 1 / 1000000 < sqrt x) :
    cgSolve sqrt (poissonOp (n := 3) pathEdges (1 / 1000000)) ![1 / 2, - (1 / 2), 0] none (1 / 1000000) 3 =
      ⟨![(28650770993935931977885016707151492223843756375000500000 / 109375589251395408163157930110359062886015723187514750001), (-44949415335828714289779594203260632851781256625000500000 / 109375589251395408163157930110359062886015723187514750001), (-18627011461013773491437522031255000000500000000000 / 62500301000625375735875539562754000075437513000001)], 3, sqrt (4827569169693142245933861232994770981814087584041516235338579381439445800793457031250000000000000000000000000 / 1329224391565551415853473850800387539218992512571415492444259865508242307415192604227164527751368101548614388889), false⟩ := by
  have e0 : ∀ i, ![(1 : Rat) / 2, - (1 / 2), 0] i - poissonOp (n := 3) pathEdges (1 / 1000000) (fun _ => 0) i =
      ![(1 : Rat) / 2, - (1 / 2), 0] i := by decide +kernel
  simp only [cgSolve, Option.getD_none]
  rw [show (fun i => ![(1 : Rat) / 2, - (1 / 2), 0] i - poissonOp (n := 3) pathEdges (1 / 1000000) (fun _ => 0) i) =
      ![(1 : Rat) / 2, - (1 / 2), 0] from funext e0]
  rw [show dot ![(1 : Rat) / 2, - (1 / 2), 0] ![(1 : Rat) / 2, - (1 / 2), 0] = 1 / 2 by decide +kernel,
    if_neg (by decide +kernel)]
  show cgLoop _ _ _ 3 0 _ _ _ _ = _
  rw [cgLoop_step ![(500000 / 1750001), (-500000 / 1750001), (0)]
      ![(-125000 / 1750001), (-125000 / 1750001), (-500000 / 1750001)]
      ![(62499875000 / 3062503500001), (-500000125000 / 3062503500001), (-500000 / 1750001)]
      (281250000000 / 3062503500001)
      (by decide +kernel) (by decide +kernel) (by decide +kernel) (by decide +kernel) (by decide +kernel)
      (not_le.2 (hq _ (by decide +kernel)))]
  rw [cgLoop_step ![(1062501375000500000 / 3500007250004750001), (-1500001625000500000 / 3500007250004750001), (-500000000000 / 2000003000001)]
      ![(-187500000000 / 1750002750001), (93750062500000000 / 1166669083334916667), (-62500000000000000 / 1166669083334916667)]
      ![(-1255862808596984376296875187500000000 / 12250050750085812575875037062509500001), (531252144533710938640625187500000000 / 12250050750085812575875037062509500001), (-828126000000312500000000000000 / 7000025000034750023500007750001)]
      (28320339843757812500000000000000000 / 1361116750009534730652781895834388889)
      (by decide +kernel) (by decide +kernel) (by decide +kernel) (by decide +kernel) (by decide +kernel)
      (not_le.2 (hq _ (by decide +kernel)))]
  rw [cgLoop_step ![(28650770993935931977885016707151492223843756375000500000 / 109375589251395408163157930110359062886015723187514750001), (-44949415335828714289779594203260632851781256625000500000 / 109375589251395408163157930110359062886015723187514750001), (-18627011461013773491437522031255000000500000000000 / 62500301000625375735875539562754000075437513000001)]
      ![(-1306887353028900390611327816406171875000000000000 / 54687767281814063174547377781490640697687512750001), (1529017052171437341952475760417016927109375000000000000 / 36458529750465136054385976703453020962005241062504916667), (438505587459812936829862452691309027812500000000000000 / 12152843250155045351461992234484340320668413687501638889)]
      ![(-499961392683109012716258180230881295214949608178847023248952195992445994249689688791990863281171875000000000000 / 11963019524089962742681264657203487852970932613142739431998338789574180766736733438044480749762312913937529500001), (592270240205203871238054079319522609345654843692340565792948327770052107348355259625979058593828125000000000000 / 11963019524089962742681264657203487852970932613142739431998338789574180766736733438044480749762312913937529500001), (105495765456242434743518316947980388732012422294037023457696460490715277418316413343750312500000000000000 / 6836007250332978519830139901179192385016312912474186833035146145387448788164540156288185406615375027750001)]
      (4827569169693142245933861232994770981814087584041516235338579381439445800793457031250000000000000000000000000 / 1329224391565551415853473850800387539218992512571415492444259865508242307415192604227164527751368101548614388889)
      (by decide +kernel) (by decide +kernel) (by decide +kernel) (by decide +kernel) (by decide +kernel)
      (not_le.2 (hq _ (by decide +kernel)))]
  rfl

theorem path_gap : residualSq (poissonOp (n := 3) pathEdges (1 / 1000000)) ![1 / 2, - (1 / 2), 0]
    ![(28650770993935931977885016707151492223843756375000500000 / 109375589251395408163157930110359062886015723187514750001), (-44949415335828714289779594203260632851781256625000500000 / 109375589251395408163157930110359062886015723187514750001), (-18627011461013773491437522031255000000500000000000 / 62500301000625375735875539562754000075437513000001)] = (4827569169693142245933861232994770981814087584041516235338579381439445800793457031250000000000000000000000000 / 1329224391565551415853473850800387539218992512571415492444259865508242307415192604227164527751368101548614388889) := by decide +kernel

section
variable {K : Type} [Field K] [LinearOrder K] [IsStrictOrderedRing K]

theorem path_symmetric : SymmetricGraph (edgesOf pathIndex (none : Option (List K))) := by
  intro i j
  simp only [edgesOf, pathIndex, List.map_cons, List.map_nil, List.filter_cons, List.filter_nil]
  by_cases h0 : i = 0 <;> by_cases h1 : i = 1 <;> by_cases h2 : i = 2 <;>
    by_cases g0 : j = 0 <;> by_cases g1 : j = 1 <;> by_cases g2 : j = 2 <;> subst_vars <;>
    first | (exfalso; omega) | (simp_all [eq_comm])

theorem poissonLearning_numpy {th : Bool} {sqrt : K → K} {floor : K} {n : Int} {ei : List (Int × Int)}
    {ew : Option (List K)} {y : List Int} {mask : List Bool} {spec : PoissonSpec K} (h : spec.backend = "numpy") :
    poissonLearning th sqrt floor n ei ew y mask spec = poissonRun sqrt floor n ei ew y mask spec := by
  simp [poissonLearning, h]

theorem poissonRun_iff {sqrt : K → K} {floor : K} {n : Nat} {ei : List (Int × Int)} {ew : Option (List K)}
    {y : List Int} {mask : List Bool} {spec : PoissonSpec K} (hy : y.length = n) (hm : mask.length = n)
    (hr : InRange n ei) :
    (∃ r, poissonRun sqrt floor (n : Int) ei ew y mask spec = .ok r) ↔
      (∃ i : Nat, mask[i]? = some true) ∧ (∀ w, ew = some w → w.length = ei.length) ∧
      (ei = [] ∨ spec.kind = "none" ∨ spec.kind = "rw" ∨ spec.kind = "sym") ∧
      ∀ c ∈ y, c < (poissonClasses y mask : Int) := by
  have hany : mask.any id = true ↔ ∃ i : Nat, mask[i]? = some true := by
    rw [List.any_eq_true]
    constructor
    · rintro ⟨b, hb, e⟩
      simp only [id] at e
      subst e
      exact List.mem_iff_getElem?.1 hb
    · rintro ⟨i, hi⟩
      exact ⟨true, List.mem_of_getElem? hi, rfl⟩
  have hei : ∀ {es : List (WEdge K)}, validateGraph (n : Int) ei ew = .ok es → (es = [] ↔ ei = []) := by
    intro es h
    obtain ⟨_, h2, h3, _⟩ := validateGraph_ok h
    have h4 : es.length = (edgesOf ei ew).length := by rw [← h3]; simp
    have h5 : (edgesOf ei ew).length = ei.length := by
      unfold edgesOf
      cases ew with
      | none => simp
      | some w => simp [h2 w rfl]
    rw [← List.length_eq_zero_iff, ← List.length_eq_zero_iff, h4, h5]
  constructor
  · rintro ⟨r, h⟩
    obtain ⟨es, es', Y, B, P, -⟩ := poissonRun_ok h
    refine ⟨hany.1 P.some_label, (validateGraph_ok P.valid).2.1, ?_, (seedMatrix_ok P.seed).2.1⟩
    rcases (normalizeOp_total (sqrt := sqrt) (eps := floor) es).1 ⟨es', P.norm⟩ with h' | h'
    · exact .inl ((hei P.valid).1 h')
    · exact .inr h'
  · rintro ⟨h1, h2, h3, h4⟩
    have hn : 0 < n := by
      obtain ⟨i, hi⟩ := h1
      have := (List.getElem?_eq_some_iff.1 hi).1
      omega
    obtain ⟨es, hes⟩ := validateGraph_total (K := K) (n := (n : Int)) (by omega) h2
      (fun e he => by obtain ⟨a, b, c, d⟩ := hr e he; exact ⟨a, c, b, d⟩)
    have hk : 0 < poissonClasses y mask := by
      obtain ⟨i, hi⟩ := h1
      have hiy : i < y.length := by have := (List.getElem?_eq_some_iff.1 hi).1; omega
      obtain ⟨L, _, hL, hmem⟩ := poissonClasses_spec y mask
      rw [← hL]
      exact List.length_pos_of_mem ((hmem y[i]).2 ⟨i, hi, List.getElem?_eq_getElem hiy⟩)
    obtain ⟨Y, hY⟩ := seedMatrix_total (K := K) (y := y) (mask := mask) hk h4
    have hB : ∃ B, buildSources y.length Y mask spec.center = .ok B := by
      unfold buildSources
      simp only
      rw [if_neg]
      · exact ⟨_, rfl⟩
      · have := labeled_len mask
        rw [hm, ← hy] at this
        rw [this]
        exact (count_pos_of_any (hany.2 h1)).ne'
    obtain ⟨B, hB⟩ := hB
    obtain ⟨es', hes'⟩ := (normalizeOp_total (sqrt := sqrt) (eps := floor) (mode := spec.kind) es).2
      (h3.imp (hei hes).2 id)
    unfold poissonRun
    rw [ebind_of_ok hes]
    simp only
    rw [if_neg (by omega), if_neg (by omega), if_neg (by rw [hany.2 h1]; decide), ebind_of_ok hY, ebind_of_ok hB,
      ebind_of_ok hes']
    exact ⟨_, rfl⟩

end

/-- **C102 (violated)**: with the random-walk Laplacian as many rounds as nodes need not be enough, although the graph is
symmetric and every other hypothesis of `C102_solves_partial` holds.  On the path with three nodes, labels at nodes 0
and 1 and the default ridge and tolerance, three rounds leave an error above the tolerance and a result is returned all
the same. -/
theorem C102_rw_violated (sqrt : Rat → Rat) (hq : ∀ x, 1 / 1000000000000 < x → 1 / 1000000 < sqrt x) :
    let spec : PoissonSpec Rat := ⟨"numpy", "rw", 1 / 1000000, true, 1 / 1000000, 3⟩
    SymmetricGraph (edgesOf pathIndex (none : Option (List Rat))) ∧
    ∃ r, poissonLearning false sqrt (1 / 1000000000000) 3 pathIndex none [0, 1, -1] [true, true, false] spec = .ok r ∧
      spec.tol * spec.tol < poissonGap sqrt (1 / 1000000000000) "rw" (edgesOf pathIndex none) spec.eps spec.center
        [0, 1, -1] [true, true, false] r.F 0 := by
  intro spec
  refine ⟨?_, ?_⟩
  · exact path_symmetric
  · have hes : validateGraph (K := Rat) 3 pathIndex none =
        .ok [⟨0, 1, 1⟩, ⟨1, 0, 1⟩, ⟨1, 2, 1⟩, ⟨2, 1, 1⟩] := by decide +kernel
    have hY : seedMatrix (K := Rat) [0, 1, -1] [true, true, false] (poissonClasses [0, 1, -1] [true, true, false]) =
        .ok [[1, 0], [0, 1], [0, 0]] := by decide +kernel
    have hn : normalizeOp sqrt (1 / 1000000000000) "rw"
        [(⟨0, 1, 1⟩ : WEdge Rat), ⟨1, 0, 1⟩, ⟨1, 2, 1⟩, ⟨2, 1, 1⟩] = .ok pathEdges := by
      unfold normalizeOp
      simp only
      rw [if_neg (by decide), if_neg (by decide), if_pos trivial]
      congr 1
      decide +kernel
    have hB : ∃ B, buildSources 3 [[1, 0], [0, 1], [(0 : Rat), 0]] [true, true, false] true = .ok B := by
      unfold buildSources
      simp only
      rw [if_neg (by decide)]
      exact ⟨_, rfl⟩
    obtain ⟨B, hB⟩ := hB
    have P : PoissonParsed sqrt (1 / 1000000000000) 3 pathIndex none [0, 1, -1] [true, true, false] spec
        [⟨0, 1, 1⟩, ⟨1, 0, 1⟩, ⟨1, 2, 1⟩, ⟨2, 1, 1⟩] pathEdges [[1, 0], [0, 1], [0, 0]] B :=
      ⟨hes, rfl, rfl, rfl, hY, hB, hn⟩
    have hk : poissonClasses [0, 1, -1] [true, true, false] = 2 := by decide +kernel
    have hrun : ∃ r, poissonLearning false sqrt (1 / 1000000000000) 3 pathIndex none [0, 1, -1] [true, true, false] spec
        = .ok r := by
      obtain ⟨r, hr⟩ := (poissonRun_iff (K := Rat) (sqrt := sqrt) (floor := 1 / 1000000000000) (n := 3) (ei := pathIndex)
        (ew := none) (y := [0, 1, -1]) (mask := [true, true, false]) (spec := spec) rfl rfl
        (by unfold InRange pathIndex; decide)).2
        ⟨⟨0, rfl⟩, fun w h => by simp at h, .inr (.inr (.inl rfl)), by decide +kernel⟩
      exact ⟨r, (poissonLearning_numpy rfl).trans hr⟩
    obtain ⟨r, hr⟩ := hrun
    refine ⟨r, hr, ?_⟩
    obtain ⟨es2, es2', Y2, B2, P2, rfl⟩ := poissonRun_ok (poissonLearning_run hr)
    obtain rfl := Except.ok.inj (P2.valid.symm.trans P.valid)
    obtain rfl := Except.ok.inj (P2.seed.symm.trans P.seed)
    obtain rfl := Except.ok.inj (P2.sources.symm.trans P.sources)
    obtain rfl := Except.ok.inj (P2.norm.symm.trans P.norm)
    have hgap := P.gap_eq (.inl rfl) (x := fun c => (poissonCg sqrt [0, 1, -1] spec pathEdges B2 c).x) rfl (c := 0)
      (by rw [hk]; decide)
    have hsrc : (fun i : Fin 3 => B2 i.val 0) = ![1 / 2, - (1 / 2), 0] := by
      funext i
      rw [buildSources_ok (y := [0, 1, -1]) rfl P.seed P.sources i.isLt (by rw [hk]; decide)]
      revert i
      decide +kernel
    have hcg : poissonCg sqrt [0, 1, -1] spec pathEdges B2 0 =
        cgSolve sqrt (poissonOp (n := 3) pathEdges (1 / 1000000)) ![1 / 2, - (1 / 2), 0] none (1 / 1000000) 3 := by
      rw [← hsrc]; rfl
    rw [path_run sqrt hq] at hcg
    rw [show poissonGap sqrt (1 / 1000000000000) "rw" (edgesOf pathIndex none) spec.eps spec.center
        [0, 1, -1] [true, true, false] _ 0 = _ from hgap]
    rw [hcg]
    have hsrc' : (fun i : Fin [(0 : Int), 1, -1].length => B2 i.val 0) = ![1 / 2, - (1 / 2), 0] := hsrc
    rw [hsrc']
    rw [show residualSq (poissonOp (n := [(0 : Int), 1, -1].length) pathEdges spec.eps) ![1 / 2, - (1 / 2), 0] _ = _
      from path_gap]
    decide +kernel

-- such a square root exists
example : ∃ sqrt : Rat → Rat, ∀ x, 1 / 1000000000000 < x → 1 / 1000000 < sqrt x :=
  ⟨fun x => if 1 ≤ x then x else if 1 / 1000000000000 < x then 1 else 0, fun x hx => by
    by_cases h : (1 : Rat) ≤ x
    · simp only [if_pos h]; linarith
    · simp only [if_neg h, if_pos hx]; norm_num⟩

section
variable {K : Type} [Field K] [LinearOrder K] [IsStrictOrderedRing K]

/-- **C102 (exactly which datasets are accepted).**  For a dataset that validation accepts, Poisson learning returns if
and only if there is a training mask with a labeled node, one weight per edge when there are weights, a known Laplacian
(unless there are no edges), every class id is smaller than the number of different labels at labeled nodes, and the
backend is numpy, or torch is there and the graph has weights. -/
theorem C102_accepts (th : Bool) (sqrt : K → K) (floor : K) (spec : PoissonSpec K) (d : NodeData K) (ids : List Int)
    (ei : List (Int × Int)) (V : Valid d ids ei) :
    (∃ r, fitPoisson th sqrt floor spec d = .ok r) ↔
      ∃ mask, Assoc.get d.masks "train_mask" = some mask ∧ (∃ i : Nat, mask[i]? = some true) ∧
        (∀ w, d.edgeWeight = some w → w.length = ei.length) ∧
        (ei = [] ∨ spec.kind = "none" ∨ spec.kind = "rw" ∨ spec.kind = "sym") ∧
        (∀ k, DistinctLabels ids mask k → ∀ c ∈ ids, c < (k : Int)) ∧
        (spec.backend = "numpy" ∨ (spec.backend = "auto" ∧ th = false) ∨
          ((spec.backend = "torch" ∨ spec.backend = "auto") ∧ th = true ∧ d.edgeWeight ≠ none)) := by
  have hback : ∀ mask, (∃ r, poissonLearning th sqrt floor ids.length ei d.edgeWeight ids mask spec = .ok r) ↔
      (∃ r, poissonRun sqrt floor ids.length ei d.edgeWeight ids mask spec = .ok r) ∧
      (spec.backend = "numpy" ∨ (spec.backend = "auto" ∧ th = false) ∨
          ((spec.backend = "torch" ∨ spec.backend = "auto") ∧ th = true ∧ d.edgeWeight ≠ none)) := by
    intro mask
    constructor
    · rintro ⟨r, h⟩
      refine ⟨⟨r, poissonLearning_run h⟩, ?_⟩
      by_cases h1 : spec.backend = "numpy"
      · exact .inl h1
      refine .inr ?_
      by_cases h2 : spec.backend = "auto"
      · cases th with
        | false => exact .inl ⟨h2, rfl⟩
        | true =>
          refine .inr ⟨.inr h2, rfl, fun hw => ?_⟩
          simp [poissonLearning, h2, hw] at h
      · by_cases h3 : spec.backend = "torch"
        · cases th with
          | false => simp [poissonLearning, h3] at h
          | true =>
            refine .inr ⟨.inl h3, rfl, fun hw => ?_⟩
            simp [poissonLearning, h3, hw] at h
        · simp [poissonLearning, h1, h2, h3] at h
    · rintro ⟨⟨r, h⟩, h1 | ⟨h1, h2⟩ | ⟨h1, h2, h3⟩⟩
      · exact ⟨r, by simp [poissonLearning, h1, h]⟩
      · exact ⟨r, by simp [poissonLearning, h1, h2, h]⟩
      · refine ⟨r, ?_⟩
        obtain ⟨w, hw⟩ := Option.ne_none_iff_exists'.1 h3
        rw [hw] at h ⊢
        rcases h1 with h1 | h1 <;> simp [poissonLearning, h1, h2, h]
  have hdist : ∀ mask, (∀ c ∈ ids, c < (poissonClasses ids mask : Int)) ↔
      ∀ k, DistinctLabels ids mask k → ∀ c ∈ ids, c < (k : Int) := by
    intro mask
    constructor
    · intro h k hk
      rw [distinct_unique hk (poissonClasses_spec ids mask)]; exact h
    · intro h
      exact h _ (poissonClasses_spec ids mask)
  constructor
  · rintro ⟨r, h⟩
    obtain ⟨ids', ei', mask, V', h1, h2, h3⟩ := fitWith_ok.mp h
    obtain ⟨rfl, rfl⟩ := valid_unique V V'
    obtain ⟨hrun, hb⟩ := (hback mask).1 ⟨r, h3⟩
    obtain ⟨a, b, c, e⟩ := (poissonRun_iff rfl h2 V.edges).1 hrun
    exact ⟨mask, h1, a, b, c, (hdist mask).1 e, hb⟩
  · rintro ⟨mask, h1, a, b, c, e, hb⟩
    have h2 := V.masks _ (by simp) _ h1
    obtain ⟨r, hr⟩ := (hback mask).2 ⟨(poissonRun_iff rfl h2 V.edges).2 ⟨a, b, c, (hdist mask).2 e⟩, hb⟩
    exact ⟨r, fitWith_ok.mpr ⟨ids, ei, mask, V, h1, h2, hr⟩⟩

/-- A valid dataset: the path with three nodes and classes 0 and 1. -/
def poissonDemo (mask : List Bool) (w : Option (List K)) : NodeData K :=
  ⟨[3, 1], .labels (.ints [0, 1, 1]), some pathIndex, w, [("train_mask", mask)]⟩

theorem poissonDemo_valid (mask : List Bool) (hm : mask.length = 3) (w : Option (List K)) :
    Valid (poissonDemo mask w) [0, 1, 1] pathIndex where
  x := ⟨1, rfl⟩
  y := rfl
  classes := ⟨2, fun c hc => by simp only [List.mem_cons, List.not_mem_nil, or_false]; omega⟩
  graph := rfl
  edges := by unfold InRange pathIndex; decide
  masks := by
    intro k hk m h
    simp only [poissonDemo, Assoc.get, List.lookup] at h
    by_cases e : (k == "train_mask") = true
    · simp only [List.find?, Option.map] at h
      simp_all
    · simp_all

/-- **C102 (violated)**: a class without a labeled node makes a valid dataset unacceptable: node 0 is labeled, classes 0
and 1 occur, and no backend returns scores. -/
theorem C102_missing_class_violated (th : Bool) (sqrt : K → K) (floor : K) (spec : PoissonSpec K)
    (w : Option (List K)) : ¬ ∃ r, fitPoisson th sqrt floor spec (poissonDemo [true, false, false] w) = .ok r := by
  rw [C102_accepts th sqrt floor spec _ [0, 1, 1] pathIndex (poissonDemo_valid _ rfl w)]
  rintro ⟨mask, h1, _, _, _, h5, _⟩
  obtain rfl : [true, false, false] = mask := by
    have : Assoc.get (poissonDemo [true, false, false] w).masks "train_mask" = some [true, false, false] := rfl
    rw [this] at h1; exact Option.some.inj h1
  have := h5 1 (by
    refine ⟨[0], by simp, rfl, fun c => ?_⟩
    simp only [List.mem_cons, List.not_mem_nil, or_false]
    constructor
    · rintro rfl; exact ⟨0, rfl, rfl⟩
    · rintro ⟨i, h1, h2⟩
      match i, h1, h2 with
      | 0, _, h2 => simpa using h2.symm
      | 1, h1, _ => simp at h1
      | 2, h1, _ => simp at h1
      | n + 3, h1, _ => simp at h1) 1 (by simp)
  simp at this

/-- **C102 (violated)**: a graph without edge weights is accepted by the numpy backend and refused by the torch backend,
which `backend = "auto"` chooses whenever torch is installed. -/
theorem C102_unweighted_violated (sqrt : K → K) (floor eps tol : K) (maxIter : Int) (center : Bool) :
    (∃ r, fitPoisson true sqrt floor ⟨"numpy", "sym", eps, center, tol, maxIter⟩ (poissonDemo [true, true, false] none)
      = .ok r) ∧
    ∀ b, b = "torch" ∨ b = "auto" →
      ¬ ∃ r, fitPoisson true sqrt floor ⟨b, "sym", eps, center, tol, maxIter⟩ (poissonDemo [true, true, false] none)
        = .ok r := by
  refine ⟨?_, ?_⟩
  · rw [C102_accepts true sqrt floor _ _ [0, 1, 1] pathIndex (poissonDemo_valid _ rfl none)]
    refine ⟨[true, true, false], rfl, ⟨0, rfl⟩, fun w h => by simp [poissonDemo] at h, .inr (.inr (.inr rfl)), ?_, .inl rfl⟩
    intro k hk
    rw [distinct_unique hk (poissonClasses_spec _ _),
      show poissonClasses [0, 1, 1] [true, true, false] = 2 by decide +kernel]
    intro c hc
    simp only [List.mem_cons, List.not_mem_nil, or_false] at hc
    omega
  · rintro b hb
    rw [C102_accepts true sqrt floor _ _ [0, 1, 1] pathIndex (poissonDemo_valid _ rfl none)]
    rintro ⟨_, _, _, _, _, _, h | ⟨_, h⟩ | ⟨_, _, h⟩⟩
    · simp only at h; subst h; rcases hb with h | h <;> exact absurd h (by decide)
    · simp at h
    · exact h rfl

end

-- a run that meets every hypothesis of the positive theorems
example : ∃ r, poissonLearning (K := ℝ) false Real.sqrt (1 / 1000000000000) 3 pathIndex none [0, 1, 1]
    [true, true, false] ⟨"numpy", "sym", 1 / 1000000, true, 0, 3⟩ = .ok r ∧ ∀ row ∈ r.F, row.sum = 0 := by
  obtain ⟨r, hr⟩ := (poissonRun_iff (K := ℝ) (sqrt := Real.sqrt) (floor := 1 / 1000000000000) (n := 3) (ei := pathIndex)
    (ew := none) (y := [0, 1, 1]) (mask := [true, true, false]) (spec := ⟨"numpy", "sym", 1 / 1000000, true, 0, 3⟩) rfl rfl
    (by unfold InRange pathIndex; decide)).2
    ⟨⟨0, rfl⟩, fun w h => by simp at h, .inr (.inr (.inr rfl)), by decide +kernel⟩
  have h := (poissonLearning_numpy (th := false) rfl).trans hr
  refine ⟨r, h, C102_proba_violated false Real.sqrt real_root _ (by norm_num) 3 pathIndex none _ _ _ rfl ?_ path_symmetric
    (by norm_num) rfl (le_refl _) rfl ?_ r h⟩
  · simp [edgesOf, pathIndex]
  · intro i c _ h2
    have := List.mem_of_getElem? h2
    simp only [List.mem_cons, List.not_mem_nil, or_false] at this
    omega

end ModSSC.Transductive
