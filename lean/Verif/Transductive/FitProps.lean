import Verif.Transductive.FitModel
import Verif.Transductive.FitSpec
import Verif.Transductive.PropProps
import Verif.Labels.Props

/-!
# What the propagation methods accept
-/

set_option linter.unusedSectionVars false

namespace ModSSC.Transductive
open ModSSC Spec

/-! ### Validation -/

theorem strict_eq_range {l : List Int} (hs : l.Pairwise (· < ·)) {m : Nat}
    (hm : ∀ c, c ∈ l ↔ 0 ≤ c ∧ c < (m : Int)) : l = (List.range m).map fun (c : Nat) => (c : Int) := by
  have h2 : ((List.range m).map fun (c : Nat) => (c : Int)).Pairwise (· < ·) := by
    rw [List.pairwise_map]
    exact List.pairwise_lt_range.imp (by intro a b h; omega)
  have hp : l.Perm ((List.range m).map fun (c : Nat) => (c : Int)) := by
    rw [List.perm_ext_iff_of_nodup (hs.imp (fun h => ne_of_lt h)) (h2.imp (fun h => ne_of_lt h))]
    intro c
    rw [hm c]
    simp only [List.mem_map, List.mem_range]
    constructor
    · intro h; exact ⟨c.toNat, by omega, by omega⟩
    · rintro ⟨a, ha, rfl⟩; omega
  exact hp.eq_of_pairwise (fun a b _ _ h1 h2 => absurd h1 (lt_asymm h2)) hs h2

theorem unique_strict (l : List Int) : (npUnique l).Pairwise (· < ·) := by
  have h1 := npUnique_sorted l
  have h2 := nodup_npUnique l
  exact (h1.and h2).imp fun h => lt_of_le_of_ne h.1 h.2

theorem contiguous_iff (ids : List Int) : contiguous ids = true ↔ ∃ m, ClassesUpTo ids m := by
  unfold contiguous
  simp only [decide_eq_true_eq]
  constructor
  · intro h
    refine ⟨(npUnique (ids.filter fun c => decide (0 ≤ c))).length, fun c hc => ?_⟩
    have : c ∈ ids ↔ c ∈ npUnique (ids.filter fun c => decide (0 ≤ c)) := by
      rw [mem_npUnique, List.mem_filter]
      simp [hc]
    rw [this, h]
    simp only [List.mem_map, List.mem_range, List.length_map, List.length_range]
    constructor
    · rintro ⟨a, ha, rfl⟩; omega
    · intro h; exact ⟨c.toNat, by omega, by omega⟩
  · rintro ⟨m, hm⟩
    have := strict_eq_range (unique_strict (ids.filter fun c => decide (0 ≤ c))) (m := m) (by
      intro c
      rw [mem_npUnique, List.mem_filter, decide_eq_true_eq]
      constructor
      · rintro ⟨h1, h2⟩; exact ⟨h2, (hm c h2).mp h1⟩
      · rintro ⟨h1, h2⟩; exact ⟨(hm c h1).mpr h2, h1⟩)
    rw [this]
    simp

theorem validLabels_ok {y : YArr} {ids : List Int} : validLabels y = .ok ids ↔ StandsFor y ids := by
  cases y with
  | other n => simp [validLabels, StandsFor]
  | labels a =>
    have h : validLabels (.labels a) = .ok ids ↔ Labels.classIds a = .ok ids := by
      simp only [validLabels]
      cases Labels.classIds a <;> simp
    rw [h, Labels.classIds_ok]
    cases a <;> rfl

theorem validLabels_err {y : YArr} {e : PyErr} (h : validLabels y = .error e) : e = .validation := by
  cases y with
  | other n => simpa [validLabels] using h.symm
  | labels a =>
    simp only [validLabels] at h
    cases hc : Labels.classIds a with
    | ok _ => rw [hc] at h; simp at h
    | error _ => rw [hc] at h; simpa using h.symm

theorem standsFor_length {y : YArr} {ids : List Int} (h : StandsFor y ids) : y.length = ids.length := by
  match y, h with
  | .labels (.ints l), h => simp only [StandsFor] at h; subst h; rfl
  | .labels (.floats l), h => simp only [StandsFor] at h; subst h; simp [YArr.length]

theorem standsFor_cast {y : YArr} {ids : List Int} (h : StandsFor y ids) : castLabels y = ids := by
  match y, h with
  | .labels (.ints l), h => simp only [StandsFor] at h; subst h; rfl
  | .labels (.floats l), h =>
    simp only [StandsFor] at h
    subst h
    simp only [castLabels, List.map_map]
    conv_rhs => rw [← List.map_id ids]
    apply List.map_congr_left
    intro c _
    simp [Labels.pyInt_cast]

theorem validEdges_ok {n : Nat} {g : Option (List (Int × Int))} :
    validEdges n g = .ok () ↔ ∃ ei, g = some ei ∧ InRange n ei := by
  cases g with
  | none => simp [validEdges]
  | some ei =>
    unfold validEdges
    by_cases h : ei.any (fun e => decide (e.1 < 0 ∨ e.2 < 0 ∨ (n : Int) ≤ e.1 ∨ (n : Int) ≤ e.2)) = true
    · simp only [if_pos h, reduceCtorEq, Option.some.injEq, exists_eq_left', false_iff]
      intro hr
      simp only [List.any_eq_true, decide_eq_true_eq] at h
      obtain ⟨e, he, h⟩ := h
      have := hr e he
      omega
    · simp only [if_neg h, Option.some.injEq, exists_eq_left', true_iff]
      intro e he
      simp only [List.any_eq_true, decide_eq_true_eq, not_exists, not_and] at h
      have := h e he
      omega

theorem validMasks_ok {n : Nat} {masks : List (String × List Bool)} :
    validMasks n masks = .ok () ↔ ∀ k ∈ maskKeys, ∀ m, Assoc.get masks k = some m → m.length = n := by
  unfold validMasks
  by_cases h : maskKeys.any (fun k => (Assoc.get masks k).any fun m => decide (m.length ≠ n)) = true
  · simp only [if_pos h, reduceCtorEq, false_iff]
    intro hr
    rw [List.any_eq_true] at h
    obtain ⟨k, hk, h⟩ := h
    rw [Option.any_eq_true] at h
    obtain ⟨m, hm, h⟩ := h
    exact of_decide_eq_true h (hr k hk m hm)
  · simp only [if_neg h, true_iff]
    intro k hk m hm
    by_contra hc
    apply h
    rw [List.any_eq_true]
    refine ⟨k, hk, ?_⟩
    rw [Option.any_eq_true]
    exact ⟨m, hm, decide_eq_true hc⟩

/-- **C53 (what validation means).**  Validation accepts exactly the datasets that meet the documented
requirements; every other dataset gets the validation error. -/
theorem C53_validation {K : Type} (d : NodeData K) :
    (validateNodeDataset d = .ok () ↔ ∃ ids ei, Valid d ids ei) ∧
    (validateNodeDataset d ≠ .ok () → validateNodeDataset d = .error .validation) := by
  unfold validateNodeDataset
  by_cases h1 : d.xShape.length ≠ 2
  · rw [if_pos h1]
    refine ⟨⟨by simp, ?_⟩, fun _ => rfl⟩
    rintro ⟨ids, ei, V⟩
    obtain ⟨w, hw⟩ := V.x
    rw [hw] at h1
    simp at h1
  rw [if_neg h1]
  by_cases h2 : d.xShape.headD 0 ≠ d.y.length
  · rw [if_pos h2]
    refine ⟨⟨by simp, ?_⟩, fun _ => rfl⟩
    rintro ⟨ids, ei, V⟩
    obtain ⟨w, hw⟩ := V.x
    rw [hw, standsFor_length V.y] at h2
    simp at h2
  rw [if_neg h2]
  push Not at h1 h2
  cases hy : validLabels d.y with
  | error e =>
    rw [validLabels_err hy]
    refine ⟨⟨by simp [bind, Except.bind], ?_⟩, fun _ => rfl⟩
    rintro ⟨ids, ei, V⟩
    rw [validLabels_ok.mpr V.y] at hy
    simp at hy
  | ok ids =>
    have hs := validLabels_ok.mp hy
    have hl := standsFor_length hs
    have huniq : ∀ ids', StandsFor d.y ids' → ids' = ids := by
      intro ids' h
      have := validLabels_ok.mpr h
      rw [hy] at this
      exact (Except.ok.inj this).symm
    simp only [bind, Except.bind]
    by_cases h3 : contiguous ids = false
    · rw [if_pos h3]
      refine ⟨⟨by simp, ?_⟩, fun _ => rfl⟩
      rintro ⟨ids', ei, V⟩
      obtain rfl := huniq _ V.y
      rw [(contiguous_iff _).mpr V.classes] at h3
      simp at h3
    rw [if_neg h3]
    rw [Bool.not_eq_false] at h3
    cases he : validEdges d.y.length d.edgeIndex with
    | error e =>
      have : e = .validation := by
        unfold validEdges at he
        split at he
        · simpa using he.symm
        · split at he <;> simp at he; exact he.symm
      subst this
      refine ⟨⟨by simp, ?_⟩, fun _ => rfl⟩
      rintro ⟨ids', ei, V⟩
      obtain rfl := huniq _ V.y
      rw [validEdges_ok.mpr ⟨ei, V.graph, by rw [hl]; exact V.edges⟩] at he
      simp at he
    | ok u =>
      obtain ⟨ei, hei, hr⟩ := validEdges_ok.mp he
      have hm : validMasks d.y.length d.masks = .ok () ∨ validMasks d.y.length d.masks = .error .validation := by
        unfold validMasks
        split
        · exact .inr rfl
        · exact .inl rfl
      refine ⟨⟨fun h => ⟨ids, ei, ?_, hs, (contiguous_iff _).mp h3, hei, by rw [← hl]; exact hr, ?_⟩, ?_⟩, ?_⟩
      · match hx : d.xShape, h1, h2 with
        | [a, b], _, h2 => exact ⟨b, by simp at h2; rw [h2, hl]⟩
      · have := validMasks_ok.mp h
        rw [hl] at this
        exact this
      · rintro ⟨ids', ei', V⟩
        obtain rfl := huniq _ V.y
        apply validMasks_ok.mpr
        rw [hl]
        exact V.masks
      · intro h
        rcases hm with h' | h'
        · exact absurd h' h
        · exact h'

/-! ### Number of classes -/

theorem mem_labeledClasses {y : List Int} {mask : List Bool} (hm : mask.length = y.length) (c : Int) :
    c ∈ labeledClasses y mask ↔ 0 ≤ c ∧ ClassLabeled y mask c.toNat := by
  unfold labeledClasses ClassLabeled Labeled
  simp only [List.mem_map, List.mem_filter, Bool.and_eq_true, decide_eq_true_eq, Prod.exists]
  constructor
  · rintro ⟨a, b, ⟨hz, hb, ha⟩, rfl⟩
    subst hb
    obtain ⟨i, hi, he⟩ := List.getElem_of_mem hz
    rw [List.getElem_zip] at he
    simp only [List.length_zip] at hi
    refine ⟨ha, i, ?_, ?_⟩
    · rw [List.getElem?_eq_getElem (by omega)]
      exact congrArg some (congrArg Prod.snd he)
    · rw [List.getElem?_eq_getElem (by omega), Int.toNat_of_nonneg ha]
      exact congrArg some (congrArg Prod.fst he)
  · rintro ⟨h0, i, h1, h2⟩
    rw [Int.toNat_of_nonneg h0] at h2
    obtain ⟨hi, h2⟩ := List.getElem?_eq_some_iff.mp h2
    obtain ⟨hi', h1⟩ := List.getElem?_eq_some_iff.mp h1
    refine ⟨c, true, ⟨?_, rfl, h0⟩, rfl⟩
    rw [List.mem_iff_getElem]
    refine ⟨i, by simp only [List.length_zip]; omega, ?_⟩
    rw [List.getElem_zip, h1, h2]

theorem unique_length_of_classes {l : List Int} {m : Nat} (h : ∀ c, c ∈ l ↔ 0 ≤ c ∧ c < (m : Int)) :
    (npUnique l).length = m := by
  rw [strict_eq_range (unique_strict l) (m := m) (fun c => by rw [mem_npUnique]; exact h c)]
  simp

theorem unique_length_lt {l : List Int} {m : Nat} (h : ∀ c ∈ l, 0 ≤ c ∧ c < (m : Int)) {c0 : Int} (h0 : 0 ≤ c0)
    (hm : c0 < (m : Int)) (hc : c0 ∉ l) : (npUnique l).length < m := by
  have hsub : (npUnique l).toFinset ⊂ ((List.range m).map fun (c : Nat) => (c : Int)).toFinset := by
    rw [Finset.ssubset_iff_of_subset]
    · refine ⟨c0, ?_, ?_⟩
      · simp only [List.mem_toFinset, List.mem_map, List.mem_range]
        exact ⟨c0.toNat, by omega, by omega⟩
      · rw [List.mem_toFinset, mem_npUnique]; exact hc
    · intro c hc
      rw [List.mem_toFinset, mem_npUnique] at hc
      simp only [List.mem_toFinset, List.mem_map, List.mem_range]
      have := h c hc
      exact ⟨c.toNat, by omega, by omega⟩
  have := Finset.card_lt_card hsub
  rw [List.toFinset_card_of_nodup (nodup_npUnique l)] at this
  refine lt_of_lt_of_le this ((List.toFinset_card_le _).trans ?_)
  simp

theorem numClasses_eq {y : List Int} {mask : List Bool} {m : Nat} (hm : ClassesUpTo y m)
    (hl : mask.length = y.length)
    (h : (∀ c, ¬ ClassLabeled y mask c) ∨ ∀ c : Nat, (c : Int) ∈ y → ClassLabeled y mask c) :
    numClasses y mask = max 1 m := by
  have hv : (npUnique (y.filter fun c => decide (0 ≤ c))).length = m := by
    apply unique_length_of_classes
    intro c
    rw [List.mem_filter, decide_eq_true_eq]
    constructor
    · rintro ⟨h1, h2⟩; exact ⟨h2, (hm c h2).mp h1⟩
    · rintro ⟨h1, h2⟩; exact ⟨(hm c h1).mpr h2, h1⟩
  unfold numClasses
  simp only [hv]
  congr 1
  split
  · split
    · rename_i hne
      apply unique_length_of_classes
      intro c
      rw [mem_labeledClasses hl]
      rcases h with h | h
      · exfalso
        apply hne
        rw [List.eq_nil_iff_forall_not_mem]
        intro a ha
        exact h _ ((mem_labeledClasses hl a).mp ha).2
      · constructor
        · rintro ⟨h0, i, hi⟩
          refine ⟨h0, (hm c h0).mp ?_⟩
          have := hi.2
          rw [Int.toNat_of_nonneg h0] at this
          exact List.mem_of_getElem? this
        · rintro ⟨h0, h1⟩
          refine ⟨h0, h _ ?_⟩
          rw [Int.toNat_of_nonneg h0]
          exact (hm c h0).mpr h1
    · rfl
  · rfl

/-- The number of columns covers all labels exactly when every class, or no class, is labeled. -/
theorem numClasses_iff {y : List Int} {mask : List Bool} {m : Nat} (hm : ClassesUpTo y m)
    (hl : mask.length = y.length) :
    (∀ c ∈ y, c < (numClasses y mask : Int)) ↔
      ((∀ c, ¬ ClassLabeled y mask c) ∨ ∀ c : Nat, (c : Int) ∈ y → ClassLabeled y mask c) := by
  constructor
  · intro h
    by_contra hn
    push Not at hn
    obtain ⟨⟨a, ha⟩, ⟨c0, hc0, hn⟩⟩ := hn
    have hc0m : (c0 : Int) < m := (hm _ (by omega)).mp hc0
    have hyl : labeledClasses y mask ≠ [] := by
      have : (a : Int) ∈ labeledClasses y mask := by
        rw [mem_labeledClasses hl]
        exact ⟨by omega, by simpa using ha⟩
      intro e
      rw [e] at this
      simp at this
    have hlt : (npUnique (labeledClasses y mask)).length < m := by
      apply unique_length_lt (c0 := (c0 : Int)) _ (by omega) hc0m
      · rw [mem_labeledClasses hl]
        rintro ⟨-, h⟩
        exact hn (by simpa using h)
      · intro c hc
        obtain ⟨h0, i, hi⟩ := (mem_labeledClasses hl c).mp hc
        refine ⟨h0, (hm c h0).mp ?_⟩
        have := hi.2
        rw [Int.toNat_of_nonneg h0] at this
        exact List.mem_of_getElem? this
    have hpos : 0 < (npUnique (labeledClasses y mask)).length := by
      obtain ⟨b, hb⟩ := List.exists_mem_of_ne_nil _ hyl
      exact List.length_pos_of_mem (mem_npUnique.mpr hb)
    have hany : mask.any id = true := by
      obtain ⟨i, hi, -⟩ := ha
      rw [List.any_eq_true]
      exact ⟨true, List.mem_of_getElem? hi, rfl⟩
    have hk : numClasses y mask = (npUnique (labeledClasses y mask)).length := by
      unfold numClasses
      simp only
      rw [if_pos hany, if_pos hyl]
      omega
    have : ((m - 1 : Nat) : Int) ∈ y := (hm _ (by omega)).mpr (by omega)
    have := h _ this
    rw [hk] at this
    omega
  · intro h c hc
    rw [numClasses_eq hm hl h]
    by_cases h0 : 0 ≤ c
    · have := (hm c h0).mp hc
      omega
    · omega

/-! ### Fitting -/

section
variable {K : Type} [Field K] [LinearOrder K]

theorem seedMatrix_total {y : List Int} {mask : List Bool} {k : Nat} (hk : 0 < k) (h : ∀ c ∈ y, c < (k : Int)) :
    ∃ Y : Mat K, seedMatrix y mask k = .ok Y := by
  unfold seedMatrix
  rw [if_neg (by omega), if_neg]
  · exact ⟨_, rfl⟩
  · simp only [List.any_eq_true, decide_eq_true_eq, not_exists, not_and]
    intro c hc _
    have := h c hc
    omega

theorem normalizeEdges_total {sqrt : K → K} {eps : K} {mode : String} (h : mode = "rw" ∨ mode = "sym")
    (es : List (WEdge K)) : ∃ es', normalizeEdges sqrt eps mode es = .ok es' := by
  unfold normalizeEdges
  simp only
  rcases h with rfl | rfl
  · exact ⟨_, if_pos rfl⟩
  · rw [if_neg (by decide)]
    exact ⟨_, if_pos rfl⟩

variable [IsStrictOrderedRing K]

theorem numClasses_pos (y : List Int) (mask : List Bool) : 0 < numClasses y mask := by
  unfold numClasses
  simp only
  omega

theorem labelPropagation_iff {sqrt : K → K} {eps : K} {n : Nat} {ei : List (Int × Int)} {ew : Option (List K)}
    {y : List Int} {mask : List Bool} {spec : PropSpec K} (hr : InRange n ei) (hy : y.length = n)
    (hm : mask.length = n) :
    (∃ r, labelPropagation sqrt eps n ei ew y mask spec = .ok r) ↔
      (0 < n ∧ (∀ w, ew = some w → w.length = ei.length) ∧ (∀ c ∈ y, c < (numClasses y mask : Int)) ∧
        (spec.norm = "rw" ∨ spec.norm = "sym")) := by
  constructor
  · rintro ⟨r, h⟩
    unfold labelPropagation at h
    rw [ebind_ok] at h
    obtain ⟨es, h1, h⟩ := h
    obtain ⟨a, b, -, -⟩ := validateGraph_ok h1
    rw [if_neg (by omega), if_neg (by omega), ebind_ok] at h
    obtain ⟨Y, h2, h⟩ := h
    obtain ⟨-, c, -⟩ := seedMatrix_ok h2
    rw [ebind_ok] at h
    obtain ⟨es', h3, h⟩ := h
    obtain ⟨q, -, hq⟩ := normalizeEdges_ok h3
    refine ⟨by omega, b, c, ?_⟩
    rcases hq with hq | hq
    · exact .inl hq.1
    · exact .inr hq.1
  · rintro ⟨a, b, c, d⟩
    obtain ⟨es, h1⟩ := validateGraph_total (n := (n : Int)) (by omega) b (fun e he => by have := hr e he; omega)
    obtain ⟨Y, h2⟩ := seedMatrix_total (K := K) (mask := mask) (numClasses_pos y mask) c
    obtain ⟨es', h3⟩ := normalizeEdges_total (sqrt := sqrt) (eps := eps) d es
    unfold labelPropagation
    rw [ebind_of_ok h1, if_neg (by omega), if_neg (by omega), ebind_of_ok h2, ebind_of_ok h3]
    exact ⟨_, rfl⟩

theorem labelSpreading_iff {sqrt : K → K} {eps : K} {n : Nat} {ei : List (Int × Int)} {ew : Option (List K)}
    {y : List Int} {mask : List Bool} {alpha : K} {spec : PropSpec K} (hr : InRange n ei) (hy : y.length = n)
    (hm : mask.length = n) :
    (∃ r, labelSpreading sqrt eps n ei ew y mask alpha spec = .ok r) ↔
      (0 < n ∧ (∀ w, ew = some w → w.length = ei.length) ∧ (∀ c ∈ y, c < (numClasses y mask : Int)) ∧
        (spec.norm = "rw" ∨ spec.norm = "sym") ∧ 0 ≤ alpha ∧ alpha < 1) := by
  constructor
  · rintro ⟨r, h⟩
    unfold labelSpreading at h
    rw [ebind_ok] at h
    obtain ⟨es, h1, h⟩ := h
    obtain ⟨a, b, -, -⟩ := validateGraph_ok h1
    rw [if_neg (by omega), if_neg (by omega)] at h
    by_cases ha : ¬ (0 ≤ alpha ∧ alpha < 1)
    · rw [if_pos ha] at h; simp at h
    rw [if_neg ha, ebind_ok] at h
    obtain ⟨Y, h2, h⟩ := h
    obtain ⟨-, c, -⟩ := seedMatrix_ok h2
    rw [ebind_ok] at h
    obtain ⟨es', h3, h⟩ := h
    obtain ⟨q, -, hq⟩ := normalizeEdges_ok h3
    refine ⟨by omega, b, c, ?_, not_not.mp ha⟩
    rcases hq with hq | hq
    · exact .inl hq.1
    · exact .inr hq.1
  · rintro ⟨a, b, c, d, e⟩
    obtain ⟨es, h1⟩ := validateGraph_total (n := (n : Int)) (by omega) b (fun e he => by have := hr e he; omega)
    obtain ⟨Y, h2⟩ := seedMatrix_total (K := K) (mask := mask) (numClasses_pos y mask) c
    obtain ⟨es', h3⟩ := normalizeEdges_total (sqrt := sqrt) (eps := eps) d es
    unfold labelSpreading
    rw [ebind_of_ok h1, if_neg (by omega), if_neg (by omega), if_neg (not_not.mpr e), ebind_of_ok h2,
      ebind_of_ok h3]
    exact ⟨_, rfl⟩

theorem valid_unique {d : NodeData K} {ids ids' : List Int} {ei ei' : List (Int × Int)} (V : Valid d ids ei)
    (V' : Valid d ids' ei') : ids' = ids ∧ ei' = ei := by
  refine ⟨?_, ?_⟩
  · rw [← standsFor_cast V.y, ← standsFor_cast V'.y]
  · have := V.graph
    rw [V'.graph] at this
    exact Option.some.inj this

theorem fitWith_ok {R : Type} {run : Int → List (Int × Int) → Option (List K) → List Int → List Bool → Except PyErr R}
    {d : NodeData K} {r : R} :
    fitWith run d = .ok r ↔ ∃ ids ei mask, Valid d ids ei ∧ Assoc.get d.masks "train_mask" = some mask ∧
      mask.length = ids.length ∧ run ids.length ei d.edgeWeight ids mask = .ok r := by
  unfold fitWith
  rw [ebind_ok]
  constructor
  · rintro ⟨_, h1, h⟩
    obtain ⟨ids, ei, V⟩ := (C53_validation d).1.mp h1
    cases hm : Assoc.get d.masks "train_mask" with
    | none => rw [hm] at h; simp at h
    | some mask =>
      rw [hm] at h
      simp only [V.graph, Option.getD_some, standsFor_cast V.y, standsFor_length V.y] at h
      exact ⟨ids, ei, mask, V, rfl, V.masks _ (by simp) _ hm, h⟩
  · rintro ⟨ids, ei, mask, V, hm, -, h⟩
    refine ⟨(), (C53_validation d).1.mpr ⟨ids, ei, V⟩, ?_⟩
    rw [hm]
    simp only [V.graph, Option.getD_some, standsFor_cast V.y, standsFor_length V.y]
    exact h

/-- **C53 (exactly which datasets are accepted).**  For a dataset that validation accepts, label propagation
returns if and only if there is a training mask, at least one node, one weight per edge when there are weights,
a known normalisation, and either every class of the dataset occurs at a labeled node or none does. -/
theorem C53_accepts (sqrt : K → K) (eps : K) (spec : PropSpec K) (d : NodeData K) (ids : List Int)
    (ei : List (Int × Int)) (V : Valid d ids ei) :
    (∃ r, fitPropagation sqrt eps spec d = .ok r) ↔
      ∃ mask, Assoc.get d.masks "train_mask" = some mask ∧ ids ≠ [] ∧
        (∀ w, d.edgeWeight = some w → w.length = ei.length) ∧ (spec.norm = "rw" ∨ spec.norm = "sym") ∧
        ((∀ c, ¬ ClassLabeled ids mask c) ∨ ∀ c : Nat, (c : Int) ∈ ids → ClassLabeled ids mask c) := by
  obtain ⟨m, hm⟩ := V.classes
  constructor
  · rintro ⟨r, h⟩
    obtain ⟨ids', ei', mask, V', h1, h2, h3⟩ := fitWith_ok.mp h
    obtain ⟨rfl, rfl⟩ := valid_unique V V'
    obtain ⟨a, b, c, e⟩ := (labelPropagation_iff V.edges rfl h2).mp ⟨r, h3⟩
    exact ⟨mask, h1, by rintro rfl; simp at a, b, e, (numClasses_iff hm h2).mp c⟩
  · rintro ⟨mask, h1, a, b, e, c⟩
    have h2 := V.masks _ (by simp) _ h1
    obtain ⟨r, hr⟩ := (labelPropagation_iff (sqrt := sqrt) (eps := eps) (spec := spec) V.edges rfl h2).mpr
      ⟨List.length_pos_of_ne_nil a, b, (numClasses_iff hm h2).mpr c, e⟩
    exact ⟨r, fitWith_ok.mpr ⟨ids, ei, mask, V, h1, h2, hr⟩⟩

/-- **C53 (spreading accepts the same datasets).**  The same for label spreading, with `alpha` in `[0, 1)`. -/
theorem C53_accepts_spreading (sqrt : K → K) (eps alpha : K) (spec : PropSpec K) (d : NodeData K) (ids : List Int)
    (ei : List (Int × Int)) (V : Valid d ids ei) :
    (∃ r, fitSpreading sqrt eps alpha spec d = .ok r) ↔
      (0 ≤ alpha ∧ alpha < 1) ∧ ∃ mask, Assoc.get d.masks "train_mask" = some mask ∧ ids ≠ [] ∧
        (∀ w, d.edgeWeight = some w → w.length = ei.length) ∧ (spec.norm = "rw" ∨ spec.norm = "sym") ∧
        ((∀ c, ¬ ClassLabeled ids mask c) ∨ ∀ c : Nat, (c : Int) ∈ ids → ClassLabeled ids mask c) := by
  obtain ⟨m, hm⟩ := V.classes
  constructor
  · rintro ⟨r, h⟩
    obtain ⟨ids', ei', mask, V', h1, h2, h3⟩ := fitWith_ok.mp h
    obtain ⟨rfl, rfl⟩ := valid_unique V V'
    obtain ⟨a, b, c, e, f⟩ := (labelSpreading_iff V.edges rfl h2).mp ⟨r, h3⟩
    exact ⟨f, mask, h1, by rintro rfl; simp at a, b, e, (numClasses_iff hm h2).mp c⟩
  · rintro ⟨f, mask, h1, a, b, e, c⟩
    have h2 := V.masks _ (by simp) _ h1
    obtain ⟨r, hr⟩ := (labelSpreading_iff (sqrt := sqrt) (eps := eps) (spec := spec) V.edges rfl h2).mpr
      ⟨List.length_pos_of_ne_nil a, b, (numClasses_iff hm h2).mpr c, e, f⟩
    exact ⟨r, fitWith_ok.mpr ⟨ids, ei, mask, V, h1, h2, hr⟩⟩

/-- **C53 (partial).**  If every class of the validated dataset occurs at a labeled node, label propagation
returns scores with one row per node and one column per class.  Missing: datasets with a class that no labeled
node has are refused (`C53_missing_class_violated`). -/
theorem C53_columns_partial (sqrt : K → K) (eps : K) (spec : PropSpec K) (hn : spec.norm = "rw" ∨ spec.norm = "sym")
    (d : NodeData K) (ids : List Int) (ei : List (Int × Int)) (V : Valid d ids ei) (mask : List Bool)
    (ht : Assoc.get d.masks "train_mask" = some mask) (i0 l0 : Nat) (hlab : Labeled ids mask i0 l0)
    (hw : ∀ w, d.edgeWeight = some w → w.length = ei.length)
    (hall : ∀ c : Nat, (c : Int) ∈ ids → ClassLabeled ids mask c) :
    ∃ r m, fitPropagation sqrt eps spec d = .ok r ∧ ClassesUpTo ids m ∧ HasShape r.F ids.length m := by
  have hne : ids ≠ [] := by
    rintro rfl
    have := hlab.2
    simp at this
  obtain ⟨r, hr⟩ := (C53_accepts sqrt eps spec d ids ei V).mpr ⟨mask, ht, hne, hw, hn, .inr hall⟩
  obtain ⟨m, hm⟩ := V.classes
  refine ⟨r, m, hr, hm, ?_⟩
  obtain ⟨ids', ei', mask', V', h1, h2, h3⟩ := fitWith_ok.mp hr
  obtain ⟨rfl, rfl⟩ := valid_unique V V'
  rw [ht] at h1
  obtain rfl := Option.some.inj h1
  have := (lp_run h3).1
  rw [numClasses_eq hm h2 (.inr hall)] at this
  have hm1 : 1 ≤ m := by
    have h5 := (hm (l0 : Int) (by omega)).mp (List.mem_of_getElem? hlab.2)
    omega
  rwa [Nat.max_eq_right hm1] at this

end

/-- Three nodes on a line; class 1 is only at the unlabeled node 1. -/
def missingClass : NodeData Rat where
  xShape := [3, 2]
  y := .labels (.ints [0, 1, 0])
  edgeIndex := some [(0, 1), (1, 0), (1, 2), (2, 1)]
  edgeWeight := none
  masks := [("train_mask", [true, false, false])]

/-- **C53 is violated.**  A dataset that validation accepts, with a labeled node and default settings, makes
label propagation raise `ValueError`: the class of an unlabeled node does not occur among the labeled ones. -/
theorem C53_missing_class_violated :
    validateNodeDataset missingClass = .ok () ∧
    fitPropagation (fun x => x) (1 / 1000000000000) ⟨"rw", 200, 1 / 1000000, true⟩ missingClass
      = .error .valueError := by
  constructor
  · decide +kernel
  · decide +kernel

/-- Non-vacuity: the same graph with both classes labeled is accepted and gets two columns. -/
example : (fitPropagation (fun x => x) (1 / 1000000000000) ⟨"rw", 5, 0, true⟩
    ({ missingClass with masks := [("train_mask", [true, true, false])] })).map (fun r => (r.F, r.nIter))
    = .ok ([[1, 0], [0, 1], [0, 1]], 2) := by decide +kernel

/-- **C53: an empty dataset passes validation but is refused by the method.** -/
theorem C53_empty_violated :
    validateNodeDataset (⟨[0, 2], .labels (.ints []), some [], none, [("train_mask", [])]⟩ : NodeData Rat) = .ok () ∧
    fitPropagation (fun x => x) (1 / 1000000000000) ⟨"rw", 200, 1 / 1000000, true⟩
      (⟨[0, 2], .labels (.ints []), some [], none, [("train_mask", [])]⟩ : NodeData Rat) = .error .valueError := by
  constructor
  · decide +kernel
  · decide +kernel

end ModSSC.Transductive
