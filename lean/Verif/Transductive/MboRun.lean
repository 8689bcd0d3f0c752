import Verif.Transductive.MboProps

/-!
# Runs of Poisson MBO (C105)
-/

namespace ModSSC.Transductive
open ModSSC Spec

set_option linter.unusedSectionVars false

variable {K : Type} [Field K] [LinearOrder K] [IsStrictOrderedRing K]

/-! ## Sources, shares and volumes -/

theorem label_sum {y : List Int} {mask : List Bool} (hm : mask.length = y.length) {k : Nat} {Y : Mat K}
    (hY : seedMatrix y mask k = .ok Y) {c : Nat} (hc : c < k) :
    (((List.range y.length).filter fun i => mask.getD i false).map fun j => Y.get j c).sum = (classCount y mask c : K) := by
  obtain ⟨-, -, hY⟩ := seedMatrix_ok hY
  have hget : ∀ j, j < y.length → Y.get j c = if mask.getD j false = true ∧ y.getD j (-1) = (c : Int) then 1 else 0 :=
    fun j hj => by rw [hY, get_tab _ _ _ hj hc]
  have hall : ((List.range y.length).map fun j =>
      if mask.getD j false = true ∧ y.getD j (-1) = (c : Int) then (1 : K) else 0).sum = (classCount y mask c : K) := by
    have := range_zip (β := K) y mask hm fun a b => if b = true ∧ a = (c : Int) then 1 else 0
    rw [this, sum_indicator]
    rfl
  rw [← hall, sum_filter_list, sum_range_list, Finset.sum_filter]
  refine Finset.sum_congr rfl fun j hj => ?_
  by_cases hmj : mask.getD j false = true
  · rw [if_pos hmj, hget j (Finset.mem_range.1 hj)]
  · rw [if_neg hmj, if_neg (fun e => hmj e.1)]

theorem classCount_pos {y : List Int} {mask : List Bool} {c : Nat} :
    0 < classCount y mask c ↔ ClassLabeled y mask c := by
  unfold classCount ClassLabeled Labeled
  rw [List.count_pos_iff]
  constructor
  · intro h
    obtain ⟨i, hi, h⟩ := List.getElem_of_mem h
    rw [List.getElem_zip] at h
    obtain ⟨h1, h2⟩ := Prod.mk.inj h
    rw [List.length_zip] at hi
    exact ⟨i, by rw [List.getElem?_eq_getElem (by omega), h2], by rw [List.getElem?_eq_getElem (by omega), h1]⟩
  · rintro ⟨i, h1, h2⟩
    obtain ⟨h1l, h1⟩ := List.getElem?_eq_some_iff.mp h1
    obtain ⟨h2l, h2⟩ := List.getElem?_eq_some_iff.mp h2
    have : (y.zip mask)[i]'(by rw [List.length_zip]; omega) = ((c : Int), true) := by rw [List.getElem_zip, h1, h2]
    exact this ▸ List.getElem_mem _

theorem labelShare_le {y : List Int} {mask : List Bool} (hl : labeledCount mask ≠ 0) {c : Nat} :
    labelShare (K := K) y mask c ≤ 0 ↔ ¬ ClassLabeled y mask c := by
  rw [← classCount_pos]
  unfold labelShare
  have h0 : (0 : K) < labeledCount mask := by exact_mod_cast Nat.pos_of_ne_zero hl
  constructor
  · intro h hc
    exact absurd (div_pos (by exact_mod_cast hc : (0 : K) < classCount y mask c) h0) (not_lt.mpr h)
  · intro h
    have : classCount y mask c = 0 := by omega
    rw [this]; simp

theorem mboSources_ok {y : List Int} {mask : List Bool} (hm : mask.length = y.length) {k : Nat} (hk : 0 < k) {Y : Mat K}
    (hY : seedMatrix y mask k = .ok Y) {BY : (Nat → Nat → K) × (Nat → K)}
    (h : mboSources y.length k Y mask = .ok BY) :
    (∀ i < y.length, ∀ c < k, BY.1 i c = source true y mask c i) ∧ (∀ c < k, BY.2 c = labelShare y mask c) ∧
    ∀ c < k, ClassLabeled y mask c := by
  unfold mboSources at h
  simp only at h
  have hlen : ((List.range y.length).filter fun i => mask.getD i false).length = labeledCount mask := by
    rw [← hm]; exact labeled_len mask
  by_cases h0 : ((List.range y.length).filter fun i => mask.getD i false).length = 0
  · rw [if_pos h0] at h; simp at h
  rw [if_neg h0] at h
  have hshare : ∀ c < k, (((List.range y.length).filter fun i => mask.getD i false).map fun j => Y.get j c).sum
      / (((List.range y.length).filter fun i => mask.getD i false).length : K) = labelShare y mask c := by
    intro c hc
    rw [label_sum hm hY hc, hlen]
    rfl
  split at h
  · simp at h
  rename_i hany
  obtain rfl := Except.ok.inj h
  refine ⟨fun i hi c hc => ?_, hshare, fun c hc => ?_⟩
  · have hB : buildSources y.length Y mask true = .ok fun i c =>
        (if mask.getD i false then (1 : K) else 0) * (Y.get i c -
          (((List.range y.length).filter fun i => mask.getD i false).map fun j => Y.get j c).sum
            / (((List.range y.length).filter fun i => mask.getD i false).length : K)) := by
      unfold buildSources
      simp only
      rw [if_neg h0]
      simp
    rw [← buildSources_ok hm hY hB hi hc]
    simp only
    by_cases hb : mask.getD i false = true
    · rw [if_pos hb, if_pos hb, one_mul]
    · rw [if_neg hb, if_neg hb, zero_mul]
  · by_contra hno
    apply hany
    rw [List.any_eq_true]
    refine ⟨c, List.mem_range.mpr hc, ?_⟩
    rw [decide_eq_true_eq, hshare c hc, labelShare_le (by rw [← hlen]; exact h0)]
    exact hno

theorem mboSources_total {y : List Int} {mask : List Bool} (hm : mask.length = y.length) {k : Nat} (hk : 0 < k) {Y : Mat K}
    (hY : seedMatrix y mask k = .ok Y) (hall : ∀ c < k, ClassLabeled y mask c) :
    ∃ BY, mboSources y.length k Y mask = .ok BY := by
  have hlen : ((List.range y.length).filter fun i => mask.getD i false).length = labeledCount mask := by
    rw [← hm]; exact labeled_len mask
  have h0 : labeledCount mask ≠ 0 := by
    obtain ⟨i, hi, -⟩ := hall 0 hk
    have := List.count_pos_iff.mpr (List.mem_of_getElem? hi)
    unfold labeledCount
    omega
  unfold mboSources
  simp only
  rw [if_neg (by rw [hlen]; exact h0), if_neg]
  · exact ⟨_, rfl⟩
  · intro h
    obtain ⟨c, hc, h⟩ := List.any_eq_true.mp h
    have hc := List.mem_range.mp hc
    rw [decide_eq_true_eq, label_sum hm hY hc, hlen] at h
    exact (labelShare_le h0).mp h (hall c hc)

theorem mboVolumes_ok {y : List Int} {mask : List Bool} {k : Nat} {spec : MboSpec K} {yBar : Nat → K}
    (hb : ∀ c < k, yBar c = labelShare y mask c) {b : Nat → K} (h : mboVolumes y k spec yBar = .ok b) :
    TargetVolumes y mask k spec.bStrategy spec.b b := by
  unfold mboVolumes at h
  cases hs : spec.b with
  | some l =>
    rw [hs] at h
    simp only at h
    by_cases h1 : l.length ≠ k
    · rw [if_pos h1] at h; simp at h
    rw [if_neg h1] at h
    by_cases h2 : l.any (fun x => decide (x < 0)) = true
    · rw [if_pos h2] at h; simp at h
    rw [if_neg h2] at h
    by_cases h3 : l.sum ≤ 0
    · rw [if_pos h3] at h; simp at h
    rw [if_neg h3] at h
    obtain rfl := Except.ok.inj h
    refine .inl ⟨l, rfl, not_not.mp h1, fun x hx => ?_, not_le.mp h3, fun c _ => rfl⟩
    by_contra hx0
    exact h2 (List.any_eq_true.mpr ⟨x, hx, by simpa using hx0⟩)
  | none =>
    rw [hs] at h
    simp only at h
    unfold mboPrior at h
    refine .inr ⟨rfl, ?_⟩
    split at h
    · rename_i hu
      obtain rfl := Except.ok.inj h
      exact .inl ⟨hu, fun c _ => rfl⟩
    split at h
    · rename_i hu
      obtain rfl := Except.ok.inj h
      exact .inr (.inl ⟨hu, hb⟩)
    split at h
    · rename_i hu
      simp only at h
      split at h
      · simp at h
      obtain rfl := Except.ok.inj h
      refine .inr (.inr ⟨hu, fun c _ => ?_⟩)
      simp only
      rw [← List.countP_eq_length_filter, List.count_filter (by simp)]
    · simp at h

theorem mboVolumes_total {y : List Int} {mask : List Bool} {k : Nat} (hk : LargestClass y k) {spec : MboSpec K}
    (yBar : Nat → K) (h : ∃ b : Nat → K, TargetVolumes y mask k spec.bStrategy spec.b b) :
    ∃ b, mboVolumes y k spec yBar = .ok b := by
  obtain ⟨b, h⟩ := h
  unfold mboVolumes
  rcases h with ⟨l, hs, h1, h2, h3, -⟩ | ⟨hs, h⟩
  · rw [hs]
    simp only
    rw [if_neg (not_not.mpr h1), if_neg, if_neg (not_le.mpr h3)]
    · exact ⟨_, rfl⟩
    · intro hh
      obtain ⟨x, hx, hh⟩ := List.any_eq_true.mp hh
      exact absurd (h2 x hx) (by simpa using hh)
  · rw [hs]
    simp only
    unfold mboPrior
    rcases h with ⟨h, -⟩ | ⟨h, -⟩ | ⟨h, -⟩
    · rw [if_pos h]; exact ⟨_, rfl⟩
    · rw [h, if_neg (by decide), if_pos rfl]; exact ⟨_, rfl⟩
    · rw [h, if_neg (by decide), if_neg (by decide), if_pos rfl]
      simp only
      rw [if_neg]
      · exact ⟨_, rfl⟩
      · intro h0
        have : (k : Int) - 1 ∈ y.filter fun c => decide (0 ≤ c) :=
          List.mem_filter.mpr ⟨hk.1, by have := hk.2.1; simp; omega⟩
        rw [List.length_eq_zero_iff.mp h0] at this
        simp at this

/-! ## Accepted calls -/

/-- What an accepted call has checked. -/
structure MRun (n : Int) (ei : List (Int × Int)) (ew : Option (List K)) (y : List Int) (mask : List Bool)
    (spec : MboSpec K) (es0 : List (WEdge K)) (k : Nat) (Y : Mat K) (BY : (Nat → Nat → K) × (Nat → K))
    (b : Nat → K) : Prop where
  graph : validateGraph n ei ew = .ok es0
  ylen : (y.length : Int) = n
  mlen : (mask.length : Int) = n
  classes : plClasses y = .ok k
  seed : seedMatrix y mask k = .ok Y
  sources : mboSources y.length k Y mask = .ok BY
  volumes : mboVolumes y k spec BY.2 = .ok b
  deg : ¬ ((List.range y.length).map (degree (mboEdges spec es0))).foldl max 0 ≤ 0

/-- The state after the first phase. -/
def mboFirst (y : List Int) (spec : MboSpec K) (es0 : List (WEdge K)) (k : Nat) (B : Nat → Nat → K) : Mat K × Option K :=
  mboLoop y.length k (poissonUpdate y.length k (mboEdges spec es0) B) spec.T.toNat (tab y.length k fun _ _ => 0, none)

/-- The state at the end. -/
def mboLast (y : List Int) (spec : MboSpec K) (es0 : List (WEdge K)) (k : Nat) (BY : (Nat → Nat → K) × (Nat → K))
    (b : Nat → K) : Mat K × Option K :=
  mboOuter y.length k (mboEdges spec es0) BY.1 b
    (1 / ((List.range y.length).map (degree (mboEdges spec es0))).foldl max 0) spec spec.nOuter.toNat
    (tab y.length k fun i c => (mboFirst y spec es0 k BY.1).1.get i c * (b c / BY.2 c), (mboFirst y spec es0 k BY.1).2)

theorem poissonMbo_ok {n : Int} {ei : List (Int × Int)} {ew : Option (List K)} {y : List Int} {mask : List Bool}
    {spec : MboSpec K} {r : Diffusion K} :
    poissonMbo n ei ew y mask spec = .ok r ↔ ∃ es0 k Y BY b, MRun n ei ew y mask spec es0 k Y BY b ∧
      r = ⟨(mboLast y spec es0 k BY b).1, spec.T + spec.nOuter * spec.nInner, (mboLast y spec es0 k BY b).2⟩ := by
  unfold poissonMbo
  rw [ebind_ok]
  constructor
  · rintro ⟨es0, hg, h⟩
    simp only at h
    by_cases h2 : (y.length : Int) ≠ n
    · rw [if_pos h2] at h; simp at h
    rw [if_neg h2] at h
    by_cases h3 : (mask.length : Int) ≠ n
    · rw [if_pos h3] at h; simp at h
    rw [if_neg h3, ebind_ok] at h
    obtain ⟨k, hk, h⟩ := h
    rw [ebind_ok] at h
    obtain ⟨Y, hY, h⟩ := h
    rw [ebind_ok] at h
    obtain ⟨BY, hB, h⟩ := h
    rw [ebind_ok] at h
    obtain ⟨b, hb, h⟩ := h
    by_cases h4 : ((List.range y.length).map (degree (mboEdges spec es0))).foldl max 0 ≤ 0
    · rw [if_pos h4] at h; simp at h
    rw [if_neg h4] at h
    exact ⟨es0, k, Y, BY, b, ⟨hg, not_not.mp h2, not_not.mp h3, hk, hY, hB, hb, h4⟩, (Except.ok.inj h).symm⟩
  · rintro ⟨es0, k, Y, BY, b, P, rfl⟩
    refine ⟨es0, P.graph, ?_⟩
    simp only
    rw [if_neg (not_not.mpr P.ylen), if_neg (not_not.mpr P.mlen), ebind_of_ok P.classes, ebind_of_ok P.seed,
      ebind_of_ok P.sources, ebind_of_ok P.volumes, if_neg P.deg]
    rfl

namespace MRun
variable {n : Int} {ei : List (Int × Int)} {ew : Option (List K)} {y : List Int} {mask : List Bool}
  {spec : MboSpec K} {es0 : List (WEdge K)} {k : Nat} {Y : Mat K} {BY : (Nat → Nat → K) × (Nat → K)} {b : Nat → K}

theorem len (P : MRun n ei ew y mask spec es0 k Y BY b) : mask.length = y.length := by
  have := P.ylen; have := P.mlen; omega

theorem pos (P : MRun n ei ew y mask spec es0 k Y BY b) : 0 < y.length := by
  have := P.ylen; have := (validateGraph_ok P.graph).1; omega

theorem cls (P : MRun n ei ew y mask spec es0 k Y BY b) : LargestClass y k := plClasses_ok.mp P.classes

theorem isGraph (P : MRun n ei ew y mask spec es0 k Y BY b) :
    IsGraph y.length (mboEdges spec es0) (usedWeight spec.symmetrize spec.zeroDiagonal (edgesOf ei ew)) := by
  obtain ⟨-, -, he, hr⟩ := validateGraph_ok P.graph
  refine ⟨fun e hm => (mboEdges_range (n := y.length) spec (fun e he => ?_) e hm).1, fun i _ j => ?_⟩
  · have := hr e he
    have := P.ylen
    omega
  · rw [mboEdges_affinity, affinity_spec he, affinity_spec he]
    rfl

theorem src (P : MRun n ei ew y mask spec es0 k Y BY b) :
    ∀ i < y.length, ∀ c < k, BY.1 i c = source true y mask c i := (mboSources_ok P.len P.cls.2.1 P.seed P.sources).1

theorem share (P : MRun n ei ew y mask spec es0 k Y BY b) : ∀ c < k, BY.2 c = labelShare y mask c :=
  (mboSources_ok P.len P.cls.2.1 P.seed P.sources).2.1

theorem labeled (P : MRun n ei ew y mask spec es0 k Y BY b) : ∀ c < k, ClassLabeled y mask c :=
  (mboSources_ok P.len P.cls.2.1 P.seed P.sources).2.2

theorem largest (P : MRun n ei ew y mask spec es0 k Y BY b) :
    LargestDegree y.length (usedWeight spec.symmetrize spec.zeroDiagonal (edgesOf ei ew))
      (((List.range y.length).map (degree (mboEdges spec es0))).foldl max 0) := by
  obtain ⟨-, h2, h3⟩ := foldl_max_gen ((List.range y.length).map (degree (mboEdges spec es0))) 0
  refine ⟨fun i hi => ?_, ?_⟩
  · rw [← P.isGraph.deg hi]
    exact h2 _ (List.mem_map.mpr ⟨i, List.mem_range.mpr hi, rfl⟩)
  · rcases h3 with h3 | h3
    · exact absurd (le_of_eq h3) P.deg
    · obtain ⟨i, hi, h⟩ := List.mem_map.mp h3
      have hi := List.mem_range.mp hi
      exact ⟨i, hi, by rw [← P.isGraph.deg hi]; exact h⟩

theorem first (P : MRun n ei ew y mask spec es0 k Y BY b) :
    Agree y.length k (mboFirst y spec es0 k BY.1).1
      ((poissonStep y.length (usedWeight spec.symmetrize spec.zeroDiagonal (edgesOf ei ew))
        fun i c => source true y mask c i)^[spec.T.toNat] fun _ _ => 0) :=
  mboLoop_agree (fun _ _ hF => P.isGraph.poisson P.src hF) _ _ _ (agree_tab fun _ _ _ _ => rfl)

theorem start (P : MRun n ei ew y mask spec es0 k Y BY b) :
    Agree y.length k (tab y.length k fun i c => (mboFirst y spec es0 k BY.1).1.get i c * (b c / BY.2 c))
      (mboStart y.length (usedWeight spec.symmetrize spec.zeroDiagonal (edgesOf ei ew)) (fun i c => source true y mask c i)
        b (labelShare y mask) spec.T.toNat) :=
  agree_tab fun i hi c hc => by rw [P.first i hi c hc, P.share c hc]; rfl

end MRun

/-- **C105**: an accepted call returns what the published scheme computes.  The classes run up to the largest label, `b` are
the target volumes, `w` the weights in use and `dmax` the largest total weight of a node.  The scores are the result of
`Nouter` rounds of heat steps of length `1/dmax`, volume adjustments and thresholding, starting from `T` Poisson steps;
`n_iter` is `T + Nouter * Ninner`. -/
theorem C105_run (n : Int) (ei : List (Int × Int)) (ew : Option (List K)) (y : List Int) (mask : List Bool)
    (spec : MboSpec K) (r : Diffusion K) (h : poissonMbo n ei ew y mask spec = .ok r) :
    ∃ (k : Nat) (b : Nat → K) (dmax : K), LargestClass y k ∧ TargetVolumes y mask k spec.bStrategy spec.b b ∧
      let w := usedWeight spec.symmetrize spec.zeroDiagonal (edgesOf ei ew)
      let src := fun i c => source true y mask c i
      LargestDegree y.length w dmax ∧ 0 < dmax ∧ HasShape r.F y.length k ∧
      (∀ i < y.length, ∀ c < k, r.F.get i c =
        (mboRound y.length k w src b (1 / dmax) spec.mu spec.dTau spec.smin spec.smax spec.nInner.toNat
          spec.nVolume.toNat)^[spec.nOuter.toNat] (mboStart y.length w src b (labelShare y mask) spec.T.toNat) i c) ∧
      r.nIter = spec.T + spec.nOuter * spec.nInner := by
  obtain ⟨es0, k, Y, BY, b, P, rfl⟩ := poissonMbo_ok.mp h
  refine ⟨k, b, _, P.cls, mboVolumes_ok P.share P.volumes, P.largest, not_le.mp P.deg, outer_shape _ _ (tab_shape _ _ _), ?_, rfl⟩
  exact outer_agree P.cls.2.1 P.isGraph P.src b _ spec _ _ _ P.start

/-- **C105**: the reported residual is the largest change made by the last step: the last heat step of the last round, or the
last Poisson step if there is no round or no heat step; there is none (infinity) if no step is made. -/
theorem C105_residual (n : Int) (ei : List (Int × Int)) (ew : Option (List K)) (y : List Int) (mask : List Bool)
    (spec : MboSpec K) (r : Diffusion K) (h : poissonMbo n ei ew y mask spec = .ok r) :
    ∃ (k : Nat) (b : Nat → K) (dmax : K), LargestClass y k ∧ TargetVolumes y mask k spec.bStrategy spec.b b ∧
      let w := usedWeight spec.symmetrize spec.zeroDiagonal (edgesOf ei ew)
      let src := fun i c => source true y mask c i
      LargestDegree y.length w dmax ∧
      (∀ t m : Nat, spec.nOuter = (t : Int) + 1 → spec.nInner = (m : Int) + 1 →
        ∃ ρ, r.residual = some ρ ∧
          let U := (mboRound y.length k w src b (1 / dmax) spec.mu spec.dTau spec.smin spec.smax spec.nInner.toNat
            spec.nVolume.toNat)^[t] (mboStart y.length w src b (labelShare y mask) spec.T.toNat)
          LargestChange y.length k ((heatStep y.length w src (1 / dmax) spec.mu)^[m + 1] U)
            ((heatStep y.length w src (1 / dmax) spec.mu)^[m] U) ρ) ∧
      (∀ t : Nat, spec.nOuter ≤ 0 ∨ spec.nInner ≤ 0 → spec.T = (t : Int) + 1 →
        ∃ ρ, r.residual = some ρ ∧
          LargestChange y.length k ((poissonStep y.length w src)^[t + 1] fun _ _ => 0)
            ((poissonStep y.length w src)^[t] fun _ _ => 0) ρ) ∧
      (spec.nOuter ≤ 0 ∨ spec.nInner ≤ 0 → spec.T ≤ 0 → r.residual = none) := by
  obtain ⟨es0, k, Y, BY, b, P, rfl⟩ := poissonMbo_ok.mp h
  have hkeep : spec.nOuter ≤ 0 ∨ spec.nInner ≤ 0 → (mboLast y spec es0 k BY b).2 = (mboFirst y spec es0 k BY.1).2 := by
    intro hno
    unfold mboLast
    rcases hno with hno | hno
    · rw [Int.toNat_of_nonpos hno]; rfl
    · generalize (1 / ((List.range y.length).map (degree (mboEdges spec es0))).foldl max 0) = dt
      generalize (mboFirst y spec es0 k BY.1).2 = res
      generalize (tab y.length k fun i c => (mboFirst y spec es0 k BY.1).1.get i c * (b c / BY.2 c)) = F
      induction spec.nOuter.toNat generalizing F with
      | zero => rfl
      | succ t ih =>
        rw [mboOuter, Int.toNat_of_nonpos hno]
        exact ih _
  refine ⟨k, b, _, P.cls, mboVolumes_ok P.share P.volumes, P.largest, fun t m ht hm => ?_, fun t hno ht => ?_,
    fun hno ht => ?_⟩
  · have h1 := outer_residual P.pos P.cls.2.1 P.isGraph P.src b
      (1 / ((List.range y.length).map (degree (mboEdges spec es0))).foldl max 0) spec (m := m) (by omega) t
      (tab y.length k fun i c => (mboFirst y spec es0 k BY.1).1.get i c * (b c / BY.2 c), (mboFirst y spec es0 k BY.1).2)
      _ P.start
    have : spec.nOuter.toNat = t + 1 := by omega
    show ∃ ρ, (mboLast y spec es0 k BY b).2 = some ρ ∧ _
    unfold mboLast
    rw [this]
    exact h1
  · show ∃ ρ, (mboLast y spec es0 k BY b).2 = some ρ ∧ _
    rw [hkeep hno]
    unfold mboFirst
    rw [show spec.T.toNat = t + 1 by omega]
    exact mboLoop_residual P.pos P.cls.2.1 (fun _ _ hF => P.isGraph.poisson P.src hF) _ _ _ (agree_tab fun _ _ _ _ => rfl)
  · show (mboLast y spec es0 k BY b).2 = none
    rw [hkeep hno]
    unfold mboFirst
    rw [Int.toNat_of_nonpos ht]
    rfl

theorem round_onehot {n k : Nat} (hk : 0 < k) (w src : Nat → Nat → K) (b : Nat → K) (dt mu dTau smin smax : K) (a v : Nat)
    (U : Nat → Nat → K) (i : Nat) :
    ∃ c < k, ∀ c', mboRound n k w src b dt mu dTau smin smax a v U i c' = if c' = c then 1 else 0 := by
  unfold mboRound
  obtain ⟨c, hc⟩ := firstBest_exists hk fun c => (heatStep n w src dt mu)^[a] U i c *
    (volumeStep n k ((heatStep n w src dt mu)^[a] U) b dTau smin smax)^[v] (fun _ => 1) c
  exact ⟨c, hc.1, fun c' => if_congr ⟨fun h' => firstBest_unique h' hc, fun e => e ▸ hc⟩ rfl rfl⟩

/-- **C105**: after at least one round every node is assigned exactly one class: its row is 1 there and 0 elsewhere. -/
theorem C105_onehot (n : Int) (ei : List (Int × Int)) (ew : Option (List K)) (y : List Int) (mask : List Bool)
    (spec : MboSpec K) (ho : 1 ≤ spec.nOuter) (r : Diffusion K) (h : poissonMbo n ei ew y mask spec = .ok r) :
    ∃ k, LargestClass y k ∧ HasShape r.F y.length k ∧
      ∀ i < y.length, ∃ c < k, ∀ c' < k, r.F.get i c' = if c' = c then 1 else 0 := by
  obtain ⟨k, b, dmax, hk, -, -, -, hs, hF, -⟩ := C105_run n ei ew y mask spec r h
  refine ⟨k, hk, hs, fun i hi => ?_⟩
  obtain ⟨t, ht⟩ : ∃ t, spec.nOuter.toNat = t + 1 := ⟨spec.nOuter.toNat - 1, by omega⟩
  rw [ht] at hF
  simp only [Function.iterate_succ_apply'] at hF
  obtain ⟨c, hc, h1⟩ := round_onehot (n := y.length) hk.2.1
    (usedWeight spec.symmetrize spec.zeroDiagonal (edgesOf ei ew)) (fun i c => source true y mask c i) b (1 / dmax) spec.mu
    spec.dTau spec.smin spec.smax spec.nInner.toNat spec.nVolume.toNat
    ((mboRound y.length k (usedWeight spec.symmetrize spec.zeroDiagonal (edgesOf ei ew)) (fun i c => source true y mask c i) b
      (1 / dmax) spec.mu spec.dTau spec.smin spec.smax spec.nInner.toNat spec.nVolume.toNat)^[t]
      (mboStart y.length (usedWeight spec.symmetrize spec.zeroDiagonal (edgesOf ei ew)) (fun i c => source true y mask c i) b
        (labelShare y mask) spec.T.toNat)) i
  exact ⟨c, hc, fun c' hc' => by rw [hF i hi c' hc', h1 c']⟩

/-! ## Parts of the graph without labels -/

/-- The rows of the nodes of `S` are all `v`. -/
def ConstOn (n : Nat) (S : Nat → Prop) (U : Nat → Nat → K) (v : Nat → K) : Prop := ∀ i < n, S i → ∀ c, U i c = v c

/-- `S` has no sources and no weights from outside. -/
structure Closed (n : Nat) (w src : Nat → Nat → K) (S : Nat → Prop) : Prop where
  src : ∀ i < n, S i → ∀ c, src i c = 0
  out : ∀ i < n, S i → ∀ j < n, ¬ S j → w i j = 0

namespace Closed
variable {n k : Nat} {w src : Nat → Nat → K} {S : Nat → Prop}

theorem lap (C : Closed n w src S) {U : Nat → Nat → K} {v : Nat → K} (h : ConstOn n S U v) {i : Nat} (hi : i < n) (hS : S i)
    (c : Nat) : laplacianAt n w (fun j => U j c) i = 0 := by
  unfold laplacianAt
  apply List.sum_eq_zero
  intro x hx
  obtain ⟨j, hj, rfl⟩ := List.mem_map.mp hx
  have hj := List.mem_range.mp hj
  simp only
  by_cases hSj : S j
  · rw [h i hi hS c, h j hj hSj c, sub_self, mul_zero]
  · rw [C.out i hi hS j hj hSj, zero_mul]

theorem poisson (C : Closed n w src S) {U : Nat → Nat → K} {v : Nat → K} (h : ConstOn n S U v) :
    ConstOn n S (poissonStep n w src U) v := by
  intro i hi hS c
  unfold poissonStep
  rw [C.lap h hi hS, C.src i hi hS, sub_self, zero_div, add_zero, ite_self, h i hi hS c]

theorem heat (C : Closed n w src S) (dt mu : K) {U : Nat → Nat → K} {v : Nat → K} (h : ConstOn n S U v) :
    ConstOn n S (heatStep n w src dt mu U) v := by
  intro i hi hS c
  unfold heatStep
  rw [C.lap h hi hS, C.src i hi hS, mul_zero, sub_self, mul_zero, sub_zero, h i hi hS c]

theorem start (C : Closed n w src S) (b share : Nat → K) (T : Nat) : ConstOn n S (mboStart n w src b share T) fun _ => 0 := by
  have h0 : ConstOn n S ((poissonStep n w src)^[T] fun _ _ => 0) fun _ => 0 := by
    induction T with
    | zero => exact fun _ _ _ _ => rfl
    | succ T ih => rw [Function.iterate_succ_apply']; exact C.poisson ih
  intro i hi hS c
  unfold mboStart
  rw [h0 i hi hS c, zero_mul]

theorem factor_pos {U : Nat → Nat → K} {b : Nat → K} {dTau smin smax : K} (h1 : 0 < smin) (h2 : 0 < smax) (t c : Nat) :
    0 < (volumeStep n k U b dTau smin smax)^[t] (fun _ => 1) c := by
  cases t with
  | zero => exact one_pos
  | succ t =>
    rw [Function.iterate_succ_apply']
    exact lt_min (lt_max_of_lt_right h1) h2

theorem round (C : Closed n w src S) (hk : 0 < k) (b : Nat → K) (dt mu dTau smin smax : K) (h1 : 0 < smin) (h2 : 0 < smax)
    (a t : Nat) {U : Nat → Nat → K} {v : Nat → K} (h : ConstOn n S U v) (hv0 : 0 ≤ v 0) (hv : ∀ c, 0 < c → v c = 0) :
    ConstOn n S (mboRound n k w src b dt mu dTau smin smax a t U) fun c => if c = 0 then 1 else 0 := by
  have hV : ConstOn n S ((heatStep n w src dt mu)^[a] U) v := by
    clear hv0 hv
    induction a with
    | zero => exact h
    | succ a ih => rw [Function.iterate_succ_apply']; exact C.heat dt mu ih
  intro i hi hS c
  unfold mboRound
  simp only
  have hf := fun c => factor_pos (n := n) (k := k) (U := (heatStep n w src dt mu)^[a] U) (b := b) (dTau := dTau) h1 h2 t c
  have hbest : FirstBest k (fun c => (heatStep n w src dt mu)^[a] U i c *
      (volumeStep n k ((heatStep n w src dt mu)^[a] U) b dTau smin smax)^[t] (fun _ => 1) c) 0 := by
    refine ⟨hk, fun c' _ => ?_, fun c' hc' => absurd hc' (by omega)⟩
    simp only
    rw [hV i hi hS, hV i hi hS]
    rcases Nat.eq_zero_or_pos c' with rfl | hc'
    · exact le_refl _
    · rw [hv c' hc', zero_mul]
      exact mul_nonneg hv0 (hf 0).le
  exact if_congr ⟨fun h' => firstBest_unique h' hbest, fun e => e ▸ hbest⟩ rfl rfl

end Closed

/-- **C105**: a node that no path of edges joins to a labeled node is always assigned class 0, whatever the labels, the volumes
and the number of rounds (at least one, with positive bounds of the factors); without rounds its row is zero. -/
theorem C105_unreached (n : Int) (ei : List (Int × Int)) (ew : Option (List K)) (y : List Int) (mask : List Bool)
    (spec : MboSpec K) (hw : ∀ e ∈ edgesOf ei ew, 0 ≤ e.2.2) (r : Diffusion K)
    (h : poissonMbo n ei ew y mask spec = .ok r) (i : Nat) (hi : i < y.length)
    (hiso : ∀ j, Linked (edgesOf ei ew) i j → mask[j]? ≠ some true) :
    ∀ k, LargestClass y k → ∀ c < k,
      (spec.nOuter ≤ 0 → r.F.get i c = 0) ∧
      (1 ≤ spec.nOuter → 0 < spec.smin → 0 < spec.smax → r.F.get i c = if c = 0 then 1 else 0) := by
  intro k' hk' c hc
  obtain ⟨k, b, dmax, hk, -, -, -, -, hF, -⟩ := C105_run n ei ew y mask spec r h
  obtain rfl : k = k' := Except.ok.inj ((plClasses_ok.mpr hk).symm.trans (plClasses_ok.mpr hk'))
  have C : Closed y.length (usedWeight spec.symmetrize spec.zeroDiagonal (edgesOf ei ew)) (fun i c => source true y mask c i)
      (Linked (edgesOf ei ew) i) := by
    refine ⟨fun j _ hS c => ?_, fun a _ hS j _ hno => ?_⟩
    · have := hiso j hS
      unfold source
      rw [if_pos rfl, if_neg fun e => this e.1, if_neg this]
    · by_contra hne
      have hij : a ≠ j := fun e => hno (e ▸ hS)
      exact hno (.step hS (used_adjacent hw hij hne))
  have hs := C.start b (labelShare y mask) spec.T.toNat
  constructor
  · intro ho
    rw [hF i hi c hc, Int.toNat_of_nonpos ho]
    exact hs i hi .refl c
  · intro ho h1 h2
    rw [hF i hi c hc]
    obtain ⟨t, ht⟩ : ∃ t, spec.nOuter.toNat = t + 1 := ⟨spec.nOuter.toNat - 1, by omega⟩
    rw [ht]
    have key : ∀ t, ConstOn y.length (Linked (edgesOf ei ew) i)
        ((mboRound y.length k (usedWeight spec.symmetrize spec.zeroDiagonal (edgesOf ei ew))
          (fun i c => source true y mask c i) b (1 / dmax) spec.mu spec.dTau spec.smin spec.smax spec.nInner.toNat
          spec.nVolume.toNat)^[t + 1] (mboStart y.length (usedWeight spec.symmetrize spec.zeroDiagonal (edgesOf ei ew))
            (fun i c => source true y mask c i) b (labelShare y mask) spec.T.toNat)) fun c => if c = 0 then 1 else 0 := by
      intro t
      induction t with
      | zero => exact C.round hk.2.1 b _ _ _ _ _ h1 h2 _ _ hs (le_refl _) fun _ _ => rfl
      | succ t ih =>
        rw [Function.iterate_succ_apply']
        refine C.round hk.2.1 b _ _ _ _ _ h1 h2 _ _ ih ?_ fun c hc => if_neg (by omega)
        rw [if_pos rfl]; exact zero_le_one
    exact key t i hi .refl c

/-! ## Conservation -/

theorem source_colsum {y : List Int} {mask : List Bool} (hm : mask.length = y.length) (hl : labeledCount mask ≠ 0) (c : Nat) :
    ∑ i ∈ Finset.range y.length, source (K := K) true y mask c i = 0 := by
  have h1 : ∀ i ∈ Finset.range y.length, source (K := K) true y mask c i =
      (if mask.getD i false = true ∧ y.getD i (-1) = (c : Int) then (1 : K) else 0)
        - if mask.getD i false = true then (classCount y mask c : K) / labeledCount mask else 0 := by
    intro i hi
    have hi := Finset.mem_range.mp hi
    have hmi : mask[i]? = some (mask.getD i false) := by
      rw [List.getD_eq_getElem _ _ (by omega), List.getElem?_eq_getElem (by omega)]
    have hyi : y[i]? = some (y.getD i (-1)) := by
      rw [List.getD_eq_getElem _ _ hi, List.getElem?_eq_getElem hi]
    unfold source
    rw [if_pos rfl, hmi, hyi]
    simp only [Option.some.injEq]
    generalize mask.getD i false = bb
    generalize y.getD i (-1) = yy
    by_cases hb : bb = true
    · by_cases hy : yy = (c : Int)
      · simp [hb, hy]
      · simp [hb, hy]
    · simp [hb]
  rw [Finset.sum_congr rfl h1, Finset.sum_sub_distrib, ← sum_range_list, ← sum_range_list,
    range_zip (β := K) y mask hm fun a b => if b = true ∧ a = (c : Int) then 1 else 0, sum_indicator,
    ← filter_sum_ite, List.map_const', List.sum_replicate, nsmul_eq_mul]
  have : ((List.range y.length).filter fun i => decide (mask.getD i false = true)).length = labeledCount mask := by
    rw [← hm]
    have := labeled_len mask
    unfold labeledCount
    simpa using this
  rw [this, mul_div_cancel₀ _ (by exact_mod_cast hl)]
  exact sub_self _

theorem used_symm {a z : Bool} {es : List (Int × Int × K)} (h : a = true ∨ SymmetricGraph es) (i j : Nat) :
    usedWeight a z es i j = usedWeight a z es j i := by
  unfold usedWeight
  refine if_congr (by rw [eq_comm (a := i)]) rfl ?_
  rcases h with rfl | h
  · simp only [if_true]; rw [add_comm]
  · rw [h (j : Int) (i : Int)]

theorem used_nonneg {a z : Bool} {es : List (Int × Int × K)} (hw : ∀ e ∈ es, 0 ≤ e.2.2) (i j : Nat) :
    0 ≤ usedWeight a z es i j := by
  have key : ∀ p : Int × Int × K → Bool, 0 ≤ ((es.filter p).map (·.2.2)).sum := fun p =>
    List.sum_nonneg fun x hx => by
      obtain ⟨e, he, rfl⟩ := List.mem_map.mp hx
      exact hw e (List.mem_filter.mp he).1
  unfold usedWeight
  split
  · exact le_refl _
  · refine add_nonneg (key _) ?_
    split
    · exact key _
    · exact le_refl _

theorem laplacian_sum {n : Nat} {w : Nat → Nat → K} (hs : ∀ i j, w i j = w j i) (u : Nat → K) :
    ∑ i ∈ Finset.range n, laplacianAt n w u i = 0 := by
  have h1 : ∑ i ∈ Finset.range n, laplacianAt n w u i
      = ∑ i ∈ Finset.range n, ∑ j ∈ Finset.range n, w i j * (u i - u j) :=
    Finset.sum_congr rfl fun i _ => sum_range_list _ _
  have h2 : ∑ i ∈ Finset.range n, ∑ j ∈ Finset.range n, w i j * (u i - u j)
      = - ∑ i ∈ Finset.range n, ∑ j ∈ Finset.range n, w i j * (u i - u j) := by
    conv_lhs => rw [Finset.sum_comm]
    rw [← Finset.sum_neg_distrib]
    refine Finset.sum_congr rfl fun i _ => ?_
    rw [← Finset.sum_neg_distrib]
    refine Finset.sum_congr rfl fun j _ => ?_
    rw [hs j i]; ring
  rw [h1]
  linarith

/-- **C105**: the first phase balances every class: on a graph with symmetric non-negative weights whose labeled nodes all have
a positive degree, the scores before the rounds, weighted by the degrees, sum to zero for every class. -/
theorem C105_conserve (n : Int) (ei : List (Int × Int)) (ew : Option (List K)) (y : List Int) (mask : List Bool)
    (spec : MboSpec K) (ho : spec.nOuter ≤ 0) (hw : ∀ e ∈ edgesOf ei ew, 0 ≤ e.2.2)
    (hs : spec.symmetrize = true ∨ SymmetricGraph (edgesOf ei ew))
    (hd : ∀ i : Nat, mask[i]? = some true →
      0 < weightDegree y.length (usedWeight spec.symmetrize spec.zeroDiagonal (edgesOf ei ew)) i)
    (r : Diffusion K) (h : poissonMbo n ei ew y mask spec = .ok r) :
    ∀ k, LargestClass y k → ∀ c < k,
      ((List.range y.length).map fun i =>
        weightDegree y.length (usedWeight spec.symmetrize spec.zeroDiagonal (edgesOf ei ew)) i * r.F.get i c).sum = 0 := by
  intro k' hk' c hc
  obtain ⟨es0, _, _, _, _, P, -⟩ := poissonMbo_ok.mp h
  have hml := P.len
  have hlab := P.labeled 0 P.cls.2.1
  obtain ⟨k, b, dmax, hk, -, -, -, -, hF, -⟩ := C105_run n ei ew y mask spec r h
  obtain rfl : k = k' := Except.ok.inj ((plClasses_ok.mpr hk).symm.trans (plClasses_ok.mpr hk'))
  have hl : labeledCount mask ≠ 0 := by
    obtain ⟨i, hi, -⟩ := hlab
    have := List.count_pos_iff.mpr (List.mem_of_getElem? hi)
    unfold labeledCount
    omega
  have hw0 : ∀ i j, 0 ≤ usedWeight spec.symmetrize spec.zeroDiagonal (edgesOf ei ew) i j := used_nonneg hw
  have hsym : ∀ i j, usedWeight spec.symmetrize spec.zeroDiagonal (edgesOf ei ew) i j
      = usedWeight spec.symmetrize spec.zeroDiagonal (edgesOf ei ew) j i := used_symm hs
  generalize usedWeight spec.symmetrize spec.zeroDiagonal (edgesOf ei ew) = w at *
  have hstep : ∀ U : Nat → Nat → K, ∑ i ∈ Finset.range y.length, weightDegree y.length w i *
      poissonStep y.length w (fun i c => source true y mask c i) U i c
      = ∑ i ∈ Finset.range y.length, weightDegree y.length w i * U i c := by
    intro U
    have h1 : ∀ i ∈ Finset.range y.length, weightDegree y.length w i *
        poissonStep y.length w (fun i c => source true y mask c i) U i c
        = weightDegree y.length w i * U i c + (source true y mask c i - laplacianAt y.length w (fun j => U j c) i) := by
      intro i hi
      have hi := Finset.mem_range.mp hi
      unfold poissonStep
      by_cases hp : 0 < weightDegree y.length w i
      · rw [if_pos hp, mul_add, mul_div_cancel₀ _ hp.ne']
      · rw [if_neg hp]
        have hnl : mask[i]? ≠ some true := fun e => hp (hd i e)
        have h0 : ∀ j < y.length, w i j = 0 := by
          have hz : weightDegree y.length w i = 0 :=
            le_antisymm (not_lt.mp hp) (List.sum_nonneg fun x hx => by
              obtain ⟨j, -, rfl⟩ := List.mem_map.mp hx
              exact hw0 i j)
          unfold weightDegree at hz
          rw [sum_range_list] at hz
          intro j hj
          exact (Finset.sum_eq_zero_iff_of_nonneg fun j _ => hw0 i j).mp hz j (Finset.mem_range.mpr hj)
        have hlap : laplacianAt y.length w (fun j => U j c) i = 0 := by
          unfold laplacianAt
          apply List.sum_eq_zero
          intro x hx
          obtain ⟨j, hj, rfl⟩ := List.mem_map.mp hx
          rw [h0 j (List.mem_range.mp hj), zero_mul]
        have hsrc : source (K := K) true y mask c i = 0 := by
          unfold source
          rw [if_pos rfl, if_neg fun e => hnl e.1, if_neg hnl]
        rw [hlap, hsrc, sub_self, add_zero]
    rw [Finset.sum_congr rfl h1, Finset.sum_add_distrib, Finset.sum_sub_distrib, source_colsum hml hl, laplacian_sum hsym,
      sub_self, add_zero]
  have hit : ∀ t, ∑ i ∈ Finset.range y.length, weightDegree y.length w i *
      (poissonStep y.length w fun i c => source true y mask c i)^[t] (fun _ _ => 0) i c = 0 := by
    intro t
    induction t with
    | zero => simp
    | succ t ih => rw [Function.iterate_succ_apply', hstep, ih]
  rw [sum_range_list]
  have : ∀ i ∈ Finset.range y.length, weightDegree y.length w i * r.F.get i c =
      weightDegree y.length w i * (poissonStep y.length w fun i c => source true y mask c i)^[spec.T.toNat] (fun _ _ => 0) i c
        * (b c / labelShare y mask c) := by
    intro i hi
    rw [hF i (Finset.mem_range.mp hi) c hc, Int.toNat_of_nonpos ho]
    show _ * mboStart _ _ _ _ _ _ _ _ = _
    unfold mboStart
    ring
  rw [Finset.sum_congr rfl this, ← Finset.sum_mul, hit, zero_mul]

/-! ## Accepted calls -/

/-- **C105**: exactly which calls are accepted: a graph on the nodes with one weight per edge, one label and mask entry per
node, each class up to the largest label carried by a labeled node, target volumes that make sense, and a node of positive
degree; all others raise `ValueError`. -/
theorem C105_accepts (n : Int) (ei : List (Int × Int)) (ew : Option (List K)) (y : List Int) (mask : List Bool)
    (spec : MboSpec K) :
    ((∃ r, poissonMbo n ei ew y mask spec = .ok r) ↔
      0 < n ∧ (y.length : Int) = n ∧ (mask.length : Int) = n ∧ InRange n.toNat ei ∧
      (∀ w, ew = some w → w.length = ei.length) ∧
      (∃ k, LargestClass y k ∧ (∀ c < k, ClassLabeled y mask c) ∧
        ∃ b : Nat → K, TargetVolumes y mask k spec.bStrategy spec.b b) ∧
      ∃ i < y.length, 0 < weightDegree y.length (usedWeight spec.symmetrize spec.zeroDiagonal (edgesOf ei ew)) i) ∧
    ∀ e, poissonMbo n ei ew y mask spec = .error e → e = .valueError := by
  constructor
  · constructor
    · rintro ⟨r, h⟩
      obtain ⟨es0, k, Y, BY, b, P, -⟩ := poissonMbo_ok.mp h
      obtain ⟨hn, hw, -, -⟩ := validateGraph_ok P.graph
      refine ⟨hn, P.ylen, P.mlen, fun e he => ?_, hw, ⟨k, P.cls, P.labeled, b, mboVolumes_ok P.share P.volumes⟩, ?_⟩
      · have := validateGraph_range P.graph e he
        omega
      · obtain ⟨-, i, hi, h2⟩ := P.largest
        exact ⟨i, hi, by rw [h2]; exact not_le.mp P.deg⟩
    · rintro ⟨hn, hy, hm, hr, hw, ⟨k, hk, hall, hb⟩, ⟨i, hi, hd⟩⟩
      obtain ⟨es0, hg⟩ := validateGraph_total hn hw fun e he => by
        have := hr e he
        omega
      have hlen : mask.length = y.length := by omega
      obtain ⟨Y, hY⟩ := seedMatrix_total (K := K) (mask := mask) hk.2.1 hk.2.2
      obtain ⟨BY, hBY⟩ := mboSources_total hlen hk.2.1 hY hall
      obtain ⟨b, hb⟩ := mboVolumes_total hk BY.2 hb
      have G : IsGraph y.length (mboEdges spec es0) (usedWeight spec.symmetrize spec.zeroDiagonal (edgesOf ei ew)) := by
        obtain ⟨-, -, he, hr⟩ := validateGraph_ok hg
        refine ⟨fun e hm => (mboEdges_range (n := y.length) spec (fun e he => ?_) e hm).1, fun i _ j => ?_⟩
        · have := hr e he
          omega
        · rw [mboEdges_affinity, affinity_spec he, affinity_spec he]
          rfl
      refine ⟨_, poissonMbo_ok.mpr ⟨es0, k, Y, BY, b, ⟨hg, hy, hm, plClasses_ok.mpr hk, hY, hBY, hb, ?_⟩, rfl⟩⟩
      have h2 := (foldl_max_gen ((List.range y.length).map (degree (mboEdges spec es0))) 0).2.1
        (degree (mboEdges spec es0) i) (List.mem_map.mpr ⟨i, List.mem_range.mpr hi, rfl⟩)
      rw [G.deg hi] at h2
      exact not_le.mpr (lt_of_lt_of_le hd h2)
  · have hv : ∀ e, validateGraph n ei ew = .error e → e = .valueError := by
      intro e h
      unfold validateGraph at h
      simp only at h
      repeat' split at h
      all_goals first
        | exact (Except.error.inj h).symm
        | simp at h
    intro e h
    unfold poissonMbo at h
    cases hg : validateGraph n ei ew with
    | error e' =>
      rw [hg] at h
      obtain rfl : e' = e := Except.error.inj h
      exact hv _ hg
    | ok es0 =>
      rw [ebind_of_ok hg] at h
      simp only at h
      split at h
      · exact (Except.error.inj h).symm
      split at h
      · exact (Except.error.inj h).symm
      cases hk : plClasses y with
      | error e' =>
        rw [hk] at h
        obtain rfl : e' = e := Except.error.inj h
        unfold plClasses at hk
        simp only at hk
        split at hk
        · exact (Except.error.inj hk).symm
        · simp at hk
      | ok k =>
        rw [ebind_of_ok hk] at h
        obtain ⟨Y, hY⟩ := seedMatrix_total (K := K) (mask := mask) (plClasses_ok.mp hk).2.1 (plClasses_ok.mp hk).2.2
        rw [ebind_of_ok hY] at h
        cases hB : mboSources y.length k Y mask with
        | error e' =>
          rw [hB] at h
          obtain rfl : e' = e := Except.error.inj h
          unfold mboSources at hB
          simp only at hB
          repeat' split at hB
          all_goals first
            | exact (Except.error.inj hB).symm
            | simp at hB
        | ok BY =>
          rw [ebind_of_ok hB] at h
          cases hb : mboVolumes y k spec BY.2 with
          | error e' =>
            rw [hb] at h
            obtain rfl : e' = e := Except.error.inj h
            unfold mboVolumes mboPrior at hb
            simp only at hb
            repeat' split at hb
            all_goals first
              | exact (Except.error.inj hb).symm
              | simp at hb
          | ok b =>
            rw [ebind_of_ok hb] at h
            split at h
            · exact (Except.error.inj h).symm
            · simp at h

/-! ## What does not hold, and examples -/

/-- A star: node 0 is labeled 0, its three neighbours are labeled 1. -/
def mboStar : Except PyErr (Diffusion Rat) :=
  poissonMbo 4 [(0, 1), (0, 2), (0, 3)] none [0, 1, 1, 1] [true, true, true, true]
    ⟨1, 3, 2, 1, 10, 1 / 2, 2, 3, "uniform", none, true, true⟩

theorem mboStar_run : mboStar.map (fun r => (r.F, r.nIter)) = .ok ([[0, 1], [0, 1], [0, 1], [0, 1]], 7) := by
  decide +kernel

/-- **C105 (violated)**: neither the labels nor the volumes are kept.  On the star, where every node is labeled, class 0 and the
label of node 0 are lost, although half of the nodes were to be in class 0. -/
theorem C105_labels_violated :
    ∃ (n : Int) (ei : List (Int × Int)) (y : List Int) (mask : List Bool) (spec : MboSpec Rat) (r : Diffusion Rat),
      poissonMbo n ei none y mask spec = .ok r ∧ 1 ≤ spec.nOuter ∧ spec.bStrategy = "uniform" ∧ spec.b = none ∧
      Labeled y mask 0 0 ∧ r.F.get 0 0 = 0 ∧ r.F.get 0 1 = 1 ∧ ∀ i < y.length, r.F.get i 0 = 0 := by
  have h := mboStar_run
  refine ⟨4, [(0, 1), (0, 2), (0, 3)], [0, 1, 1, 1], [true, true, true, true],
    ⟨1, 3, 2, 1, 10, 1 / 2, 2, 3, "uniform", none, true, true⟩, ?_⟩
  unfold mboStar at h
  revert h
  generalize poissonMbo (K := Rat) _ _ _ _ _ _ = q
  intro h
  cases q with
  | error e => simp [Except.map] at h
  | ok r =>
    obtain ⟨h1, -⟩ := Prod.mk.inj (Except.ok.inj h)
    refine ⟨r, rfl, by decide, rfl, rfl, ⟨rfl, rfl⟩, ?_, ?_, ?_⟩ <;> rw [h1] <;> decide +kernel

/-- A path of four nodes labeled at its ends. -/
def mboPath (nOuter : Int) : Except PyErr (Diffusion Rat) :=
  poissonMbo 5 [(0, 1), (1, 2), (2, 3)] none [0, 0, 1, 1, 1] [true, false, false, true, false]
    ⟨3, 2, nOuter, 1, 10, 1 / 2, 2, 3, "uniform", none, true, true⟩

theorem mboPath_run : (mboPath 0).map (fun r => (r.F, r.nIter)) =
    .ok ([[3 / 4, -(3 / 4)], [1 / 8, -(1 / 8)], [-(1 / 8), 1 / 8], [-(3 / 4), 3 / 4], [0, 0]], 3) := by
  decide +kernel

/-- **C105 (violated)**: without rounds `predict_proba` returns the raw scores: negative entries, rows that sum to zero. -/
theorem C105_proba_violated :
    ∃ (n : Int) (ei : List (Int × Int)) (y : List Int) (mask : List Bool) (spec : MboSpec Rat) (r : Diffusion Rat),
      poissonMbo n ei none y mask spec = .ok r ∧ spec.nOuter = 0 ∧ 0 < y.length ∧ r.F.get 0 1 < 0 ∧
      ∀ i < y.length, r.F.get i 0 + r.F.get i 1 = 0 := by
  have h := mboPath_run
  refine ⟨5, [(0, 1), (1, 2), (2, 3)], [0, 0, 1, 1, 1], [true, false, false, true, false],
    ⟨3, 2, 0, 1, 10, 1 / 2, 2, 3, "uniform", none, true, true⟩, ?_⟩
  unfold mboPath at h
  revert h
  generalize poissonMbo (K := Rat) _ _ _ _ _ _ = q
  intro h
  cases q with
  | error e => simp [Except.map] at h
  | ok r =>
    obtain ⟨h1, -⟩ := Prod.mk.inj (Except.ok.inj h)
    refine ⟨r, rfl, rfl, by decide, ?_, ?_⟩ <;> rw [h1] <;> decide +kernel

/-- With two rounds the path is cut in the middle; the node without edges gets class 0. -/
example : (mboPath 2).map (fun r => (r.F, r.nIter)) = .ok ([[1, 0], [1, 0], [0, 1], [0, 1], [1, 0]], 7) := by
  decide +kernel

/-- The hypotheses of `C105_unreached` are met by node 4 of the path. -/
example : (∀ e ∈ edgesOf [(0, 1), (1, 2), (2, 3)] (none : Option (List Rat)), 0 ≤ e.2.2) ∧
    ∀ j, Linked (edgesOf [(0, 1), (1, 2), (2, 3)] (none : Option (List Rat))) 4 j →
      [true, false, false, true, false][j]? ≠ some true := by
  refine ⟨by simp [edgesOf], fun j h => ?_⟩
  have : j = 4 := by
    induction h with
    | refl => rfl
    | step _ hadj ih =>
      subst ih
      obtain ⟨hne, w, -, hw⟩ := hadj
      simp [edgesOf] at hw
  subst this
  decide

/-- The hypotheses of `C105_conserve` are met by the path. -/
example : ∀ i : Nat, [true, false, false, true, false][i]? = some true →
    0 < weightDegree 5 (usedWeight true true (edgesOf [(0, 1), (1, 2), (2, 3)] (none : Option (List Rat)))) i := by
  intro i hi
  have h5 : i < 5 := by
    have := (List.getElem?_eq_some_iff.mp hi).1
    simpa using this
  interval_cases i
  · decide +kernel
  · simp at hi
  · simp at hi
  · decide +kernel
  · simp at hi

/-- A graph without edges, unknown volumes and a class nobody is labeled with are refused. -/
example : (poissonMbo 2 [(0, 0)] none [0, 1] [true, true]
      ⟨1, 1, 1, 1, 10, 1 / 2, 2, 3, "uniform", none, true, true⟩ : Except PyErr (Diffusion Rat)).map (·.nIter) = .error .valueError ∧
    (poissonMbo 2 [(0, 1)] none [0, 1] [true, true]
      ⟨1, 1, 1, 1, 10, 1 / 2, 2, 3, "other", none, true, true⟩ : Except PyErr (Diffusion Rat)).map (·.nIter) = .error .valueError ∧
    (poissonMbo 2 [(0, 1)] none [0, 1] [true, false]
      ⟨1, 1, 1, 1, 10, 1 / 2, 2, 3, "uniform", none, true, true⟩ : Except PyErr (Diffusion Rat)).map (·.nIter) = .error .valueError ∧
    (poissonMbo 2 [(0, 1)] none [0, 1] [true, true]
      ⟨1, 1, 1, 1, 10, 1 / 2, 2, 3, "uniform", some [1, 3], true, true⟩ : Except PyErr (Diffusion Rat)).map (·.nIter) = .ok 2 := by
  decide +kernel

end ModSSC.Transductive
