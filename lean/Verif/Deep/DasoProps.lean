import Verif.Deep.DasoSpec
import Verif.Deep.CoProps

/-!
# C120 — DASO: queues, prototypes, class shares and blended pseudo-labels
-/

set_option linter.unusedSectionVars false

namespace ModSSC.Deep
open ModSSC ModSSC.Deep.Spec

variable {K : Type} [Field K] [LinearOrder K] [IsStrictOrderedRing K]

theorem lastN_lastN_append {α : Type} (n : Nat) (a b : List α) : lastN n (lastN n a ++ b) = lastN n (a ++ b) := by
  unfold lastN
  rw [List.length_append, List.length_drop, List.length_append]
  by_cases h : a.length ≤ n
  · rw [Nat.sub_eq_zero_of_le h, List.drop_zero, Nat.sub_zero]
  · rw [show a.length - (a.length - n) + b.length - n = b.length by omega, List.drop_append, List.drop_append,
      List.drop_drop, List.length_drop]
    congr 2 <;> omega

theorem queueAdd_eq (n : Nat) (a new : List (List K)) : queueAdd n (lastN n a) new = lastN n (a ++ new) := by
  rw [← lastN_lastN_append]
  unfold queueAdd
  by_cases h0 : new.length = 0
  · rw [if_pos h0, List.length_eq_zero_iff.mp h0, List.append_nil, ]
    have := lastN_lastN_append n a []
    simpa using this.symm
  · rw [if_neg h0]
    split
    · rfl
    · rename_i h
      have e : ∀ l : List (List K), l.length ≤ n → l = lastN n l := by
        intro l hl
        rw [lastN, Nat.sub_eq_zero_of_le hl, List.drop_zero]
      exact e _ (by omega)

theorem classRows_eq (i : DasoInput K) (k : Nat) (h : i.featsL.length = i.labels.length) :
    classRows i k = ((List.range i.labels.length).filter fun j => i.labels.getD j 0 = k).map fun j => i.featsL.getD j [] := by
  unfold classRows
  have e : i.featsL.zip i.labels = (List.range i.labels.length).map fun j => (i.featsL.getD j [], i.labels.getD j 0) := by
    apply List.ext_getElem
    · simp [h]
    · intro j h1 h2
      have hj : j < i.labels.length := by simpa using h2
      rw [List.getElem_zip, List.getElem_map, List.getElem_range, List.getD_eq_getElem _ _ (by omega),
        List.getD_eq_getElem _ _ hj]
  rw [e, List.filter_map, List.map_map]
  rfl

/-! ## Softmax -/

theorem softmaxRow_dist (exp : K → K) (he : Transductive.Spec.ExpLaw exp) (x : List K) (hne : x ≠ []) :
    IsDistN x.length (softmaxRow exp x) := by
  have hs : 0 < (x.map fun v => exp (v - rowMax x)).sum := by
    apply List.sum_pos
    · intro y hy
      obtain ⟨v, -, rfl⟩ := List.mem_map.mp hy
      exact he.pos _
    · simpa using hne
  refine ⟨by simp [softmaxRow], ?_, ?_⟩
  · intro p hp
    obtain ⟨y, hy, rfl⟩ := List.mem_map.mp hp
    obtain ⟨v, -, rfl⟩ := List.mem_map.mp hy
    exact div_nonneg (he.pos _).le hs.le
  · unfold softmaxRow
    simp only [div_eq_mul_inv, List.sum_map_mul_right, List.map_id']
    exact mul_inv_cancel₀ hs.ne'

theorem softmaxRow_soft (exp : K → K) (x : List K) (hne : x ≠ []) (s : Nat → K) (hs : ∀ k < x.length, x.getD k 0 = s k) :
    Transductive.Spec.IsSoftmax exp x.length s (fun k => (softmaxRow exp x).getD k 0) := by
  refine ⟨rowMax x, ?_, ?_, ?_⟩
  · intro c hc
    rw [← hs c hc, List.getD_eq_getElem _ _ hc]
    exact rowMax_ge x _ (List.getElem_mem _)
  · obtain ⟨c, hc, he⟩ := List.getElem_of_mem (rowMax_mem x hne)
    exact ⟨c, hc, by rw [← hs c hc, List.getD_eq_getElem _ _ hc, he]⟩
  · intro c hc
    have e : (List.range x.length).map (fun c' => exp (s c' - rowMax x)) = x.map fun v => exp (v - rowMax x) := by
      apply List.ext_getElem
      · simp
      · intro j h1 h2
        have hj : j < x.length := by simpa using h1
        rw [List.getElem_map, List.getElem_map, List.getElem_range, ← hs j hj, List.getD_eq_getElem _ _ hj]
    simp only
    rw [e, ← hs c hc]
    unfold softmaxRow
    rw [List.getD_eq_getElem _ _ (by simpa using hc), List.getElem_map, List.getElem_map, List.getD_eq_getElem _ _ hc]

/-! ## Blending weights -/

theorem pow_pos' {pow : K → K → K} (hp : PowerLaw pow) (q x : K) (hq : 0 < q) (hx : 0 < x) : 0 < pow x q := by
  have := hp.mono q 0 x hq (le_refl _) hx
  rwa [hp.zero q hq] at this

theorem blend_get (pow : K → K → K) (t : K) (m : List K) (c : Nat) (hc : c < m.length) :
    (blendWeights pow t m).getD c 0 = pow (max (m.getD c 0) (1 / 10 ^ 12)) (1 / t) /
      max (rowMax (m.map fun m => pow (max m (1 / 10 ^ 12)) (1 / t))) (1 / 10 ^ 12) := by
  unfold blendWeights
  simp only
  rw [List.getD_eq_getElem _ _ (by simpa using hc), List.getElem_map, List.getElem_map, List.getD_eq_getElem _ _ hc]

theorem blend_bounds (pow : K → K → K) (hp : PowerLaw pow) (t : K) (ht : 0 < t) (m : List K) (c : Nat) (hc : c < m.length) :
    0 < (blendWeights pow t m).getD c 0 ∧ (blendWeights pow t m).getD c 0 ≤ 1 := by
  rw [blend_get _ _ _ _ hc]
  have h1 : 0 < pow (max (m.getD c 0) (1 / 10 ^ 12)) (1 / t) := pow_pos' hp _ _ (by positivity) (denom_pos _)
  refine ⟨div_pos h1 (denom_pos _), ?_⟩
  rw [div_le_one (denom_pos _)]
  refine le_trans (rowMax_ge _ _ ?_) (le_max_left _ _)
  rw [List.getD_eq_getElem _ _ hc]
  exact List.mem_map.mpr ⟨_, List.getElem_mem hc, rfl⟩

theorem blend_mono (pow : K → K → K) (hp : PowerLaw pow) (t : K) (ht : 0 < t) (m : List K) (c c' : Nat) (hc : c < m.length)
    (hc' : c' < m.length) (h : m.getD c 0 ≤ m.getD c' 0) :
    (blendWeights pow t m).getD c 0 ≤ (blendWeights pow t m).getD c' 0 := by
  rw [blend_get _ _ _ _ hc, blend_get _ _ _ _ hc']
  apply div_le_div_of_nonneg_right _ (denom_pos _).le
  exact pow_mono' hp _ _ _ (by positivity) (denom_pos _).le (max_le_max_right _ h)

theorem mix'_get (a : K) (p q : List K) (C : Nat) (hp : p.length = C) (hq : q.length = C) (c : Nat) (hc : c < C) :
    (List.zipWith (fun x y => (1 - a) * x + a * y) p q).getD c 0 = (1 - a) * p.getD c 0 + a * q.getD c 0 := by
  rw [List.getD_eq_getElem _ _ (by simp; omega), List.getD_eq_getElem _ _ (by omega), List.getD_eq_getElem _ _ (by omega)]
  simp

theorem mix'_dist (a : K) (h0 : 0 ≤ a) (h1 : a ≤ 1) (C : Nat) (p q : List K) (hp : IsDistN C p) (hq : IsDistN C q) :
    IsDistN C (List.zipWith (fun x y => (1 - a) * x + a * y) p q) := by
  have e : List.zipWith (fun x y => (1 - a) * x + a * y) p q = List.zipWith (fun x y => (1 - a) * x + (1 - (1 - a)) * y) p q := by
    congr 1
    funext x y
    ring
  rw [e]
  refine ⟨by simp [hp.1, hq.1], mix_nonneg (1 - a) (by linarith) (by linarith) _ _ hp.2.1 hq.2.1, ?_⟩
  rw [mix_sum _ _ _ (by rw [hp.1, hq.1]), hp.2.2, hq.2.2]
  ring

/-! ## Class shares -/

/-- Pseudo-labels since the last complete period. -/
def openPeriod (period : Nat) (outs : List (List (List K))) : List (List (List K)) := outs.drop (outs.length / period * period)

/-- What the state is after the steps `is` with pseudo-labels `outs`. -/
structure DasoInv (argmax : List K → Nat) (cfg : DasoCfg K) (is : List (DasoInput K)) (outs : List (List (List K)))
    (st : DasoState K) : Prop where
  step_eq : st.step = outs.length
  queues : st.queues = (List.range cfg.classes).map fun k => lastN cfg.queueSize (seenFeatures k is)
  accum : st.accum = (List.range cfg.classes).map fun c => (predictedIn argmax (openPeriod cfg.period outs)).count c
  share : st.mHat = (List.range cfg.classes).map (classShare argmax cfg outs)

theorem dasoInit_inv (argmax : List K → Nat) (cfg : DasoCfg K) (hP : 0 < cfg.period) :
    DasoInv argmax cfg [] [] (dasoInit cfg) := by
  refine ⟨rfl, ?_, ?_, ?_⟩
  · show List.replicate cfg.classes [] = _
    rw [show (fun k => lastN cfg.queueSize (seenFeatures k ([] : List (DasoInput K)))) = fun _ => [] by
      funext k; simp [seenFeatures, lastN]]
    simp
  · show List.replicate cfg.classes 0 = _
    rw [show (fun c => (predictedIn argmax (openPeriod cfg.period ([] : List (List (List K))))).count c) = fun _ => 0 by
      funext k; simp [predictedIn, openPeriod]]
    simp
  · show uniformVec cfg.classes = _
    rw [show classShare argmax cfg [] = fun _ => 1 / (cfg.classes : K) by
      funext k; unfold classShare; rw [if_pos (by simpa using hP)]]
    simp [uniformVec]

theorem predictedIn_append (argmax : List K → Nat) (a b : List (List (List K))) :
    predictedIn argmax (a ++ b) = predictedIn argmax a ++ predictedIn argmax b := by
  simp [predictedIn]

theorem openPeriod_snoc (P : Nat) (hP : 0 < P) (outs : List (List (List K))) (out : List (List K)) :
    ((outs.length + 1) % P = 0 → openPeriod P (outs ++ [out]) = [] ∧
      lastPeriod P (outs ++ [out]) = openPeriod P outs ++ [out] ∧ P ≤ (outs ++ [out]).length) ∧
    ((outs.length + 1) % P ≠ 0 → openPeriod P (outs ++ [out]) = openPeriod P outs ++ [out] ∧
      lastPeriod P (outs ++ [out]) = lastPeriod P outs ∧
      ((outs ++ [out]).length < P ↔ outs.length < P)) := by
  set n := outs.length with hn
  have hdm := Nat.div_add_mod n P
  have hml := Nat.mod_lt n hP
  have hle : n / P * P ≤ n := Nat.div_mul_le_self n P
  have hcomm : P * (n / P) = n / P * P := Nat.mul_comm _ _
  constructor
  · intro h
    have hmod : n % P = P - 1 := by
      have h2 : (n % P + 1) % P = 0 := by rw [Nat.mod_add_mod]; exact h
      by_contra hc
      rw [Nat.mod_eq_of_lt (by omega)] at h2
      omega
    have hdiv : (n + 1) / P = n / P + 1 := by
      have : n + 1 = P * (n / P + 1) := by rw [Nat.mul_add, Nat.mul_one]; omega
      rw [this, Nat.mul_div_cancel_left _ hP]
    have hprod : (n / P + 1) * P = n + 1 := by rw [Nat.add_mul, Nat.one_mul]; omega
    refine ⟨?_, ?_, ?_⟩
    · unfold openPeriod
      rw [List.length_append, List.length_singleton, ← hn, hdiv, hprod]
      simp [hn]
    · unfold lastPeriod openPeriod
      rw [List.length_append, List.length_singleton, ← hn, hdiv, hprod, Nat.add_sub_cancel,
        List.take_of_length_le (by simp [hn]), List.drop_append_of_le_length (by omega)]
    · rw [List.length_append, List.length_singleton, ← hn]
      rw [← hprod, Nat.add_mul, Nat.one_mul]; omega
  · intro h
    have hmod : n % P + 1 < P := by
      by_contra hc
      apply h
      have : n % P + 1 = P := by omega
      rw [← Nat.mod_add_mod, this, Nat.mod_self]
    have hdiv : (n + 1) / P = n / P := by
      rw [Nat.div_eq_of_lt_le]
      · omega
      · rw [Nat.add_mul, Nat.one_mul]; omega
    refine ⟨?_, ?_, ?_⟩
    · unfold openPeriod
      rw [List.length_append, List.length_singleton, ← hn, hdiv, List.drop_append_of_le_length (by omega)]
    · unfold lastPeriod
      rw [List.length_append, List.length_singleton, ← hn, hdiv, List.take_append_of_le_length (by omega)]
    · rw [List.length_append, List.length_singleton, ← hn]
      constructor
      · intro h; omega
      · intro h'
        rw [Nat.mod_eq_of_lt h'] at hmod
        omega

theorem zip_count (C : Nat) (a b : List Nat) :
    List.zipWith (· + ·) ((List.range C).map fun c => a.count c) ((List.range C).map fun c => b.count c) =
      (List.range C).map fun c => (a ++ b).count c := by
  rw [List.zipWith_map_left, List.zipWith_map_right, List.zipWith_self]
  refine List.map_congr_left fun c _ => ?_
  rw [List.count_append]

theorem dasoCount_inv (argmax : List K → Nat) (cfg : DasoCfg K) (hP : 0 < cfg.period) (is : List (DasoInput K))
    (outs : List (List (List K))) (st : DasoState K) (h : DasoInv argmax cfg is outs st) (out : List (List K))
    (hne : out ≠ []) (hlt : ∀ o ∈ outs ++ [out], ∀ p ∈ o, argmax p < cfg.classes) :
    (dasoCount argmax cfg st out).1 = (List.range cfg.classes).map (classShare argmax cfg (outs ++ [out])) ∧
    (dasoCount argmax cfg st out).2 =
      (List.range cfg.classes).map fun c => (predictedIn argmax (openPeriod cfg.period (outs ++ [out]))).count c := by
  have hacc : List.zipWith (· + ·) st.accum (bincount (out.map argmax) cfg.classes) =
      (List.range cfg.classes).map fun c => (predictedIn argmax (openPeriod cfg.period outs ++ [out])).count c := by
    rw [h.accum, bincount_eq cfg.classes (out.map argmax) (by
      intro i hi
      obtain ⟨p, hp, rfl⟩ := List.mem_map.mp hi
      exact hlt out (by simp) p hp), zip_count, predictedIn_append]
    simp [predictedIn]
  have hmem : ∀ x ∈ predictedIn argmax (openPeriod cfg.period outs ++ [out]), x < cfg.classes := by
    intro x hx
    obtain ⟨p, hp, rfl⟩ := List.mem_map.mp hx
    obtain ⟨o, ho, hpo⟩ := List.mem_flatten.mp hp
    rcases List.mem_append.mp ho with ho | ho
    · exact hlt o (List.mem_append_left _ (List.mem_of_mem_drop ho)) p hpo
    · exact hlt o (List.mem_append_right _ ho) p hpo
  have hsum := count_sum cfg.classes (predictedIn argmax (openPeriod cfg.period outs ++ [out])) hmem
  have hlen : 0 < (predictedIn argmax (openPeriod cfg.period outs ++ [out])).length := by
    obtain ⟨r, rest, rfl⟩ := List.exists_cons_of_ne_nil hne
    simp [predictedIn]
  obtain ⟨s1, s2⟩ := openPeriod_snoc cfg.period hP outs out
  unfold dasoCount
  simp only [hacc]
  rw [h.step_eq]
  by_cases hm : (outs.length + 1) % cfg.period = 0
  · obtain ⟨t1, t2, t3⟩ := s1 hm
    rw [if_pos hm, hsum, if_pos hlen]
    refine ⟨?_, ?_⟩
    · simp only [List.map_map]
      refine List.map_congr_left fun c _ => ?_
      unfold classShare
      rw [if_neg (by omega), t2]
      rfl
    · rw [t1]
      simp only [List.map_map]
      refine List.map_congr_left fun c _ => ?_
      simp [predictedIn]
  · obtain ⟨t1, t2, t3⟩ := s2 hm
    rw [if_neg hm]
    refine ⟨?_, by rw [t1]⟩
    simp only
    rw [h.share]
    refine List.map_congr_left fun c _ => ?_
    unfold classShare
    rw [t2]
    by_cases hlt : outs.length < cfg.period
    · rw [if_pos hlt, if_pos (t3.mpr hlt)]
    · rw [if_neg hlt, if_neg (fun hc => hlt (t3.mp hc))]

theorem classRows_width (i : DasoInput K) (C D k : Nat) (h : DasoOutputs C D i) : ∀ f ∈ classRows i k, f.length = D := by
  intro f hf
  obtain ⟨r, hr, rfl⟩ := List.mem_map.mp hf
  exact h.featsL.2 _ (List.of_mem_zip (List.mem_of_mem_filter hr)).1

theorem queues_step (argmax : List K → Nat) (cfg : DasoCfg K) (is : List (DasoInput K)) (outs : List (List (List K)))
    (st : DasoState K) (h : DasoInv argmax cfg is outs st) (i : DasoInput K) (hi : i.featsL.length = i.labels.length) :
    st.queues.mapIdx (fun k q => queueAdd cfg.queueSize q (classRows i k)) =
      (List.range cfg.classes).map fun k => lastN cfg.queueSize (seenFeatures k (is ++ [i])) := by
  rw [h.queues]
  apply List.ext_getElem
  · simp
  · intro k h1 h2
    rw [List.getElem_mapIdx, List.getElem_map, List.getElem_map, List.getElem_range, queueAdd_eq, classRows_eq i k hi]
    simp [seenFeatures]

theorem prototype_is (cfg : DasoCfg K) (is : List (DasoInput K)) (k : Nat) :
    IsPrototype cfg is k (prototype cfg.width (lastN cfg.queueSize (seenFeatures k is))) := by
  unfold IsPrototype prototype
  simp only
  by_cases h : lastN cfg.queueSize (seenFeatures k is) = []
  · rw [h]
    refine ⟨by simp, fun _ d hd => ?_, fun hc => absurd rfl hc⟩
    simp [hd]
  · have h0 : ¬ (lastN cfg.queueSize (seenFeatures k is)).length = 0 := by simpa using h
    rw [if_neg h0]
    exact ⟨by simp [colMean], fun hc => absurd hc h, fun _ d hd => colMean_get _ _ hd _⟩

/-- Prototypes after the steps `is`. -/
def protosOf (cfg : DasoCfg K) (is : List (DasoInput K)) : List (List K) :=
  (List.range cfg.classes).map fun k => prototype cfg.width (lastN cfg.queueSize (seenFeatures k is))

theorem protoLabel_is (sqrt exp : K → K) (he : Transductive.Spec.ExpLaw exp) (cfg : DasoCfg K) (hC : 0 < cfg.classes)
    (is : List (DasoInput K)) (f : List K) :
    IsDistN cfg.classes (protoLabel sqrt exp cfg.tProto (protosOf cfg is) f) ∧
    IsProtoLabel sqrt exp cfg (fun k => (protosOf cfg is).getD k []) f (protoLabel sqrt exp cfg.tProto (protosOf cfg is) f) := by
  have hu : ∀ f : List K, l2Row sqrt f = unitRow sqrt f := by
    intro f; unfold unitRow l2Row dotRow; rw [List.zipWith_self]
  set x := (protosOf cfg is).map fun c => dotRow (l2Row sqrt f) (l2Row sqrt c) / cfg.tProto with hx
  have hl : x.length = cfg.classes := by simp [hx, protosOf]
  have hne : x ≠ [] := by intro h; rw [h] at hl; simp at hl; omega
  have hd := softmaxRow_dist exp he x hne
  rw [hl] at hd
  have hso := softmaxRow_soft exp x hne
    (fun k => dotRow (unitRow sqrt f) (unitRow sqrt ((protosOf cfg is).getD k [])) / cfg.tProto) (by
      intro k hk
      rw [List.getD_eq_getElem _ _ hk, List.getD_eq_getElem _ _ (by simpa [hx] using hk)]
      simp [hx, hu])
  rw [hl] at hso
  exact ⟨hd, hd.1, hso⟩

theorem dasoRun_inv (sqrt exp : K → K) (he : Transductive.Spec.ExpLaw exp) (pow : K → K → K) (hp : PowerLaw pow)
    (argmax : List K → Nat) (ha : ArgmaxLaw argmax) (cfg : DasoCfg K) (hC : 0 < cfg.classes) (hP : 0 < cfg.period)
    (hT : 0 < cfg.tDist) (h0 : 0 ≤ cfg.alpha) (h1 : cfg.alpha ≤ 1) :
    ∀ (is past : List (DasoInput K)) (outs : List (List (List K))) (st : DasoState K),
    DasoInv argmax cfg past outs st → (∀ o ∈ outs, ∀ p ∈ o, IsDistN cfg.classes p) →
    (∀ i ∈ is, DasoOutputs cfg.classes cfg.width i) →
    DasoInv argmax cfg (past ++ is) (outs ++ (dasoRun sqrt exp pow argmax cfg st is).1) (dasoRun sqrt exp pow argmax cfg st is).2 ∧
    (dasoRun sqrt exp pow argmax cfg st is).1.length = is.length ∧
    (∀ o ∈ (dasoRun sqrt exp pow argmax cfg st is).1, ∀ p ∈ o, IsDistN cfg.classes p) ∧
    ∀ (t : Nat) (i : DasoInput K), is[t]? = some i → ∃ st',
      DasoInv argmax cfg (past ++ is.take t) (outs ++ (dasoRun sqrt exp pow argmax cfg st is).1.take t) st' ∧
      (dasoRun sqrt exp pow argmax cfg st is).1[t]? = some (List.zipWith (dasoBlend pow argmax cfg st') i.probs
        (i.featsU.map (protoLabel sqrt exp cfg.tProto (protosOf cfg (past ++ is.take t ++ [i]))))) := by
  intro is
  induction is with
  | nil =>
    intro past outs st hi _ _
    exact ⟨by simpa [dasoRun] using hi, rfl, by simp [dasoRun], fun t i h => by simp at h⟩
  | cons i is ih =>
    intro past outs st hi ho hin
    have hout := hin i List.mem_cons_self
    have hq := queues_step argmax cfg past outs st hi i hout.featsL.1
    set out := List.zipWith (dasoBlend pow argmax cfg st) i.probs
      (i.featsU.map (protoLabel sqrt exp cfg.tProto (protosOf cfg (past ++ [i])))) with hod
    have hstep : dasoStep sqrt exp pow argmax cfg st i = (out, ⟨(List.range cfg.classes).map fun k =>
        lastN cfg.queueSize (seenFeatures k (past ++ [i])), (dasoCount argmax cfg st out).1,
        (dasoCount argmax cfg st out).2, st.step + 1⟩) := by
      unfold dasoStep
      simp only [hq]
      have : ((List.range cfg.classes).map fun k => lastN cfg.queueSize (seenFeatures k (past ++ [i]))).map
          (prototype cfg.width) = protosOf cfg (past ++ [i]) := by simp [protosOf]
      rw [this]
    have hmw : ∀ c < cfg.classes, c < st.mHat.length := by
      intro c hc; rw [hi.share]; simpa using hc
    have hdist : ∀ p ∈ out, IsDistN cfg.classes p := by
      intro p hp'
      obtain ⟨j, hj, rfl⟩ := List.getElem_of_mem hp'
      have hjp : j < i.probs.length := by simp [hod] at hj; omega
      simp only [hod, List.getElem_zipWith, List.getElem_map]
      have hpd : IsDistN cfg.classes i.probs[j] := hout.batch.2 _ (List.getElem_mem hjp)
      obtain ⟨hqd, -⟩ := protoLabel_is sqrt exp he cfg hC (past ++ [i]) (i.featsU[j]'(by rw [hout.featsU.1]; exact hjp))
      unfold dasoBlend
      by_cases g1 : st.step < cfg.pretrain
      · rw [if_pos g1]; exact hpd
      · rw [if_neg g1]
        simp only
        split
        · have hlt := (ha _ (dist_ne _ _ hpd)).1
          rw [hpd.1] at hlt
          obtain ⟨b1, b2⟩ := blend_bounds pow hp cfg.tDist hT st.mHat _ (hmw _ hlt)
          exact mix'_dist _ b1.le b2 _ _ _ hpd hqd
        · exact mix'_dist _ h0 h1 _ _ _ hpd hqd
    have hlt : ∀ o ∈ outs ++ [out], ∀ p ∈ o, argmax p < cfg.classes := by
      intro o ho' p hp'
      have hd : IsDistN cfg.classes p := by
        rcases List.mem_append.mp ho' with h | h
        · exact ho o h p hp'
        · rw [List.mem_singleton.mp h] at hp'; exact hdist p hp'
      have := (ha _ (dist_ne _ _ hd)).1
      rwa [hd.1] at this
    have hone : out ≠ [] := by
      intro h
      have hl := congrArg List.length h
      simp [hod, hout.featsU.1] at hl
      exact hout.batch.1 hl
    obtain ⟨c1, c2⟩ := dasoCount_inv argmax cfg hP past outs st hi out hone hlt
    have hinv' : DasoInv argmax cfg (past ++ [i]) (outs ++ [out]) (dasoStep sqrt exp pow argmax cfg st i).2 := by
      rw [hstep]
      exact ⟨by simp [hi.step_eq], rfl, c2, c1⟩
    obtain ⟨i1, i2, i3, i4⟩ := ih (past ++ [i]) (outs ++ [out]) _ hinv' (by
      intro o ho' p hp'
      rcases List.mem_append.mp ho' with h | h
      · exact ho o h p hp'
      · rw [List.mem_singleton.mp h] at hp'; exact hdist p hp') (fun i' h' => hin i' (List.mem_cons_of_mem _ h'))
    have e1 : (dasoRun sqrt exp pow argmax cfg st (i :: is)).1 =
        out :: (dasoRun sqrt exp pow argmax cfg (dasoStep sqrt exp pow argmax cfg st i).2 is).1 := by
      simp only [dasoRun]
      rw [hstep]
    have e2 : (dasoRun sqrt exp pow argmax cfg st (i :: is)).2 =
        (dasoRun sqrt exp pow argmax cfg (dasoStep sqrt exp pow argmax cfg st i).2 is).2 := rfl
    rw [e1, e2]
    refine ⟨by simpa using i1, by simpa using i2, ?_, ?_⟩
    · intro o ho'
      rcases List.mem_cons.mp ho' with rfl | h
      · exact hdist
      · exact i3 o h
    · intro t i' ht
      cases t with
      | zero =>
        simp only [List.getElem?_cons_zero, Option.some.injEq] at ht
        subst ht
        exact ⟨st, by simpa using hi, by simp [hod]⟩
      | succ t =>
        simp only [List.getElem?_cons_succ] at ht
        obtain ⟨st', j1, j2⟩ := i4 t i' ht
        exact ⟨st', by simpa using j1, by simpa using j2⟩

/-- `C120_pseudo` with the prototypes named. -/
theorem pseudo_explicit (sqrt exp : K → K) (he : Transductive.Spec.ExpLaw exp) (pow : K → K → K) (hp : PowerLaw pow)
    (argmax : List K → Nat) (ha : ArgmaxLaw argmax) (cfg : DasoCfg K) (hC : 0 < cfg.classes) (hP : 0 < cfg.period)
    (hT : 0 < cfg.tDist) (h0 : 0 ≤ cfg.alpha) (h1 : cfg.alpha ≤ 1) (is : List (DasoInput K))
    (hi : ∀ i ∈ is, DasoOutputs cfg.classes cfg.width i) :
    let outs := (dasoRun sqrt exp pow argmax cfg (dasoInit cfg) is).1
    outs.length = is.length ∧
    ∀ (t : Nat) (i : DasoInput K), is[t]? = some i → ∃ out, outs[t]? = some out ∧ out.length = i.probs.length ∧
      (∀ k < cfg.classes, IsPrototype cfg (is.take (t + 1)) k ((protosOf cfg (is.take (t + 1))).getD k [])) ∧
      ∃ w : Nat → K,
      (∀ c < cfg.classes, 0 < w c ∧ w c ≤ 1 ∧ ∀ c' < cfg.classes,
        classShare argmax cfg (outs.take t) c ≤ classShare argmax cfg (outs.take t) c' → w c ≤ w c') ∧
      ∀ (j : Nat) (p f : List K), i.probs[j]? = some p → i.featsU[j]? = some f → ∃ p', out[j]? = some p' ∧
        IsDistN cfg.classes p' ∧ (t < cfg.pretrain → p' = p) ∧
        (cfg.pretrain ≤ t → ∃ q, IsProtoLabel sqrt exp cfg (fun k => (protosOf cfg (is.take (t + 1))).getD k []) f q ∧ ∀ c < cfg.classes, p'.getD c 0 =
          (1 - if cfg.aware then w (argmax p) else cfg.alpha) * p.getD c 0 +
            (if cfg.aware then w (argmax p) else cfg.alpha) * q.getD c 0) := by
  intro outs
  obtain ⟨-, hl, hd, h⟩ := dasoRun_inv sqrt exp he pow hp argmax ha cfg hC hP hT h0 h1 is [] [] (dasoInit cfg)
    (dasoInit_inv argmax cfg hP) (by simp) hi
  refine ⟨hl, fun t i ht => ?_⟩
  obtain ⟨st, hinv, hout⟩ := h t i ht
  simp only [List.nil_append] at hinv hout
  have hio := hi i (List.mem_of_getElem? ht)
  have htk : is.take (t + 1) = is.take t ++ [i] := by
    rw [List.take_add_one, ht]; rfl
  have hml : st.mHat.length = cfg.classes := by rw [hinv.share]; simp
  have hmg : ∀ c < cfg.classes, st.mHat.getD c 0 = classShare argmax cfg (outs.take t) c := by
    intro c hc
    rw [hinv.share, List.getD_eq_getElem _ _ (by simpa using hc)]
    simp [outs]
  rw [htk]
  refine ⟨_, hout, by simp [hio.featsU.1], ?_, fun c => (blendWeights pow cfg.tDist st.mHat).getD c 0, ?_, ?_⟩
  · intro k hk
    rw [List.getD_eq_getElem _ _ (by simpa [protosOf] using hk)]
    simp only [protosOf, List.getElem_map, List.getElem_range]
    exact prototype_is cfg _ k
  · intro c hc
    obtain ⟨b1, b2⟩ := blend_bounds pow hp cfg.tDist hT st.mHat c (by omega)
    refine ⟨b1, b2, fun c' hc' hle => blend_mono pow hp cfg.tDist hT st.mHat c c' (by omega) (by omega) ?_⟩
    rw [hmg c hc, hmg c' hc']; exact hle
  · intro j p f hj hf
    have hpd := hio.batch.2 p (List.mem_of_getElem? hj)
    obtain ⟨hqd, hqs⟩ := protoLabel_is sqrt exp he cfg hC (is.take t ++ [i]) f
    have hget : (List.zipWith (dasoBlend pow argmax cfg st) i.probs
        (i.featsU.map (protoLabel sqrt exp cfg.tProto (protosOf cfg (is.take t ++ [i])))))[j]? =
        some (dasoBlend pow argmax cfg st p (protoLabel sqrt exp cfg.tProto (protosOf cfg (is.take t ++ [i])) f)) := by
      rw [List.getElem?_zipWith, hj, List.getElem?_map, hf]; rfl
    have hst : st.step = t := by
      rw [hinv.step_eq, List.length_take, hl]
      have := (List.getElem?_eq_some_iff.mp ht).1
      omega
    refine ⟨_, hget, hd _ (List.mem_of_getElem? hout) _ (List.mem_of_getElem? hget), ?_, ?_⟩
    · intro hpre
      unfold dasoBlend
      rw [hst, if_pos hpre]
    · intro hpre
      refine ⟨_, hqs, fun c hc => ?_⟩
      unfold dasoBlend
      rw [hst, if_neg (by omega)]
      simp only
      rw [mix'_get _ _ _ cfg.classes hpd.1 hqd.1 c hc]

/-- **C120.**  In every step of a DASO training: the prototype of a class is the mean of the last `queue_size` features of
labeled samples of this class seen so far, this step included (zero if there are none).  The pseudo-label of an unlabeled
sample is the network's prediction during the first `pretrain_steps` steps; later a mixture of it with the softmax of the
similarities to the prototypes.  The weight of the latter is `interp_alpha`, or (`dist_aware`) a weight in `(0, 1]` that is
determined by the share of the predicted class among all pseudo-labels of the last complete period and does not decrease
with this share.  Every pseudo-label is a distribution. -/
theorem C120_pseudo (sqrt exp : K → K) (he : Transductive.Spec.ExpLaw exp) (pow : K → K → K) (hp : PowerLaw pow)
    (argmax : List K → Nat) (ha : ArgmaxLaw argmax) (cfg : DasoCfg K) (hC : 0 < cfg.classes) (hP : 0 < cfg.period)
    (hT : 0 < cfg.tDist) (h0 : 0 ≤ cfg.alpha) (h1 : cfg.alpha ≤ 1) (is : List (DasoInput K))
    (hi : ∀ i ∈ is, DasoOutputs cfg.classes cfg.width i) :
    let outs := (dasoRun sqrt exp pow argmax cfg (dasoInit cfg) is).1
    outs.length = is.length ∧
    ∀ (t : Nat) (i : DasoInput K), is[t]? = some i → ∃ out, outs[t]? = some out ∧ out.length = i.probs.length ∧
      ∃ (protos : Nat → List K) (w : Nat → K), (∀ k < cfg.classes, IsPrototype cfg (is.take (t + 1)) k (protos k)) ∧
      (∀ c < cfg.classes, 0 < w c ∧ w c ≤ 1 ∧ ∀ c' < cfg.classes,
        classShare argmax cfg (outs.take t) c ≤ classShare argmax cfg (outs.take t) c' → w c ≤ w c') ∧
      ∀ (j : Nat) (p f : List K), i.probs[j]? = some p → i.featsU[j]? = some f → ∃ p', out[j]? = some p' ∧
        IsDistN cfg.classes p' ∧ (t < cfg.pretrain → p' = p) ∧
        (cfg.pretrain ≤ t → ∃ q, IsProtoLabel sqrt exp cfg protos f q ∧ ∀ c < cfg.classes, p'.getD c 0 =
          (1 - if cfg.aware then w (argmax p) else cfg.alpha) * p.getD c 0 +
            (if cfg.aware then w (argmax p) else cfg.alpha) * q.getD c 0) := by
  intro outs
  obtain ⟨h2, h⟩ := pseudo_explicit sqrt exp he pow hp argmax ha cfg hC hP hT h0 h1 is hi
  refine ⟨h2, fun t i ht => ?_⟩
  obtain ⟨out, a1, a2, a3, w, a4, a5⟩ := h t i ht
  exact ⟨out, a1, a2, _, w, a3, a4, a5⟩

/-- **C120 (short trainings).**  A training of at most `pretrain_steps` steps (5000 by default) never uses the prototypes:
all pseudo-labels are the network's predictions. -/
theorem C120_pretrain (sqrt exp : K → K) (pow : K → K → K) (argmax : List K → Nat) (cfg : DasoCfg K)
    (is : List (DasoInput K)) (hf : ∀ i ∈ is, i.featsU.length = i.probs.length) (hn : is.length ≤ cfg.pretrain) :
    (dasoRun sqrt exp pow argmax cfg (dasoInit cfg) is).1 = is.map (·.probs) := by
  have key : ∀ (is : List (DasoInput K)) (st : DasoState K), (∀ i ∈ is, i.featsU.length = i.probs.length) →
      st.step + is.length ≤ cfg.pretrain → (dasoRun sqrt exp pow argmax cfg st is).1 = is.map (·.probs) := by
    intro is
    induction is with
    | nil => intro st _ _; rfl
    | cons i is ih =>
      intro st hf hn
      rw [List.length_cons] at hn
      have h1 : (dasoStep sqrt exp pow argmax cfg st i).1 = i.probs := by
        unfold dasoStep
        simp only
        apply List.ext_getElem
        · simp [hf i List.mem_cons_self]
        · intro j h1 h2
          rw [List.getElem_zipWith]
          unfold dasoBlend
          rw [if_pos (by omega)]
      simp only [dasoRun, List.map_cons, h1]
      rw [ih _ (fun i' h' => hf i' (List.mem_cons_of_mem _ h')) (by
        show st.step + 1 + is.length ≤ cfg.pretrain
        omega)]
  exact key is (dasoInit cfg) hf (by simpa [dasoInit] using hn)

/-- Two steps with a queue of two and blending from the start, constant functions for the demonstration: the network's
prediction is replaced by the prototypes' (uniform) one. -/
example : (dasoRun (K := Rat) (fun _ => 1) (fun _ => 1) (fun x _ => x) Supervised.argmax
    ⟨2, 1, 1, 1, 1, true, 1 / 2, 2, 1⟩ (dasoInit ⟨2, 1, 1, 1, 1, true, 1 / 2, 2, 1⟩)
    [⟨[[1], [3]], [0, 0], [[3 / 4, 1 / 4], [1 / 4, 3 / 4], [1, 0]], [[1], [1], [1]]⟩,
     ⟨[[5], [7]], [0, 1], [[3 / 4, 1 / 4], [1 / 4, 3 / 4]], [[1], [1]]⟩]) =
    ([[[3 / 4, 1 / 4], [1 / 4, 3 / 4], [1, 0]], [[1 / 2, 1 / 2], [3 / 8, 5 / 8]]],
      ⟨[[[3], [5]], [[7]]], [1 / 2, 1 / 2], [0, 0], 2⟩) := by decide +kernel

example : DasoOutputs (K := Rat) 2 1 ⟨[[1], [3]], [0, 0], [[3 / 4, 1 / 4], [1 / 4, 3 / 4], [1, 0]], [[1], [1], [1]]⟩ := by
  constructor <;> simp [IsBatch, IsDistN, IsDist] <;> norm_num

end ModSSC.Deep
