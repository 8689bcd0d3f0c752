import Verif.Deep.DefixModel
import Verif.Deep.FitProps

/-!
# C176 — training with DeFixMatch
-/

/-! ### Specification -/

namespace ModSSC.Deep.Defix.Spec
open ModSSC ModSSC.Deep ModSSC.Deep.Fit
open ModSSC.Deep.Spec (Confident MostProbable)
open ModSSC.Deep.Fit.Spec (confident)

variable {X W V K : Type} [Field K] [LinearOrder K]

/-- The strong view of the labeled rows: the entry of `views` under the first of the three documented names that is present;
`X_l` itself if there is none. -/
inductive StrongOf (d : DInput X) : View X → Prop
  | first (v : View X) : d.views.lookup "X_l_s" = some v → StrongOf d v
  | second (v : View X) : d.views.lookup "X_l_s" = none → d.views.lookup "X_l_strong" = some v → StrongOf d v
  | third (v : View X) : d.views.lookup "X_l_s" = none → d.views.lookup "X_l_strong" = none →
      d.views.lookup "labeled_strong" = some v → StrongOf d v
  | default : d.views.lookup "X_l_s" = none → d.views.lookup "X_l_strong" = none → d.views.lookup "labeled_strong" = none →
      StrongOf d ⟨d.base.xl, d.shape⟩

/-- What `fit` asks for. -/
structure Acceptable (cutoff : K) (torch : Bool) (cfg : Fit.Cfg K) (bundle : Option Bundle) (d : DInput X) (v : View X)
    (xw xs : Feats X) : Prop where
  common : Fit.Spec.Acceptable torch { cfg with ranges := true } bundle d.base xw xs
  cutoff : 0 ≤ cutoff ∧ cutoff ≤ 1
  strong : StrongOf d v
  float : v.feats.float = true
  shape : v.shape = d.shape ∧ d.shape ≠ []
  rows : v.feats.rows.length = d.base.xl.rows.length

/-- The epochs are fair (`C106_epochs`). -/
structure Epochs (xl : List (X × X)) (yl : List Int) (xw xs : List X) (b e : Int) (eps : List (List (DBatch X))) : Prop where
  number : (eps.length : Int) = e
  each : ∀ ep ∈ eps, (ep.length : Int) = max ⌈(xl.length : ℚ) / b⌉ ⌈(xw.length : ℚ) / b⌉ ∧
    ∃ bl bu, Deep.Spec.EpochOf xl yl xw xs bl bu ep ∧ Deep.Spec.FairEpoch xl.length b.toNat bl ∧
      Deep.Spec.FairEpoch xw.length b.toNat bu

/-- One pseudo-label: FixMatch's term for a pair of views, times `sign`. -/
structure PseudoTerm (pow : K → K → K) (cutoff temp : K) (hard : Bool) (f : X → List K) (rows : List X) (sign : K)
    (p : X × X) (t : Term X K) : Prop where
  weak : t.weak = p.1
  strong : t.strong = p.2
  weight : t.weight = sign * if Confident cutoff (f p.1) then 1 / (confident cutoff f rows : K) else 0
  hardTarget : hard = true → ∃ c, t.target = .hard c ∧ MostProbable (f p.1) c
  softTarget : hard = false → t.target = .soft (if temp = 1 then f p.1 else sharpenRow pow temp (f p.1))

/-- The loss of a step: half the mean cross entropy of the labels on each view of the labeled rows, plus `lambda_u` times the
difference of FixMatch's pseudo-label loss on the unlabeled rows and the same on the labeled rows. -/
structure DefixLoss (pow : K → K → K) (cutoff temp : K) (hard : Bool) (scale : K) (f : X → List K) (s : DBatch X)
    (o : Objective X K) : Prop where
  labeled : o.labeled = ((s.xl.map (·.1)).zip s.yl).map (fun p => (p.1, p.2, 1 / (2 * (s.yl.length : K)))) ++
    ((s.xl.map (·.2)).zip s.yl).map (fun p => (p.1, p.2, 1 / (2 * (s.yl.length : K))))
  unlabeled : ∃ plus minus, o.unlabeled = plus ++ minus ∧
    List.Forall₂ (PseudoTerm pow cutoff temp hard f s.xw 1) (s.xw.zip s.xs) plus ∧
    List.Forall₂ (PseudoTerm pow cutoff temp hard f (s.xl.map (·.1)) (-1)) s.xl minus
  scale : o.scale = scale
  fairness : o.fairness = none

/-- The pseudo-label part of a loss, for any loss `l` of a row with a target. -/
def pseudoLoss (l : X → Target K → K) (o : Objective X K) : K := (o.unlabeled.map fun t => t.weight * l t.strong t.target).sum

end ModSSC.Deep.Defix.Spec

namespace ModSSC.Deep.Defix
open ModSSC ModSSC.Deep ModSSC.Deep.Fit Spec
open ModSSC.Deep.Spec (Confident MostProbable PowerLaw ArgmaxLaw IsDist)
open ModSSC.Deep.Fit.Spec (Logs Rowwise confident)
set_option linter.unusedSectionVars false

variable {X W V K σ : Type} [Field K] [LinearOrder K]

/-! ### Checks -/

theorem strongOf_iff (d : DInput X) (v : View X) : StrongOf d v ↔ v = strongView d := by
  have key : StrongOf d (strongView d) := by
    unfold strongView
    simp only [List.findSome?_cons, List.findSome?_nil]
    cases h1 : d.views.lookup "X_l_s" with
    | some v => exact .first v h1
    | none =>
    cases h2 : d.views.lookup "X_l_strong" with
    | some v => exact .second v h1 h2
    | none =>
    cases h3 : d.views.lookup "labeled_strong" with
    | some v => exact .third v h1 h2 h3
    | none => exact .default h1 h2 h3
  constructor
  · intro h
    unfold strongView
    simp only [List.findSome?_cons, List.findSome?_nil]
    cases h with
    | first _ h1 => rw [h1]; rfl
    | second _ h1 h2 => rw [h1, h2]; rfl
    | third _ h1 h2 h3 => rw [h1, h2, h3]; rfl
    | default h1 h2 h3 => rw [h1, h2, h3]; rfl
  · rintro rfl
    exact key

theorem check_ok {cutoff : K} {torch : Bool} {cfg : Fit.Cfg K} {bundle : Option Bundle} {data : Option (DInput X)} {r : DReady X} :
    check torch { cfg with ranges := decide (0 ≤ cutoff ∧ cutoff ≤ 1) } bundle data = .ok r ↔
      ∃ d v xw xs, data = some d ∧ Acceptable cutoff torch cfg bundle d v xw xs ∧
        r = ⟨d.base.xl.rows.zip v.feats.rows, d.base.yl, xw.rows, xs.rows⟩ := by
  have hz : ∀ xw : List X, (xw.zip ((List.range xw.length).map Int.ofNat)).map (·.1) = xw := fun xw =>
    List.map_fst_zip (by simp)
  constructor
  · intro h
    unfold check at h
    cases hc : Fit.check (fun n => .ok ((List.range n).map Int.ofNat)) torch
        { cfg with ranges := decide (0 ≤ cutoff ∧ cutoff ≤ 1) } bundle (data.map (·.base)) with
    | error e => rw [hc] at h; cases h
    | ok r0 =>
    rw [hc] at h
    obtain ⟨b, xw, xs, idx, hd, hA, hi, rfl⟩ := Fit.check_ok.mp hc
    cases data with
    | none => cases hd
    | some d =>
    obtain rfl := Option.some.inj hd
    obtain rfl := Except.ok.inj hi
    simp only at h
    split_ifs at h with c1 c2 c3 c4 c5
    simp only [Except.ok.injEq, hz] at h
    have hr := hA.ranges
    simp only [decide_eq_true_eq] at hr
    refine ⟨d, strongView d, xw, xs, rfl, ⟨⟨hA.torch, hA.rows, hA.labels, hA.nonempty, hA.weak, hA.strong, hA.unlabeled,
      hA.views, hA.floats, hA.bundle, hA.batch, hA.epochs, hA.lambda, rfl, hA.temperature⟩, hr, (strongOf_iff _ _).mpr rfl,
      by simpa using c1, ⟨not_not.mp c5, ?_⟩, not_not.mp c4⟩, h.symm⟩
    rw [← not_not.mp c5]
    intro h0
    rw [h0] at c2
    simp at c2
  · rintro ⟨d, v, xw, xs, rfl, hA, rfl⟩
    have hc := hA.common
    have hv := (strongOf_iff _ _).mp hA.strong
    have h1 : Fit.check (fun n => .ok ((List.range n).map Int.ofNat)) torch
        { cfg with ranges := decide (0 ≤ cutoff ∧ cutoff ≤ 1) } bundle (some d.base) =
          .ok ⟨d.base.xl.rows, d.base.yl, xw.rows.zip ((List.range xw.rows.length).map Int.ofNat), xs.rows⟩ :=
      Fit.check_ok.mpr ⟨d.base, xw, xs, _, rfl, ⟨hc.torch, hc.rows, hc.labels, hc.nonempty, hc.weak, hc.strong, hc.unlabeled,
        hc.views, hc.floats, hc.bundle, hc.batch, hc.epochs, hc.lambda, by simpa using hA.cutoff, hc.temperature⟩, rfl, rfl⟩
    unfold check
    rw [Option.map_some, h1]
    simp only
    rw [← hv, if_neg (by simp [hA.float]), if_neg, if_neg (by rw [hA.shape.1]; simp), if_neg (by rw [hA.rows]; simp),
      if_neg (by rw [hA.shape.1]; simp), hz]
    rw [hA.shape.1]
    have := List.length_pos_iff.mpr hA.shape.2
    omega

/-- **C176 (refused untouched).**  A `fit` whose data, bundle or parameters are not acceptable raises, and leaves network and
object as they were. -/
theorem C176_refused (G : TorchGen σ) (N : Net X W K) (T : Torch K) (cutoff : K) (hard : Bool) (torch : Bool) (cfg : Fit.Cfg K)
    (bundle : Option Bundle) (data : Option (DInput X)) (seed : Int) (fitted : Bool) (w : W)
    (h : ∀ d v xw xs, data = some d → ¬ Acceptable cutoff torch cfg bundle d v xw xs) :
    ∃ e, fit G N T cutoff hard torch cfg bundle data seed fitted w = ((fitted, w), .error e) := by
  unfold fit
  cases hc : check torch { cfg with ranges := decide (0 ≤ cutoff ∧ cutoff ≤ 1) } bundle data with
  | error e => exact ⟨e, rfl⟩
  | ok r =>
    obtain ⟨d, v, xw, xs, hd, hA, -⟩ := check_ok.mp hc
    exact absurd hA (h d v xw xs hd)

theorem batches_ok {G : TorchGen σ} (hG : G.Lawful) {cutoff : K} {torch : Bool} {cfg : Fit.Cfg K} {bundle : Option Bundle}
    {d : DInput X} {v : View X} {xw xs : Feats X} (hA : Acceptable cutoff torch cfg bundle d v xw xs) (seed : Int) :
    ∃ eps, fitBatches G (d.base.xl.rows.zip v.feats.rows) d.base.yl xw.rows xs.rows cfg.batchSize cfg.maxEpochs seed = .ok eps ∧
      Epochs (d.base.xl.rows.zip v.feats.rows) d.base.yl xw.rows xs.rows cfg.batchSize cfg.maxEpochs eps := by
  have hc := hA.common
  have hz : (d.base.xl.rows.zip v.feats.rows).length = d.base.xl.rows.length := by rw [List.length_zip, hA.rows]; simp
  have hn := List.length_pos_iff.mpr hc.nonempty
  obtain ⟨eps, h⟩ := (C106_accepts G hG (d.base.xl.rows.zip v.feats.rows) d.base.yl xw.rows xs.rows cfg.batchSize cfg.maxEpochs
    seed).mpr ⟨by rw [hz, hc.rows], by rw [← List.length_pos_iff, hz]; exact hn, hc.views, hc.unlabeled, hc.batch, hc.epochs⟩
  obtain ⟨h1, h2⟩ := C106_epochs G hG _ _ _ _ _ _ _ _ h
  exact ⟨eps, h, h1, h2⟩

theorem Epochs.sizes {xl : List (X × X)} {yl : List Int} {xw xs : List X} {b e : Int}
    {eps : List (List (DBatch X))} (h : Epochs xl yl xw xs b e eps) :
    ∀ s ∈ eps.flatten, s.xl.length = s.yl.length ∧ s.xw.length = s.xs.length ∧ ∀ y ∈ s.yl, y ∈ yl := by
  intro s hs
  obtain ⟨ep, hep, hs⟩ := List.mem_flatten.mp hs
  obtain ⟨-, bl, bu, hE, -, -⟩ := h.each ep hep
  obtain ⟨t, ht, rfl⟩ := List.getElem_of_mem hs
  obtain ⟨r1, r2, r3, r4⟩ := hE.rows t ht
  rw [rowsAt_length r1, rowsAt_length r2, rowsAt_length r3, rowsAt_length r4]
  refine ⟨rfl, rfl, fun y hy => ?_⟩
  have h1 : some y ∈ (ep[t].yl).map some := List.mem_map_of_mem hy
  rw [r2, List.mem_map] at h1
  obtain ⟨i, -, hi⟩ := h1
  exact List.mem_of_getElem? hi

theorem Epochs.visits {xl : List (X × X)} {yl : List Int} {xw xs : List X} {b e : Int}
    {eps : List (List (DBatch X))} (h : Epochs xl yl xw xs b e eps) (he : 0 < e) (hl : xl.length = yl.length) :
    ∀ y ∈ yl, ∃ s ∈ eps.flatten, y ∈ s.yl := by
  intro y hy
  obtain ⟨i, hi, rfl⟩ := List.getElem_of_mem hy
  have hn : 0 < eps.length := by have := h.number; omega
  obtain ⟨ep, hep⟩ : ∃ ep, ep ∈ eps := ⟨_, List.getElem_mem hn⟩
  obtain ⟨-, bl, bu, hE, hF, -⟩ := h.each ep hep
  have hv := hF.covers i (by omega)
  have hmem : i ∈ bl.flatten := List.count_pos_iff.mp hv
  obtain ⟨B, hB, hiB⟩ := List.mem_flatten.mp hmem
  obtain ⟨t, ht, rfl⟩ := List.getElem_of_mem hB
  have ht' : t < ep.length := by rw [← hE.len_l]; exact ht
  obtain ⟨-, r2, -, -⟩ := hE.rows t ht'
  refine ⟨ep[t], List.mem_flatten.mpr ⟨ep, hep, List.getElem_mem ht'⟩, ?_⟩
  rw [List.getD_eq_getElem _ _ ht] at r2
  have h3 : some yl[i] ∈ (ep[t].yl).map some := by
    rw [r2, List.mem_map]
    exact ⟨i, hiB, by rw [List.getElem?_eq_getElem hi]⟩
  simpa using h3

/-! ### One step of a row-wise network -/

/-- Its four logits. -/
def four (C : Nat) (f : X → List K) (s : DBatch X) : Four K :=
  ⟨⟨2, C, (s.xl.map (·.1)).map f⟩, ⟨2, C, (s.xl.map (·.2)).map f⟩, ⟨2, C, s.xw.map f⟩, ⟨2, C, s.xs.map f⟩⟩

theorem look_rowwise {N : Net X W K} {view : W → V} {g : V → X → List K} {C : Nat} (hN : Rowwise N view g C) (cat : Bool)
    (w : W) (s : DBatch X) : look N cat w s = (.ok (four C (g (view w)) s), w) := by
  have hF : ∀ w xs, N.forward w xs = (⟨2, C, xs.map (g (view w))⟩, w) := hN
  unfold look
  cases cat with
  | false =>
    rw [if_neg (by simp)]
    simp only [hF, four]
  | true =>
    rw [if_pos rfl]
    simp only [hF]
    rw [if_neg (by simp), if_neg (by simp; omega)]
    simp only [Out.slice, List.map_append, List.drop_zero, four]
    have l1 : ((s.xl.map (·.1)).map (g (view w))).length = s.xl.length := by simp
    have l2 : ((s.xl.map (·.2)).map (g (view w))).length = s.xl.length := by simp
    have l3 : (s.xw.map (g (view w))).length = s.xw.length := by simp
    have l4 : (s.xs.map (g (view w))).length = s.xs.length := by simp
    generalize (s.xl.map (·.1)).map (g (view w)) = a at *
    generalize (s.xl.map (·.2)).map (g (view w)) = b at *
    generalize s.xw.map (g (view w)) = c at *
    generalize s.xs.map (g (view w)) = d at *
    have e1 : List.take s.xl.length (a ++ b ++ c ++ d) = a := by
      rw [← l1, List.append_assoc, List.append_assoc, List.take_left]
    have e2 : List.take s.xl.length (List.drop s.xl.length (a ++ b ++ c ++ d)) = b := by
      have : List.drop s.xl.length (a ++ b ++ c ++ d) = b ++ (c ++ d) := by
        rw [← l1, List.append_assoc, List.append_assoc, List.drop_left]
      rw [this, ← l2, List.take_left]
    have e3 : List.take s.xw.length (List.drop (s.xl.length + s.xl.length) (a ++ b ++ c ++ d)) = c := by
      have : List.drop (s.xl.length + s.xl.length) (a ++ b ++ c ++ d) = c ++ d := by
        rw [show s.xl.length + s.xl.length = (a ++ b).length by rw [List.length_append, l1, l2], List.append_assoc (a ++ b),
          List.drop_left]
      rw [this, ← l3, List.take_left]
    have e4 : List.take s.xs.length (List.drop (s.xl.length + s.xl.length + s.xw.length) (a ++ b ++ c ++ d)) = d := by
      have : List.drop (s.xl.length + s.xl.length + s.xw.length) (a ++ b ++ c ++ d) = d := by
        rw [show s.xl.length + s.xl.length + s.xw.length = (a ++ b ++ c).length by
          rw [List.length_append, List.length_append, l1, l2, l3], List.drop_left]
      rw [this, ← l4, List.take_length]
    rw [e1, e2, e3, e4]

theorem agree_four {C : Nat} {f : X → List K} {s : DBatch X} (h2 : s.xw.length = s.xs.length) :
    agree s.yl (four C f s) = if s.yl.any (fun c => decide (c < 0 ∨ (C : Int) ≤ c)) then .error .validation else .ok () := by
  unfold agree four
  rw [if_neg (by simp), if_neg (by simp), if_neg (by simp [h2]), if_neg (by simp)]

theorem sharpen_total {pow : K → K → K} {temp : K} (ht : 0 < temp) (rows : List (List K)) :
    sharpen pow temp rows = .ok (rows.map fun p => if temp = 1 then p else sharpenRow pow temp p) := by
  unfold sharpen
  rw [if_neg (not_le.mpr ht)]
  by_cases c : temp = 1
  · simp [c]
  · rw [if_neg c]; simp [c]

/-- The loss of a step of a row-wise network. -/
def plainObj (T : Torch K) (cutoff temp scale : K) (hard : Bool) (s : DBatch X) (f : X → List K) : Objective X K :=
  let pu := s.xw.map fun x => T.softmax (f x)
  let pl := (s.xl.map (·.1)).map fun x => T.softmax (f x)
  let sh := fun p => if temp = 1 then p else sharpenRow T.pow temp p
  ⟨(((s.xl.map (·.1)).zip s.yl) ++ ((s.xl.map (·.2)).zip s.yl)).map fun p => (p.1, p.2, 1 / (2 * (s.yl.length : K))),
    terms T cutoff hard 1 pu (pu.map sh) (s.xw.zip s.xs) ++ terms T cutoff hard (-1) pl (pl.map sh) s.xl, scale, none⟩

theorem objective_four (T : Torch K) (cutoff : K) {temp : K} (ht : 0 < temp) (scale : K) (hard : Bool) (s : DBatch X) (C : Nat)
    (f : X → List K) : objective T cutoff temp scale hard s (four C f s) = .ok (plainObj T cutoff temp scale hard s f) := by
  unfold objective four plainObj
  simp only [List.map_map, Function.comp_def]
  rw [sharpen_total ht, ebind_of_ok rfl, sharpen_total ht, ebind_of_ok rfl]
  simp only [List.map_map, Function.comp_def]

theorem trainStep_rowwise {N : Net X W K} {view : W → V} {g : V → X → List K} {C : Nat} (hN : Rowwise N view g C)
    (T : Torch K) (cutoff : K) (hard : Bool) (cfg : Fit.Cfg K) (ht : 0 < cfg.temperature) (w : W) (s : DBatch X)
    (h2 : s.xw.length = s.xs.length) :
    trainStep N T cutoff hard cfg w s =
      if s.yl.any (fun c => decide (c < 0 ∨ (C : Int) ≤ c)) then (w, .error .validation)
      else (N.step w (plainObj T cutoff cfg.temperature cfg.lambdaU hard s (g (view w))), .ok ()) := by
  unfold trainStep
  rw [look_rowwise hN]
  simp only
  rw [agree_four h2]
  by_cases c : s.yl.any (fun c => decide (c < 0 ∨ (C : Int) ≤ c)) = true
  · rw [if_pos c, if_pos c]
  · rw [if_neg c, if_neg c]
    simp only
    rw [objective_four T cutoff ht]

theorem labels_iff {C : Nat} {y : List Int} : ¬ y.any (fun c => decide (c < 0 ∨ (C : Int) ≤ c)) = true ↔
    ∀ c ∈ y, 0 ≤ c ∧ c < (C : Int) := by
  rw [List.any_eq_true]
  constructor
  · intro h c hc
    have : ¬(c < 0 ∨ (C : Int) ≤ c) := fun hb => h ⟨c, hc, decide_eq_true hb⟩
    omega
  · rintro h ⟨c, hc, hb⟩
    have := h c hc
    have := of_decide_eq_true hb
    omega

theorem trainSteps_rowwise {N : Net X W K} {view : W → V} {g : V → X → List K} {C : Nat} (hN : Rowwise N view g C)
    {log : W → List (V × Objective X K)} (hL : Logs N view log) {T : Torch K} {cutoff : K} {hard : Bool} {cfg : Fit.Cfg K}
    (ht : 0 < cfg.temperature) : ∀ {ss : List (DBatch X)} {w w' : W}, (∀ s ∈ ss, s.xw.length = s.xs.length) →
    trainSteps N T cutoff hard cfg w ss = (w', .ok ()) →
    ∃ obs : List (V × Objective X K), log w' = log w ++ obs ∧ List.Forall₂ (fun (s : DBatch X) (p : V × Objective X K) =>
      p.2 = plainObj T cutoff cfg.temperature cfg.lambdaU hard s (g p.1)) ss obs
  | [], w, w', _, h => by
    simp only [trainSteps, Prod.mk.injEq, and_true] at h
    subst h
    exact ⟨[], by simp, .nil⟩
  | s :: ss, w, w', hz, h => by
    rw [trainSteps, trainStep_rowwise hN T cutoff hard cfg ht w s (hz s (by simp))] at h
    by_cases c : s.yl.any (fun c => decide (c < 0 ∨ (C : Int) ≤ c)) = true
    · rw [if_pos c] at h; cases h
    rw [if_neg c] at h
    simp only at h
    obtain ⟨obs, e1, e2⟩ := trainSteps_rowwise hN hL ht (fun x hx => hz x (by simp [hx])) h
    exact ⟨(view w, plainObj T cutoff cfg.temperature cfg.lambdaU hard s (g (view w))) :: obs, by rw [e1, hL.step]; simp,
      .cons rfl e2⟩

theorem trainSteps_total {N : Net X W K} {view : W → V} {g : V → X → List K} {C : Nat} (hN : Rowwise N view g C)
    {T : Torch K} {cutoff : K} {hard : Bool} {cfg : Fit.Cfg K}
    (ht : 0 < cfg.temperature) : ∀ {ss : List (DBatch X)} {w : W}, (∀ s ∈ ss, s.xw.length = s.xs.length) →
    ((trainSteps N T cutoff hard cfg w ss).2 = .ok () ↔ ∀ s ∈ ss, ∀ y ∈ s.yl, 0 ≤ y ∧ y < (C : Int))
  | [], w, _ => by simp [trainSteps]
  | s :: ss, w, hz => by
    rw [trainSteps, trainStep_rowwise hN T cutoff hard cfg ht w s (hz s (by simp))]
    by_cases c : s.yl.any (fun c => decide (c < 0 ∨ (C : Int) ≤ c)) = true
    · rw [if_pos c]
      simp only [reduceCtorEq, false_iff]
      intro h
      exact (labels_iff.mpr (h s (by simp))) c
    · rw [if_neg c]
      simp only
      rw [trainSteps_total hN ht (fun x hx => hz x (by simp [hx]))]
      have := labels_iff.mp c
      simp only [List.mem_cons, forall_eq_or_imp]
      exact ⟨fun h => ⟨this, h⟩, fun h => h.2⟩

/-- What `fit` is on acceptable data. -/
theorem fit_eq (G : TorchGen σ) (hG : G.Lawful) (N : Net X W K) (T : Torch K) (cutoff : K) (hard : Bool) (torch : Bool)
    (cfg : Fit.Cfg K) (bundle : Option Bundle) (d : DInput X) (v : View X) (xw xs : Feats X)
    (hA : Acceptable cutoff torch cfg bundle d v xw xs) (seed : Int) :
    ∃ eps, Epochs (d.base.xl.rows.zip v.feats.rows) d.base.yl xw.rows xs.rows cfg.batchSize cfg.maxEpochs eps ∧
      ∀ fitted w, fit G N T cutoff hard torch cfg bundle (some d) seed fitted w =
        match trainSteps N T cutoff hard cfg (N.train w) eps.flatten with
        | (w', .error e) => ((fitted, w'), .error e)
        | (w', .ok _) => ((true, w'), .ok ()) := by
  obtain ⟨eps, h1, h2⟩ := batches_ok hG hA seed
  refine ⟨eps, h2, fun fitted w => ?_⟩
  unfold fit
  rw [check_ok.mpr ⟨d, v, xw, xs, rfl, hA, rfl⟩]
  simp only
  rw [h1]
  rfl

/-- **C176 (which fits succeed).**  With a row-wise network over `C` classes, `fit` succeeds exactly if data, bundle and parameters
are acceptable and every label is a class of the network. -/
theorem C176_accepts (G : TorchGen σ) (hG : G.Lawful) (N : Net X W K) (view : W → V) (g : V → X → List K) (C : Nat)
    (hN : Rowwise N view g C) (T : Torch K) (cutoff : K) (hard : Bool) (torch : Bool) (cfg : Fit.Cfg K) (bundle : Option Bundle)
    (data : Option (DInput X)) (seed : Int) (fitted : Bool) (w : W) :
    (fit G N T cutoff hard torch cfg bundle data seed fitted w).2 = .ok () ↔
      ∃ d v xw xs, data = some d ∧ Acceptable cutoff torch cfg bundle d v xw xs ∧
        ∀ y ∈ d.base.yl, 0 ≤ y ∧ y < (C : Int) := by
  constructor
  · intro h
    cases hc : check torch { cfg with ranges := decide (0 ≤ cutoff ∧ cutoff ≤ 1) } bundle data with
    | error e => unfold fit at h; rw [hc] at h; cases h
    | ok r =>
      obtain ⟨d, v, xw, xs, rfl, hA, -⟩ := check_ok.mp hc
      obtain ⟨eps, hE, hf⟩ := fit_eq G hG N T cutoff hard torch cfg bundle d v xw xs hA seed
      rw [hf] at h
      have key := trainSteps_total hN hA.common.temperature (T := T) (cutoff := cutoff) (hard := hard) (cfg := cfg)
        (ss := eps.flatten) (w := N.train w) (fun s hs => (Epochs.sizes hE s hs).2.1)
      cases ht : trainSteps N T cutoff hard cfg (N.train w) eps.flatten with
      | mk w1 res =>
      rw [ht] at h key
      cases res with
      | error e => cases h
      | ok u =>
      refine ⟨d, v, xw, xs, rfl, hA, fun y hy => ?_⟩
      have hz : (d.base.xl.rows.zip v.feats.rows).length = d.base.yl.length := by
        rw [List.length_zip, hA.rows, ← hA.common.rows]; simp
      obtain ⟨s, hs, hys⟩ := Epochs.visits hE hA.common.epochs hz y hy
      exact key.mp rfl s hs y hys
  · rintro ⟨d, v, xw, xs, rfl, hA, hy⟩
    obtain ⟨eps, hE, hf⟩ := fit_eq G hG N T cutoff hard torch cfg bundle d v xw xs hA seed
    have key := (trainSteps_total hN hA.common.temperature (T := T) (cutoff := cutoff) (hard := hard) (cfg := cfg)
        (ss := eps.flatten) (w := N.train w) (fun s hs => (Epochs.sizes hE s hs).2.1)).mpr
        (fun s hs y hys => hy y ((Epochs.sizes hE s hs).2.2 y hys))
    rw [hf]
    cases ht : trainSteps N T cutoff hard cfg (N.train w) eps.flatten with
    | mk w1 res =>
    rw [ht] at key
    simp only at key
    subst key
    rfl

theorem fit_losses (G : TorchGen σ) (hG : G.Lawful) (N : Net X W K) (view : W → V) (g : V → X → List K) (C : Nat)
    (hN : Rowwise N view g C) (log : W → List (V × Objective X K)) (hL : Logs N view log) (T : Torch K) (cutoff : K)
    (hard : Bool) (torch : Bool) (cfg : Fit.Cfg K) (bundle : Option Bundle) (data : Option (DInput X)) (seed : Int)
    (fitted f' : Bool) (w w' : W) (h : fit G N T cutoff hard torch cfg bundle data seed fitted w = ((f', w'), .ok ())) :
    ∃ d v xw xs eps, ∃ obs : List (V × Objective X K), data = some d ∧ Acceptable cutoff torch cfg bundle d v xw xs ∧
      Epochs (d.base.xl.rows.zip v.feats.rows) d.base.yl xw.rows xs.rows cfg.batchSize cfg.maxEpochs eps ∧
      log w' = log w ++ obs ∧ f' = true ∧ List.Forall₂ (fun (s : DBatch X) (p : V × Objective X K) =>
        p.2 = plainObj T cutoff cfg.temperature cfg.lambdaU hard s (g p.1)) eps.flatten obs := by
  cases hc : check torch { cfg with ranges := decide (0 ≤ cutoff ∧ cutoff ≤ 1) } bundle data with
  | error e => unfold fit at h; rw [hc] at h; cases h
  | ok r =>
  obtain ⟨d, v, xw, xs, rfl, hA, -⟩ := check_ok.mp hc
  obtain ⟨eps, hE, hf⟩ := fit_eq G hG N T cutoff hard torch cfg bundle d v xw xs hA seed
  rw [hf] at h
  cases ht : trainSteps N T cutoff hard cfg (N.train w) eps.flatten with
  | mk w1 res =>
  rw [ht] at h
  cases res with
  | error e => cases h
  | ok u =>
  simp only [Prod.mk.injEq, and_true] at h
  obtain ⟨rfl, rfl⟩ := h
  obtain ⟨obs, e1, e2⟩ := trainSteps_rowwise hN hL (cfg := cfg) hA.common.temperature (fun s hs => (Epochs.sizes hE s hs).2.1) ht
  exact ⟨d, v, xw, xs, eps, obs, rfl, hA, hE, by rw [e1, hL.train], rfl, e2⟩

/-! ### The loss -/

theorem terms_pseudo [IsStrictOrderedRing K] {T : Torch K} (hp : PowerLaw T.pow) (ha : ArgmaxLaw T.argmax) (cutoff : K) {temp : K}
    (ht : 0 < temp) (hard : Bool) (sign : K) (f : X → List K) (hf : ∀ x, IsDist (f x) ∧ f x ≠ []) :
    ∀ (rows : List (X × X)) (ws : List X), rows.map (·.1) = ws →
    List.Forall₂ (PseudoTerm T.pow cutoff temp hard f ws sign) rows
      (terms T cutoff hard sign (ws.map f) ((ws.map f).map fun p => if temp = 1 then p else sharpenRow T.pow temp p) rows) := by
  intro rows ws hw
  unfold terms
  rw [normed_mask cutoff f (fun x => (hf x).2), targetsOf, List.map_map, List.map_map]
  have key : ∀ (n : Nat) (rs : List (X × X)), List.Forall₂ (fun (p : X × X) (t : Term X K) => t.weak = p.1 ∧ t.strong = p.2 ∧
      (t.weight = sign * if Confident cutoff (f p.1) then 1 / (n : K) else 0) ∧
      t.target = if hard then .hard (T.argmax (if temp = 1 then f p.1 else sharpenRow T.pow temp (f p.1)))
        else .soft (if temp = 1 then f p.1 else sharpenRow T.pow temp (f p.1))) rs
      (List.zipWith (fun (p : X × X) (q : Target K × K) => (⟨p.1, p.2, q.1, sign * q.2⟩ : Term X K)) rs
        (((rs.map (·.1)).map ((fun p => if hard = true then Target.hard (T.argmax p) else Target.soft p) ∘
          (fun p => if temp = 1 then p else sharpenRow T.pow temp p) ∘ f)).zip
          ((rs.map (·.1)).map fun x => if Confident cutoff (f x) then 1 / (n : K) else 0))) := by
    intro n rs
    induction rs with
    | nil => exact .nil
    | cons r rs ih => exact .cons ⟨rfl, rfl, rfl, rfl⟩ ih
  have h1 := key (confident cutoff f ws) rows
  rw [hw] at h1
  refine h1.imp ?_
  rintro p t ⟨e1, e2, e3, e4⟩
  refine ⟨e1, e2, e3, fun hh => ?_, fun hh => ?_⟩
  · rw [e4, if_pos hh]
    exact ⟨_, rfl, sharp_most hp ha ht (hf p.1).1 (hf p.1).2⟩
  · rw [e4, if_neg (by simp [hh])]

/-- **C176 (training).**  A successful `fit` made one optimizer step per batch of its fair epochs, in which weak views, strong views
and labels of a labeled sample stay together, each with the DeFixMatch loss over that batch, taken with the network as it was at
that moment. -/
theorem C176_training [IsStrictOrderedRing K] (T : Torch K) (hp : PowerLaw T.pow) (ha : ArgmaxLaw T.argmax)
    (cutoff : K) (hard : Bool) (G : TorchGen σ) (hG : G.Lawful) (N : Net X W K) (view : W → V) (g : V → X → List K)
    (C : Nat) (hN : Rowwise N view g C) (hs : ∀ v x, IsDist (T.softmax (g v x)) ∧ T.softmax (g v x) ≠ [])
    (log : W → List (V × Objective X K)) (hL : Logs N view log) (torch : Bool) (cfg : Fit.Cfg K) (bundle : Option Bundle)
    (data : Option (DInput X)) (seed : Int) (fitted f' : Bool) (w w' : W)
    (h : fit G N T cutoff hard torch cfg bundle data seed fitted w = ((f', w'), .ok ())) :
    ∃ d v xw xs eps, ∃ obs : List (V × Objective X K), data = some d ∧ d.base.xw = some xw ∧ d.base.xs = some xs ∧ StrongOf d v ∧
      Epochs (d.base.xl.rows.zip v.feats.rows) d.base.yl xw.rows xs.rows cfg.batchSize cfg.maxEpochs eps ∧
      log w' = log w ++ obs ∧ f' = true ∧
      List.Forall₂ (fun s (p : V × Objective X K) =>
        DefixLoss T.pow cutoff cfg.temperature hard cfg.lambdaU (fun x => T.softmax (g p.1 x)) s p.2) eps.flatten obs := by
  obtain ⟨d, v, xw, xs, eps, obs, rfl, hA, hE, e1, e2, e3⟩ := fit_losses G hG N view g C hN log hL T cutoff hard torch cfg bundle
    data seed fitted f' w w' h
  refine ⟨d, v, xw, xs, eps, obs, rfl, hA.common.weak, hA.common.strong, hA.strong, hE, e1, e2,
    forall₂_weaken ?_ (Epochs.sizes hE) e3⟩
  rintro s ⟨v, ob⟩ ⟨s1, s2, -⟩ ho
  simp only at ho ⊢
  rw [ho]
  refine ⟨by simp [plainObj], ⟨_, _, rfl, ?_, ?_⟩, rfl, rfl⟩
  · exact terms_pseudo hp ha cutoff hA.common.temperature hard 1 (fun x => T.softmax (g v x)) (hs v) _ _
      (List.map_fst_zip (by omega))
  · exact terms_pseudo hp ha cutoff hA.common.temperature hard (-1) (fun x => T.softmax (g v x)) (hs v) _ _ rfl

/-! ### Debiasing -/

/-- The pseudo-label loss of some pairs of views. -/
theorem terms_sum (T : Torch K) (cutoff temp : K) (hard : Bool) (sign : K) (f : X → List K) (l : X → Target K → K)
    (rows : List (X × X)) (ws : List X) (hw : rows.map (·.1) = ws) :
    ((terms T cutoff hard sign (ws.map f) ((ws.map f).map fun p => if temp = 1 then p else sharpenRow T.pow temp p) rows).map
      fun t => t.weight * l t.strong t.target).sum =
    sign * ((rows.map fun p => (if cutoff ≤ rowMax (f p.1) then 1 else 0) * l p.2 (if hard = true then
        .hard (T.argmax (if temp = 1 then f p.1 else sharpenRow T.pow temp (f p.1)))
        else .soft (if temp = 1 then f p.1 else sharpenRow T.pow temp (f p.1)))).sum /
      max ((rows.map fun p => if cutoff ≤ rowMax (f p.1) then (1 : K) else 0).sum) 1) := by
  subst hw
  unfold terms normed maskOf targetsOf
  simp only [List.map_map]
  have key : ∀ (m : K) (rs : List (X × X)),
      ((List.zipWith (fun (p : X × X) (q : Target K × K) => (⟨p.1, p.2, q.1, sign * q.2⟩ : Term X K)) rs
        ((rs.map ((fun p => if hard = true then Target.hard (T.argmax p) else Target.soft p) ∘
          (fun p => if temp = 1 then p else sharpenRow T.pow temp p) ∘ f ∘ (·.1))).zip
          (rs.map ((· / m) ∘ (fun p => if cutoff ≤ rowMax p then (1 : K) else 0) ∘ f ∘ (·.1))))).map
        fun t => t.weight * l t.strong t.target).sum =
      sign * ((rs.map fun p => (if cutoff ≤ rowMax (f p.1) then 1 else 0) * l p.2 (if hard = true then
        .hard (T.argmax (if temp = 1 then f p.1 else sharpenRow T.pow temp (f p.1)))
        else .soft (if temp = 1 then f p.1 else sharpenRow T.pow temp (f p.1)))).sum / m) := by
    intro m rs
    induction rs with
    | nil => simp
    | cons r rs ih =>
      simp only [List.map_cons, List.zip_cons_cons, List.zipWith_cons_cons, List.sum_cons]
      rw [ih]
      simp only [Function.comp_apply]
      rw [add_div, mul_add]
      congr 1
      ring
  exact key _ rows

/-- **C176 (debiased).**  Wherever the unlabeled rows of a step are the labeled ones, with the same views and in any order, the
pseudo-label part of the loss vanishes, whatever the loss of a row is. -/
theorem C176_cancel (G : TorchGen σ) (hG : G.Lawful) (N : Net X W K) (view : W → V) (g : V → X → List K) (C : Nat)
    (hN : Rowwise N view g C) (log : W → List (V × Objective X K)) (hL : Logs N view log) (T : Torch K) (cutoff : K)
    (hard : Bool) (torch : Bool) (cfg : Fit.Cfg K) (bundle : Option Bundle) (data : Option (DInput X)) (seed : Int)
    (fitted f' : Bool) (w w' : W) (h : fit G N T cutoff hard torch cfg bundle data seed fitted w = ((f', w'), .ok ())) :
    ∃ d v xw xs eps, ∃ obs : List (V × Objective X K), data = some d ∧ Acceptable cutoff torch cfg bundle d v xw xs ∧
      Epochs (d.base.xl.rows.zip v.feats.rows) d.base.yl xw.rows xs.rows cfg.batchSize cfg.maxEpochs eps ∧
      log w' = log w ++ obs ∧ List.Forall₂ (fun (s : DBatch X) (p : V × Objective X K) =>
        (s.xw.zip s.xs).Perm s.xl → ∀ l, pseudoLoss l p.2 = 0) eps.flatten obs := by
  obtain ⟨d, v, xw, xs, eps, obs, rfl, hA, hE, e1, e2, e3⟩ := fit_losses G hG N view g C hN log hL T cutoff hard torch cfg bundle
    data seed fitted f' w w' h
  refine ⟨d, v, xw, xs, eps, obs, rfl, hA, hE, e1, forall₂_weaken ?_ (Epochs.sizes hE) e3⟩
  rintro s ⟨v, ob⟩ ⟨s1, s2, -⟩ ho hperm l
  simp only at ho ⊢
  rw [ho]
  unfold pseudoLoss plainObj
  simp only [List.map_append, List.sum_append]
  rw [terms_sum T cutoff cfg.temperature hard 1 (fun x => T.softmax (g v x)) l _ _ (List.map_fst_zip (by omega)),
    terms_sum T cutoff cfg.temperature hard (-1) (fun x => T.softmax (g v x)) l _ _ rfl]
  rw [(hperm.map _).sum_eq, (hperm.map fun p : X × X => if cutoff ≤ rowMax (T.softmax (g v p.1)) then (1 : K) else 0).sum_eq]
  ring

/-- **C176 (concatenation).**  For a network that treats rows by themselves, `use_cat` changes nothing at all. -/
theorem C176_cat (G : TorchGen σ) (N : Net X W K) (view : W → V) (g : V → X → List K) (C : Nat) (hN : Rowwise N view g C)
    (T : Torch K) (cutoff : K) (hard : Bool) (torch : Bool) (cfg : Fit.Cfg K) (cat : Bool) (bundle : Option Bundle)
    (data : Option (DInput X)) (seed : Int) (fitted : Bool) (w : W) :
    fit G N T cutoff hard torch { cfg with cat := cat } bundle data seed fitted w =
      fit G N T cutoff hard torch cfg bundle data seed fitted w := by
  have hstep : ∀ w s, trainStep N T cutoff hard { cfg with cat := cat } w s = trainStep N T cutoff hard cfg w s := by
    intro w s
    unfold trainStep
    rw [look_rowwise hN, look_rowwise hN]
  have hsteps : ∀ (ss : List (DBatch X)) (w : W),
      trainSteps N T cutoff hard { cfg with cat := cat } w ss = trainSteps N T cutoff hard cfg w ss := by
    intro ss
    induction ss with
    | nil => intro w; rfl
    | cons s ss ih =>
      intro w
      rw [trainSteps, trainSteps, hstep]
      cases trainStep N T cutoff hard cfg w s with
      | mk w1 res => cases res with
        | error e => rfl
        | ok u => exact ih w1
  unfold fit
  have hc : check torch { { cfg with cat := cat } with ranges := decide (0 ≤ cutoff ∧ cutoff ≤ 1) } bundle data =
      check torch { cfg with ranges := decide (0 ≤ cutoff ∧ cutoff ≤ 1) } bundle data := rfl
  rw [hc]
  cases check torch { cfg with ranges := decide (0 ≤ cutoff ∧ cutoff ≤ 1) } bundle data with
  | error e => rfl
  | ok r =>
    simp only
    cases fitBatches G r.xl r.yl r.xw r.xs cfg.batchSize cfg.maxEpochs seed with
    | error e => rfl
    | ok eps =>
      simp only
      rw [hsteps]

/-! ### Examples -/

/-- Data: `demoData` with rows of two features and some views. -/
def demoData (y : List Int) (u : List Nat) (views : List (String × View Nat)) : DInput Nat := ⟨Fit.demoData y u, [2], views⟩

/-- `fit` in the examples. -/
def demoFit (d : DInput Nat) : (Bool × Fit.DemoW) × Except PyErr Unit :=
  fit TorchGen.demo Fit.demoNet Fit.demoTorch (3 / 5) true true (Fit.demoCfg 2 1) (some ⟨true, true⟩) (some d) 0 false Fit.demoW

theorem demo_acceptable (y : List Int) (hy : y ≠ []) (u : List Nat) (hu : u ≠ []) :
    Acceptable (3 / 5 : Rat) true (Fit.demoCfg 2 1) (some ⟨true, true⟩)
      (demoData y u [("X_l_s", ⟨⟨(List.range y.length).map (· + 10), true⟩, [2]⟩)])
      ⟨⟨(List.range y.length).map (· + 10), true⟩, [2]⟩ ⟨u, true⟩ ⟨u.map (· + 10), true⟩ :=
  ⟨Fit.demo_acceptable 2 1 (by decide) (by decide) y hy u hu, by norm_num, .first _ rfl, rfl, ⟨rfl, by simp [demoData]⟩,
    by simp [demoData, Fit.demoData]⟩

/-- Non-vacuity of `C176_accepts`, `C176_training`. -/
example (y : List Int) (hy : y ≠ []) (hc : ∀ c ∈ y, 0 ≤ c ∧ c < 2) (u : List Nat) (hu : u ≠ []) :
    (demoFit (demoData y u [("X_l_s", ⟨⟨(List.range y.length).map (· + 10), true⟩, [2]⟩)])).2 = .ok () :=
  (C176_accepts TorchGen.demo TorchGen.demo_lawful Fit.demoNet _ _ _ Fit.demo_rowwise _ _ _ _ _ _ _ _ _ _).mpr
    ⟨_, _, _, _, rfl, demo_acceptable y hy u hu, hc⟩

/-- Same samples, same views, other order: the terms cancel. -/
example : (demoFit (demoData [0, 1] [0, 1] [("X_l_s", ⟨⟨[10, 11], true⟩, [2]⟩)])).1.2.steps.map (fun p => p.2.unlabeled) =
    [[⟨0, 10, .hard 0, 1 / 2⟩, ⟨1, 11, .hard 1, 1 / 2⟩, ⟨1, 11, .hard 1, -1 / 2⟩, ⟨0, 10, .hard 0, -1 / 2⟩]] := by
  decide +kernel

/-- **C176 (default: violated).**  Without a strong view of the labeled rows (nothing in the package ever provides one) `fit` is not
refused but uses the rows themselves.  Then the terms do not cancel although the unlabeled samples are the labeled ones: the
subtracted terms have unchanged rows where the added ones have strong views. -/
theorem C176_default_violated : ∃ (d : DInput Nat) (o : Objective Nat Rat) (l : Nat → Target Rat → Rat),
    d.base.xw = some d.base.xl ∧ (demoFit d).2 = .ok () ∧ (demoFit d).1.2.steps.map (·.2) = [o] ∧
      (∀ x t, 0 ≤ l x t) ∧ pseudoLoss l o ≠ 0 :=
  ⟨demoData [0, 1] [0, 1] [], ⟨[(1, 1, 1 / 4), (0, 0, 1 / 4), (1, 1, 1 / 4), (0, 0, 1 / 4)],
      [⟨0, 10, .hard 0, 1 / 2⟩, ⟨1, 11, .hard 1, 1 / 2⟩, ⟨1, 1, .hard 1, -1 / 2⟩, ⟨0, 0, .hard 0, -1 / 2⟩], 1, none⟩,
    fun x _ => x, rfl, by decide +kernel, by decide +kernel, fun x _ => Nat.cast_nonneg x, by
      simp [pseudoLoss]; norm_num⟩

end ModSSC.Deep.Defix
