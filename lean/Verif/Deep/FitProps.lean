import Verif.Deep.FitModel
import Verif.Deep.BatchProps
import Verif.Deep.SharpProps
import Verif.ExceptLemmas
import Verif.Transductive.PLaplaceSpec

/-!
# Training with pseudo-labels: properties
-/

/-! ### Specification -/

namespace ModSSC.Deep.Fit.Spec
open ModSSC ModSSC.Deep
open ModSSC.Deep.Spec (Confident MostProbable)

variable {X W V K A : Type} [Field K] [LinearOrder K]

/-- What `fit` asks for. -/
structure Acceptable (torch : Bool) (cfg : Cfg K) (bundle : Option Bundle) (d : Input X) (xw xs : Feats X) : Prop where
  torch : torch = true
  rows : d.xl.rows.length = d.yl.length
  labels : d.yDims = 1 ∧ d.yInt64 = true
  nonempty : d.xl.rows ≠ []
  weak : d.xw = some xw
  strong : d.xs = some xs
  unlabeled : xw.rows ≠ []
  views : xw.rows.length = xs.rows.length
  floats : d.xl.float = true ∧ xw.float = true ∧ xs.float = true
  bundle : ∃ b, bundle = some b ∧ b.valid = true ∧ b.placed = true
  batch : 0 < cfg.batchSize
  epochs : 0 < cfg.maxEpochs
  lambda : 0 ≤ cfg.lambdaU
  ranges : cfg.ranges = true
  temperature : 0 < cfg.temperature

/-- `log` records the optimizer steps of a network: what the network was (as far as `view` sees it) and the loss. -/
structure Logs (N : Net X W K) (view : W → V) (log : W → List (V × Objective X K)) : Prop where
  train : ∀ w, log (N.train w) = log w
  forward : ∀ w xs, log (N.forward w xs).2 = log w
  step : ∀ w o, log (N.step w o) = log w ++ [(view w, o)]

/-- One row of logits per input row. -/
def RowPerInput (N : Net X W K) : Prop := ∀ w xs, (N.forward w xs).1.rows.length = xs.length

/-- A network without batch norm and dropout: each row is treated by itself, and nothing is changed. -/
def Rowwise (N : Net X W K) (view : W → V) (g : V → X → List K) (C : Nat) : Prop :=
  ∀ w xs, N.forward w xs = (⟨2, C, xs.map (g (view w))⟩, w)

/-- A rule speaks about each row. -/
def Sized (R : Rule A K) : Prop :=
  ∀ a s a' d, s.labeled.length = s.labels.length → s.idx.length = s.weak.length → R.apply a s = (a', .ok d) →
    d.share.length = s.labels.length ∧ d.targets.length = s.weak.length ∧ d.weights.length = s.weak.length

/-- The loss is about exactly the rows of the batch: labels with their rows, weak views with their strong ones. -/
structure Covers (scale : K) (s : Batch X) (o : Objective X K) : Prop where
  labeled : o.labeled.map (fun p => (p.1, p.2.1)) = s.xl.zip s.yl
  unlabeled : o.unlabeled.map (fun t => (t.weak, t.strong)) = (s.xw.map (·.1)).zip s.xs
  scale : o.scale = scale

/-- The epochs are fair (`C106_epochs`): `steps` are the batches of `n` epochs over these rows. -/
structure Epochs (xl : List X) (yl : List Int) (xw : List (X × Int)) (xs : List X) (b e : Int)
    (eps : List (List (Batch X))) : Prop where
  number : (eps.length : Int) = e
  each : ∀ ep ∈ eps, (ep.length : Int) = max ⌈(xl.length : ℚ) / b⌉ ⌈(xw.length : ℚ) / b⌉ ∧
    ∃ bl bu, Deep.Spec.EpochOf xl yl xw xs bl bu ep ∧ Deep.Spec.FairEpoch xl.length b.toNat bl ∧
      Deep.Spec.FairEpoch xw.length b.toNat bu

/-- Weights: none negative, and all together at most one. -/
def SubDist (l : List K) : Prop := (∀ k ∈ l, 0 ≤ k) ∧ l.sum ≤ 1

/-- A rule that weights labeled rows and pseudo-labels by subdistributions. -/
def Weighted (R : Rule A K) : Prop :=
  ∀ a s a' d, s.labeled.length = s.labels.length → s.idx.length = s.weak.length → R.apply a s = (a', .ok d) →
    SubDist d.share ∧ SubDist d.weights

/-- The rules of the six methods, with any parameters. -/
inductive SixMethods (T : Torch K) : {A : Type} → Rule A K → Prop
  | fixmatch (cutoff temp : K) (hard : Bool) : SixMethods T (fixmatch T cutoff temp hard)
  | flexmatch (cutoff temp : K) (hard warmup : Bool) (pool : Nat) : SixMethods T (flexmatch T cutoff temp hard warmup pool)
  | freematch (m temp lambdaE : K) (quant clip hard : Bool) : SixMethods T (freematch T m temp lambdaE quant clip hard)
  | adamatch (m cutoff temp : K) (hard : Bool) : SixMethods T (adamatch T m cutoff temp hard)
  | softmatch (c : SoftCfg K) (temp : K) (hard : Bool) : SixMethods T (softmatch T c temp hard)
  | uda (cutoff temp : K) (schedule : String) (total : Nat) : SixMethods T (uda T cutoff temp schedule total)

/-- How many of the rows are predicted with confidence at least `cutoff`. -/
def confident (cutoff : K) (f : X → List K) (rows : List X) : Nat := (rows.filter fun x => Confident cutoff (f x)).length

/-- The unlabeled part of FixMatch's loss, from the paper: strong view of each confidently predicted weak view, against
the class predicted there (soft: the sharpened prediction), averaged over the confident ones; nothing for the others.
`f` gives class probabilities of a row. -/
structure FixTerm (pow : K → K → K) (cutoff temp : K) (hard : Bool) (f : X → List K) (rows : List X)
    (p : (X × Int) × X) (t : Term X K) : Prop where
  weak : t.weak = p.1.1
  strong : t.strong = p.2
  weight : t.weight = if Confident cutoff (f p.1.1) then 1 / (confident cutoff f rows : K) else 0
  hardTarget : hard = true → ∃ c, t.target = .hard c ∧ MostProbable (f p.1.1) c
  softTarget : hard = false → t.target = .soft (if temp = 1 then f p.1.1 else sharpenRow pow temp (f p.1.1))

/-- The loss of a FixMatch step. -/
structure FixLoss (pow : K → K → K) (cutoff temp : K) (hard : Bool) (scale : K) (f : X → List K) (s : Batch X)
    (o : Objective X K) : Prop where
  labeled : o.labeled = (s.xl.zip s.yl).map fun p => (p.1, p.2, 1 / (s.yl.length : K))
  unlabeled : List.Forall₂ (FixTerm pow cutoff temp hard f (s.xw.map (·.1))) (s.xw.zip s.xs) o.unlabeled
  scale : o.scale = scale
  fairness : o.fairness = none

/-- The loss of a UDA step without annealing: as FixMatch with soft targets, sharpened through the logits. -/
structure UdaLoss (cutoff scale : K) (f : X → List K) (s : Batch X) (o : Objective X K) : Prop where
  labeled : o.labeled = (s.xl.zip s.yl).map fun p => (p.1, p.2, 1 / (s.yl.length : K))
  unlabeled : List.Forall₂ (fun (p : (X × Int) × X) t => t.weak = p.1.1 ∧ t.strong = p.2 ∧ t.target = .soft (f p.1.1) ∧
    t.weight = if Confident cutoff (f p.1.1) then 1 / (confident cutoff f (s.xw.map (·.1)) : K) else 0)
    (s.xw.zip s.xs) o.unlabeled
  scale : o.scale = scale
  fairness : o.fairness = none

end ModSSC.Deep.Fit.Spec

namespace ModSSC.Deep.Fit
open ModSSC ModSSC.Deep Spec
open ModSSC.Deep.Spec (Confident MostProbable PowerLaw ArgmaxLaw IsDist)
set_option linter.unusedSectionVars false

variable {X W V K A σ : Type} [Field K] [LinearOrder K]

/-! ### Checks -/

theorem check_ok {index : Index} {torch : Bool} {cfg : Cfg K} {bundle : Option Bundle} {data : Option (Input X)}
    {r : Ready X} : check index torch cfg bundle data = .ok r ↔
      ∃ d xw xs idx, data = some d ∧ Acceptable torch cfg bundle d xw xs ∧ index xw.rows.length = .ok idx ∧
        r = ⟨d.xl.rows, d.yl, xw.rows.zip idx, xs.rows⟩ := by
  constructor
  · intro h
    unfold check at h
    cases data with
    | none => cases h
    | some d =>
    simp only at h
    by_cases c1 : torch = false
    · rw [if_pos c1] at h; cases h
    rw [if_neg c1] at h
    by_cases c2 : d.xl.rows.length ≠ d.yl.length
    · rw [if_pos c2] at h; cases h
    rw [if_neg c2] at h
    cases hw : d.xw with
    | none => rw [hw] at h; cases h
    | some xw =>
    cases hs : d.xs with
    | none => rw [hw, hs] at h; cases h
    | some xs =>
    rw [hw, hs] at h
    simp only at h
    by_cases c3 : d.yDims ≠ 1 ∨ d.yl.length = 0
    · rw [if_pos c3] at h; cases h
    rw [if_neg c3] at h
    by_cases c4 : d.xl.rows.length = 0
    · rw [if_pos c4] at h; cases h
    rw [if_neg c4] at h
    by_cases c5 : xw.rows.length = 0 ∨ xs.rows.length = 0
    · rw [if_pos c5] at h; cases h
    rw [if_neg c5] at h
    by_cases c6 : xw.rows.length ≠ xs.rows.length
    · rw [if_pos c6] at h; cases h
    rw [if_neg c6] at h
    by_cases c7 : d.xl.float = false ∨ xw.float = false ∨ xs.float = false
    · rw [if_pos c7] at h; cases h
    rw [if_neg c7] at h
    by_cases c8 : d.yInt64 = false
    · rw [if_pos c8] at h; cases h
    rw [if_neg c8] at h
    cases bundle with
    | none => cases h
    | some b =>
    simp only at h
    by_cases c9 : b.valid = false ∨ b.placed = false
    · rw [if_pos c9] at h; cases h
    rw [if_neg c9] at h
    by_cases c10 : cfg.batchSize ≤ 0 ∨ cfg.maxEpochs ≤ 0 ∨ cfg.lambdaU < 0 ∨ cfg.ranges = false ∨ cfg.temperature ≤ 0
    · rw [if_pos c10] at h; cases h
    rw [if_neg c10] at h
    cases hi : index xw.rows.length with
    | error e => rw [hi] at h; cases h
    | ok idx =>
    rw [hi] at h
    obtain rfl := Except.ok.inj h
    simp only [not_or, not_le, not_lt, Bool.not_eq_false, not_not] at c1 c2 c3 c5 c6 c7 c8 c9 c10
    refine ⟨d, xw, xs, idx, rfl, ⟨c1, c2, ⟨c3.1, c8⟩, ?_, hw, hs, ?_, c6, c7, ⟨b, rfl, c9⟩, c10.1, c10.2.1, c10.2.2.1,
      c10.2.2.2.1, c10.2.2.2.2⟩, hi, rfl⟩
    · exact fun e => c4 (by rw [e]; rfl)
    · exact fun e => c5.1 (by rw [e]; rfl)
  · rintro ⟨d, xw, xs, idx, rfl, hA, hi, rfl⟩
    obtain ⟨b, rfl, hb1, hb2⟩ := hA.bundle
    have n1 := List.length_pos_iff.mpr hA.nonempty
    have n2 := List.length_pos_iff.mpr hA.unlabeled
    have e1 := hA.rows
    have e2 := hA.views
    unfold check
    simp only
    rw [if_neg (by rw [hA.torch]; simp), if_neg (not_not.mpr hA.rows), hA.weak, hA.strong]
    simp only
    rw [if_neg (by rw [not_or]; exact ⟨not_not.mpr hA.labels.1, by omega⟩), if_neg (by omega), if_neg (by omega),
      if_neg (not_not.mpr hA.views), if_neg (by rw [hA.floats.1, hA.floats.2.1, hA.floats.2.2]; simp),
      if_neg (by rw [hA.labels.2]; simp)]
    rw [if_neg (by rw [hb1, hb2]; simp), if_neg (by
      rw [hA.ranges]
      simp only [Bool.true_eq_false, false_or, not_or, not_le, not_lt]
      exact ⟨hA.batch, hA.epochs, hA.lambda, hA.temperature⟩), hi]

/-- After the checks the batches can be formed. -/
theorem batches_ok {G : TorchGen σ} (hG : G.Lawful) {torch : Bool} {cfg : Cfg K} {bundle : Option Bundle} {d : Input X}
    {xw xs : Feats X} {idx : List Int} (hA : Acceptable torch cfg bundle d xw xs) (hi : idx.length = xw.rows.length)
    (seed : Int) : ∃ eps, fitBatches G d.xl.rows d.yl (xw.rows.zip idx) xs.rows cfg.batchSize cfg.maxEpochs seed = .ok eps ∧
      Epochs d.xl.rows d.yl (xw.rows.zip idx) xs.rows cfg.batchSize cfg.maxEpochs eps := by
  have n2 := List.length_pos_iff.mpr hA.unlabeled
  have hz : (xw.rows.zip idx).length = xw.rows.length := by rw [List.length_zip]; omega
  obtain ⟨eps, h⟩ := (C106_accepts G hG d.xl.rows d.yl (xw.rows.zip idx) xs.rows cfg.batchSize cfg.maxEpochs seed).mpr
    ⟨hA.rows, hA.nonempty, by rw [hz, hA.views], by rw [← List.length_pos_iff, hz]; exact n2, hA.batch, hA.epochs⟩
  obtain ⟨h1, h2⟩ := C106_epochs G hG _ _ _ _ _ _ _ _ h
  exact ⟨eps, h, h1, h2⟩

/-- **C161 (refused untouched).**  A `fit` whose data, bundle or parameters are not acceptable raises, and leaves network
and object as they were. -/
theorem C161_refused (G : TorchGen σ) (N : Net X W K) (R : Rule A K) (index : Index) (torch : Bool) (cfg : Cfg K)
    (bundle : Option Bundle) (data : Option (Input X)) (seed : Int) (o : Obj A) (w : W)
    (h : ∀ d xw xs, data = some d → Acceptable torch cfg bundle d xw xs → ∀ idx, index xw.rows.length ≠ .ok idx) :
    ∃ e, fit G N R index torch cfg bundle data seed o w = ((o, w), .error e) := by
  unfold fit
  cases hc : check index torch cfg bundle data with
  | error e => exact ⟨e, rfl⟩
  | ok r =>
    obtain ⟨d, xw, xs, idx, hd, hA, hi, -⟩ := check_ok.mp hc
    exact absurd hi (h d xw xs hd hA idx)

/-- What `fit` is on acceptable data. -/
theorem fit_eq (G : TorchGen σ) (hG : G.Lawful) (N : Net X W K) (R : Rule A K) (index : Index) (torch : Bool) (cfg : Cfg K)
    (bundle : Option Bundle) (d : Input X) (xw xs : Feats X) (idx : List Int)
    (hA : Acceptable torch cfg bundle d xw xs) (hi : index xw.rows.length = .ok idx) (hl : idx.length = xw.rows.length)
    (seed : Int) : ∃ eps, Epochs d.xl.rows d.yl (xw.rows.zip idx) xs.rows cfg.batchSize cfg.maxEpochs eps ∧
      ∀ (o : Obj A) (w : W), fit G N R index torch cfg bundle (some d) seed o w =
        match trainSteps N R cfg.cat cfg.lambdaU (R.start o.aux, N.train w) eps.flatten with
        | (st, .error e) => ((⟨st.1, o.fitted⟩, st.2), .error e)
        | (st, .ok _) => ((⟨st.1, true⟩, st.2), .ok ()) := by
  obtain ⟨eps, h1, h2⟩ := batches_ok hG hA hl seed
  refine ⟨eps, h2, fun o w => ?_⟩
  unfold fit
  rw [check_ok.mpr ⟨d, xw, xs, idx, rfl, hA, hi, rfl⟩]
  simp only
  rw [h1]
  rfl

/-! ### Batches -/

theorem rowsAt_length {α : Type} {Y : List α} {B : List Nat} {rows : List α} (h : Deep.Spec.RowsAt Y B rows) :
    rows.length = B.length := by
  have := congrArg List.length h
  simpa using this

theorem Epochs.sizes {xl : List X} {yl : List Int} {xw : List (X × Int)} {xs : List X} {b e : Int}
    {eps : List (List (Batch X))} (h : Epochs xl yl xw xs b e eps) :
    ∀ s ∈ eps.flatten, s.xl.length = s.yl.length ∧ s.xw.length = s.xs.length := by
  intro s hs
  obtain ⟨ep, hep, hs⟩ := List.mem_flatten.mp hs
  obtain ⟨-, bl, bu, hE, -, -⟩ := h.each ep hep
  obtain ⟨t, ht, rfl⟩ := List.getElem_of_mem hs
  obtain ⟨r1, r2, r3, r4⟩ := hE.rows t ht
  rw [rowsAt_length r1, rowsAt_length r2, rowsAt_length r3, rowsAt_length r4]
  exact ⟨rfl, rfl⟩

/-- Every labeled sample occurs in some step. -/
theorem Epochs.visits {xl : List X} {yl : List Int} {xw : List (X × Int)} {xs : List X} {b e : Int}
    {eps : List (List (Batch X))} (h : Epochs xl yl xw xs b e eps) (he : 0 < e) (hl : xl.length = yl.length) :
    ∀ y ∈ yl, ∃ s ∈ eps.flatten, y ∈ s.yl := by
  intro y hy
  obtain ⟨i, hi, rfl⟩ := List.getElem_of_mem hy
  have hn : 0 < eps.length := by have := h.number; omega
  obtain ⟨ep, hep⟩ : ∃ ep, ep ∈ eps := ⟨_, List.getElem_mem hn⟩
  obtain ⟨-, bl, bu, hE, hF, -⟩ := h.each ep hep
  have hv := hF.covers i (by omega)
  have hmem : i ∈ bl.flatten := List.count_pos_iff.mp hv
  obtain ⟨B, hB, hiB⟩ := List.mem_flatten.mp hmem
  obtain ⟨t, ht, rfl⟩ := List.getElem_of_mem hB
  have ht' : t < ep.length := by rw [← hE.len_l]; exact ht
  obtain ⟨-, r2, -, -⟩ := hE.rows t ht'
  refine ⟨ep[t], List.mem_flatten.mpr ⟨ep, hep, List.getElem_mem ht'⟩, ?_⟩
  rw [List.getD_eq_getElem _ _ ht] at r2
  have h3 : some yl[i] ∈ (ep[t].yl).map some := by
    rw [r2, List.mem_map]
    exact ⟨i, hiB, by rw [List.getElem?_eq_getElem hi]⟩
  simpa using h3

/-! ### One step -/

theorem agree_ok {y : List Int} {l v u : Out K} : agree y l v u = .ok () ↔
    l.ndim = 2 ∧ v.ndim = 2 ∧ u.ndim = 2 ∧ v.rows.length = u.rows.length ∧ v.classes = u.classes ∧ v.classes = l.classes ∧
      ∀ c ∈ y, 0 ≤ c ∧ c < l.classes := by
  unfold agree
  by_cases c1 : l.ndim ≠ 2 ∨ v.ndim ≠ 2 ∨ u.ndim ≠ 2
  · rw [if_pos c1]
    simp only [reduceCtorEq, false_iff]
    rintro ⟨h1, h2, h3, -⟩
    rcases c1 with c | c | c
    · exact c h1
    · exact c h2
    · exact c h3
  rw [if_neg c1]
  by_cases c2 : v.rows.length ≠ u.rows.length ∨ v.classes ≠ u.classes
  · rw [if_pos c2]
    simp only [reduceCtorEq, false_iff]
    rintro ⟨-, -, -, h1, h2, -⟩
    rcases c2 with c | c
    · exact c h1
    · exact c h2
  rw [if_neg c2]
  by_cases c3 : v.classes ≠ l.classes
  · rw [if_pos c3]
    simp only [reduceCtorEq, false_iff]
    rintro ⟨-, -, -, -, -, h, -⟩
    exact c3 h
  rw [if_neg c3]
  simp only [not_or, not_not] at c1 c2 c3
  by_cases c4 : y.any (fun c => decide (c < 0 ∨ (l.classes : Int) ≤ c)) = true
  · rw [if_pos c4]
    simp only [reduceCtorEq, false_iff]
    rintro ⟨-, -, -, -, -, -, h⟩
    obtain ⟨c, hc, hb⟩ := List.any_eq_true.mp c4
    have := h c hc
    have := of_decide_eq_true hb
    omega
  · rw [if_neg c4]
    refine iff_of_true rfl ⟨c1.1, c1.2.1, c1.2.2, c2.1, c2.2, c3, fun c hc => ?_⟩
    have h : ¬(c < 0 ∨ (l.classes : Int) ≤ c) := fun hb => c4 (List.any_eq_true.mpr ⟨c, hc, decide_eq_true hb⟩)
    omega

theorem slice_length {o : Out K} {a n : Nat} (h : a + n ≤ o.rows.length) : (o.slice a n).rows.length = n := by
  simp only [Out.slice, List.length_take, List.length_drop]
  omega

theorem look_ok {N : Net X W K} {view : W → V} {log : W → List (V × Objective X K)} (hL : Logs N view log)
    (hN : RowPerInput N) {cat : Bool} {w w' : W} {s : Batch X} {o : Out K × Out K × Out K}
    (h : look N cat w s = (.ok o, w')) : log w' = log w ∧ o.1.rows.length = s.xl.length ∧
      o.2.1.rows.length = s.xw.length ∧ o.2.2.rows.length = s.xs.length := by
  unfold look at h
  cases cat with
  | true =>
    rw [if_pos rfl] at h
    simp only at h
    by_cases c1 : (N.forward w (s.xl ++ s.xw.map (·.1) ++ s.xs)).1.ndim ≠ 2
    · rw [if_pos c1] at h; cases h
    rw [if_neg c1] at h
    by_cases c2 : (N.forward w (s.xl ++ s.xw.map (·.1) ++ s.xs)).1.rows.length ≠ s.xl.length + s.xw.length + s.xs.length
    · rw [if_pos c2] at h; cases h
    rw [if_neg c2] at h
    simp only [not_not] at c2
    simp only [Prod.mk.injEq, Except.ok.injEq] at h
    obtain ⟨rfl, rfl⟩ := h
    exact ⟨hL.forward _ _, slice_length (by omega), slice_length (by omega), slice_length (by omega)⟩
  | false =>
    rw [if_neg (by simp)] at h
    simp only [Prod.mk.injEq, Except.ok.injEq] at h
    obtain ⟨rfl, rfl⟩ := h
    refine ⟨by rw [hL.forward, hL.forward, hL.forward], hN _ _, ?_, hN _ _⟩
    rw [hN]; simp

theorem look_fail {N : Net X W K} {view : W → V} {log : W → List (V × Objective X K)} (hL : Logs N view log)
    {cat : Bool} {w : W} {s : Batch X} : log (look N cat w s).2 = log w := by
  unfold look
  cases cat with
  | true =>
    rw [if_pos rfl]
    simp only
    split_ifs
    · exact hL.forward _ _
    · exact hL.forward _ _
    · exact hL.forward _ _
  | false =>
    rw [if_neg (by simp)]
    simp only
    rw [hL.forward, hL.forward, hL.forward]

theorem zipWith_map_left {α β γ δ : Type} (f : α → β → γ) (p : γ → δ) (q : α → δ) (h : ∀ a b, p (f a b) = q a) :
    ∀ (l : List α) (m : List β), l.length = m.length → (List.zipWith f l m).map p = l.map q
  | [], [], _ => rfl
  | a :: l, b :: m, e => by
    simp only [List.zipWith_cons_cons, List.map_cons, h]
    rw [zipWith_map_left f p q h l m (by simpa using e)]

theorem objective_covers {scale : K} {s : Batch X} {d : Said K} (h1 : s.xl.length = s.yl.length)
    (h2 : s.xw.length = s.xs.length) (k1 : d.share.length = s.yl.length) (k2 : d.targets.length = s.xw.length)
    (k3 : d.weights.length = s.xw.length) : Covers scale s (objective scale s d) := by
  refine ⟨?_, ?_, rfl⟩
  · unfold objective
    simp only
    rw [zipWith_map_left _ _ (fun p => p) (fun a b => rfl) _ _ (by simp [List.length_zip]; omega), List.map_id']
  · unfold objective
    simp only
    rw [zipWith_map_left _ _ (fun p => p) (fun a b => rfl) _ _ (by simp [List.length_zip]; omega), List.map_id']

theorem trainStep_log {N : Net X W K} {view : W → V} {log : W → List (V × Objective X K)} (hL : Logs N view log)
    (hN : RowPerInput N) {R : Rule A K} (hR : Sized R) {cat : Bool} {scale : K} {st st' : A × W} {s : Batch X}
    (h1 : s.xl.length = s.yl.length) (h2 : s.xw.length = s.xs.length)
    (h : trainStep N R cat scale st s = (st', .ok ())) :
    ∃ v o, log st'.2 = log st.2 ++ [(v, o)] ∧ Covers scale s o := by
  unfold trainStep at h
  cases hl : look N cat st.2 s with
  | mk res w =>
  rw [hl] at h
  cases res with
  | error e => cases h
  | ok o =>
  simp only at h
  obtain ⟨k1, k2, k3, k4⟩ := look_ok hL hN hl
  cases ha : agree s.yl o.1 o.2.1 o.2.2 with
  | error e => rw [ha] at h; cases h
  | ok u =>
  rw [ha] at h
  simp only at h
  cases hr : R.apply st.1 ⟨o.1.classes, o.1.rows, s.yl, o.2.1.rows, s.xw.map (·.2)⟩ with
  | mk a res2 =>
  rw [hr] at h
  cases res2 with
  | error e => cases h
  | ok d =>
  simp only [Prod.mk.injEq, and_true] at h
  subst h
  obtain ⟨s1, s2, s3⟩ := hR _ _ _ _ (by simp only; omega) (by simp only [List.length_map]; omega) hr
  simp only at s1 s2 s3
  exact ⟨view w, objective scale s d, by rw [hL.step, k1], objective_covers h1 h2 s1 (by omega) (by omega)⟩

theorem trainSteps_log {N : Net X W K} {view : W → V} {log : W → List (V × Objective X K)} (hL : Logs N view log)
    (hN : RowPerInput N) {R : Rule A K} (hR : Sized R) {cat : Bool} {scale : K} : ∀ {ss : List (Batch X)} {st st' : A × W},
    (∀ s ∈ ss, s.xl.length = s.yl.length ∧ s.xw.length = s.xs.length) →
    trainSteps N R cat scale st ss = (st', .ok ()) →
    ∃ obs, log st'.2 = log st.2 ++ obs ∧ List.Forall₂ (fun s p => Covers scale s p.2) ss obs
  | [], st, st', _, h => by
    simp only [trainSteps, Prod.mk.injEq, and_true] at h
    subst h
    exact ⟨[], by simp, .nil⟩
  | s :: ss, st, st', hs, h => by
    simp only [trainSteps] at h
    cases h1 : trainStep N R cat scale st s with
    | mk st1 res =>
    rw [h1] at h
    cases res with
    | error e => cases h
    | ok u =>
    simp only at h
    obtain ⟨v, o, e1, c1⟩ := trainStep_log hL hN hR (hs s (by simp)).1 (hs s (by simp)).2 h1
    obtain ⟨obs, e2, c2⟩ := trainSteps_log hL hN hR (fun x hx => hs x (by simp [hx])) h
    exact ⟨(v, o) :: obs, by rw [e2, e1]; simp, .cons c1 c2⟩

/-- **C161 (what a successful fit does).**  For any network with one row of logits per row: a `fit` that returns had
acceptable data; it made exactly one optimizer step for each batch of `max_epochs` fair epochs, each with a loss over
exactly the rows of its batch: labeled rows with their own labels, each strong view with the weak view of the same
sample. -/
theorem C161_steps (G : TorchGen σ) (hG : G.Lawful) (N : Net X W K) (view : W → V) (log : W → List (V × Objective X K))
    (hL : Logs N view log) (hN : RowPerInput N) (R : Rule A K) (hR : Sized R) (index : Index)
    (hidx : ∀ n idx, index n = .ok idx → idx.length = n) (torch : Bool) (cfg : Cfg K) (bundle : Option Bundle)
    (data : Option (Input X)) (seed : Int) (o o' : Obj A) (w w' : W)
    (h : fit G N R index torch cfg bundle data seed o w = ((o', w'), .ok ())) :
    ∃ d xw xs idx eps obs, data = some d ∧ Acceptable torch cfg bundle d xw xs ∧ index xw.rows.length = .ok idx ∧
      Epochs d.xl.rows d.yl (xw.rows.zip idx) xs.rows cfg.batchSize cfg.maxEpochs eps ∧
      log w' = log w ++ obs ∧ List.Forall₂ (fun s p => Covers cfg.lambdaU s p.2) eps.flatten obs ∧ o'.fitted = true := by
  cases hc : check index torch cfg bundle data with
  | error e => unfold fit at h; rw [hc] at h; cases h
  | ok r =>
    obtain ⟨d, xw, xs, idx, rfl, hA, hi, -⟩ := check_ok.mp hc
    obtain ⟨eps, hE, hf⟩ := fit_eq G hG N R index torch cfg bundle d xw xs idx hA hi (hidx _ _ hi) seed
    rw [hf] at h
    cases ht : trainSteps N R cfg.cat cfg.lambdaU (R.start o.aux, N.train w) eps.flatten with
    | mk st res =>
    rw [ht] at h
    cases res with
    | error e => cases h
    | ok u =>
    simp only [Prod.mk.injEq, and_true] at h
    obtain ⟨rfl, rfl⟩ := h
    obtain ⟨obs, e1, e2⟩ := trainSteps_log hL hN hR (Epochs.sizes hE) ht
    exact ⟨d, xw, xs, idx, eps, obs, rfl, hA, hi, hE, by rw [e1, hL.train], e2, rfl⟩

/-! ### Row-wise networks -/

/-- The step of a row-wise network. -/
def plainStep (N : Net X W K) (R : Rule A K) (f : X → List K) (C : Nat) (scale : K) (st : A × W) (s : Batch X) :
    (A × W) × Except PyErr Unit :=
  match agree s.yl ⟨2, C, s.xl.map f⟩ ⟨2, C, (s.xw.map (·.1)).map f⟩ (⟨2, C, s.xs.map f⟩ : Out K) with
  | .error e => ((st.1, st.2), .error e)
  | .ok _ =>
    match R.apply st.1 ⟨C, s.xl.map f, s.yl, (s.xw.map (·.1)).map f, s.xw.map (·.2)⟩ with
    | (a, .error e) => ((a, st.2), .error e)
    | (a, .ok d) => ((a, N.step st.2 (objective scale s d)), .ok ())

theorem look_rowwise {N : Net X W K} {view : W → V} {g : V → X → List K} {C : Nat} (hN : Rowwise N view g C) (cat : Bool)
    (w : W) (s : Batch X) : look N cat w s =
      (.ok (⟨2, C, s.xl.map (g (view w))⟩, ⟨2, C, (s.xw.map (·.1)).map (g (view w))⟩, ⟨2, C, s.xs.map (g (view w))⟩), w) := by
  have hF : ∀ w xs, N.forward w xs = (⟨2, C, xs.map (g (view w))⟩, w) := hN
  unfold look
  cases cat with
  | false =>
    rw [if_neg (by simp)]
    simp only [hF]
  | true =>
    rw [if_pos rfl]
    simp only [hF]
    rw [if_neg (by simp), if_neg (by simp [Nat.add_assoc])]
    simp only [Out.slice, List.map_append, List.drop_zero]
    congr 1
    congr 1
    have l1 : (s.xl.map (g (view w))).length = s.xl.length := by simp
    have l2 : ((s.xw.map (·.1)).map (g (view w))).length = s.xw.length := by simp
    have l3 : (s.xs.map (g (view w))).length = s.xs.length := by simp
    generalize s.xl.map (g (view w)) = a at *
    generalize (s.xw.map (·.1)).map (g (view w)) = b at *
    generalize s.xs.map (g (view w)) = c at *
    rw [← l1, ← l2, ← l3]
    rw [List.append_assoc, List.take_left, List.drop_left, List.take_left, ← List.append_assoc,
      show a.length + b.length = (a ++ b).length by simp, List.drop_left, List.take_length]

theorem trainStep_rowwise {N : Net X W K} {view : W → V} {g : V → X → List K} {C : Nat} (hN : Rowwise N view g C)
    (R : Rule A K) (cat : Bool) (scale : K) (st : A × W) (s : Batch X) :
    trainStep N R cat scale st s = plainStep N R (g (view st.2)) C scale st s := by
  unfold trainStep plainStep
  rw [look_rowwise hN]
  rfl

theorem trainSteps_cat {N : Net X W K} {view : W → V} {g : V → X → List K} {C : Nat} (hN : Rowwise N view g C)
    (R : Rule A K) (cat cat' : Bool) (scale : K) : ∀ (ss : List (Batch X)) (st : A × W),
    trainSteps N R cat scale st ss = trainSteps N R cat' scale st ss
  | [], st => rfl
  | s :: ss, st => by
    simp only [trainSteps]
    rw [trainStep_rowwise hN R cat, trainStep_rowwise hN R cat']
    cases plainStep N R (g (view st.2)) C scale st s with
    | mk st1 res =>
      cases res with
      | error e => rfl
      | ok u => exact trainSteps_cat hN R cat cat' scale ss st1

/-- **C161 (concatenation).**  For a network that treats rows by themselves, `use_cat` changes nothing at all: same
result, same object, same network, same errors. -/
theorem C161_cat (G : TorchGen σ) (N : Net X W K) (view : W → V) (g : V → X → List K) (C : Nat) (hN : Rowwise N view g C)
    (R : Rule A K) (index : Index) (torch : Bool) (cfg : Cfg K) (cat : Bool) (bundle : Option Bundle)
    (data : Option (Input X)) (seed : Int) (o : Obj A) (w : W) :
    fit G N R index torch { cfg with cat := cat } bundle data seed o w =
      fit G N R index torch cfg bundle data seed o w := by
  unfold fit
  have : check index torch { cfg with cat := cat } bundle data = check index torch cfg bundle data := rfl
  rw [this]
  cases check index torch cfg bundle data with
  | error e => rfl
  | ok r =>
    simp only
    cases fitBatches G r.xl r.yl r.xw r.xs cfg.batchSize cfg.maxEpochs seed with
    | error e => rfl
    | ok eps =>
      simp only
      rw [trainSteps_cat hN R cat cfg.cat]

theorem plainStep_labels {N : Net X W K} {R : Rule A K} {f : X → List K} {C : Nat} {scale : K} {st st' : A × W}
    {s : Batch X} (h : plainStep N R f C scale st s = (st', .ok ())) : ∀ y ∈ s.yl, 0 ≤ y ∧ y < C := by
  unfold plainStep at h
  cases ha : agree s.yl ⟨2, C, s.xl.map f⟩ ⟨2, C, (s.xw.map (·.1)).map f⟩ (⟨2, C, s.xs.map f⟩ : Out K) with
  | error e => rw [ha] at h; cases h
  | ok u => exact (agree_ok.mp ha).2.2.2.2.2.2

theorem plainStep_ok {N : Net X W K} {R : Rule A K} (hR : ∀ a s, ∃ d, (R.apply a s).2 = .ok d) {f : X → List K} {C : Nat}
    {scale : K} {st : A × W} {s : Batch X} (h2 : s.xw.length = s.xs.length) (hy : ∀ y ∈ s.yl, 0 ≤ y ∧ y < (C : Int)) :
    ∃ a d, R.apply st.1 ⟨C, s.xl.map f, s.yl, (s.xw.map (·.1)).map f, s.xw.map (·.2)⟩ = (a, .ok d) ∧
      plainStep N R f C scale st s = ((a, N.step st.2 (objective scale s d)), .ok ()) := by
  unfold plainStep
  rw [show agree s.yl ⟨2, C, s.xl.map f⟩ ⟨2, C, (s.xw.map (·.1)).map f⟩ (⟨2, C, s.xs.map f⟩ : Out K) = .ok () from
    agree_ok.mpr ⟨rfl, rfl, rfl, by simpa using h2, rfl, rfl, hy⟩]
  obtain ⟨d, hd⟩ := hR st.1 ⟨C, s.xl.map f, s.yl, (s.xw.map (·.1)).map f, s.xw.map (·.2)⟩
  cases hr : R.apply st.1 ⟨C, s.xl.map f, s.yl, (s.xw.map (·.1)).map f, s.xw.map (·.2)⟩ with
  | mk a res =>
    rw [hr] at hd
    simp only at hd
    subst hd
    exact ⟨a, d, rfl, rfl⟩

theorem trainSteps_labels {N : Net X W K} {view : W → V} {g : V → X → List K} {C : Nat} (hN : Rowwise N view g C)
    {R : Rule A K} {cat : Bool} {scale : K} : ∀ {ss : List (Batch X)} {st st' : A × W},
    trainSteps N R cat scale st ss = (st', .ok ()) → ∀ s ∈ ss, ∀ y ∈ s.yl, 0 ≤ y ∧ y < C
  | [], _, _, _ => by simp
  | s :: ss, st, st', h => by
    simp only [trainSteps] at h
    cases h1 : trainStep N R cat scale st s with
    | mk st1 res =>
    rw [h1] at h
    cases res with
    | error e => cases h
    | ok u =>
    simp only at h
    rw [trainStep_rowwise hN] at h1
    intro x hx
    rcases List.mem_cons.mp hx with rfl | hx
    · exact plainStep_labels h1
    · exact trainSteps_labels hN h x hx

theorem trainSteps_total {N : Net X W K} {view : W → V} {g : V → X → List K} {C : Nat} (hN : Rowwise N view g C)
    {R : Rule A K} (hR : ∀ a s, ∃ d, (R.apply a s).2 = .ok d) {cat : Bool} {scale : K} :
    ∀ {ss : List (Batch X)} {st : A × W}, (∀ s ∈ ss, s.xw.length = s.xs.length) →
    (∀ s ∈ ss, ∀ y ∈ s.yl, 0 ≤ y ∧ y < (C : Int)) → ∃ st', trainSteps N R cat scale st ss = (st', .ok ())
  | [], st, _, _ => ⟨st, rfl⟩
  | s :: ss, st, h2, hy => by
    obtain ⟨a, d, -, hp⟩ := plainStep_ok (N := N) hR (f := g (view st.2)) (C := C) (scale := scale) (st := st)
      (h2 s (by simp)) (hy s (by simp))
    simp only [trainSteps]
    rw [trainStep_rowwise hN, hp]
    exact trainSteps_total hN hR (fun x hx => h2 x (by simp [hx])) (fun x hx => hy x (by simp [hx]))

theorem Epochs.sub {xl : List X} {yl : List Int} {xw : List (X × Int)} {xs : List X} {b e : Int}
    {eps : List (List (Batch X))} (h : Epochs xl yl xw xs b e eps) : ∀ s ∈ eps.flatten, ∀ y ∈ s.yl, y ∈ yl := by
  intro s hs y hy
  obtain ⟨ep, hep, hs⟩ := List.mem_flatten.mp hs
  obtain ⟨-, bl, bu, hE, -, -⟩ := h.each ep hep
  obtain ⟨t, ht, rfl⟩ := List.getElem_of_mem hs
  obtain ⟨-, r2, -, -⟩ := hE.rows t ht
  have h1 : some y ∈ (ep[t].yl).map some := List.mem_map_of_mem hy
  rw [r2, List.mem_map] at h1
  obtain ⟨i, -, hi⟩ := h1
  exact List.mem_of_getElem? hi

/-- **C161 (which fits succeed).**  With a row-wise network over `C` classes and a rule that always decides, `fit`
succeeds exactly if data, bundle and parameters are acceptable and every label is a class of the network. -/
theorem C161_accepts (G : TorchGen σ) (hG : G.Lawful) (N : Net X W K) (view : W → V) (g : V → X → List K) (C : Nat)
    (hN : Rowwise N view g C) (R : Rule A K) (hR : ∀ a s, ∃ d, (R.apply a s).2 = .ok d) (index : Index)
    (hidx : ∀ n idx, index n = .ok idx → idx.length = n) (torch : Bool) (cfg : Cfg K) (bundle : Option Bundle)
    (data : Option (Input X)) (seed : Int) (o : Obj A) (w : W) :
    (fit G N R index torch cfg bundle data seed o w).2 = .ok () ↔
      ∃ d xw xs idx, data = some d ∧ Acceptable torch cfg bundle d xw xs ∧ index xw.rows.length = .ok idx ∧
        ∀ y ∈ d.yl, 0 ≤ y ∧ y < (C : Int) := by
  constructor
  · intro h
    cases hc : check index torch cfg bundle data with
    | error e => unfold fit at h; rw [hc] at h; cases h
    | ok r =>
      obtain ⟨d, xw, xs, idx, rfl, hA, hi, -⟩ := check_ok.mp hc
      obtain ⟨eps, hE, hf⟩ := fit_eq G hG N R index torch cfg bundle d xw xs idx hA hi (hidx _ _ hi) seed
      rw [hf] at h
      cases ht : trainSteps N R cfg.cat cfg.lambdaU (R.start o.aux, N.train w) eps.flatten with
      | mk st res =>
      rw [ht] at h
      cases res with
      | error e => cases h
      | ok u =>
      refine ⟨d, xw, xs, idx, rfl, hA, hi, fun y hy => ?_⟩
      obtain ⟨s, hs, hys⟩ := Epochs.visits hE hA.epochs hA.rows y hy
      exact trainSteps_labels hN ht s hs y hys
  · rintro ⟨d, xw, xs, idx, rfl, hA, hi, hy⟩
    obtain ⟨eps, hE, hf⟩ := fit_eq G hG N R index torch cfg bundle d xw xs idx hA hi (hidx _ _ hi) seed
    obtain ⟨st', hst⟩ := trainSteps_total hN hR (cat := cfg.cat) (scale := cfg.lambdaU) (ss := eps.flatten)
      (st := (R.start o.aux, N.train w)) (fun s hs => (Epochs.sizes hE s hs).2)
      (fun s hs y hys => hy y (Epochs.sub hE s hs y hys))
    rw [hf, hst]

/-! ### The six rules -/

theorem sharpen_eq {pow : K → K → K} {temp : K} {rows out : List (List K)} (h : sharpen pow temp rows = .ok out) :
    out = rows.map fun p => if temp = 1 then p else sharpenRow pow temp p := by
  unfold sharpen at h
  by_cases c1 : temp ≤ 0
  · rw [if_pos c1] at h; cases h
  rw [if_neg c1] at h
  by_cases c2 : temp = 1
  · rw [if_pos c2] at h
    obtain rfl := Except.ok.inj h
    simp [c2]
  · rw [if_neg c2] at h
    obtain rfl := Except.ok.inj h
    simp [c2]

/-- The common end of five of the rules. -/
theorem said_ok {T : Torch K} {temp : K} {hard : Bool} {n : Nat} {rows : List (List K)} {ws : List K}
    {f : Option (K × List Bool × List K × List K)} {d : Said K}
    (h : (do
      let soft ← sharpen T.pow temp rows
      Except.ok (ε := PyErr) (⟨evenly n, targetsOf T hard soft, ws, f⟩ : Said K)) = .ok d) :
    d = ⟨evenly n, targetsOf T hard (rows.map fun p => if temp = 1 then p else sharpenRow T.pow temp p), ws, f⟩ := by
  obtain ⟨soft, h1, h2⟩ := ebind_ok.mp h
  rw [← Except.ok.inj h2, sharpen_eq h1]

theorem maskOf_length (cutoff : K) (rows : List (List K)) : (maskOf cutoff rows).length = rows.length := by simp [maskOf]

theorem flexStep_mask {c : FlexCfg K} {st st' : FlexState K} {b : List (FlexPred K)} {m : List Bool}
    (h : flexStep c st b = .ok (m, st')) : m.length = b.length := by
  unfold flexStep at h
  simp only at h
  by_cases c1 : (b.filter fun p => decide (c.cutoff ≤ p.prob)).length > 0
  · rw [if_pos c1] at h
    cases hw : writeSelected st.selected (b.filter fun p => decide (c.cutoff ≤ p.prob)) with
    | error e => rw [hw] at h; cases h
    | ok sel =>
      rw [hw] at h
      obtain ⟨rfl, -⟩ := Prod.mk.inj (Except.ok.inj h)
      simp
  · rw [if_neg c1] at h
    obtain ⟨rfl, -⟩ := Prod.mk.inj (Except.ok.inj h)
    simp

theorem evenly_sub [IsStrictOrderedRing K] (n : Nat) : SubDist (evenly n : List K) := by
  constructor
  · intro k hk
    rw [evenly, List.mem_replicate] at hk
    rw [hk.2]
    positivity
  · rw [evenly, List.sum_replicate, nsmul_eq_mul]
    by_cases h : n = 0
    · subst h; simp
    · rw [mul_one_div, div_self (by exact_mod_cast h)]

theorem sum_div (l : List K) (c : K) : (l.map (· / c)).sum = l.sum / c := by
  induction l with
  | nil => simp
  | cons a l ih => simp only [List.map_cons, List.sum_cons, ih, add_div]

theorem normed_sub [IsStrictOrderedRing K] {m : List K} (h : ∀ k ∈ m, 0 ≤ k) : SubDist (normed m) := by
  have hp : (0 : K) < max m.sum 1 := lt_max_of_lt_right one_pos
  constructor
  · intro k hk
    obtain ⟨x, hx, rfl⟩ := List.mem_map.mp hk
    exact div_nonneg (h x hx) hp.le
  · rw [normed, sum_div, div_le_one hp]
    exact le_max_left _ _

theorem ofMask_nonneg [IsStrictOrderedRing K] (m : List Bool) : ∀ k ∈ (ofMask m : List K), 0 ≤ k := by
  intro k hk
  obtain ⟨b, -, rfl⟩ := List.mem_map.mp hk
  cases b <;> simp

theorem maskOf_nonneg [IsStrictOrderedRing K] (cutoff : K) (rows : List (List K)) : ∀ k ∈ maskOf cutoff rows, 0 ≤ k := by
  intro k hk
  obtain ⟨b, -, rfl⟩ := List.mem_map.mp hk
  split_ifs <;> simp

theorem strict_sub [IsStrictOrderedRing K] {m : List K} (h : ∀ k ∈ m, 0 ≤ k) : SubDist (strictNormed m) := by
  unfold strictNormed
  have hs : 0 ≤ m.sum := List.sum_nonneg h
  by_cases c : m.sum = 0
  · rw [if_pos c]
    constructor
    · intro k hk
      obtain ⟨x, -, rfl⟩ := List.mem_map.mp hk
      exact le_refl _
    · simp
  · rw [if_neg c]
    constructor
    · intro k hk
      obtain ⟨x, hx, rfl⟩ := List.mem_map.mp hk
      exact div_nonneg (h x hx) hs
    · rw [sum_div, div_self c]

theorem tsaShare_ok {T : Torch K} {schedule : String} {step total : Nat} {s : Seen K} {l : List K}
    (hl : s.labeled.length = s.labels.length) (h : tsaShare T schedule step total s = .ok l) :
    l.length = s.labels.length ∧ ∀ k ∈ l, k = 1 / (s.labels.length : K) ∨ k = 0 := by
  unfold tsaShare at h
  by_cases c : schedule = "none"
  · rw [if_pos c] at h
    obtain rfl := Except.ok.inj h
    refine ⟨by simp [evenly], fun k hk => .inl (List.mem_replicate.mp hk).2⟩
  · rw [if_neg c] at h
    obtain ⟨t, -, h2⟩ := ebind_ok.mp h
    obtain rfl := Except.ok.inj h2
    refine ⟨by rw [List.length_zipWith]; omega, fun k hk => ?_⟩
    obtain ⟨i, hi, rfl⟩ := List.getElem_of_mem hk
    rw [List.getElem_zipWith]
    split_ifs
    · exact .inl rfl
    · exact .inr rfl

theorem share_sub [IsStrictOrderedRing K] {n : Nat} : ∀ {l : List K}, (∀ k ∈ l, k = 1 / (n : K) ∨ k = 0) →
    (∀ k ∈ l, 0 ≤ k) ∧ l.sum ≤ (l.length : K) * (1 / (n : K))
  | [], _ => by simp
  | k :: l, h => by
    obtain ⟨h1, h2⟩ := share_sub (n := n) (l := l) (fun x hx => h x (by simp [hx]))
    have hn : (0 : K) ≤ 1 / (n : K) := by positivity
    have hk : 0 ≤ k ∧ k ≤ 1 / (n : K) := by
      rcases h k (by simp) with rfl | rfl
      · exact ⟨hn, le_refl _⟩
      · exact ⟨le_refl _, hn⟩
    refine ⟨?_, ?_⟩
    · intro x hx
      rcases List.mem_cons.mp hx with rfl | hx
      · exact hk.1
      · exact h1 x hx
    · rw [List.sum_cons, List.length_cons, Nat.cast_add, add_mul]
      linarith [hk.2]

theorem softWeight_pos {exp : K → K} (he : ∀ x, 0 < exp x) (n : K) (st : K × K) (p : K) : 0 ≤ softWeight exp n st p :=
  (he _).le

theorem softAlign_length (c : SoftCfg K) (C : Nat) (a : Option (AlignState K)) (u l : List (List K)) :
    (softAlign c C a u l).1.length = u.length := by
  unfold softAlign
  cases c.align
  · simp
  · simp [alignStep]

/-- Every rule decides for each row, and weights by subdistributions. -/
theorem fixmatch_fine [IsStrictOrderedRing K] (T : Torch K) (cutoff temp : K) (hard : Bool) :
    Sized (fixmatch T cutoff temp hard) ∧ Weighted (fixmatch T cutoff temp hard) := by
  constructor
  · intro a s a' d _ _ h
    have h2 := said_ok (Prod.mk.inj h).2
    subst h2
    simp [evenly, targetsOf, normed, maskOf]
  · intro a s a' d _ _ h
    have h2 := said_ok (Prod.mk.inj h).2
    subst h2
    exact ⟨evenly_sub _, normed_sub (maskOf_nonneg _ _)⟩

theorem flexmatch_fine [IsStrictOrderedRing K] (T : Torch K) (cutoff temp : K) (hard warmup : Bool) (pool : Nat) :
    Sized (flexmatch T cutoff temp hard warmup pool) ∧ Weighted (flexmatch T cutoff temp hard warmup pool) := by
  constructor
  · intro a s a' d _ hi h
    simp only [flexmatch, flexApply] at h
    cases hf : flexStep ⟨cutoff, warmup, s.classes⟩ (a.getD (flexInit ⟨cutoff, warmup, s.classes⟩ pool)) (flexPreds T s) with
    | error e => rw [hf] at h; cases h
    | ok r =>
      obtain ⟨m, st'⟩ := r
      rw [hf] at h
      have h2 := said_ok (Prod.mk.inj h).2
      have hm := flexStep_mask hf
      subst h2
      simp only [evenly, targetsOf, normed, ofMask, List.length_replicate, List.length_map, hm, flexPreds,
        List.length_zipWith, true_and]
      omega
  · intro a s a' d _ hi h
    simp only [flexmatch, flexApply] at h
    cases hf : flexStep ⟨cutoff, warmup, s.classes⟩ (a.getD (flexInit ⟨cutoff, warmup, s.classes⟩ pool)) (flexPreds T s) with
    | error e => rw [hf] at h; cases h
    | ok r =>
      obtain ⟨m, st'⟩ := r
      rw [hf] at h
      have h2 := said_ok (Prod.mk.inj h).2
      subst h2
      exact ⟨evenly_sub _, normed_sub (ofMask_nonneg _)⟩

theorem freematch_fine [IsStrictOrderedRing K] (T : Torch K) (m temp lambdaE : K) (quant clip hard : Bool) :
    Sized (freematch T m temp lambdaE quant clip hard) ∧ Weighted (freematch T m temp lambdaE quant clip hard) := by
  constructor
  · intro a s a' d _ _ h
    have h2 := said_ok (Prod.mk.inj h).2
    subst h2
    simp [evenly, targetsOf, normed, ofMask, freeStep]
  · intro a s a' d _ _ h
    have h2 := said_ok (Prod.mk.inj h).2
    subst h2
    exact ⟨evenly_sub _, normed_sub (ofMask_nonneg _)⟩

theorem adamatch_fine [IsStrictOrderedRing K] (T : Torch K) (m cutoff temp : K) (hard : Bool) :
    Sized (adamatch T m cutoff temp hard) ∧ Weighted (adamatch T m cutoff temp hard) := by
  constructor
  · intro a s a' d _ _ h
    have h2 := said_ok (Prod.mk.inj h).2
    subst h2
    simp [evenly, targetsOf, normed, ofMask, alignStep, adaMask]
  · intro a s a' d _ _ h
    have h2 := said_ok (Prod.mk.inj h).2
    subst h2
    exact ⟨evenly_sub _, normed_sub (ofMask_nonneg _)⟩

theorem softmatch_fine [IsStrictOrderedRing K] (T : Torch K) (he : ∀ x, 0 < T.exp x) (c : SoftCfg K) (temp : K)
    (hard : Bool) : Sized (softmatch T c temp hard) ∧ Weighted (softmatch T c temp hard) := by
  constructor
  · intro a s a' d _ _ h
    have h2 := said_ok (Prod.mk.inj h).2
    subst h2
    simp [evenly, targetsOf, normed, softWeights, softAlign_length]
  · intro a s a' d _ _ h
    have h2 := said_ok (Prod.mk.inj h).2
    subst h2
    refine ⟨evenly_sub _, normed_sub fun k hk => ?_⟩
    obtain ⟨p, -, rfl⟩ := List.mem_map.mp hk
    exact softWeight_pos he _ _ _

theorem udaApply_ok {T : Torch K} {cutoff temp : K} {schedule : String} {total a a' : Nat} {s : Seen K} {d : Said K}
    (h : udaApply T cutoff temp schedule total a s = (a', .ok d)) :
    ∃ share, tsaShare T schedule a total s = .ok share ∧ a' = a + 1 ∧
      d = ⟨share, (s.weak.map fun l => T.softmax (l.map (· / temp))).map .soft,
        strictNormed (maskOf cutoff (s.weak.map fun l => T.softmax (l.map (· / temp)))), none⟩ := by
  unfold udaApply at h
  cases ht : tsaShare T schedule a total s with
  | error e => rw [ht] at h; cases h
  | ok share =>
    rw [ht] at h
    obtain ⟨h1, h2⟩ := Prod.mk.inj h
    exact ⟨share, rfl, h1.symm, (Except.ok.inj h2).symm⟩

theorem strictNormed_length (m : List K) : (strictNormed m).length = m.length := by
  unfold strictNormed; split_ifs <;> simp

theorem uda_fine [IsStrictOrderedRing K] (T : Torch K) (cutoff temp : K) (schedule : String) (total : Nat) :
    Sized (uda T cutoff temp schedule total) ∧ Weighted (uda T cutoff temp schedule total) := by
  constructor
  · intro a s a' d hl _ h
    obtain ⟨share, h1, -, rfl⟩ := udaApply_ok h
    exact ⟨(tsaShare_ok hl h1).1, by simp, by rw [strictNormed_length, maskOf_length]; simp⟩
  · intro a s a' d hl _ h
    obtain ⟨share, h1, -, rfl⟩ := udaApply_ok h
    obtain ⟨k1, k2⟩ := tsaShare_ok hl h1
    obtain ⟨k3, k4⟩ := share_sub k2
    refine ⟨⟨k3, k4.trans ?_⟩, strict_sub (maskOf_nonneg _ _)⟩
    rw [k1, mul_one_div]
    exact div_self_le_one _

/-- What is handed to the optimizer in a step, in terms of the decision of the rule. -/
theorem trainStep_said {N : Net X W K} {view : W → V} {log : W → List (V × Objective X K)} (hL : Logs N view log)
    (hN : RowPerInput N) {R : Rule A K} {cat : Bool} {scale : K} {st st' : A × W} {s : Batch X}
    (h : trainStep N R cat scale st s = (st', .ok ())) :
    ∃ v sn d, R.apply st.1 sn = (st'.1, .ok d) ∧ sn.labeled.length = s.xl.length ∧ sn.labels = s.yl ∧
      sn.weak.length = s.xw.length ∧ sn.idx = s.xw.map (·.2) ∧
      log st'.2 = log st.2 ++ [(v, objective scale s d)] := by
  unfold trainStep at h
  cases hl : look N cat st.2 s with
  | mk res w =>
  rw [hl] at h
  cases res with
  | error e => cases h
  | ok o =>
  simp only at h
  obtain ⟨k1, k2, k3, k4⟩ := look_ok hL hN hl
  cases ha : agree s.yl o.1 o.2.1 o.2.2 with
  | error e => rw [ha] at h; cases h
  | ok u =>
  rw [ha] at h
  simp only at h
  cases hr : R.apply st.1 ⟨o.1.classes, o.1.rows, s.yl, o.2.1.rows, s.xw.map (·.2)⟩ with
  | mk a res2 =>
  rw [hr] at h
  cases res2 with
  | error e => cases h
  | ok d =>
  simp only [Prod.mk.injEq, and_true] at h
  subst h
  exact ⟨view w, _, d, hr, k2, rfl, k3, rfl, by rw [hL.step, k1]⟩

theorem zipWith_map_right {α β γ δ : Type} (f : α → β → γ) (p : γ → δ) (q : β → δ) (h : ∀ a b, p (f a b) = q b) :
    ∀ (l : List α) (m : List β), l.length = m.length → (List.zipWith f l m).map p = m.map q
  | [], [], _ => rfl
  | a :: l, b :: m, e => by
    simp only [List.zipWith_cons_cons, List.map_cons, h]
    rw [zipWith_map_right f p q h l m (by simpa using e)]

theorem trainSteps_said {N : Net X W K} {view : W → V} {log : W → List (V × Objective X K)} (hL : Logs N view log)
    (hN : RowPerInput N) {R : Rule A K} (hR : Sized R) (hW : Weighted R) {cat : Bool} {scale : K} :
    ∀ {ss : List (Batch X)} {st st' : A × W},
    (∀ s ∈ ss, s.xl.length = s.yl.length ∧ s.xw.length = s.xs.length) →
    trainSteps N R cat scale st ss = (st', .ok ()) →
    ∃ obs, log st'.2 = log st.2 ++ obs ∧ ∀ p ∈ obs, SubDist (p.2.labeled.map (·.2.2)) ∧
      SubDist (p.2.unlabeled.map (·.weight))
  | [], st, st', _, h => by
    simp only [trainSteps, Prod.mk.injEq, and_true] at h
    subst h
    exact ⟨[], by simp, by simp⟩
  | s :: ss, st, st', hs, h => by
    simp only [trainSteps] at h
    cases h1 : trainStep N R cat scale st s with
    | mk st1 res =>
    rw [h1] at h
    cases res with
    | error e => cases h
    | ok u =>
    simp only at h
    obtain ⟨g1, g2⟩ := hs s (by simp)
    obtain ⟨v, sn, d, hr, l1, l2, l3, l4, e1⟩ := trainStep_said hL hN h1
    obtain ⟨obs, e2, c2⟩ := trainSteps_said hL hN hR hW (fun x hx => hs x (by simp [hx])) h
    refine ⟨(v, objective scale s d) :: obs, by rw [e2, e1]; simp, fun p hp => ?_⟩
    rcases List.mem_cons.mp hp with rfl | hp
    · have b1 : sn.labeled.length = sn.labels.length := by rw [l1, l2, g1]
      have b2 : sn.idx.length = sn.weak.length := by rw [l4, l3, List.length_map]
      obtain ⟨w1, w2⟩ := hW _ _ _ _ b1 b2 hr
      obtain ⟨z1, z2, z3⟩ := hR _ _ _ _ b1 b2 hr
      rw [l2] at z1
      rw [l3] at z2 z3
      have q1 : (objective scale s d).labeled.map (·.2.2) = d.share := by
        unfold objective
        simp only
        rw [zipWith_map_right _ (fun x : X × Int × K => x.2.2) (fun k => k) (fun a b => rfl) _ _
          (by rw [List.length_zip]; omega), List.map_id']
      have q2 : (objective scale s d).unlabeled.map (·.weight) = d.weights := by
        unfold objective
        simp only
        rw [zipWith_map_right _ (fun x : Term X K => x.weight) (fun p => p.2) (fun a b => rfl) _ _
          (by simp only [List.length_zip, List.length_map]; omega), List.map_snd_zip (by omega)]
      simp only
      rw [q1, q2]
      exact ⟨w1, w2⟩
    · exact c2 p hp

/-- **C161 (weights).**  In each of the six methods, whatever network and earlier state: every step of a successful
`fit` weights the labeled rows, and the pseudo-labels, with numbers `≥ 0` that add up to at most one.  So no batch can
count more than `1 + lambda_u` times a row's loss, however many pseudo-labels pass. -/
theorem C161_weights [IsStrictOrderedRing K] (T : Torch K) (he : ∀ x, 0 < T.exp x) (R : Rule A K)
    (hR : SixMethods T R)
    (G : TorchGen σ) (hG : G.Lawful) (N : Net X W K) (view : W → V) (log : W → List (V × Objective X K))
    (hL : Logs N view log) (hN : RowPerInput N) (index : Index) (hidx : ∀ n idx, index n = .ok idx → idx.length = n)
    (torch : Bool) (cfg : Cfg K) (bundle : Option Bundle) (data : Option (Input X)) (seed : Int) (o o' : Obj A) (w w' : W)
    (h : fit G N R index torch cfg bundle data seed o w = ((o', w'), .ok ())) :
    ∃ obs, log w' = log w ++ obs ∧ ∀ p ∈ obs, SubDist (p.2.labeled.map (·.2.2)) ∧
      SubDist (p.2.unlabeled.map (·.weight)) := by
  have hf : Sized R ∧ Weighted R := by
    cases hR with
    | fixmatch => exact fixmatch_fine _ _ _ _
    | flexmatch => exact flexmatch_fine _ _ _ _ _ _
    | freematch => exact freematch_fine _ _ _ _ _ _ _
    | adamatch => exact adamatch_fine _ _ _ _ _
    | softmatch => exact softmatch_fine _ he _ _ _
    | uda => exact uda_fine _ _ _ _ _
  cases hc : check index torch cfg bundle data with
  | error e => unfold fit at h; rw [hc] at h; cases h
  | ok r =>
    obtain ⟨d, xw, xs, idx, rfl, hA, hi, -⟩ := check_ok.mp hc
    obtain ⟨eps, hE, hf2⟩ := fit_eq G hG N R index torch cfg bundle d xw xs idx hA hi (hidx _ _ hi) seed
    rw [hf2] at h
    cases ht : trainSteps N R cfg.cat cfg.lambdaU (R.start o.aux, N.train w) eps.flatten with
    | mk st res =>
    rw [ht] at h
    cases res with
    | error e => cases h
    | ok u =>
    simp only [Prod.mk.injEq, and_true] at h
    obtain ⟨rfl, rfl⟩ := h
    obtain ⟨obs, e1, e2⟩ := trainSteps_said hL hN hf.1 hf.2 (Epochs.sizes hE) ht
    exact ⟨obs, by rw [e1, hL.train], e2⟩

/-! ### FixMatch and UDA in full -/

theorem rowwise_rows {N : Net X W K} {view : W → V} {g : V → X → List K} {C : Nat} (hN : Rowwise N view g C) :
    RowPerInput N := by
  intro w xs
  rw [hN w xs]
  simp

/-- The losses of a training with a row-wise network, in terms of the decisions of the rule. -/
theorem trainSteps_rowwise {N : Net X W K} {view : W → V} {g : V → X → List K} {C : Nat} (hN : Rowwise N view g C)
    {log : W → List (V × Objective X K)} (hL : Logs N view log) {R : Rule A K} {cat : Bool} {scale : K} :
    ∀ {ss : List (Batch X)} {st st' : A × W}, trainSteps N R cat scale st ss = (st', .ok ()) →
    ∃ obs, log st'.2 = log st.2 ++ obs ∧ List.Forall₂ (fun (s : Batch X) (p : V × Objective X K) => ∃ a a' d,
      R.apply a ⟨C, s.xl.map (g p.1), s.yl, (s.xw.map (·.1)).map (g p.1), s.xw.map (·.2)⟩ = (a', .ok d) ∧
        p.2 = objective scale s d) ss obs
  | [], st, st', h => by
    simp only [trainSteps, Prod.mk.injEq, and_true] at h
    subst h
    exact ⟨[], by simp, .nil⟩
  | s :: ss, st, st', h => by
    simp only [trainSteps] at h
    cases h1 : trainStep N R cat scale st s with
    | mk st1 res =>
    rw [h1] at h
    cases res with
    | error e => cases h
    | ok u =>
    simp only at h
    obtain ⟨obs, e2, c2⟩ := trainSteps_rowwise hN hL h
    rw [trainStep_rowwise hN] at h1
    unfold plainStep at h1
    cases ha : agree s.yl ⟨2, C, s.xl.map (g (view st.2))⟩ ⟨2, C, (s.xw.map (·.1)).map (g (view st.2))⟩
        (⟨2, C, s.xs.map (g (view st.2))⟩ : Out K) with
    | error e => rw [ha] at h1; cases h1
    | ok u2 =>
    rw [ha] at h1
    simp only at h1
    cases hr : R.apply st.1 ⟨C, s.xl.map (g (view st.2)), s.yl, (s.xw.map (·.1)).map (g (view st.2)), s.xw.map (·.2)⟩ with
    | mk a res2 =>
    rw [hr] at h1
    cases res2 with
    | error e => cases h1
    | ok d =>
    simp only [Prod.mk.injEq, and_true] at h1
    subst h1
    exact ⟨(view st.2, objective scale s d) :: obs, by rw [e2]; simp only; rw [hL.step]; simp,
      .cons ⟨st.1, a, d, hr, rfl⟩ c2⟩

theorem labeled_even {scale : K} {s : Batch X} {d : Said K} (h1 : s.xl.length = s.yl.length)
    (hd : d.share = evenly s.yl.length) : (objective scale s d).labeled =
      (s.xl.zip s.yl).map fun p => (p.1, p.2, 1 / (s.yl.length : K)) := by
  unfold objective
  simp only
  rw [hd, evenly]
  have hl : (s.xl.zip s.yl).length = s.yl.length := by rw [List.length_zip]; omega
  generalize (1 : K) / (s.yl.length : K) = k
  rw [← hl]
  induction s.xl.zip s.yl with
  | nil => rfl
  | cons a l ih => simp only [List.length_cons, List.replicate_succ, List.zipWith_cons_cons, List.map_cons, ih]

theorem forall₂_terms {P : (X × Int) × X → Term X K → Prop} {f : X → Target K} {k : X → K}
    (hP : ∀ (p : X × Int) (x : X), P (p, x) ⟨p.1, x, f p.1, k p.1⟩) : ∀ (xw : List (X × Int)) (xs : List X),
    List.Forall₂ P (xw.zip xs) (List.zipWith (fun p q => ⟨p.1, p.2, q.1, q.2⟩) ((xw.map (·.1)).zip xs)
      (((xw.map (·.1)).map f).zip ((xw.map (·.1)).map k)))
  | [], _ => by simp
  | _ :: _, [] => by simp
  | p :: xw, x :: xs => by
    simp only [List.map_cons, List.zip_cons_cons, List.zipWith_cons_cons]
    exact .cons (hP p x) (forall₂_terms hP xw xs)

theorem maskOf_map [IsStrictOrderedRing K] (cutoff : K) (f : X → List K) (hf : ∀ x, f x ≠ []) (rows : List X) :
    maskOf cutoff (rows.map f) = rows.map fun x => if Confident cutoff (f x) then (1 : K) else 0 := by
  rw [maskOf, List.map_map]
  exact List.map_congr_left fun x _ => if_congr (confident_iff cutoff _ (hf x)) rfl rfl

theorem normed_mask [IsStrictOrderedRing K] (cutoff : K) (f : X → List K) (hf : ∀ x, f x ≠ []) (rows : List X) :
    normed (maskOf cutoff (rows.map f)) =
      rows.map fun x => if Confident cutoff (f x) then 1 / (confident cutoff f rows : K) else 0 := by
  rw [maskOf_map _ _ hf, normed, indicator_sum, List.map_map]
  refine List.map_congr_left fun x hx => ?_
  simp only [Function.comp_apply]
  by_cases c : Confident cutoff (f x)
  · rw [if_pos c, if_pos c]
    have hn : 1 ≤ (rows.filter fun x => Confident cutoff (f x)).length :=
      List.length_pos_iff.mpr (List.ne_nil_of_mem (List.mem_filter.mpr ⟨hx, by simpa using c⟩))
    rw [max_eq_left (by exact_mod_cast hn)]
    rfl
  · rw [if_neg c, if_neg c, zero_div]

theorem strict_mask [IsStrictOrderedRing K] (cutoff : K) (f : X → List K) (hf : ∀ x, f x ≠ []) (rows : List X) :
    strictNormed (maskOf cutoff (rows.map f)) =
      rows.map fun x => if Confident cutoff (f x) then 1 / (confident cutoff f rows : K) else 0 := by
  rw [maskOf_map _ _ hf, strictNormed, indicator_sum]
  by_cases c0 : ((rows.filter fun x => Confident cutoff (f x)).length : K) = 0
  · rw [if_pos c0, List.map_map]
    refine List.map_congr_left fun x hx => ?_
    have : ¬ Confident cutoff (f x) := fun c => by
      have : (rows.filter fun x => Confident cutoff (f x)) = [] := List.length_eq_zero_iff.mp (by exact_mod_cast c0)
      have hm : x ∈ rows.filter fun x => Confident cutoff (f x) := List.mem_filter.mpr ⟨hx, by simpa using c⟩
      rw [this] at hm
      cases hm
    simp [this]
  · rw [if_neg c0, List.map_map]
    refine List.map_congr_left fun x hx => ?_
    simp only [Function.comp_apply]
    by_cases c : Confident cutoff (f x)
    · rw [if_pos c, if_pos c]; rfl
    · rw [if_neg c, if_neg c, zero_div]

theorem sharp_most [IsStrictOrderedRing K] {T : Torch K} (hp : PowerLaw T.pow) (ha : ArgmaxLaw T.argmax) {temp : K} (ht : 0 < temp) {row : List K}
    (hd : IsDist row) (hne : row ≠ []) :
    MostProbable row (T.argmax (if temp = 1 then row else sharpenRow T.pow temp row)) := by
  have hs : sharpen T.pow temp [row] = .ok [if temp = 1 then row else sharpenRow T.pow temp row] := by
    unfold sharpen
    rw [if_neg (not_le.mpr ht)]
    by_cases c : temp = 1
    · rw [if_pos c, if_pos c]
    · rw [if_neg c, if_neg c]; rfl
  obtain ⟨-, h1⟩ := C107_order T.pow hp temp [row] _ (by simpa using hd.1) hs
  obtain ⟨h2, h3⟩ := h1 0 (by simp)
  simp only [List.getD_cons_zero] at h2 h3
  generalize (if temp = 1 then row else sharpenRow T.pow temp row) = r at *
  have hr : r ≠ [] := fun e => hne (List.length_eq_zero_iff.mp (by rw [← h2, e]; rfl))
  obtain ⟨m1, m2⟩ := ha r hr
  rw [h2] at m1
  exact ⟨m1, fun c' hc' => (h3 c' hc' _ m1).mp (m2 c' (by rw [h2]; exact hc'))⟩

/-- What a successful `fit` did, for a row-wise network. -/
theorem fit_losses (G : TorchGen σ) (hG : G.Lawful) (N : Net X W K) (view : W → V) (g : V → X → List K) (C : Nat)
    (hN : Rowwise N view g C) (log : W → List (V × Objective X K)) (hL : Logs N view log) (R : Rule A K) (index : Index)
    (hidx : ∀ n idx, index n = .ok idx → idx.length = n) (torch : Bool) (cfg : Cfg K) (bundle : Option Bundle)
    (data : Option (Input X)) (seed : Int) (o o' : Obj A) (w w' : W)
    (h : fit G N R index torch cfg bundle data seed o w = ((o', w'), .ok ())) :
    ∃ d xw xs idx eps obs, data = some d ∧ Acceptable torch cfg bundle d xw xs ∧ index xw.rows.length = .ok idx ∧
      Epochs d.xl.rows d.yl (xw.rows.zip idx) xs.rows cfg.batchSize cfg.maxEpochs eps ∧
      log w' = log w ++ obs ∧ List.Forall₂ (fun (s : Batch X) (p : V × Objective X K) => ∃ a a' d,
        R.apply a ⟨C, s.xl.map (g p.1), s.yl, (s.xw.map (·.1)).map (g p.1), s.xw.map (·.2)⟩ = (a', .ok d) ∧
          p.2 = objective cfg.lambdaU s d) eps.flatten obs := by
  cases hc : check index torch cfg bundle data with
  | error e => unfold fit at h; rw [hc] at h; cases h
  | ok r =>
    obtain ⟨d, xw, xs, idx, rfl, hA, hi, -⟩ := check_ok.mp hc
    obtain ⟨eps, hE, hf⟩ := fit_eq G hG N R index torch cfg bundle d xw xs idx hA hi (hidx _ _ hi) seed
    rw [hf] at h
    cases ht : trainSteps N R cfg.cat cfg.lambdaU (R.start o.aux, N.train w) eps.flatten with
    | mk st res =>
    rw [ht] at h
    cases res with
    | error e => cases h
    | ok u =>
    simp only [Prod.mk.injEq, and_true] at h
    obtain ⟨rfl, rfl⟩ := h
    obtain ⟨obs, e1, e2⟩ := trainSteps_rowwise hN hL ht
    exact ⟨d, xw, xs, idx, eps, obs, rfl, hA, hi, hE, by rw [e1, hL.train], e2⟩

theorem forall₂_weaken {α β : Type} {P Q : α → β → Prop} {S : α → Prop} (h : ∀ a b, S a → P a b → Q a b) :
    ∀ {l : List α} {m : List β}, (∀ a ∈ l, S a) → List.Forall₂ P l m → List.Forall₂ Q l m
  | _, _, _, .nil => .nil
  | _, _, hs, .cons p ps => .cons (h _ _ (hs _ (by simp)) p) (forall₂_weaken h (fun a ha => hs a (by simp [ha])) ps)

/-- **C161 (FixMatch).**  A successful FixMatch `fit` made one optimizer step per batch of its fair epochs, each with
FixMatch's loss over that batch, taken with the network as it was at that moment: mean cross entropy of the labels plus
`lambda_u` times the mean, over the weak views predicted with probability `≥ p_cutoff`, of the cross entropy of the
strong view of the same sample with the most probable class of the weak view (soft: its sharpened prediction). -/
theorem C161_fixmatch [IsStrictOrderedRing K] (T : Torch K) (hp : PowerLaw T.pow) (ha : ArgmaxLaw T.argmax)
    (cutoff : K) (hard : Bool) (G : TorchGen σ) (hG : G.Lawful) (N : Net X W K) (view : W → V) (g : V → X → List K)
    (C : Nat) (hN : Rowwise N view g C) (hs : ∀ v x, IsDist (T.softmax (g v x)) ∧ T.softmax (g v x) ≠ [])
    (log : W → List (V × Objective X K)) (hL : Logs N view log) (index : Index)
    (hidx : ∀ n idx, index n = .ok idx → idx.length = n) (torch : Bool) (cfg : Cfg K) (bundle : Option Bundle)
    (data : Option (Input X)) (seed : Int) (o o' : Obj Unit) (w w' : W)
    (h : fit G N (fixmatch T cutoff cfg.temperature hard) index torch cfg bundle data seed o w = ((o', w'), .ok ())) :
    ∃ d xw xs idx eps obs, data = some d ∧ d.xw = some xw ∧ d.xs = some xs ∧
      Epochs d.xl.rows d.yl (xw.rows.zip idx) xs.rows cfg.batchSize cfg.maxEpochs eps ∧ log w' = log w ++ obs ∧
      List.Forall₂ (fun s (p : V × Objective X K) =>
        FixLoss T.pow cutoff cfg.temperature hard cfg.lambdaU (fun x => T.softmax (g p.1 x)) s p.2) eps.flatten obs := by
  obtain ⟨d, xw, xs, idx, eps, obs, rfl, hA, -, hE, e1, e2⟩ := fit_losses G hG N view g C hN log hL _ index hidx torch cfg
    bundle data seed o o' w w' h
  refine ⟨d, xw, xs, idx, eps, obs, rfl, hA.weak, hA.strong, hE, e1, forall₂_weaken ?_ (Epochs.sizes hE) e2⟩
  rintro s ⟨v, ob⟩ ⟨s1, s2⟩ ⟨a, a', sd, hr, rfl⟩
  have h2 := said_ok (Prod.mk.inj hr).2
  simp only at h2
  refine ⟨labeled_even s1 (by rw [h2]), ?_, rfl, by rw [h2]; rfl⟩
  have em : ((s.xw.map (·.1)).map (g v)).map T.softmax = (s.xw.map (·.1)).map fun x => T.softmax (g v x) := by
    rw [List.map_map]; rfl
  unfold objective
  simp only
  rw [h2]
  simp only
  rw [em, normed_mask cutoff (fun x => T.softmax (g v x)) (fun x => (hs v x).2), targetsOf, List.map_map, List.map_map]
  refine forall₂_terms (fun p x => ⟨rfl, rfl, rfl, ?_, ?_⟩) _ _
  · intro hh
    exact ⟨_, by simp [hh], sharp_most hp ha hA.temperature (hs v p.1).1 (hs v p.1).2⟩
  · intro hh
    simp [hh]

/-- **C161 (UDA).**  Same for UDA without annealing: soft targets from the logits at the temperature, which also decide
confidence. -/
theorem C161_uda [IsStrictOrderedRing K] (T : Torch K) (cutoff : K) (total : Nat) (G : TorchGen σ) (hG : G.Lawful)
    (N : Net X W K) (view : W → V) (g : V → X → List K) (C : Nat) (hN : Rowwise N view g C)
    (cfg : Cfg K) (hs : ∀ v x, T.softmax ((g v x).map (· / cfg.temperature)) ≠ [])
    (log : W → List (V × Objective X K)) (hL : Logs N view log) (index : Index)
    (hidx : ∀ n idx, index n = .ok idx → idx.length = n) (torch : Bool) (bundle : Option Bundle)
    (data : Option (Input X)) (seed : Int) (o o' : Obj Nat) (w w' : W)
    (h : fit G N (uda T cutoff cfg.temperature "none" total) index torch cfg bundle data seed o w = ((o', w'), .ok ())) :
    ∃ d xw xs idx eps obs, data = some d ∧ d.xw = some xw ∧ d.xs = some xs ∧
      Epochs d.xl.rows d.yl (xw.rows.zip idx) xs.rows cfg.batchSize cfg.maxEpochs eps ∧ log w' = log w ++ obs ∧
      List.Forall₂ (fun s (p : V × Objective X K) =>
        UdaLoss cutoff cfg.lambdaU (fun x => T.softmax ((g p.1 x).map (· / cfg.temperature))) s p.2)
        eps.flatten obs := by
  obtain ⟨d, xw, xs, idx, eps, obs, rfl, hA, -, hE, e1, e2⟩ := fit_losses G hG N view g C hN log hL _ index hidx torch cfg
    bundle data seed o o' w w' h
  refine ⟨d, xw, xs, idx, eps, obs, rfl, hA.weak, hA.strong, hE, e1, forall₂_weaken ?_ (Epochs.sizes hE) e2⟩
  rintro s ⟨v, ob⟩ ⟨s1, s2⟩ ⟨a, a', sd, hr, rfl⟩
  have hr' : udaApply T cutoff cfg.temperature "none" total a ⟨C, s.xl.map (g v), s.yl, (s.xw.map (·.1)).map (g v),
      s.xw.map (·.2)⟩ = (a', .ok sd) := hr
  obtain ⟨share, h1, -, h2⟩ := udaApply_ok hr'
  have h3 : share = evenly s.yl.length := by
    unfold tsaShare at h1
    rw [if_pos rfl] at h1
    exact (Except.ok.inj h1).symm
  refine ⟨labeled_even s1 (by rw [h2]; exact h3), ?_, rfl, by rw [h2]; rfl⟩
  unfold objective
  simp only
  rw [h2]
  simp only
  have em : (((s.xw.map (·.1)).map (g v)).map fun l => T.softmax (l.map (· / cfg.temperature))) =
      (s.xw.map (·.1)).map fun x => T.softmax ((g v x).map (· / cfg.temperature)) := by
    rw [List.map_map]; rfl
  rw [em, strict_mask cutoff (fun x => T.softmax ((g v x).map (· / cfg.temperature))) (fun x => hs v x)]
  rw [show ((s.xw.map (·.1)).map fun x => T.softmax ((g v x).map (· / cfg.temperature))).map Target.soft =
    (s.xw.map (·.1)).map fun x => Target.soft (T.softmax ((g v x).map (· / cfg.temperature))) by rw [List.map_map]; rfl]
  exact forall₂_terms (fun p x => ⟨rfl, rfl, rfl, rfl⟩) _ _

/-! ### The object's past -/

theorem fit_history (G : TorchGen σ) (N : Net X W K) (R : Rule A K) (hR : ∀ a a', R.start a = R.start a') (index : Index)
    (torch : Bool) (cfg : Cfg K) (bundle : Option Bundle) (data : Option (Input X)) (seed : Int) (o o' : Obj A) (w : W) :
    (fit G N R index torch cfg bundle data seed o w).1.2 = (fit G N R index torch cfg bundle data seed o' w).1.2 ∧
      (fit G N R index torch cfg bundle data seed o w).2 = (fit G N R index torch cfg bundle data seed o' w).2 := by
  unfold fit
  cases check index torch cfg bundle data with
  | error e => exact ⟨rfl, rfl⟩
  | ok r =>
    simp only
    cases fitBatches G r.xl r.yl r.xw r.xs cfg.batchSize cfg.maxEpochs seed with
    | error e => exact ⟨rfl, rfl⟩
    | ok eps =>
      simp only
      rw [hR o.aux o'.aux]
      cases trainSteps N R cfg.cat cfg.lambdaU (R.start o'.aux, N.train w) eps.flatten with
      | mk st res => cases res <;> exact ⟨rfl, rfl⟩

/-- **C161 (past).**  What FixMatch and UDA do to the network, and whether they fail, does not depend on earlier calls of
the object. -/
theorem C161_history (T : Torch K) (G : TorchGen σ) (N : Net X W K) (index : Index) (torch : Bool) (cfg : Cfg K)
    (bundle : Option Bundle) (data : Option (Input X)) (seed : Int) (w : W) :
    (∀ (cutoff temp : K) (hard : Bool) (o o' : Obj Unit),
      (fit G N (fixmatch T cutoff temp hard) index torch cfg bundle data seed o w).1.2 =
        (fit G N (fixmatch T cutoff temp hard) index torch cfg bundle data seed o' w).1.2 ∧
      (fit G N (fixmatch T cutoff temp hard) index torch cfg bundle data seed o w).2 =
        (fit G N (fixmatch T cutoff temp hard) index torch cfg bundle data seed o' w).2) ∧
    (∀ (cutoff temp : K) (schedule : String) (total : Nat) (o o' : Obj Nat),
      (fit G N (uda T cutoff temp schedule total) index torch cfg bundle data seed o w).1.2 =
        (fit G N (uda T cutoff temp schedule total) index torch cfg bundle data seed o' w).1.2 ∧
      (fit G N (uda T cutoff temp schedule total) index torch cfg bundle data seed o w).2 =
        (fit G N (uda T cutoff temp schedule total) index torch cfg bundle data seed o' w).2) :=
  ⟨fun _ _ _ o o' => fit_history G N _ (fun _ _ => rfl) index torch cfg bundle data seed o o' w,
    fun _ _ _ _ o o' => fit_history G N _ (fun _ _ => rfl) index torch cfg bundle data seed o o' w⟩

/-! ### Witnesses -/

/-- A network that remembers everything that is done to it: the steps, and whether it is in training mode.  Its answer
for a row depends on the number of steps so far. -/
structure DemoW where
  /-- steps -/
  steps : List (Nat × Objective Nat Rat)
  /-- training mode -/
  training : Bool
deriving DecidableEq

/-- Its logits. -/
def demoLogits (n : Nat) (x : Nat) : List Rat := if x % 2 = 0 then [n + 3, 1] else [1, n + 3]

/-- The network. -/
def demoNet : Net Nat DemoW Rat where
  train w := { w with training := true }
  forward w xs := (⟨2, 2, xs.map (demoLogits w.steps.length)⟩, w)
  step w o := { w with steps := w.steps ++ [(w.steps.length, o)] }

/-- A softmax for the examples. -/
def demoTorch : Torch Rat where
  softmax r := r.map (· / r.sum)
  pow := demoPower
  argmax := Supervised.argmax
  exp x := if x < 0 then 1 / (1 - x) else 1 + x
  quantile l := l.headD 0

theorem demo_rowwise : Rowwise demoNet (fun w => w.steps.length) demoLogits 2 := fun _ _ => rfl

theorem demo_logs : Logs demoNet (fun w => w.steps.length) (fun w => w.steps) :=
  ⟨fun _ => rfl, fun _ _ => rfl, fun _ _ => rfl⟩

theorem demo_softmax (v x : Nat) : IsDist (demoTorch.softmax (demoLogits v x)) ∧ demoTorch.softmax (demoLogits v x) ≠ [] := by
  have h : (0 : Rat) < v + 3 + 1 := by positivity
  unfold demoTorch demoLogits
  split_ifs
  · refine ⟨⟨?_, ?_⟩, by simp⟩
    · simp only [List.map_cons, List.map_nil, List.sum_cons, List.sum_nil, List.mem_cons, List.not_mem_nil, or_false, add_zero]
      rintro p (rfl | rfl) <;> positivity
    · simp only [List.map_cons, List.map_nil, List.sum_cons, List.sum_nil, add_zero]
      rw [← add_div, div_self h.ne']
  · refine ⟨⟨?_, ?_⟩, by simp⟩
    · simp only [List.map_cons, List.map_nil, List.sum_cons, List.sum_nil, List.mem_cons, List.not_mem_nil, or_false, add_zero]
      rintro p (rfl | rfl) <;> positivity
    · simp only [List.map_cons, List.map_nil, List.sum_cons, List.sum_nil, add_zero]
      have h' : (0 : Rat) < 1 + (v + 3) := by positivity
      rw [← add_div, div_self h'.ne']

/-- Data for the examples. -/
def demoData (y : List Int) (u : List Nat) : Input Nat :=
  ⟨⟨List.range y.length, true⟩, y, 1, true, some ⟨u, true⟩, some ⟨u.map (· + 10), true⟩⟩

/-- Parameters for the examples. -/
def demoCfg (b e : Int) : Cfg Rat := ⟨b, e, 1, 1 / 2, false, true⟩

/-- Positions for the examples. -/
def demoIndex : Index := fun n => .ok ((List.range n).map Int.ofNat)

theorem demoIndex_length (n : Nat) (idx : List Int) (h : demoIndex n = .ok idx) : idx.length = n := by
  obtain rfl := Except.ok.inj h
  simp

/-- A fresh network. -/
def demoW : DemoW := ⟨[], false⟩

/-- `fit` in the examples. -/
def demoFit {A : Type} (R : Rule A Rat) (cfg : Cfg Rat) (d : Input Nat) (o : Obj A) (w : DemoW) :
    (Obj A × DemoW) × Except PyErr Unit :=
  fit TorchGen.demo demoNet R demoIndex true cfg (some ⟨true, true⟩) (some d) 0 o w

example : (demoFit (fixmatch demoTorch (3 / 5) (1 / 2) true) (demoCfg 2 1) (demoData [0, 1] [4, 5, 6]) ⟨(), false⟩ demoW) =
    ((⟨(), true⟩, ⟨[(0, ⟨[(1, 1, 1 / 2), (0, 0, 1 / 2)], [⟨4, 14, .hard 0, 1 / 2⟩, ⟨5, 15, .hard 1, 1 / 2⟩], 1, none⟩),
      (1, ⟨[(0, 0, 1 / 2), (1, 1, 1 / 2)], [⟨6, 16, .hard 0, 1⟩], 1, none⟩)], true⟩), .ok ()) := by
  decide +kernel

theorem demo_acceptable (b e : Int) (hb : 0 < b) (he : 0 < e) (y : List Int) (hy : y ≠ []) (u : List Nat) (hu : u ≠ []) :
    Acceptable true (demoCfg b e) (some ⟨true, true⟩) (demoData y u) ⟨u, true⟩ ⟨u.map (· + 10), true⟩ :=
  ⟨rfl, by simp [demoData], ⟨rfl, rfl⟩, by simpa [demoData] using hy, rfl, rfl, hu, by simp, ⟨rfl, rfl, rfl⟩,
    ⟨_, rfl, rfl, rfl⟩, hb, he, by norm_num [demoCfg], rfl, by norm_num [demoCfg]⟩

/-- The successful fits of `C161_accepts`. -/
example (y : List Int) (hy : y ≠ []) (hc : ∀ c ∈ y, 0 ≤ c ∧ c < 2) (u : List Nat) (hu : u ≠ []) :
    (demoFit (fixmatch demoTorch (3 / 5) (1 / 2) true) (demoCfg 2 1) (demoData y u) ⟨(), false⟩ demoW).2 = .ok () :=
  (C161_accepts TorchGen.demo TorchGen.demo_lawful demoNet _ _ _ demo_rowwise _
    (fun _ _ => ⟨_, by simp [fixmatch, fixDecide, sharpen]; rfl⟩) demoIndex demoIndex_length true (demoCfg 2 1) _ _ 0 _ demoW).mpr
    ⟨_, _, _, _, rfl, demo_acceptable 2 1 (by decide) (by decide) y hy u hu, rfl, hc⟩

/-- **C161 (labels: violated).**  A label the network has no class for is only noticed when its batch comes up: `fit`
raises, but the network has been trained on the batches before. -/
theorem C161_label_violated : ∃ d xw xs e w', Acceptable true (demoCfg 1 1) (some ⟨true, true⟩) d xw xs ∧
    demoFit (fixmatch demoTorch (3 / 5) (1 / 2) true) (demoCfg 1 1) d ⟨(), false⟩ demoW = ((⟨(), false⟩, w'), .error e) ∧
      w'.steps ≠ demoW.steps :=
  ⟨demoData [7, 1] [4, 5], _, _, .validation, ⟨[(0, ⟨[(1, 1, 1)], [⟨4, 14, .hard 0, 1⟩], 1, none⟩)], true⟩,
    demo_acceptable 1 1 (by decide) (by decide) _ (by decide) _ (by decide), by decide +kernel, by decide⟩

/-- **C161 (again: violated).**  Fitting again with the same data and the same seed is not the same as fitting once: the
second training starts from the network the first one left. -/
theorem C161_refit_violated : ∃ (R : Rule Unit Rat) (d : Input Nat),
    let once := demoFit R (demoCfg 1 1) d ⟨(), false⟩ demoW
    let twice := demoFit R (demoCfg 1 1) d once.1.1 once.1.2
    once.2 = .ok () ∧ twice.2 = .ok () ∧ (demoNet.forward twice.1.2 [4]).1 ≠ (demoNet.forward once.1.2 [4]).1 :=
  ⟨fixmatch demoTorch (3 / 5) (1 / 2) true, demoData [0] [4], by decide +kernel⟩

/-- **C161 (past: violated).**  FlexMatch keeps its curriculum: an object fitted before on a smaller pool fails on data a
fresh object with the same network trains on. -/
theorem C161_history_violated : ∃ (first second : Input Nat),
    let r := demoFit (flexmatch demoTorch (3 / 5) (1 / 2) true true 1) (demoCfg 4 1) first ⟨none, false⟩ demoW
    r.2 = .ok () ∧
    (demoFit (flexmatch demoTorch (3 / 5) (1 / 2) true true 3) (demoCfg 4 1) second ⟨none, false⟩ r.1.2).2 = .ok () ∧
    (demoFit (flexmatch demoTorch (3 / 5) (1 / 2) true true 3) (demoCfg 4 1) second r.1.1 r.1.2).2 = .error .indexError :=
  ⟨demoData [0, 1] [4], demoData [0, 1] [4, 5, 6], by decide +kernel⟩

/-- **C161 (schedule: violated).**  UDA refuses an unknown annealing schedule only inside the first step: the network is
already in training mode. -/
theorem C161_schedule_violated : ∃ d xw xs w', Acceptable true (demoCfg 1 1) (some ⟨true, true⟩) d xw xs ∧
    demoFit (uda demoTorch (3 / 5) (1 / 2) "cosine" 2) (demoCfg 1 1) d ⟨0, false⟩ demoW =
      ((⟨0, false⟩, w'), .error .validation) ∧ w' ≠ demoW :=
  ⟨demoData [0, 1] [4, 5], _, _, ⟨[], true⟩, demo_acceptable 1 1 (by decide) (by decide) _ (by decide) _ (by decide),
    by decide +kernel, by decide⟩

/-- Refused: no unlabeled data. -/
example : demoFit (fixmatch demoTorch (3 / 5) (1 / 2) true) (demoCfg 1 1) { demoData [0] [] with xw := none } ⟨(), false⟩
    demoW = ((⟨(), false⟩, demoW), .error .validation) := by decide +kernel

example : (demoFit (uda demoTorch (3 / 5) (1 / 2) "linear" 2) (demoCfg 2 2) (demoData [0, 1] [4, 5]) ⟨7, true⟩ demoW).2 =
    .ok () := by decide +kernel

example : (demoFit (softmatch demoTorch ⟨9 / 10, 2, true, true, true⟩ (1 / 2) true) (demoCfg 2 2) (demoData [0, 1] [4, 5])
    ⟨(none, none), true⟩ demoW).2 = .ok () := by decide +kernel

end ModSSC.Deep.Fit
