import Verif.Deep.MplModel
import Verif.Deep.ConsProps
import Verif.Deep.LossProps

/-!
# Meta Pseudo Labels: properties
-/

/-! ### Specification -/

namespace ModSSC.Deep.Mpl.Spec
open ModSSC ModSSC.Deep
open ModSSC.Deep.Fit (Out Feats Input Bundle Ready)
open ModSSC.Deep.Spec (Confident weightedAverage)

variable {X W V K O : Type}

/-- The strong versions of the labeled rows: the first of three views the data has, else the rows themselves. -/
def StrongRows (views : List (String × Feats X)) (xl xls : Feats X) : Prop :=
  views.lookup "X_l_s" = some xls ∨
  (views.lookup "X_l_s" = none ∧ views.lookup "X_l_strong" = some xls) ∨
  (views.lookup "X_l_s" = none ∧ views.lookup "X_l_strong" = none ∧ views.lookup "labeled_strong" = some xls) ∨
  (views.lookup "X_l_s" = none ∧ views.lookup "X_l_strong" = none ∧ views.lookup "labeled_strong" = none ∧ xls = xl)

/-- What `fit` asks of data and networks. -/
structure Acceptable (torch : Bool) (teacher student : Option Bundle) (shapes shared : Bool)
    (views : List (String × Feats X)) (d : Input X) (xw xs xls : Feats X) : Prop where
  torch : torch = true
  rows : d.xl.rows.length = d.yl.length
  labels : d.yDims = 1 ∧ d.yInt64 = true
  nonempty : d.xl.rows ≠ []
  weak : d.xw = some xw
  strong : d.xs = some xs
  unlabeled : xw.rows ≠ []
  paired : xw.rows.length = xs.rows.length
  floats : d.xl.float = true ∧ xw.float = true ∧ xs.float = true
  labeledStrong : StrongRows views d.xl xls
  labeledViews : xls.float = true ∧ xls.rows.length = d.xl.rows.length ∧ shapes = true
  teacher : ∃ b, teacher = some b ∧ b.valid = true ∧ b.placed = true
  student : ∃ b, student = some b ∧ b.valid = true ∧ b.placed = true
  distinct : shared = false

variable [Field K] [LinearOrder K]

/-- The parameters that are checked at the beginning. -/
structure InRange (cfg : Cfg K) : Prop where
  batch : 0 < cfg.batchSize
  epochs : 0 < cfg.maxEpochs
  uda : 0 ≤ cfg.udaWeight
  threshold : 0 ≤ cfg.threshold ∧ cfg.threshold ≤ 1
  smoothing : 0 ≤ cfg.smoothing ∧ cfg.smoothing < 1
  ema : 0 ≤ cfg.ema ∧ cfg.ema < 1
  mpl : 0 ≤ cfg.mplWeight

/-- `log` records the optimizer steps of a network: what the network was (as far as `view` sees it) and the loss. -/
structure Logs (N : Net X W K O) (view : W → V) (log : W → List (V × O)) : Prop where
  train : ∀ w, log (N.train w) = log w
  forward : ∀ w xs, log (N.forward w xs).2 = log w
  step : ∀ w o, log (N.step w o) = log w ++ [(view w, o)]

/-- A network without batch norm and dropout: each row is treated by itself, and nothing is changed. -/
def Rowwise (N : Net X W K O) (view : W → V) (g : V → X → List K) (C : Nat) : Prop :=
  ∀ w xs, N.forward w xs = (⟨2, C, xs.map (g (view w))⟩, w)

/-- The epochs are fair, and the two versions of a labeled row stay together. -/
structure Epochs (xl : List (X × X)) (yl : List Int) (xw : List (X × Int)) (xs : List X) (b e : Int)
    (eps : List (List (Batch X))) : Prop where
  number : (eps.length : Int) = e
  each : ∀ ep ∈ eps, (ep.length : Int) = max ⌈(xl.length : ℚ) / b⌉ ⌈(xw.length : ℚ) / b⌉ ∧
    ∃ bl bu, Deep.Spec.EpochOf xl yl xw xs bl bu ep ∧ Deep.Spec.FairEpoch xl.length b.toNat bl ∧
      Deep.Spec.FairEpoch xw.length b.toNat bu

/-- A label, smoothed: `1 - s` on the class, `s` spread evenly over all `C` classes. -/
def Smoothed (s : K) (C : Nat) (y : Int) (row : List K) : Prop :=
  row.length = C ∧ ∀ c < C, row.getD c 0 = (if (c : Int) = y then 1 - s else 0) + s / (C : K)

/-- The unlabeled samples that count. -/
def Counted (threshold : K) (p : List K) : Prop := threshold ≤ 0 ∨ Confident threshold p

instance (threshold : K) (p : List K) : Decidable (Counted threshold p) := by unfold Counted; infer_instance

/-- How many of the rows count. -/
def counted (threshold : K) (f : X → List K) (rows : List X) : Nat := (rows.filter fun x => Counted threshold (f x)).length

/-- The loss of the teacher in a step: its labeled rows (strong versions) with smoothed labels, averaged; the strong view
of each counted sample against its own tempered prediction `f` for the weak view, averaged over these; and the mean
entropy for the strong views times the feedback. -/
structure TLoss (cfg : Cfg K) (C : Nat) (f : X → List K) (feedback : K) (s : Batch X) (o : TGoal X K) : Prop where
  labeled : List.Forall₂ (fun (p : (X × X) × Int) q => q.1 = p.1.2 ∧ Smoothed cfg.smoothing C p.2 q.2.1 ∧
    q.2.2 = 1 / (s.yl.length : K)) (s.xl.zip s.yl) o.labeled
  unlabeled : List.Forall₂ (fun (p : (X × Int) × X) q => q.weak = p.1.1 ∧ q.strong = p.2 ∧ q.target = f p.1.1 ∧
    q.weight = if Counted cfg.threshold (f p.1.1) then 1 / (counted cfg.threshold f (s.xw.map (·.1)) : K) else 0)
    (s.xw.zip s.xs) o.uda
  attached : o.attached = !cfg.detach
  udaScale : o.udaScale = cfg.udaWeight
  entropy : o.entropy = s.xs
  entropyScale : o.entropyScale = cfg.mplWeight * feedback

/-- How the labeled loss of a student `v` changes when it becomes `v'`. -/
def change (ce : List (List K) → List Int → K) (g : V → X → List K) (s : Batch X) (v v' : V) : K :=
  ce (s.xl.map fun p => g v' p.1) s.yl - ce (s.xl.map fun p => g v p.1) s.yl

end ModSSC.Deep.Mpl.Spec

namespace ModSSC.Deep.Mpl
open ModSSC ModSSC.Deep Spec
open ModSSC.Deep.Fit (Out Feats Input Bundle Ready rowsAt_length)
open ModSSC.Deep.Spec (Confident weightedAverage)
open ModSSC.Deep.Cons (runSteps runSteps_ok runSteps_total chain_log numbered_length)
open ModSSC.Deep.Cons.Spec (numbered)
set_option linter.unusedSectionVars false

variable {X WT WS VT VS K σ : Type} [Field K] [LinearOrder K] [IsStrictOrderedRing K]

/-! ### Checks -/

theorem strongRows_iff {views : List (String × Feats X)} {xl xls : Feats X} :
    StrongRows views xl xls ↔ strongLabeled views xl = xls := by
  unfold StrongRows strongLabeled
  cases h1 : views.lookup "X_l_s" with
  | some a => simp [List.findSome?, h1]
  | none =>
    cases h2 : views.lookup "X_l_strong" with
    | some a => simp [List.findSome?, h1, h2]
    | none =>
      cases h3 : views.lookup "labeled_strong" with
      | some a => simp [List.findSome?, h1, h2, h3]
      | none => simp [List.findSome?, h1, h2, h3, eq_comm]

theorem both_some {t s : Option Bundle} : (∃ b, both t s = some b ∧ b.valid = true ∧ b.placed = true) ↔
    (∃ b, t = some b ∧ b.valid = true ∧ b.placed = true) ∧ (∃ b, s = some b ∧ b.valid = true ∧ b.placed = true) := by
  cases t with
  | none => simp [both]
  | some a =>
    cases s with
    | none => simp [both]
    | some b =>
      simp only [both, Option.some.injEq, exists_eq_left', Bool.and_eq_true]
      tauto

theorem check_ok {torch : Bool} {teacher student : Option Bundle} {shapes shared : Bool}
    {views : List (String × Feats X)} {data : Option (Input X)} {r : Ready X × List X} :
    check (K := K) torch teacher student shapes shared views data = .ok r ↔
      ∃ d xw xs xls, data = some d ∧ Acceptable torch teacher student shapes shared views d xw xs xls ∧
        r = (⟨d.xl.rows, d.yl, numbered xw.rows, xs.rows⟩, xls.rows) := by
  unfold check
  constructor
  · intro h
    cases hc : Fit.check (fun n => .ok ((List.range n).map Int.ofNat)) torch (⟨1, 1, (0 : K), 1, false, true⟩ : Fit.Cfg K)
      (both teacher student) data with
    | error e => rw [hc] at h; cases h
    | ok r' =>
    obtain ⟨d, xw, xs, idx, rfl, hA, hi, rfl⟩ := Fit.check_ok.mp hc
    obtain rfl := Except.ok.inj hi
    rw [hc] at h
    simp only at h
    by_cases c1 : (strongLabeled views d.xl).float = false
    · rw [if_pos c1] at h; cases h
    rw [if_neg c1] at h
    by_cases c2 : (strongLabeled views d.xl).rows.length ≠ d.xl.rows.length
    · rw [if_pos c2] at h; cases h
    rw [if_neg c2] at h
    by_cases c3 : shapes = false
    · rw [if_pos c3] at h; cases h
    rw [if_neg c3] at h
    by_cases c4 : shared = true
    · rw [if_pos c4] at h; cases h
    rw [if_neg c4] at h
    obtain rfl := Except.ok.inj h
    obtain ⟨b1, b2⟩ := both_some.mp hA.bundle
    refine ⟨d, xw, xs, strongLabeled views d.xl, rfl, ⟨hA.torch, hA.rows, hA.labels, hA.nonempty, hA.weak, hA.strong,
      hA.unlabeled, hA.views, hA.floats, strongRows_iff.mpr rfl, ⟨by simpa using c1, not_not.mp c2, by simpa using c3⟩, b1, b2,
      by simpa using c4⟩, rfl⟩
  · rintro ⟨d, xw, xs, xls, rfl, hA, rfl⟩
    have hF : Fit.Spec.Acceptable torch (⟨1, 1, (0 : K), 1, false, true⟩ : Fit.Cfg K) (both teacher student) d xw xs :=
      ⟨hA.torch, hA.rows, hA.labels, hA.nonempty, hA.weak, hA.strong, hA.unlabeled, hA.paired, hA.floats,
        both_some.mpr ⟨hA.teacher, hA.student⟩, Int.one_pos, Int.one_pos, le_refl _, rfl, zero_lt_one⟩
    rw [Fit.check_ok.mpr ⟨d, xw, xs, _, rfl, hF, rfl, rfl⟩]
    simp only
    rw [strongRows_iff.mp hA.labeledStrong, if_neg (by simp [hA.labeledViews.1]), if_neg (by simp [hA.labeledViews.2.1]),
      if_neg (by simp [hA.labeledViews.2.2]), if_neg (by simp [hA.distinct])]
    rfl

theorem params_ok {cfg : Cfg K} : params cfg = true ↔ InRange cfg := by
  unfold params
  rw [decide_eq_true_eq]
  exact ⟨fun ⟨a, b, c, d, e, f, g⟩ => ⟨a, b, c, d, e, f, g⟩, fun ⟨a, b, c, d, e, f, g⟩ => ⟨a, b, c, d, e, f, g⟩⟩

/-- **C170 (refused).**  A `fit` whose data or bundles are not acceptable raises, and leaves both networks and the object as
they were. -/
theorem C170_refused (G : TorchGen σ) (NT : Net X WT K (TGoal X K)) (NS : Net X WS K (SGoal X K))
    (load : WS → WT → Option WT) (softmax : List K → List K) (ce : List (List K) → List Int → K) (torch : Bool) (cfg : Cfg K)
    (teacher student : Option Bundle) (shapes shared : Bool) (views : List (String × Feats X)) (data : Option (Input X))
    (seed : Int) (fitted : Bool) (t : WT) (s : WS)
    (h : ∀ d xw xs xls, data = some d → ¬ Acceptable torch teacher student shapes shared views d xw xs xls) :
    ∃ e, fit G NT NS load softmax ce torch cfg teacher student shapes shared views data seed fitted t s =
      ((fitted, t, s), .error e) := by
  unfold fit
  cases hc : check (K := K) torch teacher student shapes shared views data with
  | error e => exact ⟨e, rfl⟩
  | ok r =>
    obtain ⟨d, xw, xs, xls, hd, hA, -⟩ := check_ok.mp hc
    exact absurd hA (h d xw xs xls hd)

/-- **C170 (bad parameters).**  A `fit` whose parameters are out of range raises and leaves student and object as they were.
The teacher is as it was only without `init_teacher_from_student`. -/
theorem C170_parameters_partial (G : TorchGen σ) (NT : Net X WT K (TGoal X K)) (NS : Net X WS K (SGoal X K))
    (load : WS → WT → Option WT) (softmax : List K → List K) (ce : List (List K) → List Int → K) (torch : Bool) (cfg : Cfg K)
    (teacher student : Option Bundle) (shapes shared : Bool) (views : List (String × Feats X)) (data : Option (Input X))
    (seed : Int) (fitted : Bool) (t : WT) (s : WS) (h : ¬ InRange cfg) :
    ∃ e t', fit G NT NS load softmax ce torch cfg teacher student shapes shared views data seed fitted t s =
      ((fitted, t', s), .error e) ∧ (t' = t ∨ cfg.init = true ∧ load s t = some t') := by
  unfold fit
  cases hc : check (K := K) torch teacher student shapes shared views data with
  | error e => exact ⟨e, t, rfl, .inl rfl⟩
  | ok r =>
    have hp : params cfg = false := by
      cases hb : params cfg with
      | false => rfl
      | true => exact absurd (params_ok.mp hb) h
    simp only
    cases hi : cfg.init with
    | false => simp only [Bool.false_eq_true, if_false, hp, if_true]; exact ⟨_, _, rfl, .inl rfl⟩
    | true =>
      simp only [if_true]
      cases hl : load s t with
      | none => exact ⟨_, _, rfl, .inl rfl⟩
      | some t1 => simp only [hp, if_true]; exact ⟨_, _, rfl, .inr ⟨trivial, rfl⟩⟩

/-! ### Batches -/

theorem Epochs.sizes {xl : List (X × X)} {yl : List Int} {xw : List (X × Int)} {xs : List X} {b e : Int}
    {eps : List (List (Batch X))} (h : Epochs xl yl xw xs b e eps) :
    ∀ s ∈ eps.flatten, s.xl.length = s.yl.length ∧ s.xw.length = s.xs.length := by
  intro s hs
  obtain ⟨ep, hep, hs⟩ := List.mem_flatten.mp hs
  obtain ⟨-, bl, bu, hE, -, -⟩ := h.each ep hep
  obtain ⟨t, ht, rfl⟩ := List.getElem_of_mem hs
  obtain ⟨r1, r2, r3, r4⟩ := hE.rows t ht
  rw [rowsAt_length r1, rowsAt_length r2, rowsAt_length r3, rowsAt_length r4]
  exact ⟨rfl, rfl⟩

theorem Epochs.visits {xl : List (X × X)} {yl : List Int} {xw : List (X × Int)} {xs : List X} {b e : Int}
    {eps : List (List (Batch X))} (h : Epochs xl yl xw xs b e eps) (he : 0 < e) (hl : xl.length = yl.length) :
    ∀ y ∈ yl, ∃ s ∈ eps.flatten, y ∈ s.yl := by
  intro y hy
  obtain ⟨i, hi, rfl⟩ := List.getElem_of_mem hy
  have hn : 0 < eps.length := by have := h.number; omega
  obtain ⟨ep, hep⟩ : ∃ ep, ep ∈ eps := ⟨_, List.getElem_mem hn⟩
  obtain ⟨-, bl, bu, hE, hF, -⟩ := h.each ep hep
  have hv := hF.covers i (by omega)
  have hmem : i ∈ bl.flatten := List.count_pos_iff.mp hv
  obtain ⟨B, hB, hiB⟩ := List.mem_flatten.mp hmem
  obtain ⟨t, ht, rfl⟩ := List.getElem_of_mem hB
  have ht' : t < ep.length := by rw [← hE.len_l]; exact ht
  obtain ⟨-, r2, -, -⟩ := hE.rows t ht'
  refine ⟨ep[t], List.mem_flatten.mpr ⟨ep, hep, List.getElem_mem ht'⟩, ?_⟩
  rw [List.getD_eq_getElem _ _ ht] at r2
  have h3 : some yl[i] ∈ (ep[t].yl).map some := by
    rw [r2, List.mem_map]
    exact ⟨i, hiB, by rw [List.getElem?_eq_getElem hi]⟩
  simpa using h3

theorem Epochs.sub {xl : List (X × X)} {yl : List Int} {xw : List (X × Int)} {xs : List X} {b e : Int}
    {eps : List (List (Batch X))} (h : Epochs xl yl xw xs b e eps) : ∀ s ∈ eps.flatten, ∀ y ∈ s.yl, y ∈ yl := by
  intro s hs y hy
  obtain ⟨ep, hep, hs⟩ := List.mem_flatten.mp hs
  obtain ⟨-, bl, bu, hE, -, -⟩ := h.each ep hep
  obtain ⟨t, ht, rfl⟩ := List.getElem_of_mem hs
  obtain ⟨-, r2, -, -⟩ := hE.rows t ht
  have h1 : some y ∈ (ep[t].yl).map some := List.mem_map_of_mem hy
  rw [r2, List.mem_map] at h1
  obtain ⟨i, -, hi⟩ := h1
  exact List.mem_of_getElem? hi

theorem batches_ok {G : TorchGen σ} (hG : G.Lawful) {torch : Bool} {teacher student : Option Bundle} {shapes shared : Bool}
    {views : List (String × Feats X)} {d : Input X} {xw xs xls : Feats X}
    (hA : Acceptable torch teacher student shapes shared views d xw xs xls) {cfg : Cfg K} (hR : InRange cfg) (seed : Int) :
    ∃ eps, fitBatches G (d.xl.rows.zip xls.rows) d.yl (numbered xw.rows) xs.rows cfg.batchSize cfg.maxEpochs seed = .ok eps ∧
      Epochs (d.xl.rows.zip xls.rows) d.yl (numbered xw.rows) xs.rows cfg.batchSize cfg.maxEpochs eps := by
  have n1 := List.length_pos_iff.mpr hA.nonempty
  have n2 := List.length_pos_iff.mpr hA.unlabeled
  have hz : (d.xl.rows.zip xls.rows).length = d.xl.rows.length := by rw [List.length_zip, hA.labeledViews.2.1]; simp
  obtain ⟨eps, h⟩ := (C106_accepts G hG (d.xl.rows.zip xls.rows) d.yl (numbered xw.rows) xs.rows cfg.batchSize cfg.maxEpochs
    seed).mpr ⟨by rw [hz, hA.rows], by rw [← List.length_pos_iff, hz]; exact n1, by rw [numbered_length, hA.paired], by
      rw [← List.length_pos_iff, numbered_length]; exact n2, hR.batch, hR.epochs⟩
  obtain ⟨h1, h2⟩ := C106_epochs G hG _ _ _ _ _ _ _ _ h
  exact ⟨eps, h, h1, h2⟩

/-! ### One step -/

theorem smoothed_of {s : K} (h0 : 0 ≤ s) (h1 : s < 1) {C : Nat} {y : Int} (hy : 0 ≤ y ∧ y < (C : Int)) :
    ∃ row, smoothLabel s C y.toNat = .ok row ∧ Smoothed s C y row := by
  obtain ⟨row, e1, e2, e3, e4⟩ := (C118_smooth s C y.toNat (by omega) h0).1 h1
  refine ⟨row, e1, e2.1, fun c hc => ?_⟩
  by_cases hcy : (c : Int) = y
  · rw [if_pos hcy, show c = y.toNat by omega, e3]
  · rw [if_neg hcy, (e4 c hc (by omega)).1, zero_add]

theorem smooth_total {s : K} (h0 : 0 ≤ s) (h1 : s < 1) {C : Nat} : ∀ {ys : List Int}, (∀ y ∈ ys, 0 ≤ y ∧ y < (C : Int)) →
    ∃ sup, (ys.mapM fun y => smoothLabel s C y.toNat) = .ok sup ∧ List.Forall₂ (Smoothed s C) ys sup := by
  intro ys hy
  obtain ⟨sup, hs⟩ := mapM_total (f := fun y : Int => smoothLabel s C y.toNat) (l := ys) (fun y h => by
    obtain ⟨row, e, -⟩ := smoothed_of h0 h1 (hy y h)
    exact ⟨row, e⟩)
  refine ⟨sup, hs, ?_⟩
  refine Fit.forall₂_weaken (S := fun y => 0 ≤ y ∧ y < (C : Int)) ?_ hy (mapM_ok.mp hs)
  intro y row h e
  obtain ⟨row', e1, e2⟩ := smoothed_of h0 h1 h
  rw [e1] at e
  obtain rfl := Except.ok.inj e
  exact e2

theorem strict_indicator {α : Type} (p : α → Prop) [DecidablePred p] (rows : List α) :
    Fit.strictNormed (rows.map fun x => if p x then (1 : K) else 0) =
      rows.map fun x => if p x then 1 / ((rows.filter fun x => p x).length : K) else 0 := by
  rw [Fit.strictNormed, indicator_sum]
  by_cases c0 : ((rows.filter fun x => p x).length : K) = 0
  · rw [if_pos c0, List.map_map]
    refine List.map_congr_left fun x hx => ?_
    have : ¬ p x := fun c => by
      have : (rows.filter fun x => p x) = [] := List.length_eq_zero_iff.mp (by exact_mod_cast c0)
      have hm : x ∈ rows.filter fun x => p x := List.mem_filter.mpr ⟨hx, by simpa using c⟩
      rw [this] at hm
      cases hm
    simp [this]
  · rw [if_neg c0, List.map_map]
    refine List.map_congr_left fun x _ => ?_
    simp only [Function.comp_apply]
    by_cases c : p x
    · rw [if_pos c, if_pos c]
    · rw [if_neg c, if_neg c, zero_div]

theorem udaWeights_eq (threshold : K) (f : X → List K) (hf : ∀ x, f x ≠ []) (rows : List X) :
    udaWeights threshold (rows.map f) =
      rows.map fun x => if Counted threshold (f x) then 1 / (counted threshold f rows : K) else 0 := by
  unfold udaWeights counted
  rw [← strict_indicator (fun x => Counted threshold (f x))]
  congr 1
  by_cases c : threshold ≤ 0
  · rw [if_pos c, List.map_map]
    exact List.map_congr_left fun x _ => by simp [Counted, c]
  · rw [if_neg c, Fit.maskOf_map _ _ hf]
    exact List.map_congr_left fun x _ => if_congr (by simp [Counted, c]) rfl rfl

theorem forall₂_pulls {P : (X × Int) × X → Pull X K → Prop} {f : X → List K} {k : X → K}
    (hP : ∀ (p : X × Int) (x : X), P (p, x) ⟨p.1, x, f p.1, k p.1⟩) : ∀ (xw : List (X × Int)) (xs : List X),
    List.Forall₂ P (xw.zip xs) (List.zipWith (fun p q => ⟨p.1, p.2, q.1, q.2⟩) ((xw.map (·.1)).zip xs)
      (((xw.map (·.1)).map f).zip ((xw.map (·.1)).map k)))
  | [], _ => by simp
  | _ :: _, [] => by simp
  | p :: xw, x :: xs => by
    simp only [List.map_cons, List.zip_cons_cons, List.zipWith_cons_cons]
    exact .cons (hP p x) (forall₂_pulls hP xw xs)

theorem forall₂_labels {s : K} {C : Nat} {share : K} : ∀ {xl : List (X × X)} {yl : List Int} {sup : List (List K)},
    xl.length = yl.length → List.Forall₂ (Smoothed s C) yl sup →
    List.Forall₂ (fun (p : (X × X) × Int) q => q.1 = p.1.2 ∧ Smoothed s C p.2 q.2.1 ∧ q.2.2 = share) (xl.zip yl)
      (((xl.map (·.2)).zip sup).map fun p => (p.1, p.2, share))
  | [], _, _, _, _ => by simp
  | _ :: _, _, _, h, .nil => by simp at h
  | x :: xl, _, _, h, .cons h1 h2 => by
    simp only [List.map_cons, List.zip_cons_cons]
    exact .cons ⟨rfl, h1, rfl⟩ (forall₂_labels (by simpa using h) h2)

/-- The loss of the teacher is the specified one. -/
theorem teacherGoal_loss (softmax : List K → List K) (cfg : Cfg K) {C : Nat} (s : Batch X) (g : X → List K)
    (hf : ∀ x, softmax ((g x).map (· / cfg.temperature)) ≠ []) {sup : List (List K)}
    (hs : List.Forall₂ (Smoothed cfg.smoothing C) s.yl sup) (hl : s.xl.length = s.yl.length) (adj : K) :
    TLoss cfg C (fun x => softmax ((g x).map (· / cfg.temperature))) adj s
      (teacherGoal softmax cfg s sup ((s.xw.map (·.1)).map g) adj) := by
  refine ⟨forall₂_labels hl hs, ?_, rfl, rfl, rfl, rfl⟩
  unfold teacherGoal
  simp only
  rw [List.map_map, show (fun r : List K => softmax (r.map (· / cfg.temperature))) ∘ g =
    fun x => softmax ((g x).map (· / cfg.temperature)) from rfl, udaWeights_eq _ _ hf]
  exact forall₂_pulls (fun p x => ⟨rfl, rfl, rfl, rfl⟩) s.xw s.xs

theorem studentGoal_map (softmax : List K → List K) (s : Batch X) (g : X → List K) :
    studentGoal softmax s (s.xs.map g) = s.xs.map fun x => (x, softmax (g x), 1 / (s.xs.length : K)) := by
  unfold studentGoal
  rw [List.map_map]
  generalize 1 / (s.xs.length : K) = c
  induction s.xs with
  | nil => rfl
  | cons a l ih => simp only [List.map_cons, List.zip_cons_cons, ih]; rfl

theorem teach_row {NT : Net X WT K (TGoal X K)} {view : WT → VT} {g : VT → X → List K} {C : Nat}
    (hT : Rowwise NT view g C) {cfg : Cfg K} (h0 : 0 ≤ cfg.smoothing) (h1 : cfg.smoothing < 1) {t : WT} {s : Batch X}
    (h2 : s.xw.length = s.xs.length) :
    (∃ e, teach NT cfg t s = (.error e, t) ∧ ¬ (0 < cfg.temperature ∧ ∀ y ∈ s.yl, 0 ≤ y ∧ y < (C : Int))) ∨
    ∃ sup, teach NT cfg t s = (.ok (C, sup, (s.xw.map (·.1)).map (g (view t)), s.xs.map (g (view t))), t) ∧
      List.Forall₂ (Smoothed cfg.smoothing C) s.yl sup ∧ 0 < cfg.temperature ∧ ∀ y ∈ s.yl, 0 ≤ y ∧ y < (C : Int) := by
  have hF : ∀ w xs, NT.forward w xs = (⟨2, C, xs.map (g (view w))⟩, w) := hT
  unfold teach
  simp only [hF]
  by_cases hy : ∀ y ∈ s.yl, 0 ≤ y ∧ y < (C : Int)
  · obtain ⟨sup, e1, e2⟩ := smooth_total h0 h1 hy
    have ha : Fit.agree s.yl (⟨2, C, (s.xl.map (·.2)).map (g (view t))⟩ : Out K)
        ⟨2, C, (s.xw.map (·.1)).map (g (view t))⟩ ⟨2, C, s.xs.map (g (view t))⟩ = .ok () :=
      Fit.agree_ok.mpr ⟨rfl, rfl, rfl, by simp [h2], rfl, rfl, hy⟩
    rw [ha]
    simp only [e1]
    by_cases ht : cfg.temperature ≤ 0
    · rw [if_pos ht]
      exact .inl ⟨_, rfl, fun h => absurd h.1 (not_lt.mpr ht)⟩
    · rw [if_neg ht]
      exact .inr ⟨sup, rfl, e2, not_le.mp ht, hy⟩
  · cases ha : Fit.agree s.yl (⟨2, C, (s.xl.map (·.2)).map (g (view t))⟩ : Out K) ⟨2, C, (s.xw.map (·.1)).map (g (view t))⟩
      ⟨2, C, s.xs.map (g (view t))⟩ with
    | error e => exact .inl ⟨e, rfl, fun h => hy h.2⟩
    | ok u => exact absurd (Fit.agree_ok.mp ha).2.2.2.2.2.2 hy

theorem study_row {NS : Net X WS K (SGoal X K)} {view : WS → VS} {g : VS → X → List K} {C' : Nat}
    (hS : Rowwise NS view g C') {softmax : List K → List K} {ce : List (List K) → List Int → K} {s : Batch X} {C : Nat}
    {f : X → List K} {w : WS} :
    (∃ e, study NS softmax ce s C (s.xs.map f) w = (.error e, w) ∧ C' ≠ C) ∨
    C' = C ∧ ∃ w', w' = NS.step w (s.xs.map fun x => (x, softmax (f x), 1 / (s.xs.length : K))) ∧
      study NS softmax ce s C (s.xs.map f) w = (.ok (change ce g s (view w) (view w')), w') := by
  have hF : ∀ w xs, NS.forward w xs = (⟨2, C', xs.map (g (view w))⟩, w) := hS
  unfold study
  simp only [hF]
  by_cases hc : C' = C
  · have e1 : ∀ rows : List (List K), studentLogits ⟨2, C', rows⟩ C none = .ok () := fun rows => by
      simp [studentLogits, hc]
    have e2 : studentLogits (⟨2, C', s.xs.map (g (view w))⟩ : Out K) C (some (s.xs.map f).length) = .ok () := by
      simp [studentLogits, hc]
    rw [e1, e2]
    refine .inr ⟨hc, _, rfl, ?_⟩
    simp only [e1, studentGoal_map]
    simp only [change, List.map_map]
    rfl
  · have e1 : studentLogits (⟨2, C', (s.xl.map (·.1)).map (g (view w))⟩ : Out K) C none = .error .validation := by
      simp [studentLogits, hc]
    rw [e1]
    exact .inl ⟨_, rfl, hc⟩

/-- A step of row-wise networks. -/
theorem mplStep_row {NT : Net X WT K (TGoal X K)} {NS : Net X WS K (SGoal X K)} {viewT : WT → VT} {gT : VT → X → List K}
    {C : Nat} (hT : Rowwise NT viewT gT C) {viewS : WS → VS} {gS : VS → X → List K} {C' : Nat}
    (hS : Rowwise NS viewS gS C') {softmax : List K → List K} {ce : List (List K) → List Int → K} {cfg : Cfg K}
    (h0 : 0 ≤ cfg.smoothing) (h1 : cfg.smoothing < 1) {st : State WT WS K} {s : Batch X} (h2 : s.xw.length = s.xs.length) :
    (∃ st' e, mplStep NT NS softmax ce cfg st s = (st', .error e) ∧
      ¬ (C' = C ∧ 0 < cfg.temperature ∧ ∀ y ∈ s.yl, 0 ≤ y ∧ y < (C : Int))) ∨
    (C' = C ∧ 0 < cfg.temperature ∧ ∀ y ∈ s.yl, 0 ≤ y ∧ y < (C : Int)) ∧ ∃ sup w' ma,
      List.Forall₂ (Smoothed cfg.smoothing C) s.yl sup ∧
      w' = NS.step st.s (s.xs.map fun x => (x, softmax (gT (viewT st.t) x), 1 / (s.xs.length : K))) ∧
      ma = cfg.ema * st.ma + (1 - cfg.ema) * change ce gS s (viewS st.s) (viewS w') ∧
      mplStep NT NS softmax ce cfg st s = (⟨NT.step st.t (teacherGoal softmax cfg s sup
        ((s.xw.map (·.1)).map (gT (viewT st.t))) (change ce gS s (viewS st.s) (viewS w') - ma)), w', ma⟩, .ok ()) := by
  unfold mplStep
  rcases teach_row hT h0 h1 (t := st.t) h2 with ⟨e, e1, hn⟩ | ⟨sup, e1, hsup, ht, hy⟩
  · rw [e1]
    exact .inl ⟨_, _, rfl, fun h => hn h.2⟩
  rw [e1]
  rcases study_row hS (softmax := softmax) (ce := ce) (s := s) (C := C) (f := gT (viewT st.t)) (w := st.s) with
    ⟨e, e2, hn⟩ | ⟨hc, w', hw, e2⟩
  · simp only [e2]
    exact .inl ⟨_, _, rfl, fun h => hn h.1⟩
  · simp only [e2]
    exact .inr ⟨⟨hc, ht, hy⟩, sup, w', _, hsup, hw, rfl, rfl⟩

/-! ### The whole training -/

theorem fit_ok {G : TorchGen σ} (hG : G.Lawful) {NT : Net X WT K (TGoal X K)} {NS : Net X WS K (SGoal X K)}
    {load : WS → WT → Option WT} {softmax : List K → List K} {ce : List (List K) → List Int → K} {torch : Bool} {cfg : Cfg K}
    {teacher student : Option Bundle} {shapes shared : Bool} {views : List (String × Feats X)} {data : Option (Input X)}
    {seed : Int} {fitted : Bool} {t : WT} {s : WS} {r : Bool × WT × WS} :
    fit G NT NS load softmax ce torch cfg teacher student shapes shared views data seed fitted t s = (r, .ok ()) ↔
    ∃ d xw xs xls t1 eps st, data = some d ∧ Acceptable torch teacher student shapes shared views d xw xs xls ∧
      InRange cfg ∧ (cfg.init = true ∧ load s t = some t1 ∨ cfg.init = false ∧ t1 = t) ∧
      fitBatches G (d.xl.rows.zip xls.rows) d.yl (numbered xw.rows) xs.rows cfg.batchSize cfg.maxEpochs seed = .ok eps ∧
      Epochs (d.xl.rows.zip xls.rows) d.yl (numbered xw.rows) xs.rows cfg.batchSize cfg.maxEpochs eps ∧
      runSteps (mplStep NT NS softmax ce cfg) ⟨NT.train t1, NS.train s, 0⟩ eps.flatten = (st, .ok ()) ∧
      r = (true, st.t, st.s) := by
  unfold fit
  constructor
  · intro h
    cases hc : check (K := K) torch teacher student shapes shared views data with
    | error e => rw [hc] at h; cases h
    | ok k =>
    rw [hc] at h
    obtain ⟨d, xw, xs, xls, rfl, hA, rfl⟩ := check_ok.mp hc
    simp only at h
    have hi : ∃ t1, (if cfg.init then load s t else some t) = some t1 := by
      cases hi : (if cfg.init then load s t else some t) with
      | none => rw [hi] at h; cases h
      | some t1 => exact ⟨t1, rfl⟩
    obtain ⟨t1, hi⟩ := hi
    rw [hi] at h
    simp only at h
    by_cases hp : params cfg = false
    · rw [if_pos hp] at h; cases h
    rw [if_neg hp] at h
    have hR := params_ok.mp (by simpa using hp)
    obtain ⟨eps, he, hE⟩ := batches_ok hG hA hR seed
    rw [he] at h
    simp only at h
    refine ⟨d, xw, xs, xls, t1, eps, ?_⟩
    have hi' : cfg.init = true ∧ load s t = some t1 ∨ cfg.init = false ∧ t1 = t := by
      cases hb : cfg.init with
      | true => rw [hb] at hi; exact .inl ⟨rfl, by simpa using hi⟩
      | false => rw [hb] at hi; exact .inr ⟨rfl, by simpa [eq_comm] using hi⟩
    cases hr : runSteps (mplStep NT NS softmax ce cfg) ⟨NT.train t1, NS.train s, 0⟩ eps.flatten with
    | mk st res =>
    rw [hr] at h
    cases res with
    | error e => cases h
    | ok u =>
      simp only [Prod.mk.injEq, and_true] at h
      exact ⟨st, rfl, hA, hR, hi', he, hE, rfl, h.symm⟩
  · rintro ⟨d, xw, xs, xls, t1, eps, st, rfl, hA, hR, hi, he, -, hr, rfl⟩
    rw [check_ok.mpr ⟨d, xw, xs, xls, rfl, hA, rfl⟩]
    have hi' : (if cfg.init then load s t else some t) = some t1 := by
      rcases hi with ⟨h1, h2⟩ | ⟨h1, rfl⟩
      · rw [h1, if_pos rfl, h2]
      · rw [h1]; rfl
    simp only [hi']
    rw [if_neg (by rw [params_ok.mpr hR]; decide)]
    simp only [he, hr]

/-- The teacher before the first step: the copy of the student, or the given one. -/
def Starts (load : WS → WT → Option WT) (cfg : Cfg K) (t : WT) (s : WS) (t1 : WT) : Prop :=
  cfg.init = true ∧ load s t = some t1 ∨ cfg.init = false ∧ t1 = t

/-- **C170 (training).**  Both networks treating every row by itself: a successful `fit` made, for every batch of its
fair epochs (in which every labeled row stays with its own strong version), one student step and then one teacher step.  The
student's loss was the mean cross entropy with the teacher's predictions for the same strong views, made by the teacher as
it was before its own step of this batch.  The teacher's loss was that of the specification, where the feedback is the
change of the student's labeled loss by its step of this batch, minus the moving average of these changes up to now. -/
theorem C170_training (G : TorchGen σ) (hG : G.Lawful) (NT : Net X WT K (TGoal X K)) (NS : Net X WS K (SGoal X K))
    (viewT : WT → VT) (gT : VT → X → List K) (C : Nat) (hT : Rowwise NT viewT gT C) (logT : WT → List (VT × TGoal X K))
    (hLT : Logs NT viewT logT) (viewS : WS → VS) (gS : VS → X → List K) (C' : Nat) (hS : Rowwise NS viewS gS C')
    (logS : WS → List (VS × SGoal X K)) (hLS : Logs NS viewS logS) (load : WS → WT → Option WT) (softmax : List K → List K)
    (ce : List (List K) → List Int → K) (torch : Bool) (cfg : Cfg K)
    (hf : ∀ v x, softmax ((gT v x).map (· / cfg.temperature)) ≠ []) (teacher student : Option Bundle) (shapes shared : Bool)
    (views : List (String × Feats X)) (data : Option (Input X)) (seed : Int) (fitted fitted' : Bool) (t t' : WT) (s s' : WS)
    (h : fit G NT NS load softmax ce torch cfg teacher student shapes shared views data seed fitted t s =
      ((fitted', t', s'), .ok ())) :
    fitted' = true ∧ ∃ d xw xs xls eps t1 obsT obsS, data = some d ∧
      Acceptable torch teacher student shapes shared views d xw xs xls ∧ Starts load cfg t s t1 ∧
      Epochs (d.xl.rows.zip xls.rows) d.yl (numbered xw.rows) xs.rows cfg.batchSize cfg.maxEpochs eps ∧
      logT t' = logT t1 ++ obsT ∧ logS s' = logS s ++ obsS ∧
      obsT.length = eps.flatten.length ∧ obsS.length = eps.flatten.length ∧
      ∃ (vt : Nat → VT) (vs : Nat → VS) (dot : Nat → K), vt 0 = viewT (NT.train t1) ∧ vs 0 = viewS (NS.train s) ∧
        vt eps.flatten.length = viewT t' ∧ vs eps.flatten.length = viewS s' ∧
        ∀ k (hk : k < eps.flatten.length),
          dot k = change ce gS eps.flatten[k] (vs k) (vs (k + 1)) ∧
          obsS[k]? = some (vs k, eps.flatten[k].xs.map fun x =>
            (x, softmax (gT (vt k) x), 1 / (eps.flatten[k].xs.length : K))) ∧
          ∃ o, obsT[k]? = some (vt k, o) ∧ TLoss cfg C (fun x => softmax ((gT (vt k) x).map (· / cfg.temperature)))
            (dot k - weightedAverage cfg.ema 0 ((List.range (k + 1)).map dot)) eps.flatten[k] o := by
  obtain ⟨d, xw, xs, xls, t1, eps, st, rfl, hA, hR, hi, -, hE, hr, hres⟩ := (fit_ok hG).mp h
  simp only [Prod.mk.injEq] at hres
  obtain ⟨rfl, rfl, rfl⟩ := hres
  obtain ⟨T, s0, sn, hst⟩ := runSteps_ok hr
  have hz := Epochs.sizes hE
  let dot : Nat → K := fun k => if hk : k < eps.flatten.length then
    change ce gS eps.flatten[k] (viewS (T k).s) (viewS (T (k + 1)).s) else 0
  have hd : ∀ k (hk : k < eps.flatten.length), dot k = change ce gS eps.flatten[k] (viewS (T k).s) (viewS (T (k + 1)).s) :=
    fun k hk => dif_pos hk
  have hstep : ∀ k (hk : k < eps.flatten.length), ∃ sup, List.Forall₂ (Smoothed cfg.smoothing C) eps.flatten[k].yl sup ∧
      (T (k + 1)).s = NS.step (T k).s (eps.flatten[k].xs.map fun x =>
        (x, softmax (gT (viewT (T k).t) x), 1 / (eps.flatten[k].xs.length : K))) ∧
      (T (k + 1)).ma = cfg.ema * (T k).ma + (1 - cfg.ema) * dot k ∧
      (T (k + 1)).t = NT.step (T k).t (teacherGoal softmax cfg eps.flatten[k] sup
        ((eps.flatten[k].xw.map (·.1)).map (gT (viewT (T k).t))) (dot k - (T (k + 1)).ma)) := by
    intro k hk
    rcases mplStep_row hT hS (softmax := softmax) (ce := ce) hR.smoothing.1 hR.smoothing.2 (st := T k)
      (hz _ (List.getElem_mem hk)).2 with ⟨st', e, e1, -⟩ | ⟨-, sup, w', ma, q1, q2, q3, q4⟩
    · rw [hst k hk] at e1; cases e1
    · rw [hst k hk] at q4
      simp only [Prod.mk.injEq, and_true] at q4
      have e1 : (T (k + 1)).s = w' := by rw [q4]
      have e2 : (T (k + 1)).ma = ma := by rw [q4]
      refine ⟨sup, q1, by rw [e1, q2], by rw [e2, q3, hd k hk, e1], ?_⟩
      rw [hd k hk, e1, e2, q4]
  have hma : ∀ k ≤ eps.flatten.length, (T k).ma = weightedAverage cfg.ema 0 ((List.range k).map dot) := by
    intro k
    induction k with
    | zero => intro _; rw [s0]; simp [weightedAverage_nil]
    | succ k ih =>
      intro hk
      obtain ⟨sup, -, -, q, -⟩ := hstep k (by omega)
      rw [q, ih (by omega), List.range_succ, List.map_append, List.map_singleton, weightedAverage_snoc]
      unfold ema
      ring
  obtain ⟨obsS, a1, a2, a3⟩ := chain_log (lg := fun st : State WT WS K => logS st.s) (T := T) (n := eps.flatten.length)
    (P := fun k p => ∀ hk : k < eps.flatten.length, p = (viewS (T k).s, eps.flatten[k].xs.map fun x =>
      (x, softmax (gT (viewT (T k).t) x), 1 / (eps.flatten[k].xs.length : K)))) (by
    intro k hk
    obtain ⟨sup, -, q, -⟩ := hstep k hk
    refine ⟨(viewS (T k).s, eps.flatten[k].xs.map fun x =>
      (x, softmax (gT (viewT (T k).t) x), 1 / (eps.flatten[k].xs.length : K))), ?_, fun _ => rfl⟩
    show logS (T (k + 1)).s = logS (T k).s ++ _
    rw [q, hLS.step])
  obtain ⟨obsT, b1, b2, b3⟩ := chain_log (lg := fun st : State WT WS K => logT st.t) (T := T) (n := eps.flatten.length)
    (P := fun k p => ∀ hk : k < eps.flatten.length, p.1 = viewT (T k).t ∧ TLoss cfg C
      (fun x => softmax ((gT (viewT (T k).t) x).map (· / cfg.temperature)))
      (dot k - weightedAverage cfg.ema 0 ((List.range (k + 1)).map dot)) eps.flatten[k] p.2) (by
    intro k hk
    obtain ⟨sup, q1, -, -, q⟩ := hstep k hk
    refine ⟨(_, teacherGoal softmax cfg eps.flatten[k] sup ((eps.flatten[k].xw.map (·.1)).map (gT (viewT (T k).t)))
      (dot k - (T (k + 1)).ma)), ?_, fun _ => ⟨rfl, ?_⟩⟩
    · show logT (T (k + 1)).t = logT (T k).t ++ _
      rw [q, hLT.step]
    rw [← hma (k + 1) hk]
    exact teacherGoal_loss softmax cfg _ _ (fun x => hf _ x) q1 (hz _ (List.getElem_mem hk)).1 _)
  refine ⟨rfl, d, xw, xs, xls, eps, t1, obsT, obsS, rfl, hA, hi, hE, ?_, ?_, b2, a2, fun k => viewT (T k).t,
    fun k => viewS (T k).s, dot, by simp only [s0], by simp only [s0], by simp only [sn], by simp only [sn], ?_⟩
  · have := b1; simp only [s0, sn, hLT.train] at this; exact this
  · have := a1; simp only [s0, sn, hLS.train] at this; exact this
  intro k hk
  refine ⟨hd k hk, ?_, ?_⟩
  · rw [List.getElem?_eq_getElem (by omega)]
    exact congrArg some (a3 k _ (List.getElem?_eq_getElem (by omega)) hk)
  · obtain ⟨c1, c2⟩ := b3 k _ (List.getElem?_eq_getElem (by omega)) hk
    refine ⟨(obsT[k]'(by omega)).2, ?_, c2⟩
    rw [List.getElem?_eq_getElem (by omega)]
    exact congrArg some (Prod.ext c1 rfl)

/-- **C170 (accepts).**  Row-wise networks: `fit` succeeds exactly for acceptable data and bundles, parameters in range with
a positive `uda_temperature`, a teacher that takes the student's weights (if these are copied), equal class counts, and
labels among the classes. -/
theorem C170_accepts (G : TorchGen σ) (hG : G.Lawful) (NT : Net X WT K (TGoal X K)) (NS : Net X WS K (SGoal X K))
    (viewT : WT → VT) (gT : VT → X → List K) (C : Nat) (hT : Rowwise NT viewT gT C) (viewS : WS → VS) (gS : VS → X → List K)
    (C' : Nat) (hS : Rowwise NS viewS gS C') (load : WS → WT → Option WT) (softmax : List K → List K)
    (ce : List (List K) → List Int → K) (torch : Bool) (cfg : Cfg K) (teacher student : Option Bundle) (shapes shared : Bool)
    (views : List (String × Feats X)) (data : Option (Input X)) (seed : Int) (fitted : Bool) (t : WT) (s : WS) :
    (∃ r, fit G NT NS load softmax ce torch cfg teacher student shapes shared views data seed fitted t s = (r, .ok ())) ↔
    InRange cfg ∧ 0 < cfg.temperature ∧ (cfg.init = true → ∃ t1, load s t = some t1) ∧ C' = C ∧
      ∃ d xw xs xls, data = some d ∧ Acceptable torch teacher student shapes shared views d xw xs xls ∧
        ∀ y ∈ d.yl, 0 ≤ y ∧ y < (C : Int) := by
  constructor
  · rintro ⟨r, h⟩
    obtain ⟨d, xw, xs, xls, t1, eps, st, rfl, hA, hR, hi, -, hE, hr, hres⟩ := (fit_ok hG).mp h
    obtain ⟨T, s0, sn, hst⟩ := runSteps_ok hr
    have hz := Epochs.sizes hE
    have hone : ∀ k (hk : k < eps.flatten.length), C' = C ∧ 0 < cfg.temperature ∧
        ∀ y ∈ eps.flatten[k].yl, 0 ≤ y ∧ y < (C : Int) := by
      intro k hk
      rcases mplStep_row hT hS (softmax := softmax) (ce := ce) hR.smoothing.1 hR.smoothing.2 (st := T k)
        (hz _ (List.getElem_mem hk)).2 with ⟨st', e, e1, -⟩ | ⟨q, -⟩
      · rw [hst k hk] at e1; cases e1
      · exact q
    have hl : (d.xl.rows.zip xls.rows).length = d.yl.length := by
      rw [List.length_zip, hA.labeledViews.2.1, hA.rows]; simp
    have hv := Epochs.visits hE hR.epochs hl
    have hall : ∀ y ∈ d.yl, (C' = C ∧ 0 < cfg.temperature) ∧ 0 ≤ y ∧ y < (C : Int) := by
      intro y hy
      obtain ⟨b, hb, hyb⟩ := hv y hy
      obtain ⟨k, hk, rfl⟩ := List.getElem_of_mem hb
      obtain ⟨c1, c2, c3⟩ := hone k hk
      exact ⟨⟨c1, c2⟩, c3 y hyb⟩
    have hne : d.yl ≠ [] := by
      rw [← List.length_pos_iff, ← hA.rows]; exact List.length_pos_iff.mpr hA.nonempty
    obtain ⟨y0, hy0⟩ := List.exists_mem_of_ne_nil _ hne
    refine ⟨hR, (hall y0 hy0).1.2, fun hb => ?_, (hall y0 hy0).1.1, d, xw, xs, xls, rfl, hA, fun y hy => (hall y hy).2⟩
    rcases hi with ⟨-, h2⟩ | ⟨h1, -⟩
    · exact ⟨t1, h2⟩
    · rw [h1] at hb; cases hb
  · rintro ⟨hR, htemp, hload, hC, d, xw, xs, xls, rfl, hA, hy⟩
    obtain ⟨eps, he, hE⟩ := batches_ok hG hA hR seed
    have hz := Epochs.sizes hE
    have hs := Epochs.sub hE
    obtain ⟨t1, hi⟩ : ∃ t1, cfg.init = true ∧ load s t = some t1 ∨ cfg.init = false ∧ t1 = t := by
      cases hb : cfg.init with
      | false => exact ⟨t, .inr ⟨rfl, rfl⟩⟩
      | true => obtain ⟨t1, ht⟩ := hload hb; exact ⟨t1, .inl ⟨rfl, ht⟩⟩
    obtain ⟨st, hr, -⟩ := runSteps_total (f := mplStep NT NS softmax ce cfg) (I := fun _ => True) (ss := eps.flatten)
      (st := ⟨NT.train t1, NS.train s, 0⟩) trivial (by
        intro st b _ hb
        rcases mplStep_row hT hS (softmax := softmax) (ce := ce) hR.smoothing.1 hR.smoothing.2 (st := st)
          (hz b hb).2 with ⟨st', e, -, hn⟩ | ⟨-, sup, w', ma, -, -, -, q⟩
        · exact absurd ⟨hC, htemp, fun y h => hy y (hs b hb y h)⟩ hn
        · exact ⟨_, q, trivial⟩)
    exact ⟨_, (fit_ok hG).mpr ⟨d, xw, xs, xls, t1, eps, st, rfl, hA, hR, hi, he, hE, hr, rfl⟩⟩

/-! ### A concrete instance -/

/-- Networks that remember their steps; `base` stands for the weights they started with. -/
structure DemoW (O : Type) where
  /-- steps made -/
  steps : List (Nat × O)
  /-- weights at the beginning -/
  base : Nat
deriving DecidableEq

/-- What the demo network has learned so far. -/
def DemoW.view {O : Type} (w : DemoW O) : Nat := w.base + w.steps.length

/-- The demo network. -/
def demoNet (O : Type) : Net Nat (DemoW O) Rat O where
  train w := w
  forward w xs := (⟨2, 2, xs.map (Fit.demoLogits w.view)⟩, w)
  step w o := { w with steps := w.steps ++ [(w.view, o)] }

theorem demo_rowwise (O : Type) : Rowwise (demoNet O) DemoW.view Fit.demoLogits 2 := fun _ _ => rfl

theorem demo_logs (O : Type) : Logs (demoNet O) DemoW.view DemoW.steps := ⟨fun _ => rfl, fun _ _ => rfl, fun _ _ => rfl⟩

/-- Copies the weights of the student. -/
def demoLoad (s : DemoW (SGoal Nat Rat)) (t : DemoW (TGoal Nat Rat)) : Option (DemoW (TGoal Nat Rat)) :=
  some { t with base := s.view }

/-- A stand-in for the cross entropy. -/
def demoCe (o : List (List Rat)) (y : List Int) : Rat := (List.zipWith (fun r c => r.getD c.toNat 0) o y).sum

/-- The demo parameters. -/
def demoCfg (temp : Rat) (b e : Int) (init : Bool) : Cfg Rat := ⟨1, 3 / 5, temp, 1 / 10, 1 / 2, 2, b, e, true, init⟩

/-- The demo data. -/
def demoData (y : List Int) (u : List Nat) : Input Nat :=
  ⟨⟨List.range y.length, true⟩, y, 1, true, some ⟨u, true⟩, some ⟨u.map (· + 10), true⟩⟩

/-- `fit` of the demo networks. -/
def demoFit (cfg : Cfg Rat) (y : List Int) (u : List Nat) :=
  fit TorchGen.demo (demoNet (TGoal Nat Rat)) (demoNet (SGoal Nat Rat)) demoLoad Fit.demoTorch.softmax demoCe true cfg
    (some ⟨true, true⟩) (some ⟨true, true⟩) true false [("X_l_strong", ⟨(List.range y.length).map (· + 20), true⟩)]
    (some (demoData y u)) 0 false ⟨[], 5⟩ ⟨[], 7⟩

theorem demo_acceptable (y : List Int) (hy : y ≠ []) (u : List Nat) (hu : u ≠ []) :
    Acceptable true (some ⟨true, true⟩) (some ⟨true, true⟩) true false
      [("X_l_strong", ⟨(List.range y.length).map (· + 20), true⟩)] (demoData y u) ⟨u, true⟩ ⟨u.map (· + 10), true⟩
      ⟨(List.range y.length).map (· + 20), true⟩ :=
  ⟨rfl, by simp [demoData], ⟨rfl, rfl⟩, by rw [← List.length_pos_iff]; simpa [demoData, List.length_pos_iff] using hy, rfl,
    rfl, hu, by simp, ⟨rfl, rfl, rfl⟩, .inr (.inl ⟨rfl, rfl⟩), ⟨rfl, by simp [demoData], rfl⟩, ⟨_, rfl, rfl, rfl⟩,
    ⟨_, rfl, rfl, rfl⟩, rfl⟩

theorem demo_range (temp : Rat) (b e : Int) (hb : 0 < b) (he : 0 < e) (i : Bool) : InRange (demoCfg temp b e i) :=
  ⟨hb, he, by simp [demoCfg], by norm_num [demoCfg], by norm_num [demoCfg], by norm_num [demoCfg], by norm_num [demoCfg]⟩

example : ∃ r, demoFit (demoCfg 1 2 3 true) [0, 1, 1] [4, 5, 6, 7, 8] = (r, .ok ()) :=
  (C170_accepts TorchGen.demo TorchGen.demo_lawful _ _ _ _ _ (demo_rowwise _) _ _ _ (demo_rowwise _) _ _ _ true _ _ _ _ _ _ _
    0 _ _ _).mpr ⟨demo_range _ _ _ (by decide) (by decide) _, by norm_num [demoCfg], fun _ => ⟨_, rfl⟩, rfl, _, _, _, _, rfl,
    demo_acceptable [0, 1, 1] (by decide) [4, 5, 6, 7, 8] (by decide), by decide⟩

/-- Three unlabeled batches in each of three epochs: nine steps of each network, the teacher started with the student's
weights, and the feedback differs between steps. -/
example : (demoFit (demoCfg 1 2 3 true) [0, 1, 1] [4, 5, 6, 7, 8]).1.2.1.steps.length = 9 ∧
    (demoFit (demoCfg 1 2 3 true) [0, 1, 1] [4, 5, 6, 7, 8]).1.2.2.steps.length = 9 ∧
    (demoFit (demoCfg 1 2 3 true) [0, 1, 1] [4, 5, 6, 7, 8]).1.2.1.base = 7 ∧
    ((demoFit (demoCfg 1 2 3 true) [0, 1, 1] [4, 5, 6, 7, 8]).1.2.1.steps.map fun p => p.2.entropyScale).eraseDups.length ≠ 1 := by
  decide +kernel

/-- **C170 (parameters checked late, violated).**  `fit` with acceptable data and `batch_size=0` raises, but has already
overwritten the weights of the user's teacher with those of the student. -/
theorem C170_late_violated : ∃ (cfg : Cfg Rat) (y : List Int) (u : List Nat) (xw xs xls : Feats Nat),
    Acceptable true (some ⟨true, true⟩) (some ⟨true, true⟩) true false
      [("X_l_strong", ⟨(List.range y.length).map (· + 20), true⟩)] (demoData y u) xw xs xls ∧ ¬ InRange cfg ∧
    (demoFit cfg y u).2 = .error .validation ∧ (demoFit cfg y u).1.2.1 ≠ ⟨[], 5⟩ :=
  ⟨demoCfg 1 0 3 true, [0, 1], [4, 5, 6], _, _, _, demo_acceptable _ (by decide) _ (by decide),
    fun h => absurd h.batch (by decide), by decide +kernel⟩

/-- **C170 (temperature, violated).**  A `uda_temperature` of `0` is not refused with the other parameters, but only in the
first step, after the teacher has been overwritten. -/
theorem C170_temperature_violated : ∃ (cfg : Cfg Rat) (y : List Int) (u : List Nat), InRange cfg ∧ cfg.temperature ≤ 0 ∧
    (demoFit cfg y u).2 = .error .validation ∧ (demoFit cfg y u).1.2.1 ≠ ⟨[], 5⟩ :=
  ⟨demoCfg 0 2 1 true, [0, 1], [4, 5, 6], demo_range _ _ _ (by decide) (by decide) _, le_refl _, by decide +kernel⟩

end ModSSC.Deep.Mpl
