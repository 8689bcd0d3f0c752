import Verif.Deep.MixModel
import Verif.Deep.ConsProps
import Verif.Deep.EnsProps
import Verif.Deep.DctProps

/-!
# MixMatch: properties
-/

/-! ### Specification -/

namespace ModSSC.Deep.Mix.Spec
open ModSSC ModSSC.Deep
open ModSSC.Deep.Fit (Out Feats Input Bundle)
open ModSSC.Deep.Spec (IsMix)

variable {W V K τ : Type} [Field K] [LinearOrder K]

/-- What `fit` asks of data, network and parameters. -/
structure Acceptable (torch : Bool) (cfg : Cfg K) (bundle : Option Bundle) (d : Input (List K)) (xw xs : Feats (List K)) :
    Prop where
  torch : torch = true
  rows : d.xl.rows.length = d.yl.length
  labels : d.yDims = 1 ∧ d.yInt64 = true
  nonempty : d.xl.rows ≠ []
  weak : d.xw = some xw
  strong : d.xs = some xs
  unlabeled : xw.rows ≠ []
  views : xw.rows.length = xs.rows.length
  floats : d.xl.float = true ∧ xw.float = true ∧ xs.float = true
  bundle : ∃ b, bundle = some b ∧ b.valid = true ∧ b.placed = true
  batch : 0 < cfg.batchSize
  epochs : 0 < cfg.maxEpochs
  lambda : 0 ≤ cfg.lambdaU
  temperature : 0 < cfg.temperature
  alpha : 0 ≤ cfg.alpha
  warm : 0 ≤ cfg.warmUp

/-- All rows have `D` entries. -/
def Wide (D : Nat) (d : Input (List K)) : Prop :=
  (∀ r ∈ d.xl.rows, r.length = D) ∧ (∀ x, d.xw = some x → ∀ r ∈ x.rows, r.length = D) ∧
    ∀ x, d.xs = some x → ∀ r ∈ x.rows, r.length = D

/-- A network without batch norm and dropout: each row is treated by itself, and nothing is changed.  `g` are its logits, `φ`
its features with `F` entries, `h` the logits of its head. -/
structure Rowwise (N : Net W K) (view : W → V) (g φ h : V → List K → List K) (C F : Nat) : Prop where
  glance : ∀ w xs, N.glance w xs = (⟨2, C, xs.map (g (view w))⟩, w)
  forward : ∀ w xs, N.forward w xs = (⟨2, C, xs.map (g (view w))⟩, w)
  features : ∀ w xs, N.features w xs = (xs.map (φ (view w)), w)
  head : ∀ w xs, N.head w xs = (⟨2, C, xs.map (h (view w))⟩, w)
  logits : ∀ v x, (g v x).length = C
  width : ∀ v x, (φ v x).length = F

/-- `log` records the optimizer steps of a network: what the network was (as far as `view` sees it) and the loss. -/
structure Logs (N : Net W K) (view : W → V) (log : W → List (V × Goal K)) : Prop where
  train : ∀ w, log (N.train w) = log w
  step : ∀ w o, log (N.step w o) = log w ++ [(view w, o)]

/-- One batch. -/
abbrev Batch (K : Type) := Step (List K) Int (List K) (List K)

/-- The epochs are fair, and the two views of a sample stay together. -/
structure Epochs (xl : List (List K)) (yl : List Int) (xw xs : List (List K)) (b e : Int) (eps : List (List (Batch K))) :
    Prop where
  number : (eps.length : Int) = e
  each : ∀ ep ∈ eps, (ep.length : Int) = max ⌈(xl.length : ℚ) / b⌉ ⌈(xw.length : ℚ) / b⌉ ∧
    ∃ bl bu, Deep.Spec.EpochOf xl yl xw xs bl bu ep ∧ Deep.Spec.FairEpoch xl.length b.toNat bl ∧
      Deep.Spec.FairEpoch xw.length b.toNat bu

/-- The row of a label. -/
def OneHot (C : Nat) (y : Int) (row : List K) : Prop :=
  row.length = C ∧ ∀ c < C, row.getD c 0 = if (c : Int) = y then 1 else 0

/-- `q` is `p` sharpened with temperature `t`. -/
def Sharpened (pow : K → K → K) (t : K) (p q : List K) : Prop :=
  q.length = p.length ∧ ∀ c < p.length, q.getD c 0 =
    if t = 1 then p.getD c 0 else pow (p.getD c 0) (1 / t) / max (p.map fun x => pow x (1 / t)).sum (1 / 10 ^ 12)

/-- The guess for a sample with the views `x.1` and `x.2`: the mean of the predictions for both, sharpened. -/
def Guess (T : Torch K τ) (t : K) (C : Nat) (f : List K → List K) (x : List K × List K) (q : List K) : Prop :=
  ∃ p, p.length = C ∧ (∀ c < C, p.getD c 0 = ((T.softmax (f x.1)).getD c 0 + (T.softmax (f x.2)).getD c 0) / 2) ∧
    Sharpened T.pow t p q

/-- The loss of step `k` of `total` for a network with logits `f` and features `φ`.  The rows of the batch (or their
features), labeled ones first, then the two views, are mixed with partners among all of these, and the targets with them:
those of labeled rows are their labels, those of both views of a sample the guess for it. -/
structure Loss (T : Torch K τ) (cfg : Cfg K) (C total k : Nat) (f φ : List K → List K) (s : Batch K) (o : Goal K) : Prop where
  manifold : o.manifold = cfg.manifold
  sizes : o.labeled.length = s.xl.length ∧ o.unlabeled.length = s.xw.length + s.xs.length
  mixed : ∃ (I hot guess : List (List K)) (lam : Nat → K) (partner : Nat → Nat),
    I = (if cfg.manifold then (s.xl ++ s.xw ++ s.xs).map φ else s.xl ++ s.xw ++ s.xs) ∧
    List.Forall₂ (OneHot C) s.yl hot ∧ List.Forall₂ (Guess T cfg.temperature C f) (s.xw.zip s.xs) guess ∧
    ((List.range I.length).map partner).Perm (List.range I.length) ∧
    (cfg.alpha = 0 → o.labeled ++ o.unlabeled = I.zip (hot ++ guess ++ guess)) ∧
    ∀ i p, (o.labeled ++ o.unlabeled)[i]? = some p → 1 / 2 ≤ lam i ∧ lam i ≤ 1 ∧
      IsMix (lam i) (I.getD i []) (I.getD (partner i) []) p.1 ∧
      IsMix (lam i) ((hot ++ guess ++ guess).getD i []) ((hot ++ guess ++ guess).getD (partner i) []) p.2
  scale : ∃ r : Rat, Cons.Spec.Ramp cfg.warmUp total k r ∧ o.scale = cfg.lambdaU * (r : K)

end ModSSC.Deep.Mix.Spec

namespace ModSSC.Deep.Mix
open ModSSC ModSSC.Deep Spec
open ModSSC.Deep.Fit (Out Feats Input Bundle Ready rowsAt_length)
open ModSSC.Deep.Spec (IsMix BetaLaw)
open ModSSC.Deep.Cons (numbered_length ramp_warm)
open ModSSC.Deep.Cons.Spec (numbered)
set_option linter.unusedSectionVars false

variable {W V K σ τ : Type}

/-! ### Batches with a generator that is also used for other things -/

/-- A generator that gives the permutations of a script. -/
def scripted : TorchGen (List (List Nat)) where
  manualSeed _ := []
  randperm g n :=
    match g with
    | [] => (List.range n, [])
    | p :: ps => if p.Perm (List.range n) then (p, ps) else (List.range n, ps)

theorem scripted_lawful : scripted.Lawful := by
  intro g n
  cases g with
  | nil => exact .refl _
  | cons p ps =>
    show (if p.Perm (List.range n) then (p, ps) else (List.range n, ps)).1.Perm (List.range n)
    by_cases h : p.Perm (List.range n)
    · rw [if_pos h]; exact h
    · rw [if_neg h]

/-- Batches taken one by one, with any generator state at each, are those of some generator. -/
theorem cycle_scripted {G : TorchGen σ} (hG : G.Lawful) {n b : Nat} : ∀ {steps : Nat} {P : Nat → List (List Nat)}
    {B : Nat → List Nat} {g : Nat → σ}, (∀ t < steps, ∃ g', cycleNext G n b (P t) (g t) = .ok (B t, P (t + 1), g')) →
    ∃ s s', cycleFrom scripted n b steps (P 0) s = .ok ((List.range steps).map B, s')
  | 0, _, _, _, _ => ⟨[], [], rfl⟩
  | steps + 1, P, B, g, h => by
    obtain ⟨s, s', hs⟩ := cycle_scripted hG (steps := steps) (P := fun t => P (t + 1)) (B := fun t => B (t + 1))
      (g := fun t => g (t + 1)) (fun t ht => h (t + 1) (by omega))
    obtain ⟨g', h0⟩ := h 0 (by omega)
    have hex : ∃ s0, cycleNext scripted n b (P 0) s0 = .ok (B 0, P 1, s) := by
      unfold cycleNext at h0
      cases hP : P 0 with
      | cons C rest =>
        rw [hP] at h0
        simp only [Except.ok.injEq, Prod.mk.injEq] at h0
        exact ⟨s, by rw [← h0.1, ← h0.2.1]; rfl⟩
      | nil =>
        rw [hP] at h0
        simp only at h0
        cases hi : iterBatchIndices n b (G.randperm (g 0) n).1 with
        | nil => rw [hi] at h0; cases h0
        | cons C rest =>
          rw [hi] at h0
          simp only [Except.ok.injEq, Prod.mk.injEq] at h0
          refine ⟨(G.randperm (g 0) n).1 :: s, ?_⟩
          have hr : scripted.randperm ((G.randperm (g 0) n).1 :: s) n = ((G.randperm (g 0) n).1, s) := if_pos (hG (g 0) n)
          simp only [cycleNext, hr, hi, h0.1, h0.2.1]
    obtain ⟨s0, h1⟩ := hex
    refine ⟨s0, s', ?_⟩
    simp only [cycleFrom, h1, hs]
    rw [List.range_succ_eq_map, List.map_cons, List.map_map]
    rfl

theorem cycle_fair {G : TorchGen σ} (hG : G.Lawful) {n b steps : Nat} (hn : 0 < n) (hb : 0 < b)
    (hs : (n + b - 1) / b ≤ steps) {P : Nat → List (List Nat)} {B : Nat → List Nat} {g : Nat → σ} (h0 : P 0 = [])
    (h : ∀ t < steps, ∃ g', cycleNext G n b (P t) (g t) = .ok (B t, P (t + 1), g')) :
    Deep.Spec.FairEpoch n b ((List.range steps).map B) := by
  obtain ⟨s, s', e⟩ := cycle_scripted hG h
  rw [h0] at e
  obtain ⟨Bs, g', e1, -, hF⟩ := cycleBatchIndices_fair scripted scripted_lawful n b steps hn hb hs s
  unfold cycleBatchIndices at e1
  rw [e] at e1
  simp only [Except.ok.injEq, Prod.mk.injEq] at e1
  rw [e1.1]
  exact hF

/-! ### Rounds -/

theorem rounds_ok {S : Type} {f : S → S × Except PyErr Unit} : ∀ {n : Nat} {st st' : S},
    rounds f n st = (st', .ok ()) → ∃ T : Nat → S, T 0 = st ∧ T n = st' ∧ ∀ t < n, f (T t) = (T (t + 1), .ok ())
  | 0, st, st', h => by
    simp only [rounds, Prod.mk.injEq, and_true] at h
    exact ⟨fun _ => st, rfl, h, fun t ht => by omega⟩
  | n + 1, st, st', h => by
    simp only [rounds] at h
    cases h1 : f st with
    | mk st1 res =>
      rw [h1] at h
      cases res with
      | error e => cases h
      | ok u =>
        obtain ⟨T, t0, tn, hT⟩ := rounds_ok h
        refine ⟨fun t => if t = 0 then st else T (t - 1), rfl, by simpa using tn, fun t ht => ?_⟩
        cases t with
        | zero => simp [h1, t0]
        | succ t => simpa using hT t (by omega)

theorem rounds_total {S : Type} {f : S → S × Except PyErr Unit} {I : S → Prop} (h : ∀ st, I st → ∃ st', f st = (st', .ok ()) ∧ I st') :
    ∀ {n : Nat} {st : S}, I st → ∃ st', rounds f n st = (st', .ok ()) ∧ I st'
  | 0, st, hI => ⟨st, rfl, hI⟩
  | n + 1, st, hI => by
    obtain ⟨st1, e1, i1⟩ := h st hI
    obtain ⟨st2, e2, i2⟩ := rounds_total h (n := n) i1
    exact ⟨st2, by simp only [rounds]; rw [e1]; exact e2, i2⟩


variable [Field K] [LinearOrder K] [IsStrictOrderedRing K]

theorem check_ok {torch : Bool} {cfg : Cfg K} {bundle : Option Bundle} {data : Option (Input (List K))} {r : Ready (List K)} :
    check torch cfg bundle data = .ok r ↔ ∃ d xw xs, data = some d ∧ Acceptable torch cfg bundle d xw xs ∧
      r = ⟨d.xl.rows, d.yl, numbered xw.rows, xs.rows⟩ := by
  unfold check
  rw [Fit.check_ok]
  constructor
  · rintro ⟨d, xw, xs, idx, rfl, hA, hi, rfl⟩
    obtain rfl := Except.ok.inj hi
    have hr := hA.ranges
    simp only [Bool.and_eq_true, decide_eq_true_eq] at hr
    exact ⟨d, xw, xs, rfl, ⟨hA.torch, hA.rows, hA.labels, hA.nonempty, hA.weak, hA.strong, hA.unlabeled, hA.views, hA.floats,
      hA.bundle, hA.batch, hA.epochs, hA.lambda, hA.temperature, hr.1, hr.2⟩, rfl⟩
  · rintro ⟨d, xw, xs, rfl, hA, rfl⟩
    exact ⟨d, xw, xs, _, rfl, ⟨hA.torch, hA.rows, hA.labels, hA.nonempty, hA.weak, hA.strong, hA.unlabeled, hA.views, hA.floats,
      hA.bundle, hA.batch, hA.epochs, hA.lambda, by simp [hA.alpha, hA.warm], hA.temperature⟩, rfl, rfl⟩

/-- **C174 (refused).**  A `fit` whose data, network or parameters are not acceptable raises, and leaves the network, the
object and torch's global generator as they were. -/
theorem C174_refused (G : TorchGen σ) (N : Net W K) (T : Torch K τ) (torch : Bool) (cfg : Cfg K) (bundle : Option Bundle)
    (data : Option (Input (List K))) (seed : Int) (fitted : Bool) (w : W) (rng : τ)
    (h : ∀ d xw xs, data = some d → ¬ Acceptable torch cfg bundle d xw xs) :
    ∃ e, fit G N T torch cfg bundle data seed fitted w rng = ((fitted, w, rng), .error e) := by
  unfold fit
  cases hc : check torch cfg bundle data with
  | error e => exact ⟨e, rfl⟩
  | ok r =>
    obtain ⟨d, xw, xs, hd, hA, -⟩ := check_ok.mp hc
    exact absurd hA (h d xw xs hd)

/-! ### The guesses -/

theorem sharpened_of {pow : K → K → K} {t : K} (ht : 0 < t) (rows : List (List K)) :
    ∃ out, sharpen pow t rows = .ok out ∧ List.Forall₂ (Sharpened pow t) rows out := by
  unfold sharpen
  rw [if_neg (not_le.mpr ht)]
  by_cases h1 : t = 1
  · rw [if_pos h1]
    refine ⟨rows, rfl, ?_⟩
    rw [List.forall₂_same]
    exact fun r _ => ⟨rfl, fun c _ => by rw [if_pos h1]⟩
  · rw [if_neg h1]
    refine ⟨_, rfl, ?_⟩
    rw [List.forall₂_map_right_iff, List.forall₂_same]
    refine fun r _ => ⟨by simp [sharpenRow], fun c hc => ?_⟩
    rw [if_neg h1, List.getD_eq_getElem _ _ (by simpa [sharpenRow] using hc), List.getD_eq_getElem _ _ hc]
    simp [sharpenRow]

theorem means_of {T : Torch K τ} (hsm : ∀ r, (T.softmax r).length = r.length) {C : Nat} {f : List K → List K}
    (hf : ∀ x, (f x).length = C) {t : K} : ∀ {xw xs : List (List K)} {out : List (List K)}, xw.length = xs.length →
    List.Forall₂ (Sharpened T.pow t) (List.zipWith meanRow ((xw.map f).map T.softmax) ((xs.map f).map T.softmax)) out →
    List.Forall₂ (Guess T t C f) (xw.zip xs) out
  | [], [], _, _, h => by cases h; exact .nil
  | a :: xw, b :: xs, _, hl, .cons h1 h2 => by
    rw [List.zip_cons_cons]
    refine .cons ⟨_, ?_, ?_, h1⟩ (means_of hsm hf (by simpa using hl) h2)
    · simp [meanRow, hsm, hf]
    · intro c hc
      have h1 : c < (T.softmax (f a)).length := by rw [hsm, hf]; exact hc
      have h2 : c < (T.softmax (f b)).length := by rw [hsm, hf]; exact hc
      rw [List.getD_eq_getElem _ _ (by simp [meanRow, hsm, hf, hc]), List.getD_eq_getElem _ _ h1, List.getD_eq_getElem _ _ h2]
      simp [meanRow]
  | [], _ :: _, _, hl, _ => by simp at hl
  | _ :: _, [], _, hl, _ => by simp at hl

theorem guesses_row {T : Torch K τ} (hsm : ∀ r, (T.softmax r).length = r.length) {cfg : Cfg K} (ht : 0 < cfg.temperature)
    {C : Nat} {f : List K → List K} (hf : ∀ x, (f x).length = C) {y : List Int} {xw xs : List (List K)}
    (hl : xw.length = xs.length) :
    (∃ e, guesses T cfg y ⟨2, C, xw.map f⟩ ⟨2, C, xs.map f⟩ = .error e ∧ ¬ ∀ c ∈ y, 0 ≤ c ∧ c < (C : Int)) ∨
    (∀ c ∈ y, 0 ≤ c ∧ c < (C : Int)) ∧ ∃ p, guesses T cfg y ⟨2, C, xw.map f⟩ ⟨2, C, xs.map f⟩ = .ok p ∧
      List.Forall₂ (Guess T cfg.temperature C f) (xw.zip xs) p := by
  unfold guesses
  rw [if_neg (by simp [hl]), if_neg (by simp)]
  obtain ⟨out, e1, e2⟩ := sharpened_of (pow := T.pow) ht (List.zipWith meanRow ((xw.map f).map T.softmax) ((xs.map f).map T.softmax))
  simp only [e1]
  by_cases hy : y.any (fun c => decide (c < 0 ∨ (C : Int) ≤ c)) = true
  · rw [if_pos hy]
    refine .inl ⟨_, rfl, fun h => ?_⟩
    obtain ⟨c, hc, h2⟩ := List.any_eq_true.mp hy
    have := h c hc
    simp at h2
    omega
  · rw [if_neg hy]
    refine .inr ⟨fun c hc => ?_, out, rfl, means_of hsm hf hl e2⟩
    rw [Bool.not_eq_true, List.any_eq_false] at hy
    have := hy c hc
    simpa using this

theorem hot_of {C : Nat} : ∀ {y : List Int}, (∀ c ∈ y, 0 ≤ c ∧ c < (C : Int)) → List.Forall₂ (OneHot C) y
    ((y.map Int.toNat).map fun y => (List.range C).map fun c => if c = y then (1 : K) else 0)
  | [], _ => .nil
  | a :: y, h => by
    refine .cons ⟨by simp, fun c hc => ?_⟩ (hot_of fun c hc => h c (List.mem_cons_of_mem _ hc))
    rw [List.getD_eq_getElem _ _ (by simpa using hc)]
    have := h a (by simp)
    simp only [List.getElem_map, List.getElem_range]
    exact if_congr (by omega) rfl rfl

theorem guess_length {T : Torch K τ} {t : K} {C : Nat} {f : List K → List K} {x : List K × List K} {q : List K}
    (h : Guess T t C f x q) : q.length = C := by
  obtain ⟨p, h1, -, h2, -⟩ := h
  rw [h2, h1]

/-! ### One step -/

theorem inputs_row {N : Net W K} {view : W → V} {g φ hd : V → List K → List K} {C F : Nat} (hN : Rowwise N view g φ hd C F)
    (m : Bool) (w : W) (xl xw xs : List (List K)) :
    inputs N m w xl xw xs = (if m then (xl ++ xw ++ xs).map (φ (view w)) else xl ++ xw ++ xs, w) := by
  unfold inputs
  cases m
  · rfl
  · simp [hN.features]

theorem learn_row {G : TorchGen σ} (hG : G.Lawful) {N : Net W K} {view : W → V} {g φ hd : V → List K → List K} {C F : Nat}
    (hN : Rowwise N view g φ hd C F) {T : Torch K τ} (hsm : ∀ r, (T.softmax r).length = r.length) (hB : BetaLaw T.beta)
    {cfg : Cfg K} (ht : 0 < cfg.temperature) {total D : Nat} {st : St W σ τ} {s : Batch K} (hne : s.xl ≠ [])
    (hl : s.xl.length = s.yl.length) (hu : s.xw.length = s.xs.length)
    (hD : ∀ r ∈ s.xl ++ s.xw ++ s.xs, r.length = D) :
    (∃ st' e, learn G N T cfg total st s.xl s.yl s.xw s.xs = (st', .error e) ∧ ¬ ∀ c ∈ s.yl, 0 ≤ c ∧ c < (C : Int)) ∨
    (∀ c ∈ s.yl, 0 ≤ c ∧ c < (C : Int)) ∧ ∃ o gl rng,
      learn G N T cfg total st s.xl s.yl s.xw s.xs =
        ({ st with w := N.step st.w o, gl := gl, rng := rng, idx := st.idx + 1 }, .ok ()) ∧
      Loss T cfg C total st.idx (g (view st.w)) (φ (view st.w)) s o ∧ (cfg.alpha ≤ 0 → rng = st.rng) := by
  unfold learn
  simp only [hN.glance]
  rcases guesses_row hsm ht (hN.logits (view st.w)) (y := s.yl) hu with ⟨e, e1, hn⟩ | ⟨hy, p, e1, hp⟩
  · simp only [e1]
    exact .inl ⟨_, _, rfl, hn⟩
  simp only [e1, inputs_row hN]
  generalize hI : (if cfg.manifold then (s.xl ++ s.xw ++ s.xs).map (φ (view st.w)) else s.xl ++ s.xw ++ s.xs) = I
  have hIl : I.length = s.xl.length + s.xw.length + s.xs.length := by
    rw [← hI]; split <;> simp <;> omega
  have hId : ∃ d, ∀ r ∈ I, r.length = d := by
    rw [← hI]
    split
    · refine ⟨F, fun r hr => ?_⟩
      obtain ⟨x, -, rfl⟩ := List.mem_map.mp hr
      exact hN.width _ _
    · exact ⟨D, hD⟩
  obtain ⟨dI, hId⟩ := hId
  have hpl : p.length = s.xw.length := by rw [← hp.length_eq, List.length_zip, hu]; simp
  have hhot := hot_of (K := K) hy
  generalize hh : ((s.yl.map Int.toNat).map fun y => (List.range C).map fun c => if c = y then (1 : K) else 0) = hot at hhot
  have hhl : hot.length = s.xl.length := by rw [← hhot.length_eq, hl]
  have hY : mixTargets C (s.yl.map Int.toNat) p = hot ++ p ++ p := by rw [← hh]; rfl
  have hYl : (hot ++ p ++ p).length = I.length := by simp [hIl]; omega
  have hYd : ∀ r ∈ hot ++ p ++ p, r.length = C := by
    have h1 : ∀ r ∈ hot, r.length = C := by
      intro r hr
      rw [← hh] at hr
      obtain ⟨c, -, rfl⟩ := List.mem_map.mp hr
      simp
    have h2 : ∀ r ∈ p, r.length = C := by
      intro r hr
      obtain ⟨i, hi, rfl⟩ := List.getElem_of_mem hr
      exact guess_length (List.Forall₂.get hp (i := i) (by rw [hp.length_eq]; exact hi) hi)
    intro r hr
    simp only [List.mem_append] at hr
    rcases hr with (hr | hr) | hr
    · exact h1 r hr
    · exact h2 r hr
    · exact h2 r hr
  have hIne : I ≠ [] := by
    rw [← List.length_pos_iff, hIl]
    have := List.length_pos_iff.mpr hne
    omega
  obtain ⟨X', Y', gl', rng', m1, m2, m3, m4, lam, partner, m5, m6⟩ :=
    (C114_mixup G hG T.beta hB cfg.alpha I (hot ++ p ++ p) dI C hId hYd st.gl st.rng).2 hIne hYl.symm
  simp only [hY, m1]
  have ho : (if cfg.manifold then N.head st.w X' else N.forward st.w X').1.ndim = 2 ∧
      (if cfg.manifold then N.head st.w X' else N.forward st.w X').1.rows.length = X'.length ∧
      (if cfg.manifold then N.head st.w X' else N.forward st.w X').1.classes = C ∧
      (if cfg.manifold then N.head st.w X' else N.forward st.w X').2 = st.w := by
    cases cfg.manifold <;> simp [hN.head, hN.forward]
  obtain ⟨o1, o2, o3, o4⟩ := ho
  rw [if_neg (not_not.mpr o1), if_neg (by simp [o2, o3])]
  refine .inr ⟨hy, ⟨cfg.manifold, (X'.zip Y').take s.xl.length, (X'.zip Y').drop s.xl.length,
    cfg.lambdaU * (warmFactor cfg.warmUp total st.idx : K)⟩, gl', rng', by simp only [o4], ?_, fun h => (m4 h).2.2⟩
  have hzl : (X'.zip Y').length = I.length := by simp [m2, m3]
  refine ⟨rfl, ⟨by simp only [List.length_take, hzl]; omega, by simp only [List.length_drop, hzl]; omega⟩,
    ⟨I, hot, p, lam, partner, hI.symm, hhot, hp, m5, ?_, ?_⟩, _, ramp_warm _ _ _, rfl⟩
  · intro h0
    simp only [List.take_append_drop]
    rw [(m4 h0.le).1, (m4 h0.le).2.1]
  · intro i q hq
    simp only [List.take_append_drop] at hq
    obtain ⟨hi, rfl⟩ := List.getElem?_eq_some_iff.mp hq
    have hi' : i < I.length := by omega
    obtain ⟨c1, c2, c3, c4⟩ := m6 i hi'
    rw [List.getD_eq_getElem X' _ (by omega)] at c3
    rw [List.getD_eq_getElem Y' _ (by omega)] at c4
    rw [List.getElem_zip]
    exact ⟨c1, c2, c3, c4⟩

/-- The state is that of running iterators. -/
def Inv (n m b : Nat) (st : St W σ τ) : Prop := GoodPending n b st.pl ∧ GoodPending m b st.pu

/-- What a round does: positions of the batch, rows, loss. -/
structure Did (G : TorchGen σ) (N : Net W K) (view : W → V) (g φ : V → List K → List K) (T : Torch K τ) (cfg : Cfg K)
    (C total : Nat) (r : Ready (List K)) (st st' : St W σ τ) (B U : List Nat) (s : Batch K) (o : Goal K) : Prop where
  labeled : ∃ g', cycleNext G r.xl.length cfg.batchSize.toNat st.pl st.gl = .ok (B, st'.pl, g')
  unlabeled : ∃ g', cycleNext G r.xw.length cfg.batchSize.toNat st.pu st.gu = .ok (U, st'.pu, g')
  rows : Deep.Spec.RowsAt r.xl B s.xl ∧ Deep.Spec.RowsAt r.yl B s.yl ∧ Deep.Spec.RowsAt (r.xw.map (·.1)) U s.xw ∧
    Deep.Spec.RowsAt r.xs U s.xs
  range : ∀ c ∈ s.yl, 0 ≤ c ∧ c < (C : Int)
  loss : Loss T cfg C total st.idx (g (view st.w)) (φ (view st.w)) s o
  step : st'.w = N.step st.w o
  idx : st'.idx = st.idx + 1
  rng : cfg.alpha ≤ 0 → st'.rng = st.rng

theorem round_row {G : TorchGen σ} (hG : G.Lawful) {N : Net W K} {view : W → V} {g φ hd : V → List K → List K} {C F : Nat}
    (hN : Rowwise N view g φ hd C F) {T : Torch K τ} (hsm : ∀ r, (T.softmax r).length = r.length) (hB : BetaLaw T.beta)
    {cfg : Cfg K} (ht : 0 < cfg.temperature) (hb : 0 < cfg.batchSize) {total D : Nat} {r : Ready (List K)}
    (hl : r.xl.length = r.yl.length) (hln : 0 < r.xl.length) (hu : r.xw.length = r.xs.length) (hun : 0 < r.xw.length)
    (hD : (∀ x ∈ r.xl, x.length = D) ∧ (∀ x ∈ r.xw, x.1.length = D) ∧ ∀ x ∈ r.xs, x.length = D) {st : St W σ τ}
    (hI : Inv r.xl.length r.xw.length cfg.batchSize.toNat st) :
    (∃ st' e y, round G N T cfg r total st = (st', .error e) ∧ y ∈ r.yl ∧ ¬ (0 ≤ y ∧ y < (C : Int))) ∨
    ∃ st' B U s o, round G N T cfg r total st = (st', .ok ()) ∧ Did G N view g φ T cfg C total r st st' B U s o ∧
      Inv r.xl.length r.xw.length cfg.batchSize.toNat st' := by
  obtain ⟨B, rest, g1, e1, p1, -⟩ := cycleNext_ok G hG r.xl.length cfg.batchSize.toNat hln (by omega) st.pl st.gl hI.1
  obtain ⟨U, rest', g2, e2, p2, -⟩ := cycleNext_ok G hG r.xw.length cfg.batchSize.toNat hun (by omega) st.pu st.gu hI.2
  have hBr := (p1.ok B (by simp)).2.2.2
  have hUr := (p2.ok U (by simp)).2.2.2
  obtain ⟨p, hp⟩ := takePair_total r.xl r.yl B hBr (fun i hi => hl ▸ hBr i hi)
  obtain ⟨w, hw⟩ := takeRows_total (r.xw.map (·.1)) U (fun i hi => by rw [List.length_map]; exact hUr i hi)
  obtain ⟨z, hz⟩ := takeRows_total r.xs U (fun i hi => hu ▸ hUr i hi)
  have hrows : rowsOf r B U = .ok (p.1, p.2, w, z) := by
    unfold rowsOf
    simp only [hp, hw, hz, bind, Except.bind, pure, Except.pure]
  have q1 := (takePair_ok _ _ _ _).mp hp
  have q3 := (takeRows_ok _ _ _).mp hw
  have q4 := (takeRows_ok _ _ _).mp hz
  have mem : ∀ {α : Type} {xs : List α} {B : List Nat} {ys : List α}, Deep.Spec.RowsAt xs B ys → ∀ y ∈ ys, y ∈ xs := by
    intro α xs B ys r y hy
    have h1 : some y ∈ ys.map some := List.mem_map_of_mem hy
    rw [r, List.mem_map] at h1
    obtain ⟨i, -, hi⟩ := h1
    exact List.mem_of_getElem? hi
  unfold round
  simp only [e1, e2, hrows]
  rcases learn_row hG hN hsm hB (cfg := cfg) ht (total := total) (D := D)
    (st := { st with pl := rest, gl := g1, pu := rest', gu := g2 }) (s := ⟨p.1, p.2, w, z⟩)
    (by
      rw [← List.length_pos_iff]
      show 0 < p.1.length
      rw [rowsAt_length q1.1]
      exact List.length_pos_iff.mpr (p1.ok B (by simp)).1)
    (by show p.1.length = p.2.length; rw [rowsAt_length q1.1, rowsAt_length q1.2])
    (by show w.length = z.length; rw [rowsAt_length q3, rowsAt_length q4])
    (by
      intro x hx
      simp only [List.mem_append] at hx
      rcases hx with (hx | hx) | hx
      · exact hD.1 x (mem q1.1 x hx)
      · obtain ⟨y, hy, rfl⟩ := List.mem_map.mp (mem q3 x hx)
        exact hD.2.1 y hy
      · exact hD.2.2 x (mem q4 x hx)) with ⟨st', e, c1, c2⟩ | ⟨c1, o, gl, rng, c2, c3, c4⟩
  · push Not at c2
    obtain ⟨y, hy, hy2⟩ := c2
    exact .inl ⟨st', e, y, c1, mem q1.2 y hy, fun h => absurd h.2 (not_lt.mpr (hy2 h.1))⟩
  · exact .inr ⟨_, B, U, ⟨p.1, p.2, w, z⟩, o, c2, ⟨⟨g1, e1⟩, ⟨g2, e2⟩, ⟨q1.1, q1.2, q3, q4⟩, c1, c3, rfl, rfl, c4⟩,
      p1.tail, p2.tail⟩


/-! ### Epochs -/

/-- What is known of data and parameters when the loop starts. -/
structure Started (G : TorchGen σ) (N : Net W K) (view : W → V) (g φ hd : V → List K → List K) (C F D : Nat) (T : Torch K τ)
    (cfg : Cfg K) (r : Ready (List K)) : Prop where
  lawful : G.Lawful
  row : Rowwise N view g φ hd C F
  softmax : ∀ r, (T.softmax r).length = r.length
  beta : BetaLaw T.beta
  temperature : 0 < cfg.temperature
  batch : 0 < cfg.batchSize
  labels : r.xl.length = r.yl.length
  labeled : 0 < r.xl.length
  views : r.xw.length = r.xs.length
  unlabeled : 0 < r.xw.length
  wide : (∀ x ∈ r.xl, x.length = D) ∧ (∀ x ∈ r.xw, x.1.length = D) ∧ ∀ x ∈ r.xs, x.length = D

theorem inv_nil {n m b : Nat} {st : St W σ τ} : Inv n m b { st with pl := [], pu := [] } :=
  ⟨⟨by simp, by simp⟩, by simp, by simp⟩

/-- What the rounds of a list of batches did. -/
structure Wrote (N : Net W K) (view : W → V) (g φ : V → List K → List K) (T : Torch K τ) (cfg : Cfg K) (C total : Nat)
    (st st' : St W σ τ) (ss : List (Batch K)) (obs : List (V × Goal K)) : Prop where
  log : ∀ log, Logs N view log → log st'.w = log st.w ++ obs
  length : obs.length = ss.length
  idx : st'.idx = st.idx + ss.length
  rng : cfg.alpha ≤ 0 → st'.rng = st.rng
  losses : ∀ k s p, ss[k]? = some s → obs[k]? = some p → Loss T cfg C total (st.idx + k) (g p.1) (φ p.1) s p.2
  range : ∀ s ∈ ss, ∀ c ∈ s.yl, 0 ≤ c ∧ c < (C : Int)

theorem Wrote.append {N : Net W K} {view : W → V} {g φ : V → List K → List K} {T : Torch K τ} {cfg : Cfg K} {C total : Nat}
    {st st1 st2 : St W σ τ} {ss ss' : List (Batch K)} {obs obs' : List (V × Goal K)}
    (h1 : Wrote N view g φ T cfg C total st st1 ss obs) (h2 : Wrote N view g φ T cfg C total st1 st2 ss' obs') :
    Wrote N view g φ T cfg C total st st2 (ss ++ ss') (obs ++ obs') := by
  refine ⟨fun L hL => by rw [h2.log L hL, h1.log L hL, List.append_assoc], by simp [h1.length, h2.length], by rw [h2.idx, h1.idx]; simp; omega,
    fun h => by rw [h2.rng h, h1.rng h], ?_, ?_⟩
  · intro k s p hs hp
    rcases Nat.lt_or_ge k ss.length with hk | hk
    · rw [List.getElem?_append_left hk] at hs
      rw [List.getElem?_append_left (by rw [h1.length]; exact hk)] at hp
      exact h1.losses k s p hs hp
    · rw [List.getElem?_append_right hk] at hs
      rw [List.getElem?_append_right (by rw [h1.length]; exact hk), h1.length] at hp
      have := h2.losses (k - ss.length) s p hs hp
      rwa [h1.idx, show st.idx + ss.length + (k - ss.length) = st.idx + k by omega] at this
  · intro s hs
    rcases List.mem_append.mp hs with hs | hs
    · exact h1.range s hs
    · exact h2.range s hs

theorem wrote_chain {G : TorchGen σ} {N : Net W K} {view : W → V} {g φ : V → List K → List K} {T : Torch K τ} {cfg : Cfg K}
    {C total : Nat} {r : Ready (List K)} {S : Nat → St W σ τ}
    {B U : Nat → List Nat} {b : Nat → Batch K} {o : Nat → Goal K} : ∀ {n : Nat},
    (∀ t < n, Did G N view g φ T cfg C total r (S t) (S (t + 1)) (B t) (U t) (b t) (o t)) →
    ∃ obs, Wrote N view g φ T cfg C total (S 0) (S n) ((List.range n).map b) obs
  | 0, _ => ⟨[], fun _ _ => by simp, rfl, by simp, fun _ => rfl, by simp, by simp⟩
  | n + 1, h => by
    obtain ⟨obs, h1⟩ := wrote_chain (n := n) (fun t ht => h t (by omega))
    have hn := h n (by omega)
    refine ⟨obs ++ [(view (S n).w, o n)], ?_⟩
    rw [List.range_succ, List.map_append, List.map_singleton]
    refine h1.append ⟨fun L hL => by rw [hn.step, hL.step], rfl, by simp [hn.idx], hn.rng, ?_, ?_⟩
    · intro k s p hs hp
      cases k with
      | zero =>
        simp only [List.getElem?_cons_zero, Option.some.injEq] at hs hp
        subst hs hp
        exact hn.loss
      | succ k => simp at hs
    · intro s hs
      rw [List.mem_singleton] at hs
      subst hs
      exact hn.range

theorem epoch_ok {G : TorchGen σ} {N : Net W K} {view : W → V} {g φ hd : V → List K → List K} {C F D : Nat} {T : Torch K τ}
    {cfg : Cfg K} {r : Ready (List K)} (hS : Started G N view g φ hd C F D T cfg r) {st st' : St W σ τ} (h : epoch G N T cfg r st = (st', .ok ())) :
    ∃ ep obs bl bu, ep.length = stepsPerEpoch r cfg ∧
      Wrote N view g φ T cfg C (cfg.maxEpochs.toNat * stepsPerEpoch r cfg) st st' ep obs ∧
      Deep.Spec.EpochOf r.xl r.yl (r.xw.map (·.1)) r.xs bl bu ep ∧
      Deep.Spec.FairEpoch r.xl.length cfg.batchSize.toNat bl ∧ Deep.Spec.FairEpoch r.xw.length cfg.batchSize.toNat bu := by
  unfold epoch at h
  generalize htot : cfg.maxEpochs.toNat * stepsPerEpoch r cfg = total at h
  generalize hn : stepsPerEpoch r cfg = n at h
  obtain ⟨S, s0, sn, hst⟩ := rounds_ok h
  have hb : 0 < cfg.batchSize.toNat := by have := hS.batch; omega
  have hinv : ∀ t ≤ n, Inv r.xl.length r.xw.length cfg.batchSize.toNat (S t) := by
    intro t
    induction t with
    | zero => intro _; rw [s0]; exact inv_nil
    | succ t ih =>
      intro ht
      rcases round_row hS.lawful hS.row hS.softmax hS.beta hS.temperature hS.batch (total := total) hS.labels hS.labeled hS.views
        hS.unlabeled hS.wide (ih (by omega)) with ⟨st', e, y, e1, -⟩ | ⟨st', B, U, s, o, e1, -, hi⟩
      · rw [hst t (by omega)] at e1; cases e1
      · rw [hst t (by omega)] at e1
        simp only [Prod.mk.injEq, and_true] at e1
        rw [e1]
        exact hi
  have hdid : ∀ t, ∃ (B U : List Nat) (s : Batch K) (o : Goal K), t < n →
      Did G N view g φ T cfg C total r (S t) (S (t + 1)) B U s o := by
    intro t
    by_cases ht : t < n
    · rcases round_row hS.lawful hS.row hS.softmax hS.beta hS.temperature hS.batch (total := total) hS.labels hS.labeled hS.views
        hS.unlabeled hS.wide (hinv t (by omega)) with ⟨st', e, y, e1, -⟩ | ⟨st', B, U, s, o, e1, hd, -⟩
      · rw [hst t ht] at e1; cases e1
      · rw [hst t ht] at e1
        simp only [Prod.mk.injEq, and_true] at e1
        rw [← e1] at hd
        exact ⟨B, U, s, o, fun _ => hd⟩
    · exact ⟨[], [], ⟨[], [], [], []⟩, ⟨false, [], [], 0⟩, fun h => absurd h ht⟩
  choose B U b o hdid using hdid
  obtain ⟨obs, hw⟩ := wrote_chain (n := n) hdid
  have f1 := cycle_fair hS.lawful (b := cfg.batchSize.toNat) (steps := n) hS.labeled hb
    (by rw [← hn]; unfold stepsPerEpoch numBatches; omega) (P := fun t => (S t).pl) (B := B) (g := fun t => (S t).gl)
    (by simp only [s0]) (fun t ht => (hdid t ht).labeled)
  have f2 := cycle_fair hS.lawful (b := cfg.batchSize.toNat) (steps := n) hS.unlabeled hb
    (by rw [← hn]; unfold stepsPerEpoch numBatches; omega) (P := fun t => (S t).pu) (B := U) (g := fun t => (S t).gu)
    (by simp only [s0]) (fun t ht => (hdid t ht).unlabeled)
  refine ⟨(List.range n).map b, obs, (List.range n).map B, (List.range n).map U, by simp [hn], ?_, ⟨by simp, by simp, ?_⟩, f1, f2⟩
  · rw [s0, sn] at hw
    exact ⟨hw.log, hw.length, hw.idx, hw.rng, hw.losses, hw.range⟩
  · intro t ht
    have ht' : t < n := by simpa using ht
    rw [List.getD_eq_getElem _ _ (by simpa using ht'), List.getD_eq_getElem _ _ (by simpa using ht')]
    simp only [List.getElem_map, List.getElem_range]
    exact (hdid t ht').rows

theorem steps_ceil {cfg : Cfg K} {r : Ready (List K)} (hb : 0 < cfg.batchSize) (h1 : 0 < r.xl.length) (h2 : 0 < r.xw.length) :
    (stepsPerEpoch r cfg : Int) = max ⌈(r.xl.length : ℚ) / cfg.batchSize⌉ ⌈(r.xw.length : ℚ) / cfg.batchSize⌉ := by
  unfold stepsPerEpoch
  rw [Nat.cast_max, Dct.numBatches_ceil hb _ h1, Dct.numBatches_ceil hb _ h2]

theorem epochs_ok {G : TorchGen σ} {N : Net W K} {view : W → V} {g φ hd : V → List K → List K} {C F D : Nat} {T : Torch K τ}
    {cfg : Cfg K} {r : Ready (List K)} (hS : Started G N view g φ hd C F D T cfg r) : ∀ {e : Nat} {st st' : St W σ τ}, rounds (epoch G N T cfg r) e st = (st', .ok ()) →
    ∃ (eps : List (List (Batch K))) (obs : List (V × Goal K)), Wrote N view g φ T cfg C (cfg.maxEpochs.toNat * stepsPerEpoch r cfg) st st' eps.flatten obs ∧
      eps.length = e ∧ ∀ ep ∈ eps, ep.length = stepsPerEpoch r cfg ∧
        ∃ bl bu, Deep.Spec.EpochOf r.xl r.yl (r.xw.map (·.1)) r.xs bl bu ep ∧
          Deep.Spec.FairEpoch r.xl.length cfg.batchSize.toNat bl ∧ Deep.Spec.FairEpoch r.xw.length cfg.batchSize.toNat bu
  | 0, st, st', h => by
    simp only [rounds, Prod.mk.injEq, and_true] at h
    subst h
    exact ⟨[], [], ⟨fun _ _ => by simp, rfl, by simp, fun _ => rfl, by simp, by simp⟩, rfl, by simp⟩
  | e + 1, st, st', h => by
    simp only [rounds] at h
    cases h1 : epoch G N T cfg r st with
    | mk st1 res =>
    rw [h1] at h
    cases res with
    | error e => cases h
    | ok u =>
      obtain ⟨ep, obs, bl, bu, q1, q2, q3, q4, q5⟩ := epoch_ok hS h1
      obtain ⟨eps, obs', w1, w2, w3⟩ := epochs_ok hS (e := e) h
      refine ⟨ep :: eps, obs ++ obs', by rw [List.flatten_cons]; exact q2.append w1, by simp [w2], ?_⟩
      intro ep' hep
      rcases List.mem_cons.mp hep with rfl | hep
      · exact ⟨q1, bl, bu, q3, q4, q5⟩
      · exact w3 ep' hep

theorem numbered_fst {X : Type} (xs : List X) : (numbered xs).map (·.1) = xs := by
  unfold numbered
  rw [List.map_fst_zip (by simp)]

theorem started_of {G : TorchGen σ} (hG : G.Lawful) {N : Net W K} {view : W → V} {g φ hd : V → List K → List K} {C F D : Nat}
    (hN : Rowwise N view g φ hd C F) {T : Torch K τ} (hsm : ∀ r, (T.softmax r).length = r.length) (hB : BetaLaw T.beta)
    {torch : Bool} {cfg : Cfg K} {bundle : Option Bundle} {d : Input (List K)} {xw xs : Feats (List K)}
    (hA : Acceptable torch cfg bundle d xw xs) (hD : Wide D d) :
    Started G N view g φ hd C F D T cfg ⟨d.xl.rows, d.yl, numbered xw.rows, xs.rows⟩ := by
  refine ⟨hG, hN, hsm, hB, hA.temperature, hA.batch, hA.rows, List.length_pos_iff.mpr hA.nonempty, ?_, ?_, hD.1, ?_,
    hD.2.2 xs hA.strong⟩
  · rw [numbered_length]; exact hA.views
  · rw [numbered_length]; exact List.length_pos_iff.mpr hA.unlabeled
  · intro x hx
    have : x.1 ∈ (numbered xw.rows).map (·.1) := List.mem_map_of_mem hx
    rw [numbered_fst] at this
    exact hD.2.1 xw hA.weak _ this

theorem fit_ok {G : TorchGen σ} {N : Net W K} {T : Torch K τ} {torch : Bool} {cfg : Cfg K} {bundle : Option Bundle}
    {data : Option (Input (List K))} {seed : Int} {fitted : Bool} {w : W} {rng : τ} {r : Bool × W × τ} :
    fit G N T torch cfg bundle data seed fitted w rng = (r, .ok ()) ↔
    ∃ d xw xs st, data = some d ∧ Acceptable torch cfg bundle d xw xs ∧
      rounds (epoch G N T cfg ⟨d.xl.rows, d.yl, numbered xw.rows, xs.rows⟩) cfg.maxEpochs.toNat
        ⟨N.train w, G.manualSeed seed, [], G.manualSeed (seed + 1), [], 0, rng⟩ = (st, .ok ()) ∧ r = (true, st.w, st.rng) := by
  unfold fit
  constructor
  · intro h
    cases hc : check torch cfg bundle data with
    | error e => rw [hc] at h; cases h
    | ok k =>
    rw [hc] at h
    obtain ⟨d, xw, xs, rfl, hA, rfl⟩ := check_ok.mp hc
    simp only at h
    refine ⟨d, xw, xs, ?_⟩
    cases hr : rounds (epoch G N T cfg ⟨d.xl.rows, d.yl, numbered xw.rows, xs.rows⟩) cfg.maxEpochs.toNat
        ⟨N.train w, G.manualSeed seed, [], G.manualSeed (seed + 1), [], 0, rng⟩ with
    | mk st res =>
    rw [hr] at h
    cases res with
    | error e => cases h
    | ok u =>
      simp only [Prod.mk.injEq, and_true] at h
      exact ⟨st, rfl, hA, rfl, h.symm⟩
  · rintro ⟨d, xw, xs, st, rfl, hA, hr, rfl⟩
    rw [check_ok.mpr ⟨d, xw, xs, rfl, hA, rfl⟩]
    simp only [hr]

theorem fit_epochs {G : TorchGen σ} (hG : G.Lawful) {N : Net W K} {view : W → V} {g φ hd : V → List K → List K} {C F D : Nat}
    (hN : Rowwise N view g φ hd C F) {T : Torch K τ}
    (hsm : ∀ r, (T.softmax r).length = r.length) (hB : BetaLaw T.beta) {torch : Bool} {cfg : Cfg K} {bundle : Option Bundle}
    {d : Input (List K)} {xw xs : Feats (List K)} (hA : Acceptable torch cfg bundle d xw xs) (hD : Wide D d) {seed : Int}
    {w : W} {rng : τ} {st : St W σ τ}
    (hr : rounds (epoch G N T cfg ⟨d.xl.rows, d.yl, numbered xw.rows, xs.rows⟩) cfg.maxEpochs.toNat
      ⟨N.train w, G.manualSeed seed, [], G.manualSeed (seed + 1), [], 0, rng⟩ = (st, .ok ())) :
    ∃ eps obs, Epochs d.xl.rows d.yl xw.rows xs.rows cfg.batchSize cfg.maxEpochs eps ∧
      Wrote N view g φ T cfg C eps.flatten.length
        ⟨N.train w, G.manualSeed seed, [], G.manualSeed (seed + 1), [], 0, rng⟩ st eps.flatten obs := by
  have hS := started_of hG hN hsm hB hA hD
  obtain ⟨eps, obs, h1, h2, h3⟩ := epochs_ok hS hr
  have hlen : eps.flatten.length = cfg.maxEpochs.toNat * stepsPerEpoch ⟨d.xl.rows, d.yl, numbered xw.rows, xs.rows⟩ cfg := by
    rw [← h2, List.length_flatten]
    have : eps.map List.length = List.replicate eps.length
        (stepsPerEpoch ⟨d.xl.rows, d.yl, numbered xw.rows, xs.rows⟩ cfg) := by
      rw [List.eq_replicate_iff]
      refine ⟨by simp, fun n hn => ?_⟩
      obtain ⟨ep, hep, rfl⟩ := List.mem_map.mp hn
      exact (h3 ep hep).1
    rw [this]
    simp
  refine ⟨eps, obs, ⟨?_, ?_⟩, by rw [hlen]; exact h1⟩
  · have := hA.epochs; omega
  · intro ep hep
    obtain ⟨a1, bl, bu, a2, a3, a4⟩ := h3 ep hep
    simp only [numbered_length, numbered_fst] at a2 a4
    refine ⟨?_, bl, bu, a2, a3, a4⟩
    rw [a1, steps_ceil hS.batch hS.labeled hS.unlabeled]
    simp only [numbered_length]

/-- Every label is in some batch. -/
theorem Epochs.visits {xl : List (List K)} {yl : List Int} {xw xs : List (List K)} {b e : Int} {eps : List (List (Batch K))}
    (hE : Epochs xl yl xw xs b e eps) (he : 0 < e) (hr : xl.length = yl.length) (y : Int) (hy : y ∈ yl) :
    ∃ s ∈ eps.flatten, y ∈ s.yl := by
  obtain ⟨i, hi, rfl⟩ := List.getElem_of_mem hy
  have hn : 0 < eps.length := by have := hE.number; omega
  obtain ⟨ep, hep⟩ : ∃ ep, ep ∈ eps := ⟨_, List.getElem_mem hn⟩
  obtain ⟨-, bl, bu, h1, h2, -⟩ := hE.each ep hep
  have hmem : i ∈ bl.flatten := List.count_pos_iff.mp (h2.covers i (by omega))
  obtain ⟨B, hB, hiB⟩ := List.mem_flatten.mp hmem
  obtain ⟨t, ht, rfl⟩ := List.getElem_of_mem hB
  have ht' : t < ep.length := by rw [← h1.len_l]; exact ht
  obtain ⟨-, r2, -⟩ := h1.rows t ht'
  refine ⟨ep[t], List.mem_flatten.mpr ⟨ep, hep, List.getElem_mem ht'⟩, ?_⟩
  rw [List.getD_eq_getElem _ _ ht] at r2
  have h3 : some yl[i] ∈ (ep[t].yl).map some := by
    rw [r2, List.mem_map]
    exact ⟨i, hiB, by rw [List.getElem?_eq_getElem hi]⟩
  simpa using h3

/-- **C174 (training).**  A network treating every row by itself: a successful `fit` made one optimizer step for every batch
of its fair epochs, although the labeled batches and the permutations of MixUp are drawn from the same generator.  The loss
of the step was that of the specification, for the network as it was just before the step (and for its number among all
steps). -/
theorem C174_training (G : TorchGen σ) (hG : G.Lawful) (N : Net W K) (view : W → V) (g φ hd : V → List K → List K)
    (C F D : Nat) (hN : Rowwise N view g φ hd C F) (log : W → List (V × Goal K)) (hL : Logs N view log) (T : Torch K τ)
    (hsm : ∀ r, (T.softmax r).length = r.length) (hB : BetaLaw T.beta) (torch : Bool) (cfg : Cfg K) (bundle : Option Bundle)
    (data : Option (Input (List K))) (hD : ∀ d, data = some d → Wide D d) (seed : Int) (fitted fitted' : Bool) (w w' : W)
    (rng rng' : τ) (h : fit G N T torch cfg bundle data seed fitted w rng = ((fitted', w', rng'), .ok ())) :
    fitted' = true ∧ ∃ d xw xs eps obs, data = some d ∧ Acceptable torch cfg bundle d xw xs ∧
      Epochs d.xl.rows d.yl xw.rows xs.rows cfg.batchSize cfg.maxEpochs eps ∧ log w' = log w ++ obs ∧
      obs.length = eps.flatten.length ∧ ∀ k s p, eps.flatten[k]? = some s → obs[k]? = some p →
        Loss T cfg C eps.flatten.length k (g p.1) (φ p.1) s p.2 := by
  obtain ⟨d, xw, xs, st, rfl, hA, hr, hres⟩ := fit_ok.mp h
  simp only [Prod.mk.injEq] at hres
  obtain ⟨rfl, rfl, rfl⟩ := hres
  obtain ⟨eps, obs, hE, hW⟩ := fit_epochs hG hN hsm hB hA (hD d rfl) hr
  refine ⟨rfl, d, xw, xs, eps, obs, rfl, hA, hE, by rw [hW.log log hL, hL.train], hW.length, fun k s p hs hp => ?_⟩
  have := hW.losses k s p hs hp
  rwa [Nat.zero_add] at this

/-- **C174 (accepts).**  Row-wise networks: `fit` succeeds exactly for acceptable data with labels among the classes. -/
theorem C174_accepts (G : TorchGen σ) (hG : G.Lawful) (N : Net W K) (view : W → V) (g φ hd : V → List K → List K)
    (C F D : Nat) (hN : Rowwise N view g φ hd C F) (T : Torch K τ) (hsm : ∀ r, (T.softmax r).length = r.length)
    (hB : BetaLaw T.beta) (torch : Bool) (cfg : Cfg K) (bundle : Option Bundle) (data : Option (Input (List K)))
    (hD : ∀ d, data = some d → Wide D d) (seed : Int) (fitted : Bool) (w : W) (rng : τ) :
    (∃ r, fit G N T torch cfg bundle data seed fitted w rng = (r, .ok ())) ↔
    ∃ d xw xs, data = some d ∧ Acceptable torch cfg bundle d xw xs ∧ ∀ y ∈ d.yl, 0 ≤ y ∧ y < (C : Int) := by
  constructor
  · rintro ⟨r, h⟩
    obtain ⟨d, xw, xs, st, rfl, hA, hr, -⟩ := fit_ok.mp h
    refine ⟨d, xw, xs, rfl, hA, fun y hy => ?_⟩
    obtain ⟨eps, obs, hE, hW⟩ := fit_epochs hG hN hsm hB hA (hD d rfl) hr
    obtain ⟨s, hs, hys⟩ := Epochs.visits hE hA.epochs hA.rows y hy
    exact hW.range s hs y hys
  · rintro ⟨d, xw, xs, rfl, hA, hy⟩
    have hS := started_of hG hN hsm hB hA (hD d rfl)
    obtain ⟨st, hr, -⟩ := rounds_total (f := epoch G N T cfg ⟨d.xl.rows, d.yl, numbered xw.rows, xs.rows⟩) (I := fun _ => True)
      (fun st _ => by
        obtain ⟨st', h1, -⟩ := rounds_total (I := Inv (W := W) (σ := σ) (τ := τ) d.xl.rows.length (numbered xw.rows).length cfg.batchSize.toNat)
          (f := round G N T cfg ⟨d.xl.rows, d.yl, numbered xw.rows, xs.rows⟩
            (cfg.maxEpochs.toNat * stepsPerEpoch ⟨d.xl.rows, d.yl, numbered xw.rows, xs.rows⟩ cfg))
          (fun st hI => by
            rcases round_row hS.lawful hS.row hS.softmax hS.beta hS.temperature hS.batch
              (total := cfg.maxEpochs.toNat * stepsPerEpoch ⟨d.xl.rows, d.yl, numbered xw.rows, xs.rows⟩ cfg) hS.labels
              hS.labeled hS.views hS.unlabeled hS.wide hI with ⟨st', e, y, e1, e2, e3⟩ | ⟨st', B, U, s, o, e1, -, hi⟩
            · exact absurd (hy y e2) e3
            · exact ⟨st', e1, hi⟩)
          (n := stepsPerEpoch ⟨d.xl.rows, d.yl, numbered xw.rows, xs.rows⟩ cfg) (inv_nil (st := st))
        exact ⟨st', h1, trivial⟩)
      (n := cfg.maxEpochs.toNat) (st := ⟨N.train w, G.manualSeed seed, [], G.manualSeed (seed + 1), [], 0, rng⟩) trivial
    exact ⟨_, fit_ok.mpr ⟨d, xw, xs, st, rfl, hA, hr, rfl⟩⟩

/-! ### The global generator -/

/-- A function of the state that neither reads nor changes the global generator. -/
def Local (f : St W σ τ → St W σ τ × Except PyErr Unit) : Prop :=
  ∀ st r, f { st with rng := r } = ({ (f st).1 with rng := r }, (f st).2)

theorem mixup_local (G : TorchGen σ) {beta : K → τ → Nat → List K × τ} {alpha : K} (h : alpha ≤ 0) (X Y : List (List K)) (g : σ)
    (r r' : τ) : mixup G beta alpha X Y g r' =
      (mixup G beta alpha X Y g r).map fun m => (m.1, m.2.1, r') := by
  unfold mixup
  by_cases h1 : X.length ≠ Y.length
  · rw [if_pos h1, if_pos h1]; rfl
  · rw [if_neg h1, if_neg h1]
    by_cases h2 : X.length = 0
    · rw [if_pos h2, if_pos h2]; rfl
    · rw [if_neg h2, if_neg h2]
      simp only [if_pos h]
      rfl

theorem mixup_rng (G : TorchGen σ) {beta : K → τ → Nat → List K × τ} {alpha : K} (h : alpha ≤ 0) {X Y : List (List K)} {g : σ}
    {r : τ} {m : (List (List K) × List (List K)) × σ × τ} (hm : mixup G beta alpha X Y g r = .ok m) : m.2.2 = r := by
  have := mixup_local G (beta := beta) h X Y g r r
  rw [hm] at this
  simp only [Except.map, Except.ok.injEq] at this
  rw [this]

theorem learn_local (G : TorchGen σ) (N : Net W K) (T : Torch K τ) {cfg : Cfg K} (h : cfg.alpha ≤ 0) (total : Nat)
    (xl : List (List K)) (yl : List Int) (xw xs : List (List K)) : Local fun st => learn G N T cfg total st xl yl xw xs := by
  intro st r
  simp only [learn]
  cases guesses T cfg yl (N.glance st.w xw).1 (N.glance (N.glance st.w xw).2 xs).1 with
  | error e => rfl
  | ok p =>
    simp only
    rw [mixup_local G h _ _ st.gl st.rng r]
    generalize mixup G T.beta cfg.alpha _ _ st.gl st.rng = m
    cases m with
    | error e => rfl
    | ok m =>
      simp only [Except.map]
      by_cases h1 : (if cfg.manifold = true then
          N.head (inputs N cfg.manifold (N.glance (N.glance st.w xw).2 xs).2 xl xw xs).2 m.1.1
        else N.forward (inputs N cfg.manifold (N.glance (N.glance st.w xw).2 xs).2 xl xw xs).2 m.1.1).1.ndim ≠ 2
      · rw [if_pos h1, if_pos h1]
      · rw [if_neg h1, if_neg h1]
        split_ifs <;> rfl

theorem round_local (G : TorchGen σ) (N : Net W K) (T : Torch K τ) {cfg : Cfg K} (h : cfg.alpha ≤ 0) (r : Ready (List K))
    (total : Nat) : Local (round G N T cfg r total) := by
  intro st q
  unfold round
  cases cycleNext G r.xl.length cfg.batchSize.toNat st.pl st.gl with
  | error e => rfl
  | ok l =>
    simp only
    cases cycleNext G r.xw.length cfg.batchSize.toNat st.pu st.gu with
    | error e => rfl
    | ok u =>
      simp only
      cases rowsOf r l.1 u.1 with
      | error e => rfl
      | ok b => exact learn_local G N T h total _ _ _ _ { st with pl := l.2.1, gl := l.2.2, pu := u.2.1, gu := u.2.2 } q

theorem rounds_local {f : St W σ τ → St W σ τ × Except PyErr Unit} (hf : Local f) : ∀ n, Local (rounds f n)
  | 0 => fun _ _ => rfl
  | n + 1 => by
    intro st q
    simp only [rounds]
    rw [hf st q]
    cases hst : f st with
    | mk st1 res =>
      cases res with
      | error e => rfl
      | ok u => exact rounds_local hf n st1 q

/-- **C174 (global generator).**  With `mixup_alpha` 0 the global generator of torch does not matter and is not used: all
that `fit` does, for every network, depends on its arguments alone. -/
theorem C174_global (G : TorchGen σ) (N : Net W K) (T : Torch K τ) (torch : Bool) (cfg : Cfg K) (h : cfg.alpha = 0)
    (bundle : Option Bundle) (data : Option (Input (List K))) (seed : Int) (fitted : Bool) (w : W) :
    ∃ fitted' w' res, ∀ rng, fit G N T torch cfg bundle data seed fitted w rng = ((fitted', w', rng), res) := by
  unfold fit
  cases check torch cfg bundle data with
  | error e => exact ⟨fitted, w, .error e, fun _ => rfl⟩
  | ok r =>
    simp only
    have hloc : Local (epoch G N T cfg r) := by
      intro st q
      exact rounds_local (round_local G N T h.le r _) _ { st with pl := [], pu := [] } q
    have key := rounds_local hloc cfg.maxEpochs.toNat
    by_cases hne : Nonempty τ
    · obtain ⟨r0⟩ := hne
      cases hr : rounds (epoch G N T cfg r) cfg.maxEpochs.toNat
        ⟨N.train w, G.manualSeed seed, [], G.manualSeed (seed + 1), [], 0, r0⟩ with
      | mk st res =>
      have k : ∀ q, rounds (epoch G N T cfg r) cfg.maxEpochs.toNat
          ⟨N.train w, G.manualSeed seed, [], G.manualSeed (seed + 1), [], 0, q⟩ = ({ st with rng := q }, res) := by
        intro q
        have := key ⟨N.train w, G.manualSeed seed, [], G.manualSeed (seed + 1), [], 0, r0⟩ q
        rw [hr] at this
        exact this
      cases res with
      | error e => exact ⟨fitted, st.w, .error e, fun q => by rw [k q]⟩
      | ok u => exact ⟨true, st.w, .ok (), fun q => by rw [k q]⟩
    · exact ⟨fitted, w, .ok (), fun q => absurd ⟨q⟩ hne⟩

/-! ### A concrete instance -/

/-- What the demo network has done. -/
abbrev DemoW := Nat × List (Nat × Goal Rat)

/-- A network that changes with every step. -/
def demoNet : Net DemoW Rat where
  train w := w
  glance w xs := (⟨2, 2, xs.map fun r => [r.getD 0 0 + w.1, r.getD 1 0]⟩, w)
  forward w xs := (⟨2, 2, xs.map fun r => [r.getD 0 0 + w.1, r.getD 1 0]⟩, w)
  features w xs := (xs.map fun r => [r.getD 0 0 + r.getD 1 0, w.1, 1], w)
  head w xs := (⟨2, 2, xs.map fun r => [r.getD 0 0, r.getD 1 0]⟩, w)
  step w o := (w.1 + 1, w.2 ++ [(w.1, o)])

theorem demo_row : Rowwise demoNet Prod.fst (fun w r => [r.getD 0 0 + (w : Rat), r.getD 1 0])
    (fun w r => [r.getD 0 0 + r.getD 1 0, (w : Rat), 1]) (fun _ r => [r.getD 0 0, r.getD 1 0]) 2 3 :=
  ⟨fun _ _ => rfl, fun _ _ => rfl, fun _ _ => rfl, fun _ _ => rfl, fun _ _ => rfl, fun _ _ => rfl⟩

theorem demo_logs : Logs demoNet Prod.fst Prod.snd := ⟨fun _ => rfl, fun _ _ => rfl⟩

/-- The global generator is a number here, which decides the samples. -/
def demoT : Torch Rat Nat where
  softmax := Fit.demoTorch.softmax
  pow := fun x _ => x * x
  beta := fun _ g n => ((List.range n).map fun i => if (g + i) % 2 = 0 then 1 / 4 else 1, g + n)

theorem demo_beta : BetaLaw demoT.beta := by
  intro a g n _
  refine ⟨by simp [demoT], fun x hx => ?_⟩
  simp only [demoT, List.mem_map] at hx
  obtain ⟨i, -, rfl⟩ := hx
  split <;> norm_num

/-- The demo parameters. -/
def demoCfg (alpha : Rat) (manifold : Bool) : Cfg Rat := ⟨75, 1 / 2, alpha, 1 / 2, manifold, 2, 2⟩

/-- The demo data. -/
def demoData : Input (List Rat) :=
  { xl := ⟨[[0, 1], [2, 3], [4, 5]], true⟩, yl := [0, 1, 1], yDims := 1, yInt64 := true,
    xw := some ⟨[[1, 1], [2, 2], [3, 3]], true⟩, xs := some ⟨[[1, 2], [2, 3], [3, 4]], true⟩ }

/-- `fit` of the demo network. -/
def demoFit (cfg : Cfg Rat) (data : Option (Input (List Rat))) (rng : Nat) :=
  fit TorchGen.demo demoNet demoT true cfg (some ⟨true, true⟩) data 0 false (1, []) rng

theorem demo_acceptable (m : Bool) (alpha : Rat) (ha : 0 ≤ alpha) : Acceptable true (demoCfg alpha m) (some ⟨true, true⟩) demoData
    ⟨[[1, 1], [2, 2], [3, 3]], true⟩ ⟨[[1, 2], [2, 3], [3, 4]], true⟩ :=
  ⟨rfl, rfl, ⟨rfl, rfl⟩, by decide, rfl, rfl, by decide, rfl, ⟨rfl, rfl, rfl⟩, ⟨_, rfl, rfl, rfl⟩, (by decide : (0 : Int) < 2),
    (by decide : (0 : Int) < 2), by norm_num [demoCfg], by norm_num [demoCfg], ha, by norm_num [demoCfg]⟩

theorem demo_wide : Wide 2 demoData := by
  refine ⟨by decide, ?_, ?_⟩
  · rintro x hx
    cases hx
    decide
  · rintro x hx
    cases hx
    decide

example (m : Bool) (alpha : Rat) (ha : 0 ≤ alpha) (rng : Nat) : ∃ r, demoFit (demoCfg alpha m) (some demoData) rng = (r, .ok ()) :=
  (C174_accepts TorchGen.demo TorchGen.demo_lawful demoNet _ _ _ _ 2 3 2 demo_row demoT (by simp [demoT, Fit.demoTorch])
    demo_beta true _ _ _ (by rintro d ⟨⟩; exact demo_wide) 0 _ _ rng).mpr
    ⟨_, _, _, rfl, demo_acceptable m alpha ha, by decide⟩

/-- Two steps in each of two epochs; the rows of the loss are mixed. -/
example : (demoFit (demoCfg 1 false) (some demoData) 0).1.2.1.2.length = 4 ∧
    (demoFit (demoCfg 1 false) (some demoData) 0).1.2.1.2.map (·.2.scale) = [0, 75 / 2, 75, 75] ∧
    ((demoFit (demoCfg 1 false) (some demoData) 0).1.2.1.2.any fun p =>
      p.2.labeled.any fun x => decide (x.1 ∉ demoData.xl.rows)) = true := by
  decide +kernel

example : ∃ e, demoFit ⟨75, 0, 1, 1 / 2, false, 2, 2⟩ (some demoData) 3 = ((false, (1, []), 3), .error e) :=
  C174_refused TorchGen.demo demoNet demoT true ⟨75, 0, 1, 1 / 2, false, 2, 2⟩ (some ⟨true, true⟩)
    (some demoData) 0 false (1, []) 3 (fun _ _ _ _ h => absurd h.temperature (by decide))

/-- **C174 (seed), violated.**  With mixing, the seed does not fix the training: with one and the same seed, data, network and
parameters, two states of torch's global generator lead to two different sequences of losses. -/
theorem C174_seed_violated : ¬ ∀ (T : Torch Rat Nat) (_ : BetaLaw T.beta) (cfg : Cfg Rat) (data : Input (List Rat)) (seed : Int)
    (rng rng' : Nat), (fit TorchGen.demo demoNet T true cfg (some ⟨true, true⟩) (some data) seed false (1, []) rng).1.2.1 =
      (fit TorchGen.demo demoNet T true cfg (some ⟨true, true⟩) (some data) seed false (1, []) rng').1.2.1 := by
  intro h
  have := h demoT demo_beta (demoCfg 1 false) demoData 0 0 1
  revert this
  decide +kernel

end ModSSC.Deep.Mix
