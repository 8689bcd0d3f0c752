import Verif.Deep.CoFitModel
import Verif.Deep.CoProps
import Verif.Deep.AdaptFitProps
import Verif.Deep.DefixProps

/-!
# C180 — training with CoMatch
-/

/-! ### Specification -/

namespace ModSSC.Deep.CoFit.Spec
open ModSSC ModSSC.Deep ModSSC.Deep.Fit
open ModSSC.Deep.Spec

variable {X W V K : Type} [Field K] [LinearOrder K]

/-- The entry of `views` under the first name in a list that is present. -/
inductive FirstOf (views : List (String × Wide X)) : List String → Wide X → Prop
  | here (k : String) (ks : List String) (v : Wide X) : views.lookup k = some v → FirstOf views (k :: ks) v
  | later (k : String) (ks : List String) (v : Wide X) : views.lookup k = none → FirstOf views ks v → FirstOf views (k :: ks) v

/-- What `fit` asks for. -/
structure Acceptable (torch : Bool) (cfg : CCfg K) (bundle : Option Bundle) (d : CInput X) (xw s0 s1 : Wide X) : Prop where
  torch : torch = true
  rows : d.xl.rows.length = d.yl.length
  labels : d.yDims = 1 ∧ d.yInt64 = true
  nonempty : d.xl.rows ≠ []
  weak : d.xw = some xw
  strong : d.xs = some s0 ∨ (d.xs = none ∧ FirstOf d.views ["X_u_s0", "X_u_s_0", "X_u_s", "X_u_strong0"] s0)
  second : FirstOf d.views ["X_u_s1", "X_u_s_1", "X_u_strong1", "X_u_s2", "X_u_s_2"] s1
  unlabeled : xw.rows ≠ []
  views : s0.rows.length = xw.rows.length ∧ s1.rows.length = xw.rows.length
  widths : s0.width = xw.width ∧ s1.width = xw.width
  floats : d.xl.float = true ∧ xw.float = true ∧ s0.float = true ∧ s1.float = true
  bundle : ∃ b, bundle = some b ∧ b.valid = true ∧ b.placed = true
  batch : 0 < cfg.batchSize
  epochs : 0 < cfg.maxEpochs
  lambdas : 0 ≤ cfg.lambdaU ∧ 0 ≤ cfg.lambdaC
  cutoff : 0 ≤ cfg.cutoff ∧ cfg.cutoff ≤ 1
  temp : 0 < cfg.temp
  contrast : 0 ≤ cfg.contrast ∧ cfg.contrast ≤ 1
  alpha : 0 ≤ cfg.alpha ∧ cfg.alpha ≤ 1
  queue : 0 ≤ cfg.minFill ∧ cfg.minFill ≤ cfg.queueSize
  window : 0 ≤ cfg.daLen

/-- The epochs are fair (`C106_epochs`). -/
structure Epochs (xl : List X) (yl : List Int) (xw : List X) (xs : List (X × X)) (b e : Int) (eps : List (List (CBatch X))) :
    Prop where
  number : (eps.length : Int) = e
  each : ∀ ep ∈ eps, (ep.length : Int) = max ⌈(xl.length : ℚ) / b⌉ ⌈(xw.length : ℚ) / b⌉ ∧
    ∃ bl bu, Deep.Spec.EpochOf xl yl xw xs bl bu ep ∧ Deep.Spec.FairEpoch xl.length b.toNat bl ∧
      Deep.Spec.FairEpoch xw.length b.toNat bu

/-- `log` records the optimizer steps of a network: what the network was (as far as `view` sees it) and the loss. -/
structure Logs (N : CNet X W K) (view : W → V) (log : W → List (V × CObjective X K)) : Prop where
  train : ∀ w, log (N.train w) = log w
  step : ∀ w o, log (N.step w o) = log w ++ [(view w, o)]

/-- A network without batch norm and dropout: each row is treated by itself, `g` giving its logits over `C` classes and `h` its
`D` features, and nothing is changed. -/
def Rowwise (N : CNet X W K) (view : W → V) (g h : V → X → List K) (C D : Nat) : Prop :=
  ∀ w xs, N.forward w xs = (⟨true, ⟨2, C, xs.map (g (view w))⟩, ⟨2, D, xs.map (h (view w))⟩⟩, w)

/-- One step: the batch, the network and the loss. -/
abbrev CStepped (X V K : Type) := CBatch X × V × CObjective X K

/-- What the network says in a step: class probabilities of the weak views (at the temperature) and of the labeled rows, features of
both, and the labels. -/
def saidIn (softmax : List K → List K) (temp : K) (g h : V → X → List K) (p : CStepped X V K) : CoInput K :=
  ⟨p.1.xw.map fun x => softmax ((g p.2.1 x).map (· / temp)), p.1.xl.map fun x => softmax (g p.2.1 x),
    p.1.xw.map (h p.2.1), p.1.xl.map (h p.2.1), p.1.yl.map Int.toNat⟩

/-- `rows` are the pseudo-labels of step `t` of a training in which the network said `is` and the aligned predictions were `As`:
the aligned predictions of that step, mixed with what the memory proposes once it is filled far enough.  The memory holds the last
`queue_size` rows stored in earlier steps. -/
def IsPseudo (sqrt exp : K → K) (c : CoCfg K) (is : List (CoInput K)) (As : List (List (List K))) (t : Nat)
    (rows : List (List K)) : Prop :=
  ∃ i A, is[t]? = some i ∧ As[t]? = some A ∧ IsAligned c (is.take t) i A ∧
    ∃ M : List (CoRow K), M.Perm (lastN c.queueSize (((is.zip As).take t).map fun p =>
      (storedRows sqrt c.classes p.1 p.2).take c.queueSize).flatten) ∧ rows.length = i.probsU.length ∧
    ∀ (j : Nat) (a f : List K), A[j]? = some a → i.featsU[j]? = some f → ∃ p, rows[j]? = some p ∧ IsSubDist c.classes p ∧
      ∀ k < c.classes, p.getD k 0 = if M = [] ∨ M.length < c.minFill ∨ 1 ≤ c.alpha then a.getD k 0
        else c.alpha * a.getD k 0 + (1 - c.alpha) * memoryLabel exp c.temp M (unitRow sqrt f) k

/-- Agreement of the pseudo-labels of two samples: 1 for a sample with itself, else the inner product, 0 if below the threshold. -/
def agreement (threshold : K) (rows : List (List K)) (i j : Nat) : K :=
  if i = j then 1
  else if threshold ≤ dotRow (rows.getD i []) (rows.getD j []) then dotRow (rows.getD i []) (rows.getD j []) else 0

/-- The loss of a step with pseudo-labels `rows`: mean cross entropy of the labels; `lambda_u` times the mean, over the samples with a
confident pseudo-label, of the cross entropy of the first strong view with it; `lambda_c` times the mean over the samples of the
cross entropy between the similarities of their first strong view to all second strong views and the agreements of the
pseudo-labels, scaled to sum one. -/
structure CoLoss (cfg : CCfg K) (s : CBatch X) (rows : List (List K)) (o : CObjective X K) : Prop where
  labeled : o.labeled = (s.xl.zip s.yl).map fun p => (p.1, p.2, 1 / (s.yl.length : K))
  number : o.unlabeled.length = s.xw.length ∧ s.xs.length = s.xw.length ∧ rows.length = s.xw.length ∧
    o.pairs.length = s.xw.length
  term : ∀ (j : Nat) (t : Term X K), o.unlabeled[j]? = some t → ∃ x q r, s.xw[j]? = some x ∧ s.xs[j]? = some q ∧
    rows[j]? = some r ∧ t.weak = x ∧ t.strong = q.1 ∧
    (t.weight = if Confident cfg.cutoff r then 1 / ((rows.filter fun r => Confident cfg.cutoff r).length : K) else 0) ∧
    (cfg.hard = true → ∃ c, t.target = .hard c ∧ MostProbable r c) ∧ (cfg.hard = false → t.target = .soft r)
  pair : ∀ (i : Nat) (p : X × List (X × K)), o.pairs[i]? = some p → (s.xs[i]?).map (·.1) = some p.1 ∧
    p.2.length = s.xs.length ∧ ∀ (j : Nat) (q : X × K), p.2[j]? = some q → (s.xs[j]?).map (·.2) = some q.1 ∧
      q.2 = agreement cfg.contrast rows i j / ((List.range s.xs.length).map (agreement cfg.contrast rows i)).sum /
        (s.xs.length : K)
  scales : o.scale = cfg.lambdaU ∧ o.contrastScale = cfg.lambdaC ∧ o.temp = cfg.temp
  through : o.through = true ↔ cfg.cat = true ∧ cfg.detach = false

end ModSSC.Deep.CoFit.Spec

namespace ModSSC.Deep.CoFit
open ModSSC ModSSC.Deep ModSSC.Deep.Fit Spec
open ModSSC.Deep.Spec
set_option linter.unusedSectionVars false

variable {X W V K σ : Type} [Field K] [LinearOrder K]

/-! ### Checks -/

theorem firstOf_iff (views : List (String × Wide X)) : ∀ (ks : List String) (v : Wide X),
    FirstOf views ks v ↔ (ks.findSome? fun k => views.lookup k) = some v
  | [], v => ⟨fun h => (nomatch h), fun h => by simp at h⟩
  | k :: ks, v => by
    rw [List.findSome?_cons]
    cases h : views.lookup k with
    | some u =>
      simp only [Option.some.injEq]
      constructor
      · intro hf
        cases hf with
        | here _ _ _ h1 => rw [h] at h1; exact Option.some.inj h1
        | later _ _ _ h1 => rw [h] at h1; cases h1
      · rintro rfl
        exact .here _ _ _ h
    | none =>
      simp only
      rw [← firstOf_iff views ks v]
      constructor
      · intro hf
        cases hf with
        | here _ _ _ h1 => rw [h] at h1; cases h1
        | later _ _ _ _ h2 => exact h2
      · exact .later _ _ _ h

theorem first_iff (d : CInput X) (v : Wide X) : firstStrong d = some v ↔
    (d.xs = some v ∨ (d.xs = none ∧ FirstOf d.views ["X_u_s0", "X_u_s_0", "X_u_s", "X_u_strong0"] v)) := by
  rw [firstOf_iff]
  unfold firstStrong
  cases h : d.xs with
  | some u => simp
  | none => simp

theorem refuse_iff {α : Type} {c : Prop} [Decidable c] {e : PyErr} {x : Except PyErr α} {r : α} :
    (if c then .error e else x) = .ok r ↔ ¬ c ∧ x = .ok r := by
  by_cases h : c
  · simp [h]
  · simp [h]

theorem checkSpec_ok {cfg : CCfg K} : checkSpec cfg = .ok () ↔ 0 < cfg.batchSize ∧ 0 < cfg.maxEpochs ∧
    (0 ≤ cfg.lambdaU ∧ 0 ≤ cfg.lambdaC) ∧ (0 ≤ cfg.cutoff ∧ cfg.cutoff ≤ 1) ∧ 0 < cfg.temp ∧
    (0 ≤ cfg.contrast ∧ cfg.contrast ≤ 1) ∧ (0 ≤ cfg.alpha ∧ cfg.alpha ≤ 1) ∧
    (0 ≤ cfg.minFill ∧ cfg.minFill ≤ cfg.queueSize) ∧ 0 ≤ cfg.daLen := by
  unfold checkSpec
  simp only [refuse_iff, not_le, not_lt, not_not, gt_iff_lt]
  constructor
  · rintro ⟨h1, h2, h3, h4, h5, h6, h7, h8, h9, h10, h11, h12, -⟩
    exact ⟨h1, h2, ⟨h3, h4⟩, h5, h6, h7, h8, ⟨h10, h11⟩, h12⟩
  · rintro ⟨h1, h2, h3, h4, h5, h6, h7, h8, h9⟩
    exact ⟨h1, h2, h3.1, h3.2, h4, h5, h6, h7, by omega, h8.1, h8.2, h9, trivial⟩

theorem check_ok {torch : Bool} {cfg : CCfg K} {bundle : Option Bundle} {data : Option (CInput X)} {r : CReady X} :
    check torch cfg bundle data = .ok r ↔ ∃ d xw s0 s1, data = some d ∧ Acceptable torch cfg bundle d xw s0 s1 ∧
      r = ⟨d.xl.rows, d.yl, xw.rows, s0.rows.zip s1.rows⟩ := by
  constructor
  · intro h
    unfold check at h
    cases data with
    | none => cases h
    | some d =>
    dsimp only at h
    have t1 := fun v => (first_iff d v).mp
    have t2 := fun v => (firstOf_iff d.views ["X_u_s1", "X_u_s_1", "X_u_strong1", "X_u_s2", "X_u_s_2"] v).mpr
    change ∀ v, secondStrong d = some v → _ at t2
    generalize firstStrong d = f0 at h t1
    generalize secondStrong d = f1 at h t2
    rw [refuse_iff, refuse_iff, refuse_iff] at h
    obtain ⟨c1, c2, c3, h⟩ := h
    cases hw : d.xw with
    | none => rw [hw] at h; cases h
    | some xw =>
    rw [hw] at h
    cases f0 with
    | none => cases h
    | some s0 =>
    cases f1 with
    | none => cases h
    | some s1 =>
    replace t1 := t1 s0 rfl
    replace t2 := t2 s1 rfl
    dsimp only at h
    rw [refuse_iff, refuse_iff, refuse_iff, refuse_iff, refuse_iff, refuse_iff, refuse_iff] at h
    obtain ⟨c4, c5, c6, c7, c8, c9, c10, h⟩ := h
    cases bundle with
    | none => cases h
    | some b =>
    dsimp only at h
    rw [refuse_iff] at h
    obtain ⟨c11, h⟩ := h
    cases hs : checkSpec cfg with
    | error e => rw [hs] at h; cases h
    | ok u =>
    rw [hs] at h
    obtain ⟨p1, p2, p3, p4, p5, p6, p7, p8, p9⟩ := checkSpec_ok.mp hs
    refine ⟨d, xw, s0, s1, rfl, ⟨by simpa using c1, by omega, ⟨by omega, by simpa using c10⟩, ?_, hw, t1, t2, ?_, by omega,
      by omega, by simpa using c8, ⟨b, rfl, by simpa using c11⟩, p1, p2, p3, p4, p5, p6, p7, p8, p9⟩,
      (Except.ok.inj h).symm⟩
    · exact fun e => c4 (by rw [e]; rfl)
    · exact fun e => c5 (by rw [e]; rfl)
  · rintro ⟨d, xw, s0, s1, rfl, hA, rfl⟩
    obtain ⟨b, rfl, hb1, hb2⟩ := hA.bundle
    have n1 := List.length_pos_iff.mpr hA.nonempty
    have n2 := List.length_pos_iff.mpr hA.unlabeled
    have n3 := hA.views
    have n4 := hA.rows
    have e0 := (first_iff d s0).mpr hA.strong
    have e1 : secondStrong d = some s1 := (firstOf_iff _ _ _).mp hA.second
    unfold check
    dsimp only
    rw [if_neg (by simp [hA.torch]), if_neg (by omega), if_neg (by have := hA.labels.1; omega), hA.weak, e0, e1,
      checkSpec_ok.mpr ⟨hA.batch, hA.epochs, hA.lambdas, hA.cutoff, hA.temp, hA.contrast, hA.alpha, hA.queue, hA.window⟩]
    dsimp only
    rw [if_neg (by omega), if_neg (by omega), if_neg (by omega), if_neg (by omega),
      if_neg (by simpa using hA.floats), if_neg (by have := hA.widths; omega), if_neg (by simp [hA.labels.2]),
      if_neg (by simp [hb1, hb2])]

/-- **C180 (refused untouched).**  A `fit` whose data, bundle or parameters are not acceptable raises, and leaves network and
object (with the memory of an earlier training) as they were. -/
theorem C180_refused (G : TorchGen σ) (N : CNet X W K) (T : Torch K) (sqrt : K → K) (torch : Bool) (cfg : CCfg K)
    (bundle : Option Bundle) (data : Option (CInput X)) (seed : Int) (o : Obj (Mem K)) (w : W)
    (h : ∀ d xw s0 s1, data = some d → ¬ Acceptable torch cfg bundle d xw s0 s1) :
    ∃ e, fit G N T sqrt torch cfg bundle data seed o w = ((o, w), .error e) := by
  unfold fit
  cases hc : check torch cfg bundle data with
  | error e => exact ⟨e, rfl⟩
  | ok r =>
    obtain ⟨d, xw, s0, s1, hd, hA, -⟩ := check_ok.mp hc
    exact absurd hA (h d xw s0 s1 hd)

theorem batches_ok {G : TorchGen σ} (hG : G.Lawful) {torch : Bool} {cfg : CCfg K} {bundle : Option Bundle}
    {d : CInput X} {xw s0 s1 : Wide X} (hA : Acceptable torch cfg bundle d xw s0 s1) (seed : Int) :
    ∃ eps, fitBatches G d.xl.rows d.yl xw.rows (s0.rows.zip s1.rows) cfg.batchSize cfg.maxEpochs seed = .ok eps ∧
      Epochs d.xl.rows d.yl xw.rows (s0.rows.zip s1.rows) cfg.batchSize cfg.maxEpochs eps := by
  have hz : (s0.rows.zip s1.rows).length = xw.rows.length := by
    rw [List.length_zip, hA.views.1, hA.views.2]; simp
  obtain ⟨eps, h⟩ := (C106_accepts G hG d.xl.rows d.yl xw.rows (s0.rows.zip s1.rows) cfg.batchSize cfg.maxEpochs
    seed).mpr ⟨hA.rows, hA.nonempty, hz.symm, hA.unlabeled, hA.batch, hA.epochs⟩
  obtain ⟨h1, h2⟩ := C106_epochs G hG _ _ _ _ _ _ _ _ h
  exact ⟨eps, h, h1, h2⟩

theorem Spec.Epochs.sizes {xl : List X} {yl : List Int} {xw : List X} {xs : List (X × X)} {b e : Int}
    {eps : List (List (CBatch X))} (h : Epochs xl yl xw xs b e eps) :
    ∀ s ∈ eps.flatten, s.xl.length = s.yl.length ∧ s.xw.length = s.xs.length ∧ s.yl ≠ [] ∧ s.xw ≠ [] ∧ ∀ y ∈ s.yl, y ∈ yl := by
  intro s hs
  obtain ⟨ep, hep, hs⟩ := List.mem_flatten.mp hs
  obtain ⟨-, bl, bu, hE, hF, hG⟩ := h.each ep hep
  obtain ⟨t, ht, rfl⟩ := List.getElem_of_mem hs
  obtain ⟨r1, r2, r3, r4⟩ := hE.rows t ht
  have hl : bl.getD t [] ∈ bl := by
    rw [List.getD_eq_getElem _ _ (by rw [hE.len_l]; exact ht)]; exact List.getElem_mem _
  have hu : bu.getD t [] ∈ bu := by
    rw [List.getD_eq_getElem _ _ (by rw [hE.len_u]; exact ht)]; exact List.getElem_mem _
  refine ⟨?_, ?_, fun e => hF.nonempty _ hl ?_, fun e => hG.nonempty _ hu ?_, fun y hy => ?_⟩
  · rw [rowsAt_length r1, rowsAt_length r2]
  · rw [rowsAt_length r3, rowsAt_length r4]
  · exact List.length_eq_zero_iff.mp (by rw [← rowsAt_length r2, e]; rfl)
  · exact List.length_eq_zero_iff.mp (by rw [← rowsAt_length r3, e]; rfl)
  · have h1 : some y ∈ (ep[t].yl).map some := List.mem_map_of_mem hy
    rw [r2, List.mem_map] at h1
    obtain ⟨i, -, hi⟩ := h1
    exact List.mem_of_getElem? hi

theorem Spec.Epochs.visits {xl : List X} {yl : List Int} {xw : List X} {xs : List (X × X)} {b e : Int}
    {eps : List (List (CBatch X))} (h : Epochs xl yl xw xs b e eps) (he : 0 < e) (hl : xl.length = yl.length) :
    ∀ y ∈ yl, ∃ s ∈ eps.flatten, y ∈ s.yl := by
  intro y hy
  obtain ⟨i, hi, rfl⟩ := List.getElem_of_mem hy
  have hn : 0 < eps.length := by have := h.number; omega
  obtain ⟨ep, hep⟩ : ∃ ep, ep ∈ eps := ⟨_, List.getElem_mem hn⟩
  obtain ⟨-, bl, bu, hE, hF, -⟩ := h.each ep hep
  have hv := hF.covers i (by omega)
  have hmem : i ∈ bl.flatten := List.count_pos_iff.mp hv
  obtain ⟨B, hB, hiB⟩ := List.mem_flatten.mp hmem
  obtain ⟨t, ht, rfl⟩ := List.getElem_of_mem hB
  have ht' : t < ep.length := by rw [← hE.len_l]; exact ht
  obtain ⟨-, r2, -, -⟩ := hE.rows t ht'
  refine ⟨ep[t], List.mem_flatten.mpr ⟨ep, hep, List.getElem_mem ht'⟩, ?_⟩
  rw [List.getD_eq_getElem _ _ ht] at r2
  have h3 : some yl[i] ∈ (ep[t].yl).map some := by
    rw [r2, List.mem_map]
    exact ⟨i, hiB, by rw [List.getElem?_eq_getElem hi]⟩
  simpa using h3

/-! ### One step of a row-wise network -/

/-- Its output for some rows. -/
def both (C D : Nat) (f h : X → List K) (xs : List X) : Both K := ⟨true, ⟨2, C, xs.map f⟩, ⟨2, D, xs.map h⟩⟩

/-- Its four outputs. -/
def outs (C D : Nat) (f h : X → List K) (s : CBatch X) : Outs K :=
  ⟨both C D f h s.xl, both C D f h s.xw, both C D f h (s.xs.map (·.1)), both C D f h (s.xs.map (·.2))⟩

theorem slice_both (C D : Nat) (f h : X → List K) (a b c : List X) (n m : Nat) (hn : a.length = n) (hm : b.length = m) :
    (both C D f h (a ++ b ++ c)).slice n m = both C D f h b := by
  subst hn hm
  unfold both Both.slice Out.slice
  simp

theorem look_rowwise {N : CNet X W K} {view : W → V} {g h : V → X → List K} {C D : Nat} (hN : Rowwise N view g h C D)
    (cat : Bool) (w : W) (s : CBatch X) (hs : s.xw.length = s.xs.length) :
    look N cat w s = (.ok (outs C D (g (view w)) (h (view w)) s), w) := by
  have hF : ∀ w xs, N.forward w xs = (both C D (g (view w)) (h (view w)) xs, w) := hN
  unfold look
  cases cat with
  | false =>
    rw [if_neg (by simp)]
    simp only [hF]
    rw [if_neg (by simp [both]), if_neg (by simp [both]), if_neg (by simp [both]), if_neg (by simp [both])]
    rfl
  | true =>
    rw [if_pos rfl]
    simp only [hF]
    rw [if_neg (by simp [both]), if_neg (by simp [both]), if_neg (by simp [both]; omega)]
    have e1 := slice_both C D (g (view w)) (h (view w)) [] s.xl (s.xw ++ s.xs.map (·.1) ++ s.xs.map (·.2)) 0 s.xl.length rfl rfl
    have e2 := slice_both C D (g (view w)) (h (view w)) s.xl s.xw (s.xs.map (·.1) ++ s.xs.map (·.2)) s.xl.length s.xw.length rfl
      rfl
    have e3 := slice_both C D (g (view w)) (h (view w)) (s.xl ++ s.xw) (s.xs.map (·.1)) (s.xs.map (·.2))
      (s.xl.length + s.xw.length) s.xw.length (by simp) (by simp [hs])
    have e4 := slice_both C D (g (view w)) (h (view w)) (s.xl ++ s.xw ++ s.xs.map (·.1)) (s.xs.map (·.2)) []
      (s.xl.length + s.xw.length + s.xw.length) s.xs.length (by simp; omega) (by simp)
    simp only [List.nil_append, List.append_nil, List.append_assoc] at e1 e2 e3 e4 ⊢
    rw [e1, e2, e3, e4]
    rfl

theorem agree_outs {C D : Nat} {f h : X → List K} {s : CBatch X} (h1 : s.xl.length = s.yl.length)
    (h2 : s.xw.length = s.xs.length) :
    agree s (outs C D f h s) = if s.yl.any (fun c => decide (c < 0 ∨ (C : Int) ≤ c)) then .error .validation else .ok () := by
  unfold agree outs both
  rw [if_neg (by simp), if_neg (by simp), if_neg (by simp [h2]), if_neg (by simp), if_neg (by simp), if_neg (by simp)]
  simp only
  rw [if_neg (c := _ ∨ _) (by simp [h1, h2])]

/-- What the network says in a step, before the loss is known. -/
def heard (T : Torch K) (temp : K) (g h : V → X → List K) (r : CBatch X × V) : CoInput K :=
  ⟨r.1.xw.map fun x => T.softmax ((g r.2 x).map (· / temp)), r.1.xl.map fun x => T.softmax (g r.2 x),
    r.1.xw.map (h r.2), r.1.xl.map (h r.2), r.1.yl.map Int.toNat⟩

/-- A memory that fits the network. -/
def Fits (C D : Nat) (m : Mem K) : Prop := ∀ q, m = some q → q.1 = C ∧ q.2.1 = D

theorem trainStep_rowwise {N : CNet X W K} {view : W → V} {g h : V → X → List K} {C D : Nat} (hN : Rowwise N view g h C D)
    (T : Torch K) (sqrt : K → K) (cfg : CCfg K) (st : Mem K × W) (hm : Fits C D st.1) (s : CBatch X)
    (h1 : s.xl.length = s.yl.length) (h2 : s.xw.length = s.xs.length) :
    trainStep N T sqrt cfg st s =
      if s.yl.any (fun c => decide (c < 0 ∨ (C : Int) ≤ c)) then (st, .error .validation)
      else
        let r := coStep sqrt T.exp (memCfg cfg C D) ((st.1.map (·.2.2)).getD (coInit (memCfg cfg C D)))
          (heard T cfg.temp g h (s, view st.2))
        ((some (C, D, r.2), N.step st.2 (objective T cfg s r.1)), .ok ()) := by
  unfold trainStep
  rw [look_rowwise hN _ _ _ h2]
  simp only
  rw [agree_outs h1 h2]
  by_cases c : s.yl.any (fun c => decide (c < 0 ∨ (C : Int) ≤ c)) = true
  · rw [if_pos c, if_pos c]
  · rw [if_neg c, if_neg c]
    simp only
    have hmis : misfit cfg st.1 C D = false := by
      unfold misfit
      cases hq : st.1 with
      | none => rfl
      | some q =>
        obtain ⟨a, b⟩ := hm q hq
        simp [a, b]
    have hin : seenOf T cfg.temp s (outs C D (g (view st.2)) (h (view st.2)) s) = heard T cfg.temp g h (s, view st.2) := by
      unfold seenOf outs both heard
      simp [List.map_map, Function.comp_def]
    rw [hin]
    rw [if_neg (by rw [show (outs C D (g (view st.2)) (h (view st.2)) s).l.logits.classes = C from rfl,
      show (outs C D (g (view st.2)) (h (view st.2)) s).w.feats.classes = D from rfl, hmis]; simp)]
    rfl

theorem trainSteps_rowwise {N : CNet X W K} {view : W → V} {g h : V → X → List K} {C D : Nat} (hN : Rowwise N view g h C D)
    {log : W → List (V × CObjective X K)} (hL : Logs N view log) {T : Torch K} {sqrt : K → K} {cfg : CCfg K} :
    ∀ {ss : List (CBatch X)} {st st' : Mem K × W}, Fits C D st.1 →
    (∀ s ∈ ss, s.xl.length = s.yl.length ∧ s.xw.length = s.xs.length) →
    trainSteps N T sqrt cfg st ss = (st', .ok ()) →
    ∃ rs : List (CBatch X × V), ss = rs.map (·.1) ∧ (∀ r ∈ rs, ∀ y ∈ r.1.yl, 0 ≤ y ∧ y < (C : Int)) ∧
      log st'.2 = log st.2 ++ List.zipWith (fun r sm => (r.2, objective T cfg r.1 sm)) rs
        (coRun sqrt T.exp (memCfg cfg C D) ((st.1.map (·.2.2)).getD (coInit (memCfg cfg C D)))
          (rs.map (heard T cfg.temp g h))).1
  | [], st, st', _, _, hr => by
    simp only [trainSteps, Prod.mk.injEq, and_true] at hr
    subst hr
    exact ⟨[], rfl, by simp, by simp⟩
  | s :: ss, st, st', hm, hz, hr => by
    obtain ⟨z1, z2⟩ := hz s (by simp)
    rw [trainSteps, trainStep_rowwise hN T sqrt cfg st hm s z1 z2] at hr
    by_cases c : s.yl.any (fun c => decide (c < 0 ∨ (C : Int) ≤ c)) = true
    · rw [if_pos c] at hr; cases hr
    rw [if_neg c] at hr
    simp only at hr
    obtain ⟨rs, e1, e2, e3⟩ := trainSteps_rowwise hN hL (by rintro q hq; cases hq; exact ⟨rfl, rfl⟩)
      (fun x hx => hz x (by simp [hx])) hr
    refine ⟨(s, view st.2) :: rs, by rw [e1]; rfl, ?_, ?_⟩
    · intro r hr
      rcases List.mem_cons.mp hr with rfl | hr
      · exact Defix.labels_iff.mp c
      · exact e2 r hr
    · rw [e3, hL.step]
      simp only [List.map_cons, coRun, List.zipWith_cons_cons, Option.map_some, Option.getD_some, List.append_assoc,
        List.singleton_append]

theorem trainSteps_total {N : CNet X W K} {view : W → V} {g h : V → X → List K} {C D : Nat} (hN : Rowwise N view g h C D)
    {T : Torch K} {sqrt : K → K} {cfg : CCfg K} : ∀ {ss : List (CBatch X)} {st : Mem K × W}, Fits C D st.1 →
    (∀ s ∈ ss, s.xl.length = s.yl.length ∧ s.xw.length = s.xs.length) →
    ((trainSteps N T sqrt cfg st ss).2 = .ok () ↔ ∀ s ∈ ss, ∀ y ∈ s.yl, 0 ≤ y ∧ y < (C : Int))
  | [], st, _, _ => by simp [trainSteps]
  | s :: ss, st, hm, hz => by
    obtain ⟨z1, z2⟩ := hz s (by simp)
    rw [trainSteps, trainStep_rowwise hN T sqrt cfg st hm s z1 z2]
    by_cases c : s.yl.any (fun c => decide (c < 0 ∨ (C : Int) ≤ c)) = true
    · rw [if_pos c]
      simp only [reduceCtorEq, false_iff]
      intro hh
      exact (Defix.labels_iff.mpr (hh s (by simp))) c
    · rw [if_neg c]
      simp only
      rw [trainSteps_total hN (by rintro q hq; cases hq; exact ⟨rfl, rfl⟩) (fun x hx => hz x (by simp [hx]))]
      have := Defix.labels_iff.mp c
      simp only [List.mem_cons, forall_eq_or_imp]
      exact ⟨fun h => ⟨this, h⟩, fun h => h.2⟩

/-- What `fit` is on acceptable data. -/
theorem fit_eq (G : TorchGen σ) (hG : G.Lawful) (N : CNet X W K) (T : Torch K) (sqrt : K → K) (torch : Bool) (cfg : CCfg K)
    (bundle : Option Bundle) (d : CInput X) (xw s0 s1 : Wide X) (hA : Acceptable torch cfg bundle d xw s0 s1) (seed : Int) :
    ∃ eps, Epochs d.xl.rows d.yl xw.rows (s0.rows.zip s1.rows) cfg.batchSize cfg.maxEpochs eps ∧
      ∀ o w, fit G N T sqrt torch cfg bundle (some d) seed o w =
        match trainSteps N T sqrt cfg (none, N.train w) eps.flatten with
        | (st, .error e) => ((⟨st.1, o.fitted⟩, st.2), .error e)
        | (st, .ok _) => ((⟨st.1, true⟩, st.2), .ok ()) := by
  obtain ⟨eps, h1, h2⟩ := batches_ok hG hA seed
  refine ⟨eps, h2, fun o w => ?_⟩
  unfold fit
  rw [check_ok.mpr ⟨d, xw, s0, s1, rfl, hA, rfl⟩]
  simp only
  rw [h1]
  rfl

/-- **C180 (which fits succeed).**  With a row-wise network over `C` classes, `fit` succeeds exactly if data, bundle and parameters
are acceptable and every label is a class of the network. -/
theorem C180_accepts (G : TorchGen σ) (hG : G.Lawful) (N : CNet X W K) (view : W → V) (g h : V → X → List K) (C D : Nat)
    (hN : Rowwise N view g h C D) (T : Torch K) (sqrt : K → K) (torch : Bool) (cfg : CCfg K) (bundle : Option Bundle)
    (data : Option (CInput X)) (seed : Int) (o : Obj (Mem K)) (w : W) :
    (fit G N T sqrt torch cfg bundle data seed o w).2 = .ok () ↔
      ∃ d xw s0 s1, data = some d ∧ Acceptable torch cfg bundle d xw s0 s1 ∧ ∀ y ∈ d.yl, 0 ≤ y ∧ y < (C : Int) := by
  constructor
  · intro hf
    cases hc : check torch cfg bundle data with
    | error e => unfold fit at hf; rw [hc] at hf; cases hf
    | ok r =>
      obtain ⟨d, xw, s0, s1, rfl, hA, -⟩ := check_ok.mp hc
      obtain ⟨eps, hE, hq⟩ := fit_eq G hG N T sqrt torch cfg bundle d xw s0 s1 hA seed
      rw [hq] at hf
      have key := trainSteps_total hN (T := T) (sqrt := sqrt) (cfg := cfg) (ss := eps.flatten) (st := (none, N.train w))
        (by rintro q hq; cases hq) (fun s hs => ⟨(hE.sizes s hs).1, (hE.sizes s hs).2.1⟩)
      cases ht : trainSteps N T sqrt cfg (none, N.train w) eps.flatten with
      | mk w1 res =>
      rw [ht] at hf key
      cases res with
      | error e => cases hf
      | ok u =>
      refine ⟨d, xw, s0, s1, rfl, hA, fun y hy => ?_⟩
      obtain ⟨s, hs, hys⟩ := hE.visits hA.epochs hA.rows y hy
      exact key.mp rfl s hs y hys
  · rintro ⟨d, xw, s0, s1, rfl, hA, hy⟩
    obtain ⟨eps, hE, hq⟩ := fit_eq G hG N T sqrt torch cfg bundle d xw s0 s1 hA seed
    have key := (trainSteps_total hN (T := T) (sqrt := sqrt) (cfg := cfg) (ss := eps.flatten) (st := (none, N.train w))
        (by rintro q hq; cases hq) (fun s hs => ⟨(hE.sizes s hs).1, (hE.sizes s hs).2.1⟩)).mpr
        (fun s hs y hys => hy y ((hE.sizes s hs).2.2.2.2 y hys))
    rw [hq]
    cases ht : trainSteps N T sqrt cfg (none, N.train w) eps.flatten with
    | mk w1 res =>
    rw [ht] at key
    simp only at key
    subst key
    rfl

/-! ### The loss -/

theorem coRun_length (sqrt exp : K → K) (c : CoCfg K) : ∀ (is : List (CoInput K)) (st : CoState K),
    (coRun sqrt exp c st is).1.length = is.length
  | [], _ => rfl
  | i :: is, st => by simp only [coRun, List.length_cons]; rw [coRun_length sqrt exp c is]

theorem normed_rows [IsStrictOrderedRing K] (cutoff : K) (rows : List (List K)) (hr : ∀ r ∈ rows, r ≠ []) :
    normed (maskOf cutoff rows) = rows.map fun r =>
      if Confident cutoff r then 1 / ((rows.filter fun r => Confident cutoff r).length : K) else 0 := by
  have hm : (maskOf cutoff rows : List K) = rows.map fun r => if Confident cutoff r then 1 else 0 :=
    List.map_congr_left fun r h => if_congr (confident_iff cutoff r (hr r h)) rfl rfl
  rw [hm, normed, indicator_sum, List.map_map]
  refine List.map_congr_left fun r h => ?_
  simp only [Function.comp_apply]
  by_cases c : Confident cutoff r
  · have hn : 1 ≤ (rows.filter fun r => Confident cutoff r).length :=
      List.length_pos_iff.mpr (List.ne_nil_of_mem (List.mem_filter.mpr ⟨h, decide_eq_true c⟩))
    rw [if_pos c, if_pos c, max_eq_left (by exact_mod_cast hn)]
  · rw [if_neg c, if_neg c, zero_div]

theorem graphEntry_eq (threshold : K) (h1 : threshold ≤ 1) (rows : List (List K)) (hn : ∀ r ∈ rows, ∀ x ∈ r, 0 ≤ x) (i j : Nat)
    [IsStrictOrderedRing K] : graphEntry threshold rows i j = agreement threshold rows i j := by
  have hg : ∀ k, ∀ x ∈ rows.getD k [], 0 ≤ x := by
    intro k x hx
    rcases Nat.lt_or_ge k rows.length with hk | hk
    · rw [List.getD_eq_getElem _ _ hk] at hx
      exact hn _ (List.getElem_mem hk) x hx
    · rw [List.getD_eq_default _ _ hk] at hx; cases hx
  have h0 := dotRow_nonneg _ _ (hg i) (hg j)
  unfold graphEntry agreement
  by_cases c : i = j
  · simp [c, h1]
  · simp only [c, if_false, sub_zero, mul_one, add_zero]
    generalize dotRow (rows.getD i []) (rows.getD j []) = q at *
    by_cases ct : 0 < threshold
    · by_cases cq : threshold ≤ q <;> simp [ct, cq]
    · rw [if_neg ct, if_pos ((not_lt.mp ct).trans h0)]

theorem graphEntry_nonneg' [IsStrictOrderedRing K] (threshold : K) (rows : List (List K)) (hn : ∀ r ∈ rows, ∀ x ∈ r, 0 ≤ x)
    (i j : Nat) : 0 ≤ graphEntry threshold rows i j := by
  have hg : ∀ k, ∀ x ∈ rows.getD k [], 0 ≤ x := by
    intro k x hx
    rcases Nat.lt_or_ge k rows.length with hk | hk
    · rw [List.getD_eq_getElem _ _ hk] at hx
      exact hn _ (List.getElem_mem hk) x hx
    · rw [List.getD_eq_default _ _ hk] at hx; cases hx
  have h0 := dotRow_nonneg _ _ (hg i) (hg j)
  unfold graphEntry
  by_cases c : i = j
  · simp only [c, if_true, sub_self, mul_zero, zero_add, one_mul]
    split_ifs <;> simp
  · simp only [c, if_false, sub_zero, mul_one, add_zero]
    split_ifs <;> first | exact h0 | simpa using h0 | simp

theorem loss_of [IsStrictOrderedRing K] {T : Torch K} (ha : ArgmaxLaw T.argmax) (cfg : CCfg K) (hc : cfg.contrast ≤ 1)
    (s : CBatch X) (sm : List (List K)) (h1 : s.xl.length = s.yl.length) (h2 : s.xw.length = s.xs.length)
    (h3 : sm.length = s.xw.length) (hr : ∀ r ∈ sm, r ≠ [] ∧ ∀ x ∈ r, 0 ≤ x) :
    CoLoss cfg s sm (objective T cfg s sm) := by
  have hlen : (pseudoGraph cfg.contrast sm).length = sm.length := by simp [pseudoGraph]
  refine ⟨?_, ⟨?_, h2.symm, h3, ?_⟩, ?_, ?_, ⟨rfl, rfl, rfl⟩, by simp [objective]⟩
  · unfold objective evenly
    simp only
    apply List.ext_getElem
    · simp
    · intro j a b; simp
  · simp [objective, targetsOf, normed, maskOf]; omega
  · simp [objective, hlen]; omega
  · intro j t hj
    unfold objective at hj
    simp only [normed_rows cfg.cutoff sm (fun r h => (hr r h).1)] at hj
    unfold targetsOf at hj
    have hjl : j < s.xw.length := by
      have := (List.getElem?_eq_some_iff.mp hj).1
      simp only [List.length_zipWith, List.length_zip, List.length_map] at this
      omega
    rw [List.getElem?_eq_getElem (by simp; omega), List.getElem_zipWith, Option.some.injEq] at hj
    simp only [List.getElem_zip, List.getElem_map] at hj
    subst hj
    refine ⟨s.xw[j], s.xs[j]'(by omega), sm[j]'(by omega), List.getElem?_eq_getElem _, List.getElem?_eq_getElem _,
      List.getElem?_eq_getElem _, rfl, rfl, rfl, fun hh => ?_, fun hh => ?_⟩
    · exact ⟨_, by simp only [hh, if_true], ha _ (hr _ (List.getElem_mem _)).1⟩
    · simp [hh]
  · intro i p hp
    have hil : i < s.xs.length := by
      have := (List.getElem?_eq_some_iff.mp hp).1
      simp only [objective, List.length_zipWith, hlen] at this
      omega
    unfold objective pseudoGraph at hp
    simp only at hp
    rw [List.getElem?_eq_getElem (by simp; omega), List.getElem_zipWith, Option.some.injEq] at hp
    simp only [List.getElem_map, List.getElem_range] at hp
    subst hp
    refine ⟨by rw [List.getElem?_eq_getElem hil]; rfl, by simp [normRow]; omega, fun j q hq => ?_⟩
    have hjl : j < s.xs.length := by
      have := (List.getElem?_eq_some_iff.mp hq).1
      simp only [List.length_zip, List.length_map] at this
      omega
    rw [List.getElem?_eq_getElem (by simp [normRow]; omega), Option.some.injEq] at hq
    simp only [List.getElem_zip, List.getElem_map, normRow, List.getElem_range] at hq
    subst hq
    refine ⟨by rw [List.getElem?_eq_getElem hjl]; rfl, ?_⟩
    simp only
    have hg : ∀ k, graphEntry cfg.contrast sm i k = agreement cfg.contrast sm i k := fun k =>
      graphEntry_eq cfg.contrast hc sm (fun r h => (hr r h).2) i k
    have hn : sm.length = s.xs.length := by omega
    have hsum : ((List.range sm.length).map (graphEntry cfg.contrast sm i)).sum =
        ((List.range s.xs.length).map (agreement cfg.contrast sm i)).sum := by
      rw [hn]; exact congrArg List.sum (List.map_congr_left fun k _ => hg k)
    rw [hsum, hg]
    congr 2
    apply max_eq_left
    have hi1 : (1 : K) ≤ ((List.range s.xs.length).map (agreement cfg.contrast sm i)).sum := by
      have hge : ∀ k, 0 ≤ agreement cfg.contrast sm i k := by
        intro k
        rw [← hg]
        exact graphEntry_nonneg' cfg.contrast sm (fun r h => (hr r h).2) i k
      have h1 : agreement cfg.contrast sm i i ≤ ((List.range s.xs.length).map (agreement cfg.contrast sm i)).sum :=
        List.single_le_sum (fun x hx => by obtain ⟨k, -, rfl⟩ := List.mem_map.mp hx; exact hge k) _
          (List.mem_map_of_mem (List.mem_range.mpr hil))
      simpa [agreement] using h1
    exact (by norm_num : (1 / 10 ^ 12 : K) ≤ 1).trans hi1

/-- **C180 (training).**  A successful `fit` made one optimizer step per batch of its fair epochs, in which the weak view and both
strong views of a sample stay together and labels go with their rows.  Each step had the CoMatch loss over its batch, with
pseudo-labels that follow from everything the network said before in this training. -/
theorem C180_training [IsStrictOrderedRing K] (T : Torch K) (he : Transductive.Spec.ExpLaw T.exp) (ha : ArgmaxLaw T.argmax)
    (sqrt : K → K) (G : TorchGen σ) (hG : G.Lawful) (N : CNet X W K) (view : W → V) (g h : V → X → List K) (C D : Nat)
    (hC : 0 < C) (hN : Rowwise N view g h C D) (cfg : CCfg K)
    (hs : ∀ v x, IsDistN C (T.softmax (g v x)) ∧ IsDistN C (T.softmax ((g v x).map (· / cfg.temp))))
    (hh : ∀ v x, (h v x).length = D)
    (log : W → List (V × CObjective X K)) (hL : Logs N view log) (torch : Bool) (bundle : Option Bundle)
    (data : Option (CInput X)) (seed : Int) (o o' : Obj (Mem K)) (w w' : W)
    (hf : fit G N T sqrt torch cfg bundle data seed o w = ((o', w'), .ok ())) :
    ∃ d xw s0 s1 eps, ∃ ps : List (CStepped X V K), data = some d ∧ Acceptable torch cfg bundle d xw s0 s1 ∧
      Epochs d.xl.rows d.yl xw.rows (s0.rows.zip s1.rows) cfg.batchSize cfg.maxEpochs eps ∧ o'.fitted = true ∧
      eps.flatten = ps.map (·.1) ∧ log w' = log w ++ ps.map (·.2) ∧
      ∃ As, As.length = ps.length ∧ ∀ (t : Nat) (p : CStepped X V K), ps[t]? = some p → ∃ rows,
        IsPseudo sqrt T.exp (memCfg cfg C D) (ps.map (saidIn T.softmax cfg.temp g h)) As t rows ∧ CoLoss cfg p.1 rows p.2.2 := by
  cases hc : check torch cfg bundle data with
  | error e => unfold fit at hf; rw [hc] at hf; cases hf
  | ok r =>
  obtain ⟨d, xw, s0, s1, rfl, hA, -⟩ := check_ok.mp hc
  obtain ⟨eps, hE, hq⟩ := fit_eq G hG N T sqrt torch cfg bundle d xw s0 s1 hA seed
  rw [hq] at hf
  cases ht : trainSteps N T sqrt cfg (none, N.train w) eps.flatten with
  | mk st res =>
  rw [ht] at hf
  cases res with
  | error e => cases hf
  | ok u =>
  simp only [Prod.mk.injEq, and_true] at hf
  obtain ⟨rfl, rfl⟩ := hf
  obtain ⟨rs, e1, e2, e3⟩ := trainSteps_rowwise hN hL (by rintro q hq; cases hq)
    (fun s hs => ⟨(hE.sizes s hs).1, (hE.sizes s hs).2.1⟩) ht
  simp only [Option.map_none, Option.getD_none] at e3
  set c := memCfg cfg C D with hcdef
  set is := rs.map (heard T cfg.temp g h) with his
  have hsz : ∀ r ∈ rs, r.1.xl.length = r.1.yl.length ∧ r.1.xw.length = r.1.xs.length ∧ r.1.yl ≠ [] ∧ r.1.xw ≠ [] := by
    intro r hr
    have hm : r.1 ∈ eps.flatten := by rw [e1]; exact List.mem_map_of_mem hr
    obtain ⟨a1, a2, a3, a4, -⟩ := hE.sizes r.1 hm
    exact ⟨a1, a2, a3, a4⟩
  have hout : ∀ i ∈ is, CoOutputs c.classes D i := by
    intro i hi
    obtain ⟨r, hr, rfl⟩ := List.mem_map.mp hi
    obtain ⟨a1, a2, a3, a4⟩ := hsz r hr
    have a5 : r.1.xl ≠ [] := fun e => a3 (List.length_eq_zero_iff.mp (by rw [← a1, e]; rfl))
    refine ⟨⟨by simpa [heard] using a4, ?_⟩, ⟨by simpa [heard] using a5, ?_⟩, ⟨by simp [heard], ?_⟩, ⟨by simp [heard, a1], ?_⟩,
      ⟨by simp [heard, a1], ?_⟩⟩
    · intro q hq; obtain ⟨x, -, rfl⟩ := List.mem_map.mp hq; exact (hs _ x).2
    · intro q hq; obtain ⟨x, -, rfl⟩ := List.mem_map.mp hq; exact (hs _ x).1
    · intro q hq; obtain ⟨x, -, rfl⟩ := List.mem_map.mp hq; exact hh _ x
    · intro q hq; obtain ⟨x, -, rfl⟩ := List.mem_map.mp hq; exact hh _ x
    · intro q hq
      obtain ⟨y, hy, rfl⟩ := List.mem_map.mp hq
      have := e2 r hr y hy
      change y.toNat < C
      omega
  obtain ⟨l1, As, l2, hp⟩ := C119_pseudo sqrt T.exp he c hC hA.alpha.1 D is hout
  set os := (coRun sqrt T.exp c (coInit c) is).1 with hos
  have l3 : os.length = rs.length := by rw [l1, his, List.length_map]
  let ps : List (CStepped X V K) := List.zipWith (fun r sm => (r.1, r.2, objective T cfg r.1 sm)) rs os
  have lp : ps.length = rs.length := by simp [ps, l3]
  have m1 : ps.map (·.1) = rs.map (·.1) := by
    apply List.ext_getElem
    · simp [lp]
    · intro t a b; simp [ps]
  have m2 : ps.map (·.2) = List.zipWith (fun r sm => (r.2, objective T cfg r.1 sm)) rs os := by
    apply List.ext_getElem
    · simp [ps]
    · intro t a b; simp [ps]
  have m3 : ps.map (saidIn T.softmax cfg.temp g h) = is := by
    apply List.ext_getElem
    · simp [lp, his]
    · intro t a b; simp [ps, his, saidIn, heard]
  refine ⟨d, xw, s0, s1, eps, ps, rfl, hA, hE, rfl, by rw [m1, e1], by rw [m2, e3, hL.train], As, by rw [l2, lp, his]; simp, ?_⟩
  intro t p htp
  rw [m3]
  have htl : t < rs.length := by
    have := (List.getElem?_eq_some_iff.mp htp).1
    omega
  have hti : is[t]? = some (heard T cfg.temp g h rs[t]) := by
    rw [his, List.getElem?_map, List.getElem?_eq_getElem htl]; rfl
  obtain ⟨A, hA1, hA2, M, hM, out, ho, hol, hrow⟩ := hp t _ hti
  have hpt : p = (rs[t].1, rs[t].2, objective T cfg rs[t].1 out) := by
    have : ps[t]? = some (rs[t].1, rs[t].2, objective T cfg rs[t].1 out) := by
      simp only [ps, List.getElem?_zipWith, List.getElem?_eq_getElem htl, ho]
    rw [this] at htp
    exact (Option.some.inj htp).symm
  refine ⟨out, ⟨_, A, hti, hA1, hA2, M, hM, hol, hrow⟩, ?_⟩
  rw [hpt]
  obtain ⟨a1, a2, a3, a4⟩ := hsz rs[t] (List.getElem_mem htl)
  refine loss_of ha cfg hA.contrast.2 _ out a1 a2 (by rw [hol]; simp [heard]) ?_
  intro q hq
  obtain ⟨j, hj, rfl⟩ := List.getElem_of_mem hq
  have hj2 : j < rs[t].1.xw.length := by rw [hol] at hj; simpa [heard] using hj
  have hjA : j < A.length := by rw [hA2.1]; simpa [heard] using hj2
  obtain ⟨q', hq', hsub, -⟩ := hrow j A[j] (h rs[t].2 rs[t].1.xw[j]) (List.getElem?_eq_getElem hjA)
    (by simp [heard, List.getElem?_eq_getElem hj2])
  rw [List.getElem?_eq_getElem hj, Option.some.injEq] at hq'
  rw [hq']
  refine ⟨fun e => ?_, hsub.2.1⟩
  have := hsub.1
  rw [e] at this
  change 0 = C at this
  omega

/-- **C180 (nothing is carried over).**  What an object remembers from earlier trainings plays no role: the outcome and the network
afterwards are the same whatever the memory was, and on acceptable data the memory afterwards too. -/
theorem C180_fresh (G : TorchGen σ) (N : CNet X W K) (T : Torch K) (sqrt : K → K) (torch : Bool) (cfg : CCfg K)
    (bundle : Option Bundle) (data : Option (CInput X)) (seed : Int) (m m' : Mem K) (fitted : Bool) (w : W) :
    (fit G N T sqrt torch cfg bundle data seed ⟨m, fitted⟩ w).2 = (fit G N T sqrt torch cfg bundle data seed ⟨m', fitted⟩ w).2 ∧
    (fit G N T sqrt torch cfg bundle data seed ⟨m, fitted⟩ w).1.2 =
      (fit G N T sqrt torch cfg bundle data seed ⟨m', fitted⟩ w).1.2 ∧
    ∀ d xw s0 s1, data = some d → Acceptable torch cfg bundle d xw s0 s1 →
      fit G N T sqrt torch cfg bundle data seed ⟨m, fitted⟩ w = fit G N T sqrt torch cfg bundle data seed ⟨m', fitted⟩ w := by
  unfold fit
  cases hc : check torch cfg bundle data with
  | error e =>
    refine ⟨rfl, rfl, fun d xw s0 s1 hd hA => ?_⟩
    rw [check_ok.mpr ⟨d, xw, s0, s1, hd, hA, rfl⟩] at hc
    cases hc
  | ok r =>
    dsimp only
    cases fitBatches G r.xl r.yl r.xw r.xs cfg.batchSize cfg.maxEpochs seed with
    | error e => exact ⟨rfl, rfl, fun _ _ _ _ _ _ => rfl⟩
    | ok eps =>
      dsimp only
      cases trainSteps N T sqrt cfg (none, N.train w) eps.flatten with
      | mk st res => cases res <;> exact ⟨rfl, rfl, fun _ _ _ _ _ _ => rfl⟩

/-- **C180 (concatenation).**  For a network that treats rows by themselves, with detached targets, `use_cat` changes nothing. -/
theorem C180_cat (G : TorchGen σ) (hG : G.Lawful) (N : CNet X W K) (view : W → V) (g h : V → X → List K) (C D : Nat)
    (hN : Rowwise N view g h C D) (T : Torch K) (sqrt : K → K) (torch : Bool) (cfg : CCfg K) (hd : cfg.detach = true) (cat : Bool)
    (bundle : Option Bundle) (data : Option (CInput X)) (seed : Int) (o : Obj (Mem K)) (w : W) :
    fit G N T sqrt torch { cfg with cat := cat } bundle data seed o w = fit G N T sqrt torch cfg bundle data seed o w := by
  have hstep : ∀ st s, s.xw.length = s.xs.length →
      trainStep N T sqrt { cfg with cat := cat } st s = trainStep N T sqrt cfg st s := by
    intro st s hs
    unfold trainStep
    rw [look_rowwise hN _ _ _ hs, look_rowwise hN _ _ _ hs]
    have ho : ∀ sm, objective T { cfg with cat := cat } s sm = objective T cfg s sm := by
      intro sm; simp [objective, hd]
    simp only [ho]
    rfl
  have hsteps : ∀ (ss : List (CBatch X)) (st : Mem K × W), (∀ s ∈ ss, s.xw.length = s.xs.length) →
      trainSteps N T sqrt { cfg with cat := cat } st ss = trainSteps N T sqrt cfg st ss := by
    intro ss
    induction ss with
    | nil => intro st _; rfl
    | cons s ss ih =>
      intro st hz
      rw [trainSteps, trainSteps, hstep _ _ (hz s (by simp))]
      cases trainStep N T sqrt cfg st s with
      | mk w1 res => cases res with
        | error e => rfl
        | ok u => exact ih w1 fun x hx => hz x (by simp [hx])
  have hck : check torch { cfg with cat := cat } bundle data = check torch cfg bundle data := rfl
  cases hc : check torch cfg bundle data with
  | error e =>
    unfold fit
    rw [hck, hc]
  | ok r =>
    obtain ⟨d, xw, s0, s1, rfl, hA, rfl⟩ := check_ok.mp hc
    obtain ⟨eps, hb, hE⟩ := batches_ok hG hA seed
    unfold fit
    rw [hck, hc]
    dsimp only
    rw [hb]
    dsimp only
    rw [hsteps _ _ fun s hs => (hE.sizes s hs).2.1]

/-- **C180 (detaching).**  Without `use_cat` the option `detach_target` changes nothing, for any network: the weak views are then
always evaluated without gradients. -/
theorem C180_detach (G : TorchGen σ) (N : CNet X W K) (T : Torch K) (sqrt : K → K) (torch : Bool) (cfg : CCfg K)
    (hcat : cfg.cat = false) (detach : Bool) (bundle : Option Bundle) (data : Option (CInput X)) (seed : Int) (o : Obj (Mem K))
    (w : W) : fit G N T sqrt torch { cfg with detach := detach } bundle data seed o w =
      fit G N T sqrt torch cfg bundle data seed o w := by
  have hstep : ∀ st s, trainStep N T sqrt { cfg with detach := detach } st s = trainStep N T sqrt cfg st s := by
    intro st s
    have ho : ∀ sm, objective T { cfg with detach := detach } s sm = objective T cfg s sm := by
      intro sm; simp [objective, hcat]
    unfold trainStep
    simp only [ho]
    rfl
  have hsteps : ∀ (ss : List (CBatch X)) (st : Mem K × W),
      trainSteps N T sqrt { cfg with detach := detach } st ss = trainSteps N T sqrt cfg st ss := by
    intro ss
    induction ss with
    | nil => intro st; rfl
    | cons s ss ih =>
      intro st
      rw [trainSteps, trainSteps, hstep]
      cases trainStep N T sqrt cfg st s with
      | mk w1 res => cases res with
        | error e => rfl
        | ok u => exact ih w1
  unfold fit
  rw [show check torch { cfg with detach := detach } bundle data = check torch cfg bundle data from rfl]
  cases check torch cfg bundle data with
  | error e => rfl
  | ok r =>
    dsimp only
    cases fitBatches G r.xl r.yl r.xw r.xs cfg.batchSize cfg.maxEpochs seed with
    | error e => rfl
    | ok eps => dsimp only; rw [hsteps]

/-! ### Witnesses -/

/-- A network that remembers its steps; its answer for a row depends on their number. -/
structure DemoW where
  /-- steps -/
  steps : List (Nat × CObjective Nat Rat)
  /-- training mode -/
  training : Bool
deriving DecidableEq

/-- Its features. -/
def demoFeats (_ x : Nat) : List Rat := if x % 2 = 0 then [1] else [-1]

/-- The network, with the logits of `Fit.demoNet`. -/
def demoNet : CNet Nat DemoW Rat where
  train w := { w with training := true }
  forward w xs := (⟨true, ⟨2, 2, xs.map (Fit.demoLogits w.steps.length)⟩, ⟨2, 1, xs.map (demoFeats w.steps.length)⟩⟩, w)
  step w o := { w with steps := w.steps ++ [(w.steps.length, o)] }

theorem demo_rowwise : Rowwise demoNet (fun w => w.steps.length) Fit.demoLogits demoFeats 2 1 := fun _ _ => rfl

theorem demo_logs : Logs demoNet (fun w => w.steps.length) (fun w => w.steps) := ⟨fun _ => rfl, fun _ _ => rfl⟩

/-- Data for the examples: the second strong view under its third name. -/
def demoData (y : List Int) (u : List Nat) : CInput Nat :=
  ⟨⟨List.range y.length, true⟩, y, 1, true, some ⟨u, true, 1⟩, none,
    [("X_u_s", ⟨u.map (· + 10), true, 1⟩), ("X_u_strong1", ⟨u.map (· + 20), true, 1⟩)]⟩

/-- Parameters for the examples. -/
def demoCfg : CCfg Rat := ⟨2, 2, 1, 1, 3 / 5, 1, 1 / 2, 1 / 2, 4, 2, 2, true, true, false, false, true⟩

/-- `fit` in the examples. -/
def demoFit (cfg : CCfg Rat) (d : CInput Nat) (o : Obj (Mem Rat)) (w : DemoW) : (Obj (Mem Rat) × DemoW) × Except PyErr Unit :=
  fit TorchGen.demo demoNet Fit.demoTorch id true cfg (some ⟨true, true⟩) (some d) 0 o w

theorem demo_acceptable (y : List Int) (hy : y ≠ []) (u : List Nat) (hu : u ≠ []) :
    Acceptable true demoCfg (some ⟨true, true⟩) (demoData y u) ⟨u, true, 1⟩ ⟨u.map (· + 10), true, 1⟩
      ⟨u.map (· + 20), true, 1⟩ := by
  refine ⟨rfl, by simp [demoData], ⟨rfl, rfl⟩, by simpa [demoData] using hy, rfl, .inr ⟨rfl, ?_⟩, ?_, hu, by simp, ⟨rfl, rfl⟩,
    ⟨rfl, rfl, rfl, rfl⟩, ⟨_, rfl, rfl, rfl⟩, by decide, by decide, by norm_num [demoCfg], by norm_num [demoCfg],
    by norm_num [demoCfg], by norm_num [demoCfg], by norm_num [demoCfg], by decide, by decide⟩
  · exact .later _ _ _ rfl (.later _ _ _ rfl (.here _ _ _ rfl))
  · exact .later _ _ _ rfl (.later _ _ _ rfl (.here _ _ _ rfl))

/-- Training succeeds on all data of two classes. -/
example (y : List Int) (hy : y ≠ []) (hc : ∀ c ∈ y, 0 ≤ c ∧ c < 2) (u : List Nat) (hu : u ≠ []) :
    (demoFit demoCfg (demoData y u) ⟨none, false⟩ ⟨[], false⟩).2 = .ok () :=
  (C180_accepts TorchGen.demo TorchGen.demo_lawful demoNet _ _ _ 2 1 demo_rowwise _ _ _ _ _ _ _ _ _).mpr
    ⟨_, _, _, _, rfl, demo_acceptable y hy u hu, hc⟩

theorem demo_softmax (v x : Nat) : IsDistN 2 (Fit.demoTorch.softmax (Fit.demoLogits v x)) ∧
    IsDistN 2 (Fit.demoTorch.softmax ((Fit.demoLogits v x).map (· / demoCfg.temp))) := by
  have h : (Fit.demoLogits v x).map (· / demoCfg.temp) = Fit.demoLogits v x := by simp [demoCfg]
  rw [h, and_self]
  refine ⟨?_, (Fit.demo_softmax v x).1⟩
  unfold Fit.demoTorch Fit.demoLogits
  split_ifs <;> rfl

/-- The demo exponential obeys the law `C180_training` assumes. -/
theorem demo_exp : Transductive.Spec.ExpLaw Fit.demoTorch.exp := by
  refine ⟨fun x => ?_, by norm_num [Fit.demoTorch], fun x y h => ?_⟩
  · simp only [Fit.demoTorch]
    split_ifs with c
    · exact div_pos one_pos (by linarith)
    · linarith
  · simp only [Fit.demoTorch]
    split_ifs with c d d
    · exact one_div_lt_one_div_of_lt (by linarith) (by linarith)
    · calc 1 / (1 - x) < 1 := by rw [div_lt_one (by linarith)]; linarith
        _ ≤ 1 + y := by linarith
    · linarith
    · linarith

/-- The hypotheses of `C180_training` are met by a training of four steps. -/
example : ∃ eps, ∃ ps : List (CStepped Nat Nat Rat),
    CoFit.Spec.Epochs [0, 1] [0, 1] [4, 5, 6] ([14, 15, 16].zip [24, 25, 26]) 2 2 eps ∧ eps.flatten = ps.map (·.1) ∧
    (demoFit demoCfg (demoData [0, 1] [4, 5, 6]) ⟨none, false⟩ ⟨[], false⟩).1.2.steps = ps.map (·.2) ∧ ps.length = 4 := by
  have hok : (demoFit demoCfg (demoData [0, 1] [4, 5, 6]) ⟨none, false⟩ ⟨[], false⟩).2 = .ok () := by decide +kernel
  have hlen : (demoFit demoCfg (demoData [0, 1] [4, 5, 6]) ⟨none, false⟩ ⟨[], false⟩).1.2.steps.length = 4 := by decide +kernel
  rcases hq : demoFit demoCfg (demoData [0, 1] [4, 5, 6]) ⟨none, false⟩ ⟨[], false⟩ with ⟨⟨o, w⟩, r⟩
  rw [hq] at hok hlen
  obtain rfl : r = .ok () := hok
  obtain ⟨d, xw, s0, s1, eps, ps, h1, h2, h3, -, h4, h5, -⟩ := C180_training Fit.demoTorch demo_exp argmax_law id
    TorchGen.demo TorchGen.demo_lawful demoNet _ _ _ 2 1 (by decide) demo_rowwise demoCfg demo_softmax
    (fun v x => by unfold demoFeats; split_ifs <;> rfl) _ demo_logs true _ _ 0 _ o _ w hq
  obtain rfl := Option.some.inj h1
  obtain rfl : _ = xw := Option.some.inj h2.weak
  have e0 : s0 = ⟨[14, 15, 16], true, 1⟩ := by
    have := (first_iff (demoData [0, 1] [4, 5, 6]) s0).mpr h2.strong
    exact (Option.some.inj this).symm
  have e1 : s1 = ⟨[24, 25, 26], true, 1⟩ := by
    have := (firstOf_iff _ _ s1).mp h2.second
    exact (Option.some.inj this).symm
  subst e0 e1
  refine ⟨eps, ps, h3, h4, h5, ?_⟩
  have := congrArg List.length h5
  simp at this
  rw [← this]; exact hlen

/-- A label outside the classes shows only when its batch comes up: the network has been trained by then. -/
example : ∃ d xw s0 s1, Acceptable true { demoCfg with batchSize := 1 } (some ⟨true, true⟩) d xw s0 s1 ∧
    (demoFit { demoCfg with batchSize := 1 } d ⟨none, false⟩ ⟨[], false⟩).2 = .error .validation ∧
    (demoFit { demoCfg with batchSize := 1 } d ⟨none, false⟩ ⟨[], false⟩).1.2.steps ≠ [] :=
  ⟨demoData [7, 1] [4, 5], _, _, _, { demo_acceptable [7, 1] (by decide) [4, 5] (by decide) with batch := by decide },
    by decide +kernel, by decide +kernel⟩

end ModSSC.Deep.CoFit
