import Verif.Deep.DctModel
import Verif.Deep.MplProps
import Verif.Deep.AdvProps

/-!
# Deep Co-Training: properties
-/

/-! ### Specification -/

namespace ModSSC.Deep.Dct.Spec
open ModSSC ModSSC.Deep
open ModSSC.Deep.Fit (Out Feats Bundle)

variable {W W1 W2 V V1 V2 K : Type}

/-- What `fit` asks of data and networks; `xu` are the unlabeled rows it uses: `X_u`, or `X_u_w` if there is no `X_u`. -/
structure Acceptable (torch : Bool) (one two : Option Bundle) (shared : Bool) (d : Input K) (xu : Feats (List K)) : Prop where
  torch : torch = true
  rows : d.xl.rows.length = d.yl.length
  labels : d.yDims = 1 ∧ d.yInt64 = true
  nonempty : d.xl.rows ≠ []
  unlabeled : d.xu = some xu ∨ d.xu = none ∧ d.xuw = some xu
  unlabeledNonempty : xu.rows ≠ []
  floats : d.xl.float = true ∧ xu.float = true
  one : ∃ b, one = some b ∧ b.valid = true ∧ b.placed = true
  two : ∃ b, two = some b ∧ b.valid = true ∧ b.placed = true
  distinct : shared = false

/-- The epoch consists of labeled batches at the positions `bl1` for network 1 and `bl2` for network 2, and unlabeled ones
at the positions `bu`; labels go with their rows. -/
structure EpochOf (xl : List (List K)) (yl : List Int) (xu : List (List K)) (bl1 bl2 bu : List (List Nat))
    (ep : List (Batch K)) : Prop where
  len1 : bl1.length = ep.length
  len2 : bl2.length = ep.length
  lenu : bu.length = ep.length
  rows : ∀ t (h : t < ep.length),
    Deep.Spec.RowsAt xl (bl1.getD t []) ep[t].x1 ∧ Deep.Spec.RowsAt yl (bl1.getD t []) ep[t].y1 ∧
    Deep.Spec.RowsAt xl (bl2.getD t []) ep[t].x2 ∧ Deep.Spec.RowsAt yl (bl2.getD t []) ep[t].y2 ∧
    Deep.Spec.RowsAt xu (bu.getD t []) ep[t].xu

/-- All epochs are fair to the labeled rows, for each network, and to the unlabeled rows; in every batch both networks get
the same number of labeled rows. -/
structure Epochs (xl : List (List K)) (yl : List Int) (xu : List (List K)) (b e : Int) (eps : List (List (Batch K))) : Prop where
  number : (eps.length : Int) = e
  each : ∀ ep ∈ eps, (ep.length : Int) = max ⌈(xl.length : ℚ) / b⌉ ⌈(xu.length : ℚ) / b⌉ ∧
    ∃ bl1 bl2 bu, EpochOf xl yl xu bl1 bl2 bu ep ∧ Deep.Spec.FairEpoch xl.length b.toNat bl1 ∧
      Deep.Spec.FairEpoch xl.length b.toNat bl2 ∧ Deep.Spec.FairEpoch xu.length b.toNat bu
  paired : ∀ ep ∈ eps, ∀ s ∈ ep, s.x1.length = s.x2.length

variable [Field K] [LinearOrder K]

/-- The parameters `fit` takes. -/
structure InRange (cfg : Cfg K) : Prop where
  batch : 0 < cfg.batchSize
  epochs : 0 < cfg.maxEpochs
  cot : 0 ≤ cfg.lambdaCot
  dif : 0 ≤ cfg.lambdaDif
  eps : 0 ≤ cfg.eps
  clip : ∀ l h, cfg.clipMin = some l → cfg.clipMax = some h → l ≤ h

/-- A network without batch norm and dropout: each row is treated by itself, and nothing is changed.  `gr` is its gradient. -/
structure Rowwise (N : Net W K) (view : W → V) (g : V → List K → List K)
    (gr : V → List (List K) → List Nat → Option (List (List K))) (C : Nat) : Prop where
  forward : ∀ w xs, N.forward w xs = (⟨2, C, xs.map (g (view w))⟩, w)
  probe : ∀ w xs, N.probe w xs = (⟨2, C, xs.map (g (view w))⟩, w)
  grad : ∀ w xs t, N.grad w xs t = gr (view w) xs t
  shape : ∀ v xs t gs, gr v xs t = some gs → List.Forall₂ (fun x d => d.length = x.length) xs gs

/-- `log` records the optimizer steps: what the networks were (as far as the views see them) and the loss. -/
structure Logs (P : Pair W1 W2 K) (view1 : W1 → V1) (view2 : W2 → V2) (log : W1 × W2 → List ((V1 × V2) × Goal K)) : Prop where
  train : ∀ w, log (P.one.train w.1, P.two.train w.2) = log w
  step : ∀ w o, log (P.step w o) = log w ++ [((view1 w.1, view2 w.2), o)]

/-- `u` is the number nearest to `z` within the bounds. -/
def Clipped (lo hi : Option K) (z u : K) : Prop :=
  (∀ l, lo = some l → l ≤ u) ∧ (∀ h, hi = some h → u ≤ h) ∧ (u = z ∨ (z < u ∧ lo = some u) ∨ (u < z ∧ hi = some u))

/-- `u` is `z` after a step of length `eps` in the direction of the gradient `d`, clipped. -/
def Moved (cfg : Cfg K) (z d u : K) : Prop :=
  (0 < d → Clipped cfg.clipMin cfg.clipMax (z + cfg.eps) u) ∧ (d < 0 → Clipped cfg.clipMin cfg.clipMax (z - cfg.eps) u) ∧
  (d = 0 → Clipped cfg.clipMin cfg.clipMax z u)

/-- An entry of a gradient; a missing gradient is zero. -/
def entry (gs : Option (List (List K))) (i j : Nat) : K :=
  match gs with
  | none => 0
  | some gs => (gs.getD i []).getD j 0

/-- `adv` are the rows `rows`, each entry moved with the gradient `gs`. -/
def Attacked (cfg : Cfg K) (gs : Option (List (List K))) (rows adv : List (List K)) : Prop :=
  adv.length = rows.length ∧ ∀ i r, rows[i]? = some r → ∃ a, adv[i]? = some a ∧ a.length = r.length ∧
    ∀ j z, r[j]? = some z → ∃ u, a[j]? = some u ∧ Moved cfg z (entry gs i j) u

/-- The gradient of a network is that of its cross entropy with the labels (of the labeled rows) and its own guesses (of the
unlabeled ones). -/
def targets (argmax : List K → Nat) (f : List K → List K) (y : List Int) (xu : List (List K)) : List Nat :=
  y.map Int.toNat ++ xu.map fun r => argmax (f r)

/-- The loss of a step for networks whose logits are `f1`, `f2` and whose gradients are `gr1`, `gr2`. -/
structure Loss (softmax : List K → List K) (argmax : List K → Nat) (cfg : Cfg K) (f1 f2 : List K → List K)
    (gr1 gr2 : List (List K) → List Nat → Option (List (List K))) (s : Batch K) (o : Goal K) : Prop where
  sup1 : o.sup1 = s.x1.zip s.y1
  sup2 : o.sup2 = s.x2.zip s.y2
  cot : o.cot = s.xu
  cotScale : o.cotScale = if cfg.lambdaCot = 0 then none else some cfg.lambdaCot
  /-- network 2 should say of the rows made against network 1 what network 1 says of the original rows -/
  dif2 : ∃ adv, Attacked cfg (gr1 (s.x1 ++ s.xu) (targets argmax f1 s.y1 s.xu)) (s.x1 ++ s.xu) adv ∧
    o.dif2 = adv.zip ((s.x1 ++ s.xu).map fun r => softmax (f1 r))
  /-- and the other way round -/
  dif1 : ∃ adv, Attacked cfg (gr2 (s.x2 ++ s.xu) (targets argmax f2 s.y2 s.xu)) (s.x2 ++ s.xu) adv ∧
    o.dif1 = adv.zip ((s.x2 ++ s.xu).map fun r => softmax (f2 r))
  difScale : o.difScale = if cfg.lambdaDif = 0 then none else some cfg.lambdaDif
  attached : o.attached = !cfg.detach

end ModSSC.Deep.Dct.Spec

namespace ModSSC.Deep.Dct
open ModSSC ModSSC.Deep Spec
open ModSSC.Deep.Fit (Out Feats Bundle rowsAt_length)
open ModSSC.Deep.Cons (runSteps runSteps_ok runSteps_total chain_log)
set_option linter.unusedSectionVars false

variable {W W1 W2 V V1 V2 K σ : Type}

/-! ### Batches -/

/-- The sizes of the batches do not depend on the permutations. -/
theorem iter_sizes {n b : Nat} {p q : List Nat} (hp : p.length = n) (hq : q.length = n) :
    (iterBatchIndices n b p).map List.length = (iterBatchIndices n b q).map List.length := by
  unfold iterBatchIndices
  simp only [List.map_map]
  refine List.map_congr_left fun k _ => ?_
  simp [hp, hq]

theorem cycle_sizes {G : TorchGen σ} (hG : G.Lawful) {n b : Nat} : ∀ {steps : Nat} {p q : List (List Nat)} {g g' : σ}
    {bs bs' : List (List Nat)} {h h' : σ}, p.map List.length = q.map List.length →
    cycleFrom G n b steps p g = .ok (bs, h) → cycleFrom G n b steps q g' = .ok (bs', h') →
    bs.map List.length = bs'.map List.length
  | 0, p, q, g, g', bs, bs', h, h', _, e1, e2 => by
    simp only [cycleFrom, Except.ok.injEq, Prod.mk.injEq] at e1 e2
    rw [← e1.1, ← e2.1]
  | steps + 1, p, q, g, g', bs, bs', h, h', hpq, e1, e2 => by
    have hnext : ∀ {r : List (List Nat)} {g : σ} {k}, cycleNext G n b r g = .ok k →
        (r = k.1 :: k.2.1) ∨ (r = [] ∧ ∃ p : List Nat, p.length = n ∧ iterBatchIndices n b p = k.1 :: k.2.1) := by
      intro r g k hk
      unfold cycleNext at hk
      cases r with
      | cons B rest => simp only [Except.ok.injEq] at hk; rw [← hk]; exact .inl rfl
      | nil =>
        simp only at hk
        cases hi : iterBatchIndices n b (G.randperm g n).1 with
        | nil => rw [hi] at hk; cases hk
        | cons B rest =>
          rw [hi] at hk
          simp only [Except.ok.injEq] at hk
          refine .inr ⟨rfl, _, ?_, by rw [hi, ← hk]⟩
          rw [(hG g n).length_eq, List.length_range]
    simp only [cycleFrom] at e1 e2
    cases h1 : cycleNext G n b p g with
    | error e => rw [h1] at e1; cases e1
    | ok k1 =>
    cases h2 : cycleNext G n b q g' with
    | error e => rw [h2] at e2; cases e2
    | ok k2 =>
    obtain ⟨B1, r1, s1⟩ := k1
    obtain ⟨B2, r2, s2⟩ := k2
    rw [h1] at e1
    rw [h2] at e2
    simp only at e1 e2
    have hsame : (B1 :: r1).map List.length = (B2 :: r2).map List.length := by
      rcases hnext h1 with a | ⟨a, l1, a1, a2⟩ <;> rcases hnext h2 with c | ⟨c, l2, c1, c2⟩
      · rw [← a, ← c, hpq]
      · rw [a, c] at hpq; simp at hpq
      · rw [a, c] at hpq; simp at hpq
      · rw [← a2, ← c2]; exact iter_sizes a1 c1
    simp only [List.map_cons, List.cons.injEq] at hsame
    cases k1 : cycleFrom G n b steps r1 s1 with
    | error e => rw [k1] at e1; cases e1
    | ok m1 =>
    cases k2 : cycleFrom G n b steps r2 s2 with
    | error e => rw [k2] at e2; cases e2
    | ok m2 =>
    rw [k1] at e1
    rw [k2] at e2
    simp only [Except.ok.injEq, Prod.mk.injEq] at e1 e2
    rw [← e1.1, ← e2.1, List.map_cons, List.map_cons, hsame.1,
      cycle_sizes hG (p := r1) (q := r2) (bs := m1.1) (bs' := m2.1) hsame.2 k1 k2]

theorem cycleBatches_ok {G : TorchGen σ} (hG : G.Lawful) {α β : Type} (X : List α) (y : List β) {b steps : Nat} (hb : 0 < b)
    (hn : 0 < X.length) (hy : X.length = y.length) (hs : (X.length + b - 1) / b ≤ steps) (g : σ) :
    ∃ out g' bl, cycleBatches G X y b steps g = .ok (out, g') ∧ cycleBatchIndices G X.length b steps g = .ok (bl, g') ∧
      bl.length = steps ∧ Deep.Spec.FairEpoch X.length b bl ∧
      List.Forall₂ (fun B p => Deep.Spec.RowsAt X B p.1 ∧ Deep.Spec.RowsAt y B p.2) bl out := by
  obtain ⟨bl, g', hbl, hll, fl⟩ := cycleBatchIndices_fair G hG X.length b steps hn hb hs g
  obtain ⟨ps, hps⟩ : ∃ ps, bl.mapM (takePair X y) = .ok ps := by
    apply mapM_total
    intro B hB
    exact takePair_total X y B (fl.range B hB) (fun i hi => hy ▸ fl.range B hB i hi)
  refine ⟨ps, g', bl, ?_, hbl, hll, fl, ?_⟩
  · unfold cycleBatches
    rw [if_neg (by omega)]
    simp only [hbl, hps, bind, Except.bind, pure, Except.pure]
  · exact (mapM_ok.mp hps).imp fun B p h => (takePair_ok _ _ _ _).mp h

theorem epoch_ok {G : TorchGen σ} (hG : G.Lawful) (xl : List (List K)) (yl : List Int) (xu : List (List K)) {b steps : Nat}
    (hb : 0 < b) (hl : 0 < xl.length) (hy : xl.length = yl.length) (hu : 0 < xu.length)
    (h1 : (xl.length + b - 1) / b ≤ steps) (h2 : (xu.length + b - 1) / b ≤ steps) (g : σ × σ × σ) :
    ∃ ep g', epoch G xl yl xu b steps g = .ok (ep, g') ∧ ep.length = steps ∧ (∀ s ∈ ep, s.x1.length = s.x2.length) ∧
      ∃ bl1 bl2 bu, EpochOf xl yl xu bl1 bl2 bu ep ∧ Deep.Spec.FairEpoch xl.length b bl1 ∧
        Deep.Spec.FairEpoch xl.length b bl2 ∧ Deep.Spec.FairEpoch xu.length b bu := by
  obtain ⟨o1, g1, bl1, e1, i1, n1, f1, r1⟩ := cycleBatches_ok hG xl yl hb hl hy h1 g.1
  obtain ⟨o2, g2, bl2, e2, i2, n2, f2, r2⟩ := cycleBatches_ok hG xl yl hb hl hy h1 g.2.1
  obtain ⟨bu, gu, hbu, nu, fu⟩ := cycleBatchIndices_fair G hG xu.length b steps hu hb h2 g.2.2
  have hsz := cycle_sizes hG (p := []) (q := []) rfl i1 i2
  have l1 : bl1.length = o1.length := r1.length_eq
  have l2 : bl2.length = o2.length := r2.length_eq
  obtain ⟨ep, hep⟩ : ∃ ep, ((o1.zip o2).zip bu).mapM (mkBatch xu) = .ok ep := by
    apply mapM_total
    rintro ⟨p, B⟩ hp
    obtain ⟨u, hu⟩ := takeRows_total xu B (fu.range B (List.of_mem_zip hp).2)
    exact ⟨_, by unfold mkBatch; rw [ebind_of_ok hu]; rfl⟩
  have hf := mapM_ok.mp hep
  have hfl : ((o1.zip o2).zip bu).length = ep.length := hf.length_eq
  have hlen : ep.length = steps := by
    rw [← hfl, List.length_zip, List.length_zip, ← l1, ← l2, n1, n2, nu]; simp
  have hrows : ∀ t (h : t < ep.length),
      Deep.Spec.RowsAt xl (bl1.getD t []) ep[t].x1 ∧ Deep.Spec.RowsAt yl (bl1.getD t []) ep[t].y1 ∧
      Deep.Spec.RowsAt xl (bl2.getD t []) ep[t].x2 ∧ Deep.Spec.RowsAt yl (bl2.getD t []) ep[t].y2 ∧
      Deep.Spec.RowsAt xu (bu.getD t []) ep[t].xu := by
    intro t ht
    have q1 := List.Forall₂.get r1 (i := t) (by omega) (by omega)
    have q2 := List.Forall₂.get r2 (i := t) (by omega) (by omega)
    have q := List.Forall₂.get hf (i := t) (by omega) ht
    simp only [List.get_eq_getElem, List.getElem_zip] at q q1 q2
    unfold mkBatch at q
    simp only [ebind_ok, pure, Except.pure, Except.ok.injEq] at q
    obtain ⟨u, hu, e⟩ := q
    rw [List.getD_eq_getElem bl1 [] (by omega), List.getD_eq_getElem bl2 [] (by omega), List.getD_eq_getElem bu [] (by omega),
      ← e]
    exact ⟨q1.1, q1.2, q2.1, q2.2, (takeRows_ok _ _ _).mp hu⟩
  refine ⟨ep, (g1, g2, gu), ?_, hlen, ?_, bl1, bl2, bu, ⟨by omega, by omega, by omega, hrows⟩, f1, f2, fu⟩
  · unfold epoch
    simp only [e1, e2, hbu, hep, bind, Except.bind, pure, Except.pure]
  · intro s hs
    obtain ⟨t, ht, rfl⟩ := List.getElem_of_mem hs
    obtain ⟨q1, -, q2, -, -⟩ := hrows t ht
    rw [rowsAt_length q1, rowsAt_length q2, List.getD_eq_getElem bl1 [] (by omega), List.getD_eq_getElem bl2 [] (by omega)]
    have := congrArg (fun l : List Nat => l[t]?) hsz
    simpa [List.getElem?_eq_getElem (show t < bl1.length by omega), List.getElem?_eq_getElem (show t < bl2.length by omega)]
      using this

theorem epochs_ok {G : TorchGen σ} (hG : G.Lawful) (xl : List (List K)) (yl : List Int) (xu : List (List K)) {b steps : Nat}
    (hb : 0 < b) (hl : 0 < xl.length) (hy : xl.length = yl.length) (hu : 0 < xu.length)
    (h1 : (xl.length + b - 1) / b ≤ steps) (h2 : (xu.length + b - 1) / b ≤ steps) : ∀ (e : Nat) (g : σ × σ × σ),
    ∃ eps, epochs G xl yl xu b steps e g = .ok eps ∧ eps.length = e ∧ ∀ ep ∈ eps, ep.length = steps ∧
      (∀ s ∈ ep, s.x1.length = s.x2.length) ∧
      ∃ bl1 bl2 bu, EpochOf xl yl xu bl1 bl2 bu ep ∧ Deep.Spec.FairEpoch xl.length b bl1 ∧
        Deep.Spec.FairEpoch xl.length b bl2 ∧ Deep.Spec.FairEpoch xu.length b bu
  | 0, g => ⟨[], rfl, rfl, by simp⟩
  | e + 1, g => by
    obtain ⟨o, g', h, hlen, hr⟩ := epoch_ok hG xl yl xu hb hl hy hu h1 h2 g
    obtain ⟨rest, h', hlen', hr'⟩ := epochs_ok hG xl yl xu hb hl hy hu h1 h2 e g'
    refine ⟨o :: rest, ?_, by simp [hlen'], ?_⟩
    · unfold epochs
      simp only [h, h', bind, Except.bind, pure, Except.pure]
    · intro ep hep
      rcases List.mem_cons.mp hep with rfl | hep
      · exact ⟨hlen, hr⟩
      · exact hr' ep hep

theorem numBatches_ceil {b : Int} (hb : 0 < b) (n : Nat) (hn : 0 < n) :
    ((numBatches n b.toNat : Nat) : Int) = ⌈(n : ℚ) / b⌉ := by
  obtain ⟨m, rfl⟩ : ∃ m : Nat, b = m := ⟨b.toNat, by omega⟩
  have hm : 0 < m := by omega
  have hpos : 0 < (n + m - 1) / m := Nat.div_pos (by omega) hm
  have e1 : numBatches n m = (n + m - 1) / m := by unfold numBatches; omega
  simp only [Int.toNat_natCast, e1]
  symm
  rw [Int.ceil_eq_iff]
  have hmq : (0 : ℚ) < ((m : Int) : ℚ) := by exact_mod_cast hm
  have a1 := ceil_mul n m hm
  have a2 := ceil_lt n m ((n + m - 1) / m - 1) hm (by omega)
  obtain ⟨q, hq⟩ : ∃ q, (n + m - 1) / m = q + 1 := ⟨(n + m - 1) / m - 1, by omega⟩
  rw [hq] at a1 a2 ⊢
  simp only [Nat.add_sub_cancel] at a2
  constructor
  · rw [lt_div_iff₀ hmq]
    push_cast
    have : (q : ℚ) * m < n := by exact_mod_cast a2
    linarith
  · rw [div_le_iff₀ hmq]
    push_cast
    exact_mod_cast a1

theorem batches_ok {G : TorchGen σ} (hG : G.Lawful) (xl : List (List K)) (yl : List Int) (xu : List (List K)) {b e : Int}
    (hb : 0 < b) (he : 0 < e) (hl : xl ≠ []) (hy : xl.length = yl.length) (hu : xu ≠ []) (seed : Int) :
    ∃ eps, batches G xl yl xu b e seed = .ok eps ∧ Epochs xl yl xu b e eps := by
  have n1 := List.length_pos_iff.mpr hl
  have n2 := List.length_pos_iff.mpr hu
  obtain ⟨eps, h, hn, hE⟩ := epochs_ok hG xl yl xu (b := b.toNat)
    (steps := max (numBatches xl.length b.toNat) (numBatches xu.length b.toNat)) (by omega) n1 hy n2
    (by unfold numBatches; omega) (by unfold numBatches; omega) e.toNat
    (G.manualSeed seed, G.manualSeed (seed + 1), G.manualSeed (seed + 2))
  refine ⟨eps, h, ⟨by omega, fun ep hep => ?_, fun ep hep => (hE ep hep).2.1⟩⟩
  obtain ⟨q1, -, q2⟩ := hE ep hep
  refine ⟨?_, q2⟩
  rw [q1, Nat.cast_max, numBatches_ceil hb _ n1, numBatches_ceil hb _ n2]

theorem Epochs.sub {xl : List (List K)} {yl : List Int} {xu : List (List K)} {b e : Int} {eps : List (List (Batch K))}
    (h : Epochs xl yl xu b e eps) : ∀ s ∈ eps.flatten, (∀ y ∈ s.y1, y ∈ yl) ∧ (∀ y ∈ s.y2, y ∈ yl) ∧
      s.x1.length = s.x2.length ∧ s.x1.length = s.y1.length ∧ s.x2.length = s.y2.length ∧ s.x1 ≠ [] := by
  intro s hs
  obtain ⟨ep, hep, hs⟩ := List.mem_flatten.mp hs
  have hp := h.paired ep hep s hs
  obtain ⟨-, bl1, bl2, bu, hE, hF, -⟩ := h.each ep hep
  obtain ⟨t, ht, rfl⟩ := List.getElem_of_mem hs
  obtain ⟨r1, r2, r3, r4, -⟩ := hE.rows t ht
  have mem : ∀ {B : List Nat} {ys : List Int}, Deep.Spec.RowsAt yl B ys → ∀ y ∈ ys, y ∈ yl := by
    intro B ys r y hy
    have h1 : some y ∈ ys.map some := List.mem_map_of_mem hy
    rw [r, List.mem_map] at h1
    obtain ⟨i, -, hi⟩ := h1
    exact List.mem_of_getElem? hi
  refine ⟨mem r2, mem r4, hp, by rw [rowsAt_length r1, rowsAt_length r2], by rw [rowsAt_length r3, rowsAt_length r4], ?_⟩
  have hB := hF.nonempty (bl1[t]'(by rw [hE.len1]; exact ht)) (List.getElem_mem _)
  rw [← List.length_pos_iff, rowsAt_length r1, List.getD_eq_getElem bl1 [] (by rw [hE.len1]; exact ht)]
  exact List.length_pos_iff.mpr hB

theorem Epochs.visits {xl : List (List K)} {yl : List Int} {xu : List (List K)} {b e : Int} {eps : List (List (Batch K))}
    (h : Epochs xl yl xu b e eps) (he : 0 < e) (hl : xl.length = yl.length) : ∀ y ∈ yl, ∃ s ∈ eps.flatten, y ∈ s.y1 := by
  intro y hy
  obtain ⟨i, hi, rfl⟩ := List.getElem_of_mem hy
  have hn : 0 < eps.length := by have := h.number; omega
  obtain ⟨ep, hep⟩ : ∃ ep, ep ∈ eps := ⟨_, List.getElem_mem hn⟩
  obtain ⟨-, bl1, bl2, bu, hE, hF, -⟩ := h.each ep hep
  have hmem : i ∈ bl1.flatten := List.count_pos_iff.mp (hF.covers i (by omega))
  obtain ⟨B, hB, hiB⟩ := List.mem_flatten.mp hmem
  obtain ⟨t, ht, rfl⟩ := List.getElem_of_mem hB
  have ht' : t < ep.length := by rw [← hE.len1]; exact ht
  obtain ⟨-, r2, -⟩ := hE.rows t ht'
  refine ⟨ep[t], List.mem_flatten.mpr ⟨ep, hep, List.getElem_mem ht'⟩, ?_⟩
  rw [List.getD_eq_getElem _ _ ht] at r2
  have h3 : some yl[i] ∈ (ep[t].y1).map some := by
    rw [r2, List.mem_map]
    exact ⟨i, hiB, by rw [List.getElem?_eq_getElem hi]⟩
  simpa using h3

variable [Field K] [LinearOrder K] [IsStrictOrderedRing K]

/-! ### Checks -/

theorem check_ok {torch : Bool} {one two : Option Bundle} {shared : Bool} {data : Option (Input K)}
    {r : Input K × List (List K)} :
    check torch one two shared data = .ok r ↔
      ∃ d xu, data = some d ∧ Acceptable torch one two shared d xu ∧ r = (d, xu.rows) := by
  cases data with
  | none => simp [check]
  | some d =>
  have hu : ∀ u : Feats (List K), unlabeledOf d = some u ↔
      (d.xu = some u ∨ d.xu = none ∧ d.xuw = some u) := by
    intro u
    unfold unlabeledOf
    cases d.xu <;> simp
  constructor
  · intro h
    unfold check at h
    simp only at h
    by_cases c1 : torch = false
    · rw [if_pos c1] at h; cases h
    rw [if_neg c1] at h
    by_cases c2 : d.xl.rows.length ≠ d.yl.length
    · rw [if_pos c2] at h; cases h
    rw [if_neg c2] at h
    cases hx : unlabeledOf d with
    | none => rw [hx] at h; cases h
    | some u =>
    rw [hx] at h
    simp only at h
    by_cases c3 : d.xl.rows.length = 0
    · rw [if_pos c3] at h; cases h
    rw [if_neg c3] at h
    by_cases c4 : u.rows.length = 0
    · rw [if_pos c4] at h; cases h
    rw [if_neg c4] at h
    by_cases c5 : d.yInt64 = false
    · rw [if_pos c5] at h; cases h
    rw [if_neg c5] at h
    by_cases c6 : d.yDims ≠ 1
    · rw [if_pos c6] at h; cases h
    rw [if_neg c6] at h
    by_cases c7 : d.xl.float = false
    · rw [if_pos c7] at h; cases h
    rw [if_neg c7] at h
    by_cases c8 : u.float = false
    · rw [if_pos c8] at h; cases h
    rw [if_neg c8] at h
    cases hb : Mpl.both one two with
    | none => rw [hb] at h; cases h
    | some b =>
    rw [hb] at h
    simp only at h
    by_cases c9 : b.valid = false
    · rw [if_pos c9] at h; cases h
    rw [if_neg c9] at h
    by_cases c10 : b.placed = false
    · rw [if_pos c10] at h; cases h
    rw [if_neg c10] at h
    by_cases c11 : shared = true
    · rw [if_pos c11] at h; cases h
    rw [if_neg c11] at h
    obtain rfl := Except.ok.inj h
    obtain ⟨b1, b2⟩ := Mpl.both_some.mp ⟨b, hb, by simpa using c9, by simpa using c10⟩
    exact ⟨d, u, rfl, ⟨by simpa using c1, not_not.mp c2, ⟨not_not.mp c6, by simpa using c5⟩,
      fun e => c3 (by rw [e]; rfl), (hu u).mp hx, fun e => c4 (by rw [e]; rfl), ⟨by simpa using c7, by simpa using c8⟩, b1, b2,
      by simpa using c11⟩, rfl⟩
  · rintro ⟨d', xu, hd, hA, rfl⟩
    obtain rfl := Option.some.inj hd
    obtain ⟨b, hb, v, p⟩ := Mpl.both_some.mpr ⟨hA.one, hA.two⟩
    have n1 := List.length_pos_iff.mpr hA.nonempty
    have n2 := List.length_pos_iff.mpr hA.unlabeledNonempty
    unfold check
    simp only [(hu xu).mpr hA.unlabeled, hb]
    rw [if_neg (by simp [hA.torch]), if_neg (not_not.mpr hA.rows), if_neg (by omega), if_neg (by omega),
      if_neg (by simp [hA.labels.2]), if_neg (not_not.mpr hA.labels.1), if_neg (by simp [hA.floats.1]),
      if_neg (by simp [hA.floats.2]), if_neg (by simp [v]), if_neg (by simp [p]), if_neg (by simp [hA.distinct])]

theorem check_error {torch : Bool} {one two : Option Bundle} {shared : Bool} {data : Option (Input K)} {e : PyErr}
    (h : check torch one two shared data = .error e) : e = .validation := by
  cases data with
  | none => exact (Except.error.inj h).symm
  | some d =>
  unfold check at h
  simp only at h
  by_cases c1 : torch = false
  · rw [if_pos c1] at h; exact (Except.error.inj h).symm
  rw [if_neg c1] at h
  by_cases c2 : d.xl.rows.length ≠ d.yl.length
  · rw [if_pos c2] at h; exact (Except.error.inj h).symm
  rw [if_neg c2] at h
  cases hx : unlabeledOf d with
  | none => rw [hx] at h; exact (Except.error.inj h).symm
  | some u =>
  rw [hx] at h
  simp only at h
  by_cases c3 : d.xl.rows.length = 0
  · rw [if_pos c3] at h; exact (Except.error.inj h).symm
  rw [if_neg c3] at h
  by_cases c4 : u.rows.length = 0
  · rw [if_pos c4] at h; exact (Except.error.inj h).symm
  rw [if_neg c4] at h
  by_cases c5 : d.yInt64 = false
  · rw [if_pos c5] at h; exact (Except.error.inj h).symm
  rw [if_neg c5] at h
  by_cases c6 : d.yDims ≠ 1
  · rw [if_pos c6] at h; exact (Except.error.inj h).symm
  rw [if_neg c6] at h
  by_cases c7 : d.xl.float = false
  · rw [if_pos c7] at h; exact (Except.error.inj h).symm
  rw [if_neg c7] at h
  by_cases c8 : u.float = false
  · rw [if_pos c8] at h; exact (Except.error.inj h).symm
  rw [if_neg c8] at h
  cases hb : Mpl.both one two with
  | none => rw [hb] at h; exact (Except.error.inj h).symm
  | some b =>
  rw [hb] at h
  simp only at h
  by_cases c9 : b.valid = false
  · rw [if_pos c9] at h; exact (Except.error.inj h).symm
  rw [if_neg c9] at h
  by_cases c10 : b.placed = false
  · rw [if_pos c10] at h; exact (Except.error.inj h).symm
  rw [if_neg c10] at h
  by_cases c11 : shared = true
  · rw [if_pos c11] at h; exact (Except.error.inj h).symm
  rw [if_neg c11] at h
  cases h

theorem clipOk_iff {lo hi : Option K} : clipOk lo hi = true ↔ ∀ l h, lo = some l → hi = some h → l ≤ h := by
  cases lo <;> cases hi <;> simp [clipOk]

theorem params_ok {cfg : Cfg K} : params cfg = true ↔ InRange cfg := by
  unfold params
  rw [Bool.and_eq_true, decide_eq_true_eq, clipOk_iff]
  exact ⟨fun ⟨⟨a, b, c, d, e⟩, f⟩ => ⟨a, b, c, d, e, f⟩, fun ⟨a, b, c, d, e, f⟩ => ⟨⟨a, b, c, d, e⟩, f⟩⟩

/-- **C173 (refused).**  A `fit` whose data, bundles or parameters are not acceptable raises a validation error, and leaves
both networks and the object as they were. -/
theorem C173_refused (G : TorchGen σ) (P : Pair W1 W2 K) (softmax : List K → List K) (argmax : List K → Nat) (torch : Bool)
    (cfg : Cfg K) (one two : Option Bundle) (shared : Bool) (data : Option (Input K)) (seed : Int) (fitted : Bool) (w : W1 × W2)
    (h : (∀ d xu, data = some d → ¬ Acceptable torch one two shared d xu) ∨ ¬ InRange cfg) :
    fit G P softmax argmax torch cfg one two shared data seed fitted w = ((fitted, w), .error .validation) := by
  unfold fit
  cases hc : check torch one two shared data with
  | error e =>
    have : e = .validation := check_error hc
    rw [this]
  | ok r =>
    obtain ⟨d, xu, hd, hA, -⟩ := check_ok.mp hc
    rcases h with h | h
    · exact absurd hA (h d xu hd)
    · have hp : params cfg = false := by
        cases hb : params cfg with
        | false => rfl
        | true => exact absurd (params_ok.mp hb) h
      simp only [hp, if_true]

/-! ### The adversarial rows -/

theorem clip_spec {lo hi : Option K} (hlh : ∀ l h, lo = some l → hi = some h → l ≤ h) (z : K) :
    Clipped lo hi z (Adv.clipTensor lo hi z) := by
  unfold Clipped
  cases lo with
  | none =>
    cases hi with
    | none => simp [Adv.clipTensor]
    | some h =>
      simp only [Adv.clipTensor]
      rcases le_total z h with c | c
      · rw [min_eq_left c]; simp [c]
      · rw [min_eq_right c]
        rcases eq_or_lt_of_le c with e | e
        · simp [e]
        · simp [e]
  | some l =>
    cases hi with
    | none =>
      simp only [Adv.clipTensor]
      rcases le_total z l with c | c
      · rw [max_eq_right c]
        rcases eq_or_lt_of_le c with e | e
        · simp [e]
        · simp [e]
      · rw [max_eq_left c]; simp [c]
    | some h =>
      have hl := hlh l h rfl rfl
      simp only [Adv.clipTensor, Adv.clamp2]
      rcases le_total z l with c | c
      · rw [max_eq_right c, min_eq_left hl]
        rcases eq_or_lt_of_le c with e | e
        · subst e; simp [hl]
        · simp [e, hl]
      · rw [max_eq_left c]
        rcases le_total z h with d | d
        · rw [min_eq_left d]; simp [c, d]
        · rw [min_eq_right d]
          rcases eq_or_lt_of_le d with e | e
          · subst e; simp [hl]
          · simp [e, hl]

theorem fgsm_moved {cfg : Cfg K} (hlh : ∀ l h, cfg.clipMin = some l → cfg.clipMax = some h → l ≤ h) (z : K) (d : Option K) :
    Moved cfg z (d.getD 0) (Adv.fgsm false cfg.eps cfg.clipMin cfg.clipMax z d) := by
  unfold Moved Adv.fgsm
  simp only [Bool.false_eq_true, if_false]
  refine ⟨fun h => ?_, fun h => ?_, fun h => ?_⟩
  · rw [show Adv.sign (d.getD 0) = 1 by simp [Adv.sign, h], mul_one]; exact clip_spec hlh _
  · rw [show Adv.sign (d.getD 0) = -1 by simp [Adv.sign, h, not_lt.mpr h.le], mul_neg, mul_one, ← sub_eq_add_neg]
    exact clip_spec hlh _
  · rw [h, show Adv.sign (0 : K) = 0 by simp [Adv.sign], mul_zero, add_zero]; exact clip_spec hlh _

theorem moved_attacked {cfg : Cfg K} (hlh : ∀ l h, cfg.clipMin = some l → cfg.clipMax = some h → l ≤ h)
    {rows : List (List K)} {gs : Option (List (List K))}
    (hs : ∀ g, gs = some g → List.Forall₂ (fun x d => d.length = x.length) rows g) :
    Attacked cfg gs rows (moved cfg rows gs) := by
  cases gs with
  | none =>
    refine ⟨by simp [moved], fun i r hr => ⟨r.map fun x => Adv.fgsm false cfg.eps cfg.clipMin cfg.clipMax x none, ?_, ?_, ?_⟩⟩
    · simp only [moved, List.getElem?_map, hr, Option.map_some]
    · simp
    · intro j z hz
      exact ⟨_, by rw [List.getElem?_map, hz, Option.map_some], fgsm_moved hlh z none⟩
  | some g =>
    have hf := hs g rfl
    have hl := hf.length_eq
    refine ⟨by simp [moved, hl], fun i r hr => ?_⟩
    obtain ⟨hi, rfl⟩ := List.getElem?_eq_some_iff.mp hr
    have hi' : i < g.length := by omega
    have hlen := List.Forall₂.get hf (i := i) hi hi'
    simp only [List.get_eq_getElem] at hlen
    refine ⟨List.zipWith (fun x d => Adv.fgsm false cfg.eps cfg.clipMin cfg.clipMax x (some d)) rows[i] g[i], ?_, ?_, ?_⟩
    · simp only [moved]
      rw [List.getElem?_zipWith, hr, List.getElem?_eq_getElem hi']
    · simp [hlen]
    · intro j z hz
      obtain ⟨hj, rfl⟩ := List.getElem?_eq_some_iff.mp hz
      have hj' : j < g[i].length := by omega
      refine ⟨Adv.fgsm false cfg.eps cfg.clipMin cfg.clipMax rows[i][j] (some g[i][j]), ?_, ?_⟩
      · rw [List.getElem?_zipWith, hz, List.getElem?_eq_getElem hj']
      · have : entry (some g) i j = (some g[i][j]).getD 0 := by
          simp [entry, List.getD_eq_getElem?_getD, List.getElem?_eq_getElem hi', List.getElem?_eq_getElem hj']
        rw [this]
        exact fgsm_moved hlh _ _

theorem outside_iff {y : List Int} {C : Nat} : outside y C = false ↔ ∀ c ∈ y, 0 ≤ c ∧ c < (C : Int) := by
  unfold outside
  rw [List.any_eq_false]
  simp

/-! ### One step -/

theorem attack_row {N : Net W K} {view : W → V} {g : V → List K → List K}
    {gr : V → List (List K) → List Nat → Option (List (List K))} {C : Nat} (hN : Rowwise N view g gr C)
    {argmax : List K → Nat} {cfg : Cfg K} {w : W} {x : List (List K)} {y : List Int} {xu : List (List K)}
    (hx : x.length = y.length) (hne : x ≠ []) :
    (∃ e, attack N argmax cfg w x y xu = (.error e, w) ∧ ¬ ∀ c ∈ y, 0 ≤ c ∧ c < (C : Int)) ∨
    (∀ c ∈ y, 0 ≤ c ∧ c < (C : Int)) ∧ attack N argmax cfg w x y xu =
      (.ok (moved cfg (x ++ xu) (gr (view w) (x ++ xu) (targets argmax (g (view w)) y xu))), w) := by
  unfold attack
  simp only [hN.probe, hN.grad]
  rw [if_neg (by simp), if_neg (by simp)]
  cases ho : outside y C with
  | true =>
    simp only [if_true]
    refine .inl ⟨_, rfl, fun h => ?_⟩
    rw [outside_iff.mpr h] at ho
    cases ho
  | false =>
    refine .inr ⟨outside_iff.mp ho, ?_⟩
    have ht : Adv.fgsmTargets x.length (y.map Int.toNat) (((x ++ xu).map (g (view w))).map argmax) =
        .ok (targets argmax (g (view w)) y xu) := by
      unfold Adv.fgsmTargets targets
      rw [if_pos (List.length_pos_iff.mpr hne), if_neg (by simp [hx])]
      simp [List.drop_append, Function.comp_def]
    simp only [Bool.false_eq_true, if_false, ht]

theorem dctStep_row {P : Pair W1 W2 K} {view1 : W1 → V1} {g1 : V1 → List K → List K}
    {gr1 : V1 → List (List K) → List Nat → Option (List (List K))} {C1 : Nat} (h1 : Rowwise P.one view1 g1 gr1 C1)
    {view2 : W2 → V2} {g2 : V2 → List K → List K}
    {gr2 : V2 → List (List K) → List Nat → Option (List (List K))} {C2 : Nat} (h2 : Rowwise P.two view2 g2 gr2 C2)
    {softmax : List K → List K} {argmax : List K → Nat} {cfg : Cfg K} (hR : InRange cfg) {w : W1 × W2} {s : Batch K}
    (hp : s.x1.length = s.x2.length) (hx1 : s.x1.length = s.y1.length) (hx2 : s.x2.length = s.y2.length) (hne : s.x1 ≠ []) :
    (∃ w' e, dctStep P softmax argmax cfg w s = (w', .error e) ∧
      ¬ (C1 = C2 ∧ (∀ y ∈ s.y1, 0 ≤ y ∧ y < (C1 : Int)) ∧ ∀ y ∈ s.y2, 0 ≤ y ∧ y < (C1 : Int))) ∨
    (C1 = C2 ∧ (∀ y ∈ s.y1, 0 ≤ y ∧ y < (C1 : Int)) ∧ ∀ y ∈ s.y2, 0 ≤ y ∧ y < (C1 : Int)) ∧
      ∃ o, Loss softmax argmax cfg (g1 (view1 w.1)) (g2 (view2 w.2)) (gr1 (view1 w.1)) (gr2 (view2 w.2)) s o ∧
        dctStep P softmax argmax cfg w s = (P.step w o, .ok ()) := by
  have hne2 : s.x2 ≠ [] := by
    rw [← List.length_pos_iff, ← hp]; exact List.length_pos_iff.mpr hne
  unfold dctStep
  rw [if_neg (not_not.mpr hp)]
  rcases attack_row h1 (argmax := argmax) (cfg := cfg) (w := w.1) (xu := s.xu) hx1 hne with ⟨e, e1, hn⟩ | ⟨hy1, e1⟩
  · rw [e1]
    exact .inl ⟨_, _, rfl, fun h => hn h.2.1⟩
  rw [e1]
  simp only
  rcases attack_row h2 (argmax := argmax) (cfg := cfg) (w := w.2) (xu := s.xu) hx2 hne2 with ⟨e, e2, hn⟩ | ⟨hy2, e2⟩
  · rw [e2]
    exact .inl ⟨_, _, rfl, fun h => hn (h.1 ▸ h.2.2)⟩
  rw [e2]
  simp only [h1.forward, h2.forward]
  have a1 := moved_attacked (cfg := cfg) hR.clip (rows := s.x1 ++ s.xu) (h1.shape (view1 w.1) (s.x1 ++ s.xu)
    (targets argmax (g1 (view1 w.1)) s.y1 s.xu))
  have a2 := moved_attacked (cfg := cfg) hR.clip (rows := s.x2 ++ s.xu) (h2.shape (view2 w.2) (s.x2 ++ s.xu)
    (targets argmax (g2 (view2 w.2)) s.y2 s.xu))
  by_cases hC : C1 = C2
  · subst hC
    have hcl : clean s (⟨2, C1, (s.x1 ++ s.xu).map (g1 (view1 w.1))⟩ : Out K) ⟨2, C1, (s.x2 ++ s.xu).map (g2 (view2 w.2))⟩ =
        .ok () := by
      unfold clean
      simp [outside_iff.mpr hy1, outside_iff.mpr hy2]
    rw [hcl]
    simp only
    rw [show crossed (⟨2, C1, (s.x1 ++ s.xu).map (g1 (view1 w.1))⟩ : Out K) ⟨2, C1, (s.x2 ++ s.xu).map (g2 (view2 w.2))⟩ _ _ _ _
      = .ok () by unfold crossed; simp]
    refine .inr ⟨⟨trivial, hy1, hy2⟩, _, ⟨rfl, rfl, rfl, ?_, ⟨_, a1, ?_⟩, ⟨_, a2, ?_⟩, ?_, rfl⟩, rfl⟩
    · simp only [goal, ite_not]
    · simp only [goal, List.map_map, Function.comp_def]
    · simp only [goal, List.map_map, Function.comp_def]
    · simp only [goal, ite_not]
  · have hcl : clean s (⟨2, C1, (s.x1 ++ s.xu).map (g1 (view1 w.1))⟩ : Out K) ⟨2, C2, (s.x2 ++ s.xu).map (g2 (view2 w.2))⟩ =
        .error .validation := by
      unfold clean
      simp [hC]
    rw [hcl]
    exact .inl ⟨_, _, rfl, fun h => hC h.1⟩

/-! ### The whole training -/

theorem fit_ok {G : TorchGen σ} (hG : G.Lawful) {P : Pair W1 W2 K} {softmax : List K → List K} {argmax : List K → Nat}
    {torch : Bool} {cfg : Cfg K} {one two : Option Bundle} {shared : Bool} {data : Option (Input K)} {seed : Int}
    {fitted : Bool} {w : W1 × W2} {r : Bool × W1 × W2} :
    fit G P softmax argmax torch cfg one two shared data seed fitted w = (r, .ok ()) ↔
    ∃ d xu eps w', data = some d ∧ Acceptable torch one two shared d xu ∧ InRange cfg ∧
      batches G d.xl.rows d.yl xu.rows cfg.batchSize cfg.maxEpochs seed = .ok eps ∧
      Epochs d.xl.rows d.yl xu.rows cfg.batchSize cfg.maxEpochs eps ∧
      runSteps (dctStep P softmax argmax cfg) (P.one.train w.1, P.two.train w.2) eps.flatten = (w', .ok ()) ∧
      r = (true, w') := by
  unfold fit
  constructor
  · intro h
    cases hc : check torch one two shared data with
    | error e => rw [hc] at h; cases h
    | ok k =>
    rw [hc] at h
    obtain ⟨d, xu, rfl, hA, rfl⟩ := check_ok.mp hc
    simp only at h
    by_cases hp : params cfg = false
    · rw [if_pos hp] at h; cases h
    rw [if_neg hp] at h
    have hR := params_ok.mp (by simpa using hp)
    obtain ⟨eps, he, hE⟩ := batches_ok hG d.xl.rows d.yl xu.rows hR.batch hR.epochs hA.nonempty hA.rows
      hA.unlabeledNonempty seed
    rw [he] at h
    simp only at h
    cases hr : runSteps (dctStep P softmax argmax cfg) (P.one.train w.1, P.two.train w.2) eps.flatten with
    | mk w' res =>
    rw [hr] at h
    cases res with
    | error e => cases h
    | ok u =>
      simp only [Prod.mk.injEq, and_true] at h
      exact ⟨d, xu, eps, w', rfl, hA, hR, he, hE, hr, h.symm⟩
  · rintro ⟨d, xu, eps, w', rfl, hA, hR, he, -, hr, rfl⟩
    rw [check_ok.mpr ⟨d, xu, rfl, hA, rfl⟩]
    simp only
    rw [if_neg (by rw [params_ok.mpr hR]; decide)]
    simp only [he, hr]

/-- **C173 (training).**  Both networks treating every row by itself: a successful `fit` made one common step of both
optimizers for every batch of its epochs.  The epochs are fair to the labeled rows, for each network on its own, and to the
unlabeled ones; in every batch both networks get equally many labeled rows and the same unlabeled rows.  The loss of every
step is that of the specification, for the networks as they were just before this step. -/
theorem C173_training (G : TorchGen σ) (hG : G.Lawful) (P : Pair W1 W2 K) (view1 : W1 → V1) (g1 : V1 → List K → List K)
    (gr1 : V1 → List (List K) → List Nat → Option (List (List K))) (C1 : Nat) (h1 : Rowwise P.one view1 g1 gr1 C1)
    (view2 : W2 → V2) (g2 : V2 → List K → List K) (gr2 : V2 → List (List K) → List Nat → Option (List (List K))) (C2 : Nat)
    (h2 : Rowwise P.two view2 g2 gr2 C2) (log : W1 × W2 → List ((V1 × V2) × Goal K)) (hL : Logs P view1 view2 log)
    (softmax : List K → List K) (argmax : List K → Nat) (torch : Bool) (cfg : Cfg K) (one two : Option Bundle) (shared : Bool)
    (data : Option (Input K)) (seed : Int) (fitted fitted' : Bool) (w w' : W1 × W2)
    (h : fit G P softmax argmax torch cfg one two shared data seed fitted w = ((fitted', w'), .ok ())) :
    fitted' = true ∧ ∃ d xu eps obs, data = some d ∧ Acceptable torch one two shared d xu ∧ InRange cfg ∧
      Epochs d.xl.rows d.yl xu.rows cfg.batchSize cfg.maxEpochs eps ∧ log w' = log w ++ obs ∧
      obs.length = eps.flatten.length ∧
      ∃ (v1 : Nat → V1) (v2 : Nat → V2), v1 0 = view1 (P.one.train w.1) ∧ v2 0 = view2 (P.two.train w.2) ∧
        v1 eps.flatten.length = view1 w'.1 ∧ v2 eps.flatten.length = view2 w'.2 ∧
        ∀ k (hk : k < eps.flatten.length), ∃ o, obs[k]? = some ((v1 k, v2 k), o) ∧
          Loss softmax argmax cfg (g1 (v1 k)) (g2 (v2 k)) (gr1 (v1 k)) (gr2 (v2 k)) eps.flatten[k] o := by
  obtain ⟨d, xu, eps, w2, rfl, hA, hR, -, hE, hr, hres⟩ := (fit_ok hG).mp h
  simp only [Prod.mk.injEq] at hres
  obtain ⟨rfl, rfl⟩ := hres
  obtain ⟨T, s0, sn, hst⟩ := runSteps_ok hr
  have hz := Epochs.sub hE
  obtain ⟨obs, a1, a2, a3⟩ := chain_log (lg := log) (T := T) (n := eps.flatten.length)
    (P := fun k p => ∀ hk : k < eps.flatten.length, p.1 = (view1 (T k).1, view2 (T k).2) ∧
      Loss softmax argmax cfg (g1 (view1 (T k).1)) (g2 (view2 (T k).2)) (gr1 (view1 (T k).1)) (gr2 (view2 (T k).2))
        eps.flatten[k] p.2) (by
    intro k hk
    obtain ⟨-, -, z1, z2, z3, z4⟩ := hz _ (List.getElem_mem hk)
    rcases dctStep_row h1 h2 (softmax := softmax) (argmax := argmax) hR (w := T k) z1 z2 z3 z4 with
      ⟨w', e, e1, -⟩ | ⟨-, o, q1, q2⟩
    · rw [hst k hk] at e1; cases e1
    · rw [hst k hk] at q2
      simp only [Prod.mk.injEq, and_true] at q2
      exact ⟨_, by rw [q2, hL.step], fun _ => ⟨rfl, q1⟩⟩)
  refine ⟨rfl, d, xu, eps, obs, rfl, hA, hR, hE, ?_, a2, fun k => view1 (T k).1, fun k => view2 (T k).2,
    by simp only [s0], by simp only [s0], by simp only [sn], by simp only [sn], ?_⟩
  · rw [s0, sn, hL.train] at a1; exact a1
  · intro k hk
    obtain ⟨c1, c2⟩ := a3 k _ (List.getElem?_eq_getElem (by omega)) hk
    refine ⟨(obs[k]'(by omega)).2, ?_, c2⟩
    rw [List.getElem?_eq_getElem (by omega)]
    exact congrArg some (Prod.ext c1 rfl)

/-- **C173 (accepts).**  Row-wise networks: `fit` succeeds exactly for acceptable data and bundles, parameters in range,
equal class counts and labels among the classes; so the check that both networks got equally many labeled rows never
fails. -/
theorem C173_accepts (G : TorchGen σ) (hG : G.Lawful) (P : Pair W1 W2 K) (view1 : W1 → V1) (g1 : V1 → List K → List K)
    (gr1 : V1 → List (List K) → List Nat → Option (List (List K))) (C1 : Nat) (h1 : Rowwise P.one view1 g1 gr1 C1)
    (view2 : W2 → V2) (g2 : V2 → List K → List K) (gr2 : V2 → List (List K) → List Nat → Option (List (List K))) (C2 : Nat)
    (h2 : Rowwise P.two view2 g2 gr2 C2) (softmax : List K → List K) (argmax : List K → Nat) (torch : Bool) (cfg : Cfg K)
    (one two : Option Bundle) (shared : Bool) (data : Option (Input K)) (seed : Int) (fitted : Bool) (w : W1 × W2) :
    (∃ r, fit G P softmax argmax torch cfg one two shared data seed fitted w = (r, .ok ())) ↔
    InRange cfg ∧ C1 = C2 ∧ ∃ d xu, data = some d ∧ Acceptable torch one two shared d xu ∧
      ∀ y ∈ d.yl, 0 ≤ y ∧ y < (C1 : Int) := by
  constructor
  · rintro ⟨r, h⟩
    obtain ⟨d, xu, eps, w2, rfl, hA, hR, -, hE, hr, -⟩ := (fit_ok hG).mp h
    obtain ⟨T, s0, sn, hst⟩ := runSteps_ok hr
    have hz := Epochs.sub hE
    have hall : ∀ y ∈ d.yl, C1 = C2 ∧ 0 ≤ y ∧ y < (C1 : Int) := by
      intro y hy
      obtain ⟨b, hb, hyb⟩ := Epochs.visits hE hR.epochs hA.rows y hy
      obtain ⟨k, hk, rfl⟩ := List.getElem_of_mem hb
      obtain ⟨-, -, z1, z2, z3, z4⟩ := hz _ hb
      rcases dctStep_row h1 h2 (softmax := softmax) (argmax := argmax) hR (w := T k) z1 z2 z3 z4 with
        ⟨w', e, e1, -⟩ | ⟨q, -⟩
      · rw [hst k hk] at e1; cases e1
      · exact ⟨q.1, q.2.1 y hyb⟩
    have hne : d.yl ≠ [] := by
      rw [← List.length_pos_iff, ← hA.rows]; exact List.length_pos_iff.mpr hA.nonempty
    obtain ⟨y0, hy0⟩ := List.exists_mem_of_ne_nil _ hne
    exact ⟨hR, (hall y0 hy0).1, d, xu, rfl, hA, fun y hy => (hall y hy).2⟩
  · rintro ⟨hR, hC, d, xu, rfl, hA, hy⟩
    obtain ⟨eps, he, hE⟩ := batches_ok hG d.xl.rows d.yl xu.rows hR.batch hR.epochs hA.nonempty hA.rows
      hA.unlabeledNonempty seed
    have hz := Epochs.sub hE
    obtain ⟨w2, hr, -⟩ := runSteps_total (f := dctStep P softmax argmax cfg) (I := fun _ => True) (ss := eps.flatten)
      (st := (P.one.train w.1, P.two.train w.2)) trivial (by
        intro st b _ hb
        obtain ⟨m1, m2, z1, z2, z3, z4⟩ := hz b hb
        rcases dctStep_row h1 h2 (softmax := softmax) (argmax := argmax) hR (w := st) z1 z2 z3 z4 with
          ⟨w', e, -, hn⟩ | ⟨-, o, -, q⟩
        · exact absurd ⟨hC, fun y h => hy y (m1 y h), fun y h => hy y (m2 y h)⟩ hn
        · exact ⟨_, q, trivial⟩)
    exact ⟨_, (fit_ok hG).mpr ⟨d, xu, eps, w2, rfl, hA, hR, he, hE, hr, rfl⟩⟩

/-! ### A concrete instance -/

/-- A network that changes with every step. -/
def demoNet : Net Nat Rat where
  train w := w
  forward w xs := (⟨2, 2, xs.map fun r => [r.getD 0 0 + w, r.getD 1 0]⟩, w)
  probe w xs := (⟨2, 2, xs.map fun r => [r.getD 0 0 + w, r.getD 1 0]⟩, w)
  grad _ xs t := some (List.zipWith (fun r c => r.map fun x => if c = 0 then x - 1 else 1 - x) xs (t ++ xs.map fun _ => 0))

/-- What the demo networks have done: the second state also holds the log. -/
abbrev DemoW := Nat × List ((Nat × Nat) × Goal Rat)

/-- Two demo networks. -/
def demoPair : Pair Nat DemoW Rat where
  one := demoNet
  two := ⟨id, fun w xs => ((demoNet.forward (w.1 + 3) xs).1, w), fun w xs => ((demoNet.forward (w.1 + 3) xs).1, w),
    fun w xs t => demoNet.grad w.1 xs t⟩
  step w o := (w.1 + 1, (w.2.1 + 2, w.2.2 ++ [((w.1, w.2.1), o)]))

/-- The gradient of the demo networks. -/
def demoGrad (_ : Nat) (xs : List (List Rat)) (t : List Nat) : Option (List (List Rat)) := demoNet.grad 0 xs t

theorem demoGrad_shape (v : Nat) (xs : List (List Rat)) (t : List Nat) (gs : List (List Rat)) (h : demoGrad v xs t = some gs) :
    List.Forall₂ (fun x d => d.length = x.length) xs gs := by
  obtain rfl := Option.some.inj h
  have key : ∀ (xs : List (List Rat)) (t : List Nat), xs.length ≤ t.length → List.Forall₂ (fun x d => d.length = x.length) xs
      (List.zipWith (fun r c => r.map fun x => if c = 0 then x - 1 else 1 - x) xs t) := by
    intro xs
    induction xs with
    | nil => intro t _; simp
    | cons x xs ih =>
      intro t ht
      cases t with
      | nil => simp at ht
      | cons c t =>
        rw [List.zipWith_cons_cons]
        exact .cons (by simp) (ih t (by simpa using ht))
  exact key _ _ (by simp)

theorem demo_row1 : Rowwise demoPair.one id (fun (w : Nat) r => [r.getD 0 0 + (w : Rat), r.getD 1 0]) demoGrad 2 :=
  ⟨fun _ _ => rfl, fun _ _ => rfl, fun _ _ _ => rfl, demoGrad_shape⟩

theorem demo_row2 : Rowwise demoPair.two Prod.fst (fun (w : Nat) r => [r.getD 0 0 + ((w + 3 : Nat) : Rat), r.getD 1 0]) demoGrad 2 :=
  ⟨fun _ _ => rfl, fun _ _ => rfl, fun _ _ _ => rfl, demoGrad_shape⟩

theorem demo_logs : Logs demoPair id Prod.fst (fun w => w.2.2) := ⟨fun _ => rfl, fun _ _ => rfl⟩

/-- The demo parameters. -/
def demoCfg (b e : Int) : Cfg Rat := ⟨1, 0, 1 / 10, b, e, true, some 0, some 5⟩

/-- The demo data: the unlabeled rows come from `X_u_w`. -/
def demoData : Input Rat := ⟨⟨[[0, 1], [2, 3], [4, 5]], true⟩, [0, 1, 1], 1, true, none, some ⟨[[1, 1], [2, 2], [3, 3], [4, 4], [5, 5]], true⟩⟩

theorem demo_acceptable : Acceptable true (some ⟨true, true⟩) (some ⟨true, true⟩) false demoData
    ⟨[[1, 1], [2, 2], [3, 3], [4, 4], [5, 5]], true⟩ :=
  ⟨rfl, rfl, ⟨rfl, rfl⟩, by decide, .inr ⟨rfl, rfl⟩, by decide, ⟨rfl, rfl⟩, ⟨_, rfl, rfl, rfl⟩, ⟨_, rfl, rfl, rfl⟩, rfl⟩

theorem demo_range (b e : Int) (hb : 0 < b) (he : 0 < e) : InRange (demoCfg b e) :=
  ⟨hb, he, by norm_num [demoCfg], by norm_num [demoCfg], by norm_num [demoCfg], by
    intro l h hl hh
    simp only [demoCfg, Option.some.injEq] at hl hh
    subst hl hh
    norm_num⟩

/-- `fit` of the demo networks. -/
def demoFit (cfg : Cfg Rat) :=
  fit TorchGen.demo demoPair Fit.demoTorch.softmax (fun r => if r.getD 0 0 ≤ r.getD 1 0 then 1 else 0) true cfg
    (some ⟨true, true⟩) (some ⟨true, true⟩) false (some demoData) 0 false (4, (1, []))

example : ∃ r, demoFit (demoCfg 2 2) = (r, .ok ()) :=
  (C173_accepts TorchGen.demo TorchGen.demo_lawful demoPair _ _ _ _ demo_row1 _ _ _ _ demo_row2 _ _ true _ _ _ _ _ 0 _ _).mpr
    ⟨demo_range _ _ (by decide) (by decide), rfl, _, _, rfl, demo_acceptable, by decide⟩

/-- Three unlabeled batches in each of two epochs: six steps; both networks see different labeled rows, and the adversarial
rows differ from the clean ones. -/
example : (demoFit (demoCfg 2 2)).1.2.2.2.length = 6 ∧
    ((demoFit (demoCfg 2 2)).1.2.2.2.any fun p => decide (p.2.sup1 ≠ p.2.sup2)) = true ∧
    ((demoFit (demoCfg 2 2)).1.2.2.2.all fun p => decide (p.2.dif2.map (·.1) ≠ p.2.sup1.map (·.1) ++ p.2.cot)) = true := by
  decide +kernel

example : demoFit (demoCfg 0 2) = ((false, 4, (1, [])), .error .validation) :=
  C173_refused _ _ _ _ _ _ _ _ _ _ _ _ _ (.inr fun h => absurd h.batch (by decide))

end ModSSC.Deep.Dct
