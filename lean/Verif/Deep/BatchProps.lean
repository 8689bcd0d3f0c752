import Verif.Deep.BatchSpec
import Verif.ExceptLemmas
import Mathlib.Data.List.GetD

/-!
# Proofs about mini-batches (C106)
-/

namespace ModSSC.Deep
open ModSSC

/-! ## One pass -/

theorem iter_flatten_aux (b : Nat) : ∀ (m : Nat) (l : List Nat),
    ((List.range m).map fun k => (l.drop (k * b)).take b).flatten = l.take (m * b)
  | 0, l => by simp
  | m + 1, l => by
    rw [List.range_succ, List.map_append, List.flatten_append, iter_flatten_aux b m l]
    simp only [List.map_cons, List.map_nil, List.flatten_cons, List.flatten_nil, List.append_nil]
    rw [Nat.succ_mul, List.take_add]

theorem ceil_mul (n b : Nat) (hb : 0 < b) : n ≤ (n + b - 1) / b * b := by
  have h := Nat.div_add_mod (n + b - 1) b
  have h2 := Nat.mod_lt (n + b - 1) hb
  rw [Nat.mul_comm] at h
  generalize (n + b - 1) / b * b = q at *
  omega

theorem ceil_lt (n b k : Nat) (hb : 0 < b) (hk : k < (n + b - 1) / b) : k * b < n := by
  have h := (Nat.le_div_iff_mul_le hb).mp (Nat.succ_le_of_lt hk)
  rw [Nat.succ_mul] at h
  omega

theorem iter_flatten (n b : Nat) (idx : List Nat) (hb : 0 < b) (hl : idx.length = n) :
    (iterBatchIndices n b idx).flatten = idx := by
  unfold iterBatchIndices
  rw [iter_flatten_aux]
  apply List.take_of_length_le
  rw [hl]; exact ceil_mul n b hb

theorem iter_length (n b : Nat) (idx : List Nat) :
    (iterBatchIndices n b idx).length = (n + b - 1) / b := by
  simp [iterBatchIndices]

theorem iter_mem (n b : Nat) (idx : List Nat) (hb : 0 < b) (hl : idx.length = n) (B : List Nat)
    (h : B ∈ iterBatchIndices n b idx) : B ≠ [] ∧ B.length ≤ b ∧ B.Sublist idx := by
  simp only [iterBatchIndices, List.mem_map, List.mem_range] at h
  obtain ⟨k, hk, rfl⟩ := h
  have := ceil_lt n b k hb hk
  refine ⟨?_, by simp, (List.take_sublist _ _).trans (List.drop_sublist _ _)⟩
  intro h0
  have := congrArg List.length h0
  simp at this
  omega

/-! ## The cycle -/

/-- What holds of the batches an iterator still has. -/
structure GoodPending (n b : Nat) (pending : List (List Nat)) : Prop where
  ok : ∀ B ∈ pending, B ≠ [] ∧ B.length ≤ b ∧ B.Nodup ∧ ∀ i ∈ B, i < n
  once : pending.flatten.Nodup

theorem GoodPending.tail {n b : Nat} {B : List Nat} {rest : List (List Nat)}
    (h : GoodPending n b (B :: rest)) : GoodPending n b rest :=
  ⟨fun B' hB => h.ok B' (by simp [hB]), by
    have := h.once
    simp only [List.flatten_cons] at this
    exact (List.nodup_append.mp this).2.1⟩

theorem good_iter (n b : Nat) (hb : 0 < b) (idx : List Nat) (hp : idx.Perm (List.range n)) :
    GoodPending n b (iterBatchIndices n b idx) := by
  have hl : idx.length = n := by simpa using hp.length_eq
  have hn : idx.Nodup := hp.nodup_iff.mpr List.nodup_range
  refine ⟨fun B hB => ?_, by rw [iter_flatten n b idx hb hl]; exact hn⟩
  obtain ⟨h1, h2, h3⟩ := iter_mem n b idx hb hl B hB
  refine ⟨h1, h2, h3.nodup hn, fun i hi => ?_⟩
  have := hp.mem_iff.mp (h3.subset hi)
  simpa using this

theorem cycleNext_ok {σ : Type} (G : TorchGen σ) (hG : G.Lawful) (n b : Nat) (hn : 0 < n) (hb : 0 < b)
    (pending : List (List Nat)) (g : σ) (hp : GoodPending n b pending) :
    ∃ B rest g1, cycleNext G n b pending g = .ok (B, rest, g1) ∧ GoodPending n b (B :: rest) ∧
      ((pending = B :: rest) ∨ (pending = [] ∧ (B :: rest).flatten.Perm (List.range n) ∧
        (B :: rest).length = (n + b - 1) / b)) := by
  cases pending with
  | cons B rest => exact ⟨B, rest, g, rfl, hp, .inl rfl⟩
  | nil =>
    have hgood := good_iter n b hb _ (hG g n)
    have hlen := iter_length n b (G.randperm g n).1
    have hl : (G.randperm g n).1.length = n := by simpa using (hG g n).length_eq
    have hfl := iter_flatten n b _ hb hl
    have hperm := hG g n
    have hpos : 0 < (n + b - 1) / b := Nat.div_pos (by omega) hb
    unfold cycleNext
    generalize iterBatchIndices n b (G.randperm g n).1 = it at *
    cases it with
    | nil => simp at hlen; omega
    | cons B rest => exact ⟨B, rest, _, rfl, hgood, .inr ⟨rfl, by rw [hfl]; exact hperm, hlen⟩⟩

theorem cycleFrom_ok {σ : Type} (G : TorchGen σ) (hG : G.Lawful) (n b : Nat) (hn : 0 < n)
    (hb : 0 < b) : ∀ (steps : Nat) (pending : List (List Nat)) (g : σ), GoodPending n b pending →
    ∃ Bs g', cycleFrom G n b steps pending g = .ok (Bs, g') ∧ Bs.length = steps ∧
      (∀ B ∈ Bs, B ≠ [] ∧ B.length ≤ b ∧ B.Nodup ∧ ∀ i ∈ B, i < n) ∧
      (pending.length ≤ steps → ∀ i ∈ pending.flatten, i ∈ Bs.flatten) ∧
      (∃ (k : Nat) (later : List Nat), later.Nodup ∧
        ∀ i < n, Bs.flatten.count i + later.count i = pending.flatten.count i + k)
  | 0, pending, g, hp => by
    refine ⟨[], g, rfl, rfl, by simp, ?_, 0, pending.flatten, hp.once, by simp⟩
    intro h
    have : pending = [] := List.length_eq_zero_iff.mp (by omega)
    simp [this]
  | steps + 1, pending, g, hp => by
    obtain ⟨B, rest, g1, h1, hgood, hcase⟩ := cycleNext_ok G hG n b hn hb pending g hp
    obtain ⟨Bs, g2, h2, hlen, hB, hcov, k, later, hnd, hk⟩ :=
      cycleFrom_ok G hG n b hn hb steps rest g1 hgood.tail
    refine ⟨B :: Bs, g2, ?_, by simp [hlen], ?_, ?_, ?_⟩
    · simp only [cycleFrom, h1, h2]
    · intro B' h'
      rcases List.mem_cons.mp h' with rfl | h'
      · exact hgood.ok B' (by simp)
      · exact hB B' h'
    · intro hle i hi
      rcases hcase with rfl | ⟨rfl, -, -⟩
      · simp only [List.flatten_cons, List.mem_append] at hi ⊢
        rcases hi with hi | hi
        · exact .inl hi
        · exact .inr (hcov (by simp at hle; omega) i hi)
      · simp at hi
    · rcases hcase with rfl | ⟨rfl, hperm, -⟩
      · refine ⟨k, later, hnd, fun i hi => ?_⟩
        have := hk i hi
        simp only [List.flatten_cons, List.count_append]
        omega
      · refine ⟨k + 1, later, hnd, fun i hi => ?_⟩
        have := hk i hi
        have h1 : (B :: rest).flatten.count i = 1 := by
          rw [hperm.count_eq]
          exact List.count_eq_one_of_mem List.nodup_range (by simpa using hi)
        simp only [List.flatten_cons, List.count_append, List.flatten_nil, List.count_nil] at h1 ⊢
        omega

theorem cycleBatchIndices_fair {σ : Type} (G : TorchGen σ) (hG : G.Lawful) (n b steps : Nat)
    (hn : 0 < n) (hb : 0 < b) (hs : (n + b - 1) / b ≤ steps) (g : σ) :
    ∃ Bs g', cycleBatchIndices G n b steps g = .ok (Bs, g') ∧ Bs.length = steps ∧
      Spec.FairEpoch n b Bs := by
  have hpos : 0 < (n + b - 1) / b := Nat.div_pos (by omega) hb
  obtain ⟨Bs, g', h, hlen, hB, -, k, later, hnd, hk⟩ :=
    cycleFrom_ok G hG n b hn hb steps [] g ⟨by simp, by simp⟩
  have hcov : ∀ i < n, i ∈ Bs.flatten := by
    intro i hi
    cases steps with
    | zero => omega
    | succ steps =>
      obtain ⟨B, rest, g1, h1, hgood, hcase⟩ :=
        cycleNext_ok G hG n b hn hb [] g ⟨by simp, by simp⟩
      obtain ⟨Bs', g2, h2, -, -, hc, -⟩ := cycleFrom_ok G hG n b hn hb steps rest g1 hgood.tail
      have he : Bs = B :: Bs' := by
        simp only [cycleFrom, h1, h2] at h
        exact ((Prod.mk.inj (Except.ok.inj h)).1).symm
      rcases hcase with hc0 | ⟨-, hperm, hl⟩
      · cases hc0
      · have hi' : i ∈ (B :: rest).flatten := hperm.mem_iff.mpr (by simpa using hi)
        rw [he]
        simp only [List.flatten_cons, List.mem_append] at hi' ⊢
        rcases hi' with hi' | hi'
        · exact .inl hi'
        · refine .inr (hc ?_ i hi')
          simp only [List.length_cons] at hl
          omega
  refine ⟨Bs, g', h, hlen, fun B h => (hB B h).1, fun B h => (hB B h).2.1, fun B h => (hB B h).2.2.1,
    fun B h => (hB B h).2.2.2, fun i hi => List.count_pos_iff.mpr (hcov i hi), fun i hi j hj => ?_⟩
  have h1 := hk i hi
  have h2 := hk j hj
  have h3 := List.nodup_iff_count_le_one.mp hnd i
  have h4 := List.nodup_iff_count_le_one.mp hnd j
  simp only [List.flatten_nil, List.count_nil] at h1 h2
  unfold Spec.visits
  omega

/-! ## Rows -/

theorem takeRows_ok {α : Type} (X : List α) : ∀ (idx : List Nat) (r : List α),
    takeRows X idx = .ok r ↔ Spec.RowsAt X idx r
  | [], r => by
    cases r <;> simp [takeRows, Spec.RowsAt, pure, Except.pure]
  | i :: idx, r => by
    unfold takeRows
    rw [List.mapM_cons, ebind_ok]
    constructor
    · rintro ⟨x, hx, h⟩
      rw [ebind_ok] at h
      obtain ⟨r', hr, h⟩ := h
      simp only [pure, Except.pure, Except.ok.injEq] at h
      subst h
      have := (takeRows_ok X idx r').mp hr
      cases hi : X[i]? with
      | none => rw [hi] at hx; simp at hx
      | some x' =>
        rw [hi] at hx
        simp only [Except.ok.injEq] at hx
        subst hx
        simp only [Spec.RowsAt, List.map_cons, hi, List.cons.injEq, true_and]
        exact this
    · intro h
      cases r with
      | nil => simp [Spec.RowsAt] at h
      | cons x r' =>
        simp only [Spec.RowsAt, List.map_cons, List.cons.injEq] at h
        refine ⟨x, by rw [← h.1], ebind_ok.mpr ⟨r', (takeRows_ok X idx r').mpr h.2, rfl⟩⟩

theorem takeRows_total {α : Type} (X : List α) : ∀ (idx : List Nat), (∀ i ∈ idx, i < X.length) →
    ∃ r, takeRows X idx = .ok r := by
  intro idx h
  apply mapM_total
  intro i hi
  rw [List.getElem?_eq_getElem (h i hi)]
  exact ⟨_, rfl⟩

theorem takePair_ok {α β : Type} (X : List α) (y : List β) (idx : List Nat) (p : List α × List β) :
    takePair X y idx = .ok p ↔ Spec.RowsAt X idx p.1 ∧ Spec.RowsAt y idx p.2 := by
  unfold takePair
  simp only [ebind_ok, pure, Except.pure, Except.ok.injEq]
  constructor
  · rintro ⟨bx, hx, bl, hl, rfl⟩
    exact ⟨(takeRows_ok _ _ _).mp hx, (takeRows_ok _ _ _).mp hl⟩
  · rintro ⟨hx, hl⟩
    exact ⟨p.1, (takeRows_ok _ _ _).mpr hx, p.2, (takeRows_ok _ _ _).mpr hl, rfl⟩

theorem takePair_total {α β : Type} (X : List α) (y : List β) (idx : List Nat)
    (hX : ∀ i ∈ idx, i < X.length) (hy : ∀ i ∈ idx, i < y.length) : ∃ p, takePair X y idx = .ok p := by
  obtain ⟨r, hr⟩ := takeRows_total X idx hX
  obtain ⟨s, hs⟩ := takeRows_total y idx hy
  exact ⟨(r, s), (takePair_ok X y idx _).mpr ⟨(takeRows_ok _ _ _).mp hr, (takeRows_ok _ _ _).mp hs⟩⟩

/-! ## Epochs -/

theorem trainEpoch_ok {σ α β γ δ : Type} (G : TorchGen σ) (hG : G.Lawful) (Xl : List α) (yl : List β)
    (Xw : List γ) (Xs : List δ) (b steps : Nat) (gs : σ × σ) (hb : 0 < b) (hl : 0 < Xl.length)
    (hly : Xl.length = yl.length) (hu : 0 < Xw.length) (hus : Xw.length = Xs.length)
    (h1 : (Xl.length + b - 1) / b ≤ steps) (h2 : (Xw.length + b - 1) / b ≤ steps) :
    ∃ out gs', trainEpoch G Xl yl Xw Xs b steps gs = .ok (out, gs') ∧ out.length = steps ∧
      ∃ bl bu, Spec.EpochOf Xl yl Xw Xs bl bu out ∧ Spec.FairEpoch Xl.length b bl ∧
        Spec.FairEpoch Xw.length b bu := by
  obtain ⟨bl, gl, hbl, hll, fl⟩ := cycleBatchIndices_fair G hG Xl.length b steps hl hb h1 gs.1
  obtain ⟨bu, gu, hbu, hlu, fu⟩ := cycleBatchIndices_fair G hG Xw.length b steps hu hb h2 gs.2
  obtain ⟨ps, hps⟩ : ∃ ps, bl.mapM (takePair Xl yl) = .ok ps := by
    apply mapM_total
    intro B hB
    exact takePair_total Xl yl B (fl.range B hB) (fun i hi => hly ▸ fl.range B hB i hi)
  have hf := mapM_ok.mp hps
  have hpl : bl.length = ps.length := hf.length_eq
  obtain ⟨out, hout⟩ : ∃ out, (ps.zip bu).mapM (mkStep Xw Xs) = .ok out := by
    apply mapM_total
    rintro ⟨p, B⟩ hpB
    have hB := (List.of_mem_zip hpB).2
    obtain ⟨w, hw⟩ := takeRows_total Xw B (fu.range B hB)
    obtain ⟨s, hs⟩ := takeRows_total Xs B (fun i hi => hus ▸ fu.range B hB i hi)
    refine ⟨⟨p.1, p.2, w, s⟩, ?_⟩
    unfold mkStep
    rw [ebind_of_ok hw, ebind_of_ok hs]; rfl
  have hg := mapM_ok.mp hout
  have hgl : (ps.zip bu).length = out.length := hg.length_eq
  have hol : out.length = steps := by rw [← hgl, List.length_zip, ← hpl, hll, hlu]; simp
  refine ⟨out, (gl, gu), ?_, hol, bl, bu, ⟨by omega, by omega, ?_⟩, fl, fu⟩
  · unfold trainEpoch cycleBatches
    rw [if_neg (by omega)]
    simp only [hbl, hbu, hps, hout, bind, Except.bind, pure, Except.pure]
  · intro t ht
    have htp : t < ps.length := by omega
    have htb : t < bl.length := by omega
    have htu : t < bu.length := by omega
    have e1 := List.Forall₂.get hf (i := t) htb htp
    have e2 := List.Forall₂.get hg (i := t) (by omega) ht
    simp only [List.get_eq_getElem, List.getElem_zip] at e1 e2
    have e1' := (takePair_ok _ _ _ _).mp e1
    unfold mkStep at e2
    simp only [ebind_ok, pure, Except.pure, Except.ok.injEq] at e2
    obtain ⟨w, hw, s, hs, e⟩ := e2
    rw [List.getD_eq_getElem bl [] htb, List.getD_eq_getElem bu [] htu, ← e]
    exact ⟨e1'.1, e1'.2, (takeRows_ok _ _ _).mp hw, (takeRows_ok _ _ _).mp hs⟩

theorem trainEpochs_ok {σ α β γ δ : Type} (G : TorchGen σ) (hG : G.Lawful) (Xl : List α) (yl : List β)
    (Xw : List γ) (Xs : List δ) (b steps : Nat) (hb : 0 < b) (hl : 0 < Xl.length)
    (hly : Xl.length = yl.length) (hu : 0 < Xw.length) (hus : Xw.length = Xs.length)
    (h1 : (Xl.length + b - 1) / b ≤ steps) (h2 : (Xw.length + b - 1) / b ≤ steps) :
    ∀ (e : Nat) (gs : σ × σ), ∃ out, trainEpochs G Xl yl Xw Xs b steps e gs = .ok out ∧
      out.length = e ∧ ∀ ep ∈ out, ep.length = steps ∧
      ∃ bl bu, Spec.EpochOf Xl yl Xw Xs bl bu ep ∧ Spec.FairEpoch Xl.length b bl ∧
        Spec.FairEpoch Xw.length b bu
  | 0, gs => ⟨[], rfl, rfl, by simp⟩
  | e + 1, gs => by
    obtain ⟨o, gs', h, hlen, hr⟩ := trainEpoch_ok G hG Xl yl Xw Xs b steps gs hb hl hly hu hus h1 h2
    obtain ⟨rest, h', hlen', hr'⟩ :=
      trainEpochs_ok G hG Xl yl Xw Xs b steps hb hl hly hu hus h1 h2 e gs'
    refine ⟨o :: rest, ?_, by simp [hlen'], ?_⟩
    · unfold trainEpochs
      simp only [h, h', bind, Except.bind, pure, Except.pure]
    · intro ep hep
      rcases List.mem_cons.mp hep with rfl | hep
      · exact ⟨hlen, hr⟩
      · exact hr' ep hep

/-- **C106 (acceptance).**  `fit` starts training exactly when the labeled rows and labels match and
are not empty, the two views match and are not empty, and the batch size and the number of epochs are
positive; no step then fails for lack of data. -/
theorem C106_accepts {σ α β γ δ : Type} (G : TorchGen σ) (hG : G.Lawful) (Xl : List α) (yl : List β)
    (Xw : List γ) (Xs : List δ) (b e seed : Int) :
    (∃ out, fitBatches G Xl yl Xw Xs b e seed = .ok out) ↔
      Xl.length = yl.length ∧ Xl ≠ [] ∧ Xw.length = Xs.length ∧ Xw ≠ [] ∧ 0 < b ∧ 0 < e := by
  unfold fitBatches
  constructor
  · rintro ⟨out, h⟩
    by_cases c1 : Xl.length ≠ yl.length
    · rw [if_pos c1] at h; simp at h
    rw [if_neg c1] at h
    by_cases c2 : Xl.length = 0
    · rw [if_pos c2] at h; simp at h
    rw [if_neg c2] at h
    by_cases c3 : Xw.length = 0 ∨ Xs.length = 0
    · rw [if_pos c3] at h; simp at h
    rw [if_neg c3] at h
    by_cases c4 : Xw.length ≠ Xs.length
    · rw [if_pos c4] at h; simp at h
    rw [if_neg c4] at h
    by_cases c5 : b ≤ 0
    · rw [if_pos c5] at h; simp at h
    rw [if_neg c5] at h
    by_cases c6 : e ≤ 0
    · rw [if_pos c6] at h; simp at h
    refine ⟨by omega, ?_, by omega, ?_, by omega, by omega⟩
    · rintro rfl; simp at c2
    · rintro rfl; simp at c3
  · rintro ⟨h1, h2, h3, h4, h5, h6⟩
    have hl := List.length_pos_iff.mpr h2
    have hw := List.length_pos_iff.mpr h4
    rw [if_neg (by omega), if_neg (by omega), if_neg (by omega), if_neg (by omega), if_neg (by omega),
      if_neg (by omega)]
    have m1 : (Xl.length + b.toNat - 1) / b.toNat ≤ numBatches Xl.length b.toNat := le_max_right _ _
    have m2 : (Xw.length + b.toNat - 1) / b.toNat ≤ numBatches Xw.length b.toNat := le_max_right _ _
    obtain ⟨out, h, -⟩ := trainEpochs_ok G hG Xl yl Xw Xs b.toNat
      (max (numBatches Xl.length b.toNat) (numBatches Xw.length b.toNat)) (by omega) hl h1 hw h3
      (m1.trans (le_max_left _ _)) (m2.trans (le_max_right _ _)) e.toNat
      (G.manualSeed seed, G.manualSeed (seed + 1))
    exact ⟨out, h⟩

/-- **C106.**  Whenever `fit` trains, it runs the requested number of epochs, each with as many steps
as the larger of the two data sets has batches.  In every epoch every labeled and every unlabeled
sample is used, none more than one time more often than another, no batch is empty or larger than the
batch size, rows keep their own label and the strong view of a batch is that of the same samples as
the weak one. -/
theorem C106_epochs {σ α β γ δ : Type} (G : TorchGen σ) (hG : G.Lawful) (Xl : List α) (yl : List β)
    (Xw : List γ) (Xs : List δ) (b e seed : Int) (out : List (List (Step α β γ δ)))
    (h : fitBatches G Xl yl Xw Xs b e seed = .ok out) :
    (out.length : Int) = e ∧ ∀ ep ∈ out,
      (ep.length : Int) = max ⌈(Xl.length : ℚ) / b⌉ ⌈(Xw.length : ℚ) / b⌉ ∧
      ∃ bl bu, Spec.EpochOf Xl yl Xw Xs bl bu ep ∧ Spec.FairEpoch Xl.length b.toNat bl ∧
        Spec.FairEpoch Xw.length b.toNat bu := by
  obtain ⟨h1, h2, h3, h4, h5, h6⟩ := (C106_accepts G hG Xl yl Xw Xs b e seed).mp ⟨out, h⟩
  have hl := List.length_pos_iff.mpr h2
  have hw := List.length_pos_iff.mpr h4
  unfold fitBatches at h
  rw [if_neg (by omega), if_neg (by omega), if_neg (by omega), if_neg (by omega), if_neg (by omega),
    if_neg (by omega)] at h
  have m1 : (Xl.length + b.toNat - 1) / b.toNat ≤ numBatches Xl.length b.toNat := le_max_right _ _
  have m2 : (Xw.length + b.toNat - 1) / b.toNat ≤ numBatches Xw.length b.toNat := le_max_right _ _
  obtain ⟨out', h', hlen, hr⟩ := trainEpochs_ok G hG Xl yl Xw Xs b.toNat
    (max (numBatches Xl.length b.toNat) (numBatches Xw.length b.toNat)) (by omega) hl h1 hw h3
    (m1.trans (le_max_left _ _)) (m2.trans (le_max_right _ _)) e.toNat
    (G.manualSeed seed, G.manualSeed (seed + 1))
  rw [h] at h'
  obtain rfl := Except.ok.inj h'
  have key : ∀ n : Nat, 0 < n → ((numBatches n b.toNat : Nat) : Int) = ⌈(n : ℚ) / b⌉ := by
    intro n hn
    obtain ⟨m, rfl⟩ : ∃ m : Nat, b = m := ⟨b.toNat, by omega⟩
    have hm : 0 < m := by omega
    have hpos : 0 < (n + m - 1) / m := Nat.div_pos (by omega) hm
    have e1 : numBatches n m = (n + m - 1) / m := by unfold numBatches; omega
    simp only [Int.toNat_natCast, e1]
    symm
    rw [Int.ceil_eq_iff]
    have hmq : (0 : ℚ) < ((m : Int) : ℚ) := by exact_mod_cast hm
    have a1 := ceil_mul n m hm
    have a2 := ceil_lt n m ((n + m - 1) / m - 1) hm (by omega)
    obtain ⟨q, hq⟩ : ∃ q, (n + m - 1) / m = q + 1 := ⟨(n + m - 1) / m - 1, by omega⟩
    rw [hq] at a1 a2 ⊢
    simp only [Nat.add_sub_cancel] at a2
    constructor
    · rw [lt_div_iff₀ hmq]
      push_cast
      have : (q : ℚ) * m < n := by exact_mod_cast a2
      linarith
    · rw [div_le_iff₀ hmq]
      push_cast
      exact_mod_cast a1
  refine ⟨by omega, fun ep hep => ?_⟩
  obtain ⟨hs, hex⟩ := hr ep hep
  refine ⟨?_, hex⟩
  rw [hs, Nat.cast_max, key _ hl, key _ hw]

/-- Three labeled and five unlabeled samples, batches of two, two epochs. -/
example : fitBatches TorchGen.demo [(10 : Nat), 11, 12] ["a", "b", "c"] [(0 : Nat), 1, 2, 3, 4]
    [(50 : Nat), 51, 52, 53, 54] 2 2 0 =
    .ok [[⟨[12, 11], ["c", "b"], [0, 1], [50, 51]⟩, ⟨[10], ["a"], [2, 3], [52, 53]⟩,
          ⟨[10, 11], ["a", "b"], [4], [54]⟩],
         [⟨[12, 11], ["c", "b"], [4, 3], [54, 53]⟩, ⟨[10], ["a"], [2, 1], [52, 51]⟩,
          ⟨[10, 11], ["a", "b"], [0], [50]⟩]] := by decide +kernel

end ModSSC.Deep
