import Verif.Deep.SimclrModel
import Verif.ExceptLemmas
import Mathlib.Tactic.Linarith
import Mathlib.Tactic.Tauto
import Mathlib.Algebra.Order.BigOperators.Group.List
import Mathlib.Analysis.SpecialFunctions.Log.Basic

/-!
# SimCLRv2 (C151)
-/

namespace ModSSC.Simclr
open ModSSC

variable {S : Type}

/-- The bundle that should come out: the one trained last. -/
def Spec.last (c : Cfg) : Option Nat :=
  if 0 < c.distEpochs then c.stud.or (c.fine.or c.pre)
  else if 0 < c.fineEpochs then c.fine.or c.pre
  else c.pre.or c.fine

theorem roles_ok (c : Cfg) (p f : Option Nat) (h : roles c = .ok (p, f)) :
    (p = if 0 < c.preEpochs then c.pre.or c.fine else none) ∧ (0 < c.preEpochs → p.isSome = true) ∧
    (f = if 0 < c.fineEpochs ∨ 0 < c.distEpochs then c.fine.or p else none) ∧ (0 < c.fineEpochs ∨ 0 < c.distEpochs → f.isSome = true) := by
  unfold roles at h
  rw [ebind_ok] at h
  obtain ⟨p', h1, h⟩ := h
  rw [ebind_ok] at h
  obtain ⟨f', h2, h⟩ := h
  cases h
  have hp : (p = if 0 < c.preEpochs then c.pre.or c.fine else none) ∧ (0 < c.preEpochs → p.isSome = true) := by
    by_cases hc : c.preEpochs > 0
    · rw [if_pos hc] at h1
      unfold required at h1
      split at h1
      · cases h1
      · rename_i hn
        cases h1
        exact ⟨by rw [if_pos hc], fun _ => Option.isSome_iff_ne_none.mpr hn⟩
    · rw [if_neg hc] at h1; cases h1; exact ⟨by rw [if_neg hc], fun h => absurd h hc⟩
  refine ⟨hp.1, hp.2, ?_⟩
  by_cases hc : c.fineEpochs > 0 ∨ c.distEpochs > 0
  · rw [if_pos hc] at h2
    unfold required at h2
    split at h2
    · cases h2
    · rename_i hn
      cases h2
      exact ⟨by rw [if_pos hc], fun _ => Option.isSome_iff_ne_none.mpr hn⟩
  · rw [if_neg hc] at h2; cases h2; exact ⟨by rw [if_neg hc], fun h => absurd h hc⟩

theorem fit_ok (T : Stages S) (c : Cfg) (n : Sizes) (W W' : Nat → Net S) (r : Option Nat) (h : fit T c n W = .ok (W', r)) :
    check c n = .ok () ∧ ∃ p f W1 W2, roles c = .ok (p, f) ∧ stagePre T c p W = .ok W1 ∧
      stageFine T c f (stageLoad T c p f W1) = .ok W2 ∧ stageDist T c f W2 = .ok W' ∧ r = finalBundle c p f := by
  unfold fit at h
  rw [ebind_ok] at h
  obtain ⟨u, h0, h⟩ := h
  rw [ebind_ok] at h
  obtain ⟨⟨p, f⟩, h1, h⟩ := h
  simp only at h
  rw [ebind_ok] at h
  obtain ⟨W1, h2, h⟩ := h
  rw [ebind_ok] at h
  obtain ⟨W2, h3, h⟩ := h
  rw [ebind_ok] at h
  obtain ⟨W3, h4, h⟩ := h
  cases h
  exact ⟨h0, p, f, W1, W2, h1, h2, h3, h4, rfl⟩

theorem check_ok (c : Cfg) (n : Sizes) (h : check c n = .ok ()) :
    0 < c.batch ∧ 0 ≤ c.preEpochs ∧ 0 ≤ c.fineEpochs ∧ 0 ≤ c.distEpochs ∧ (0 < c.preEpochs ∨ 0 < c.fineEpochs ∨ 0 < c.distEpochs) := by
  unfold check at h
  split at h
  · cases h
  split at h
  · cases h
  split at h
  · cases h
  omega

/-- C151: which settings and data are accepted: sensible numbers, at least one stage, unlabeled rows (with a strong view of the same
length, if given) for pretraining and distilling, labeled rows for fine-tuning and whenever `use_labeled_in_distill` is set. -/
theorem C151_accept (c : Cfg) (n : Sizes) :
    (check c n = .ok () ↔ 0 < c.batch ∧ 0 ≤ c.preEpochs ∧ 0 ≤ c.fineEpochs ∧ 0 ≤ c.distEpochs ∧
      (0 < c.preEpochs ∨ 0 < c.fineEpochs ∨ 0 < c.distEpochs) ∧ (0 ≤ c.alpha ∧ c.alpha ≤ 1) ∧ 0 < c.temp ∧ 0 < c.distTemp ∧
      (0 < c.preEpochs ∨ 0 < c.distEpochs → ∃ k, n.nw = some k ∧ 0 < k ∧ (n.ns = none ∨ n.ns = some k)) ∧
      (0 < c.fineEpochs ∨ c.useLabeled = true → 0 < n.nl)) ∧
    (check c n = .ok () ∨ check c n = .error .validation) := by
  have hview : viewsBad n = true ↔
      ¬ ∃ k, n.nw = some k ∧ 0 < k ∧ (n.ns = none ∨ n.ns = some k) := by
    obtain ⟨nl, nw, ns⟩ := n
    unfold viewsBad
    cases nw with
    | none => simp
    | some k =>
      cases ns with
      | none => simp
      | some k' =>
        simp
        constructor
        · rintro (rfl | h) hk
          · omega
          · exact fun h' => h h'.symm
        · intro h
          by_cases hk : k = 0
          · exact .inl hk
          · exact .inr fun h' => h (by omega) h'.symm
  constructor
  · unfold check
    constructor
    · intro h
      split at h
      · cases h
      rename_i h1
      split at h
      · cases h
      rename_i h2
      split at h
      · cases h
      rename_i h3
      split at h
      · cases h
      rename_i h4
      split at h
      · cases h
      rename_i h5
      split at h
      · cases h
      rename_i h6
      split at h
      · cases h
      rename_i h7
      rw [hview] at h6
      rw [not_not] at h4
      rw [not_or, not_le, not_le] at h5
      refine ⟨by clear h6 hview; omega, by clear h6 hview; omega, by clear h6 hview; omega, by clear h6 hview; omega, by clear h6 hview; omega, h4, h5.1, h5.2, fun h => ?_, fun h => ?_⟩
      · by_contra hn
        exact h6 ⟨h, hn⟩
      · by_contra hn
        exact h7 ⟨h, by omega⟩
    · rintro ⟨h1, h2, h3, h4, h5, h6, h7, h8, h9, h10⟩
      rw [if_neg (by clear h9 hview; omega), if_neg (by clear h9 hview; omega), if_neg (by clear h9 hview; omega), if_neg (by rw [not_not]; exact h6), if_neg (by rw [not_or, not_le, not_le]; exact ⟨h7, h8⟩),
        if_neg, if_neg]
      · rintro ⟨ha, hb⟩
        have := h10 ha
        omega
      · rintro ⟨ha, hb⟩
        exact (hview.mp hb) (h9 ha)
  · unfold check
    split
    · exact .inr rfl
    split
    · exact .inr rfl
    split
    · exact .inr rfl
    split
    · exact .inr rfl
    split
    · exact .inr rfl
    split
    · exact .inr rfl
    split
    · exact .inr rfl
    · exact .inl rfl

/-- C151 (partial: not distilling into the fine-tuned model with no fine-tuning): the method keeps the bundle that was trained last,
so it can predict. -/
theorem C151_result_partial (T : Stages S) (c : Cfg) (n : Sizes) (W W' : Nat → Net S) (r : Option Nat) (h : fit T c n W = .ok (W', r))
    (hc : ¬ (0 < c.distEpochs ∧ c.fineEpochs = 0 ∧ c.stud = none)) : r = Spec.last c ∧ r.isSome = true := by
  obtain ⟨hk, p, f, W1, W2, hr, -, -, -, rfl⟩ := fit_ok T c n W W' r h
  obtain ⟨hp, hps, hf, hfs⟩ := roles_ok c p f hr
  obtain ⟨-, hpn, hfn, hdn, hone⟩ := check_ok c n hk
  unfold finalBundle Spec.last
  by_cases hd : 0 < c.distEpochs
  · cases hst : c.stud with
    | some s => simp [hd]
    | none =>
      have hfe : 0 < c.fineEpochs := by
        by_contra hx
        exact hc ⟨hd, by omega, hst⟩
      have hfin : f.isSome = true := hfs (.inl hfe)
      rw [if_pos (.inl hfe)] at hf
      rw [if_neg (by simp), if_pos hfe, if_pos hd]
      refine ⟨?_, hfin⟩
      rw [hf]
      cases hcf : c.fine with
      | some b => simp
      | none =>
        rw [hcf] at hf
        simp only [Option.none_or] at hf ⊢
        by_cases hpe : 0 < c.preEpochs
        · rw [hp, if_pos hpe, hcf]; simp
        · rw [hp, if_neg hpe] at hf; rw [hf] at hfin; simp at hfin
  · rw [if_neg (by tauto), if_neg hd]
    by_cases hfe : 0 < c.fineEpochs
    · have hfin : f.isSome = true := hfs (.inl hfe)
      rw [if_pos (.inl hfe)] at hf
      rw [if_pos hfe, if_pos hfe]
      refine ⟨?_, hfin⟩
      rw [hf]
      cases hcf : c.fine with
      | some b => simp
      | none =>
        rw [hcf] at hf
        simp only [Option.none_or] at hf ⊢
        by_cases hpe : 0 < c.preEpochs
        · rw [hp, if_pos hpe, hcf]; simp
        · rw [hp, if_neg hpe] at hf; rw [hf] at hfin; simp at hfin
    · have hpe : 0 < c.preEpochs := by omega
      rw [if_neg hfe, if_neg hfe]
      exact ⟨by rw [hp, if_pos hpe], hps hpe⟩

/-- The settings of the witnesses: bundle 0 pretrained, bundle 1 fine-tuned, no student. -/
def demoCfg (preE fineE distE : Int) (stud : Option Nat) : Cfg := ⟨some 0, some 1, stud, 4, preE, fineE, distE, 1/2, 1/2, 1, true, true⟩

/-- C151 is violated by distilling without fine-tuning and without a student bundle: bundle 1 is trained, but the method keeps the
pretrained bundle 0, and if there was no pretraining either, none: it cannot predict after a successful fit. -/
theorem C151_result_violated (T : Stages S) (n : Sizes) (hn : 0 < n.nl) (k : Nat) (hk : n.nw = some (k + 1)) (hs : n.ns = none)
    (W : Nat → Net S) (h0 : (W 0).frozen = false) (h1 : (W 1).frozen = false) :
    (∃ W', fit T (demoCfg 1 0 1 none) n W = .ok (W', some 0) ∧
      (W' 1).params = T.dist (T.load (T.pre (W 0).params) (W 1).params) (T.load (T.pre (W 0).params) (W 1).params) ∧ Spec.last (demoCfg 1 0 1 none) = some 1) ∧
    ∃ W', fit T (demoCfg 0 0 1 none) n W = .ok (W', none) ∧ (W' 1).params = T.dist (W 1).params (W 1).params := by
  have hchk : ∀ pe, pe = 0 ∨ pe = 1 → check (demoCfg pe 0 1 none) n = .ok () := by
    intro pe hpe
    rw [(C151_accept _ n).1]
    refine ⟨by simp [demoCfg], by rcases hpe with rfl | rfl <;> decide, by simp [demoCfg], by simp [demoCfg], .inr (.inr (by simp [demoCfg])), by norm_num [demoCfg], by norm_num [demoCfg], by norm_num [demoCfg], fun _ => ⟨k + 1, hk, by omega, .inl hs⟩, fun _ => hn⟩
  constructor
  · unfold fit
    rw [hchk 1 (.inr rfl)]
    simp [pure, Except.pure, bind, Except.bind, roles, required, demoCfg, stagePre, stageLoad, stageFine, stageDist, train, h0, h1, finalBundle, Spec.last]
  · unfold fit
    rw [hchk 0 (.inl rfl)]
    simp [pure, Except.pure, bind, Except.bind, roles, required, demoCfg, stagePre, stageLoad, stageFine, stageDist, train, h0, h1, finalBundle]

theorem train_ok (W W' : Nat → Net S) (b : Nat) (f : S → S) (h : train W b f = .ok W') :
    (W b).frozen = false ∧ W' = fun k => if k = b then ⟨f (W b).params, false⟩ else W k := by
  unfold train at h
  cases hf : (W b).frozen with
  | true => rw [if_pos hf] at h; cases h
  | false => rw [if_neg (by rw [hf]; simp), hf] at h; cases h; exact ⟨rfl, rfl⟩

/-- C151: all three stages with three bundles: the student is distilled from the fine-tuned model, that was fine-tuned from the
pretrained parameters; the pretrained model keeps its parameters, the teacher those it taught with. -/
theorem C151_stages (T : Stages S) (c : Cfg) (n : Sizes) (W W' : Nat → Net S) (r : Option Nat) (p f s : Nat) (hpf : p ≠ f) (hps : p ≠ s) (hfs : f ≠ s)
    (hcp : c.pre = some p) (hcf : c.fine = some f) (hcs : c.stud = some s) (h1 : 0 < c.preEpochs) (h2 : 0 < c.fineEpochs) (h3 : 0 < c.distEpochs)
    (ht : c.transfer = true) (h : fit T c n W = .ok (W', r)) :
    r = some s ∧ (W' p).params = T.pre (W p).params ∧ (W' f).params = T.fine (T.load (T.pre (W p).params) (W f).params) ∧
    (W' s).params = T.dist (T.fine (T.load (T.pre (W p).params) (W f).params)) (W s).params ∧
    ∀ k, k ≠ p → k ≠ f → k ≠ s → W' k = W k := by
  obtain ⟨hk, p', f', W1, W2, hr, hA, hB, hC, rfl⟩ := fit_ok T c n W W' r h
  obtain ⟨hp, -, hf, -⟩ := roles_ok c p' f' hr
  rw [if_pos h1, hcp] at hp
  rw [if_pos (.inl h2), hcf] at hf
  simp only [Option.some_or] at hp hf
  subst hp hf
  simp only [stagePre, if_pos h1, gt_iff_lt] at hA
  obtain ⟨-, rfl⟩ := train_ok _ _ _ _ hA
  simp only [stageFine, if_pos h2, gt_iff_lt] at hB
  obtain ⟨-, rfl⟩ := train_ok _ _ _ _ hB
  simp only [stageDist, if_pos h3, gt_iff_lt, hcs, if_neg (Ne.symm hfs)] at hC
  obtain ⟨-, rfl⟩ := train_ok _ _ _ _ hC
  have hl : c.transfer = true ∧ p ≠ f ∧ 0 < c.preEpochs := ⟨ht, hpf, h1⟩
  simp only [stageLoad, gt_iff_lt, if_pos hl, finalBundle, hcs]
  refine ⟨by simp [h3], ?_, ?_, ?_, ?_⟩
  · simp [hpf, hps]
  · simp [hpf, hfs, Ne.symm hpf]
  · simp [hpf, hfs, Ne.symm hfs, Ne.symm hpf, Ne.symm hps]
  · intro k k1 k2 k3
    simp [k1, k2, k3]

/-- C151 is violated by a second fit with the same settings and a student bundle: the teacher was taken out of training and never
put back, so fine-tuning it again is a `RuntimeError`. -/
theorem C151_refit_violated (T : Stages S) (c : Cfg) (n n' : Sizes) (W W' : Nat → Net S) (r : Option Nat) (f s : Nat) (hfs : f ≠ s)
    (hcp : c.pre = none ∨ ∃ p, c.pre = some p ∧ p ≠ f ∧ p ≠ s) (hcf : c.fine = some f) (hcs : c.stud = some s) (h2 : 0 < c.fineEpochs) (h3 : 0 < c.distEpochs)
    (h : fit T c n W = .ok (W', r)) (hn' : check c n' = .ok ()) : fit T c n' W' = .error .runtimeError := by
  obtain ⟨hk, p', f', W1, W2, hr, hA, hB, hC, -⟩ := fit_ok T c n W W' r h
  obtain ⟨hp, -, hf, -⟩ := roles_ok c p' f' hr
  rw [if_pos (.inl h2), hcf] at hf
  simp only [Option.some_or] at hf
  subst hf
  have hfro : (W' f).frozen = true := by
    simp only [stageDist, if_pos h3, gt_iff_lt, hcs, if_neg (Ne.symm hfs)] at hC
    obtain ⟨-, rfl⟩ := train_ok _ _ _ _ hC
    simp [hfs]
  -- the second run
  have htrainf : ∀ (V : Nat → Net S), (V f).frozen = true → stageFine T c (some f) V = .error .runtimeError := by
    intro V hV
    simp [stageFine, h2, train, hV]
  unfold fit
  rw [hn', hr]
  simp only [bind, Except.bind]
  cases hpre : stagePre T c p' W' with
  | error e =>
    simp only
    -- pretraining a frozen model is the same error
    cases p' with
    | none => simp [stagePre] at hpre
    | some q =>
      simp only [stagePre] at hpre
      split at hpre
      · unfold train at hpre
        split at hpre
        · cases hpre; rfl
        · cases hpre
      · cases hpre
  | ok V =>
    have hV : (V f).frozen = true := by
      cases p' with
      | none => simp only [stagePre, Except.ok.injEq] at hpre; rw [← hpre]; exact hfro
      | some q =>
        simp only [stagePre] at hpre
        split at hpre
        · obtain ⟨hq, rfl⟩ := train_ok _ _ _ _ hpre
          by_cases hqf : f = q
          · subst hqf; rw [hfro] at hq; cases hq
          · simp [hqf, hfro]
        · cases hpre; exact hfro
    have hL : (stageLoad T c p' (some f) V f).frozen = true := by
      cases p' with
      | none => exact hV
      | some q =>
        simp only [stageLoad]
        split
        · simp [hV]
        · exact hV
    simp only
    rw [htrainf _ hL]

theorem train_frozen (W W' : Nat → Net S) (b : Nat) (f : S → S) (h : train W b f = .ok W') (k : Nat) : (W' k).frozen = (W k).frozen := by
  obtain ⟨hb, rfl⟩ := train_ok _ _ _ _ h
  by_cases hk : k = b
  · subst hk; simp [hb]
  · simp [hk]

/-- C151 (partial: no student bundle): fitting leaves every model trainable that was. -/
theorem C151_refit_partial (T : Stages S) (c : Cfg) (n : Sizes) (W W' : Nat → Net S) (r : Option Nat) (hcs : c.stud = none)
    (h : fit T c n W = .ok (W', r)) (k : Nat) : (W' k).frozen = (W k).frozen := by
  obtain ⟨hk, p, f, W1, W2, hr, hA, hB, hC, -⟩ := fit_ok T c n W W' r h
  have e1 : (W1 k).frozen = (W k).frozen := by
    cases p with
    | none => simp only [stagePre, Except.ok.injEq] at hA; rw [hA]
    | some p =>
      simp only [stagePre] at hA
      split at hA
      · exact train_frozen _ _ _ _ hA k
      · cases hA; rfl
  have e2 : (stageLoad T c p f W1 k).frozen = (W1 k).frozen := by
    unfold stageLoad
    split
    · split
      · rename_i p f hh
        by_cases hk : k = f
        · subst hk; simp
        · simp [hk]
      · rfl
    · rfl
  have e3 : (W2 k).frozen = (stageLoad T c p f W1 k).frozen := by
    cases f with
    | none => simp only [stageFine, Except.ok.injEq] at hB; rw [hB]
    | some f =>
      simp only [stageFine] at hB
      split at hB
      · exact train_frozen _ _ _ _ hB k
      · cases hB; rfl
  have e4 : (W' k).frozen = (W2 k).frozen := by
    cases f with
    | none => simp only [stageDist, Except.ok.injEq] at hC; rw [hC]
    | some f =>
      simp only [stageDist, hcs] at hC
      split at hC
      · exact train_frozen _ _ _ _ hC k
      · cases hC; rfl
  rw [e4, e3, e2, e1]

/-- C151 (partial: `meta` names no callable, or a bound method of the model): when distilling a model into itself, every step compares
with the model as it was before distilling. -/
theorem C151_teacher_fixed_partial (step : S → S → S) (m : Option Call) (hm : ∀ c, m = some c → c.owner = 0 ∧ c.isMethod = true) (t : S) (k : Nat) (s : S) :
    distTargets step m t k s = List.replicate k t := by
  have ht : ∀ s, teacherParams m s t = t := by
    intro s
    cases m with
    | none => rfl
    | some c =>
      obtain ⟨h1, h2⟩ := hm c rfl
      simp [teacherParams, rebind, h1, h2]
  induction k generalizing s with
  | zero => rfl
  | succ k ih => rw [distTargets, ht, ih, List.replicate_succ]

/-- C151 is violated when `meta` names a module or function that is not a bound method (`meta["classifier"] = model.fc`): the copy keeps using
the module of the student, so the "teacher" is the student itself at every step. -/
theorem C151_teacher_fixed_violated (step : S → S → S) (t : S) (k : Nat) (s : S) :
    distTargets step (some ⟨0, false⟩) t (k + 1) s = s :: distTargets step (some ⟨0, false⟩) t k (step s s) := by
  simp [distTargets, teacherParams, rebind]

/-- C151: in the contrastive loss the two views of a sample are matched with each other, each row with another one. -/
theorem C151_pairs (n i : Nat) (hn : n % 2 = 0) (hi : i < n) :
    posIdx n i < n ∧ posIdx n i ≠ i ∧ posIdx n (posIdx n i) = i ∧ (i < n / 2 → posIdx n i = n / 2 + i) := by
  unfold posIdx
  split <;> split <;> omega

/-- C151: the contrastive loss is defined exactly for an even number of rows, at least two, and is never negative, for every function
that is at least every number it is given (`logsumexp`). -/
theorem C151_contrastive {K : Type} [Field K] [LinearOrder K] [IsStrictOrderedRing K] (lse : List K → K) (hl : ∀ xs, ∀ x ∈ xs, x ≤ lse xs) (n : Nat)
    (sim : Nat → Nat → K) :
    ((∃ v, ntXent lse n sim = .ok v) ↔ 2 ≤ n ∧ n % 2 = 0) ∧ ∀ v, ntXent lse n sim = .ok v → 0 ≤ v := by
  unfold ntXent
  split
  · rename_i h
    exact ⟨⟨fun ⟨_, h⟩ => (by cases h), fun h' => by omega⟩, fun v h => by cases h⟩
  · rename_i h
    refine ⟨⟨fun _ => by omega, fun _ => ⟨_, rfl⟩⟩, fun v hv => ?_⟩
    cases hv
    refine div_nonneg (List.sum_nonneg ?_) (Nat.cast_nonneg _)
    intro y hy
    obtain ⟨i, hi, rfl⟩ := List.mem_map.mp hy
    obtain ⟨h1, h2, -, -⟩ := C151_pairs n i (by omega) (List.mem_range.mp hi)
    unfold ntRow
    rw [if_neg h2]
    have := hl ((List.range n).map fun j => if j = i then -1000000000 else sim i j) (sim i (posIdx n i))
      (List.mem_map.mpr ⟨posIdx n i, List.mem_range.mpr h1, by rw [if_neg h2]⟩)
    linarith

theorem lse_real (xs : List ℝ) (x : ℝ) (hx : x ∈ xs) : x ≤ Real.log (xs.map Real.exp).sum := by
  have h1 : Real.exp x ≤ (xs.map Real.exp).sum := List.single_le_sum (fun y hy => by
    obtain ⟨z, -, rfl⟩ := List.mem_map.mp hy
    exact (Real.exp_pos z).le) _ (List.mem_map_of_mem hx)
  rw [Real.le_log_iff_exp_le (lt_of_lt_of_le (Real.exp_pos x) h1)]
  exact h1

example (n : Nat) (sim : Nat → Nat → ℝ) (v : ℝ) (h : ntXent (fun xs => Real.log (xs.map Real.exp).sum) n sim = .ok v) : 0 ≤ v :=
  (C151_contrastive _ lse_real n sim).2 v h

/-- A demonstration: parameters are lists of the stages gone through. -/
def demoStages : Stages (List Nat) := ⟨fun s => s ++ [1], fun s => s ++ [2], fun t s => s ++ [3] ++ t, fun p f => f ++ p⟩

example : (fit demoStages (demoCfg 1 1 1 (some 2)) ⟨3, some 5, none⟩ (fun k => ⟨[10 + k], false⟩)).toOption.map (fun r => ((r.1 2).params, r.2)) =
    some ([12, 3, 11, 10, 1, 2], some 2) := by decide +kernel
example : (fit demoStages (demoCfg 1 1 1 (some 1)) ⟨3, some 5, none⟩ (fun k => ⟨[10 + k], false⟩)).toOption.map (fun r => r.2) = none := by decide +kernel
example : posIdx 6 1 = 4 ∧ posIdx 6 4 = 1 := by decide

end ModSSC.Simclr
