import Verif.Gnn.TrainSpec
import Mathlib.Tactic.Linarith
import Mathlib.Tactic.NormNum
import Mathlib.Algebra.Order.Ring.Rat

/-!
# Training loops, seeding and the data cache of the GNN methods (C139–C142)
-/

namespace ModSSC.Gnn
open ModSSC ModSSC.Gnn.Spec

variable {K : Type} [Field K] [LinearOrder K]

/-! ### Early stopping -/

/-- What the theorems ask of a measure. -/
structure Measure.Lawful (M : Measure K) : Prop where
  irrefl : ∀ a, M.better a a = false
  trans : ∀ a b c, M.better a b = true → M.better b c = true → M.better a c = true
  first : ∀ a b, M.first a = false → M.better a b = false

theorem accBetter_lawful : (grafnMeasure : Measure K).Lawful where
  irrefl := by intro a; cases a <;> simp [grafnMeasure, accBetter]
  trans := by
    intro a b c h1 h2
    cases a <;> cases b <;> cases c <;> simp_all [grafnMeasure, accBetter]
    exact lt_trans h2 h1
  first := by intro a b h; simp [grafnMeasure] at h

section
variable [IsStrictOrderedRing K]

theorem lossBetter_irrefl (tol : K) (h : 0 ≤ tol) (a : Loss K) : lossBetter tol a a = false := by
  cases a <;> simp [lossBetter, h]

theorem lossBetter_trans (tol : K) (h : 0 ≤ tol) (a b c : Loss K) (h1 : lossBetter tol a b = true)
    (h2 : lossBetter tol b c = true) : lossBetter tol a c = true := by
  cases a <;> cases b <;> cases c <;> simp_all [lossBetter]
  linarith

theorem fullbatch_lawful (tol : K) (h : 0 ≤ tol) : (fullbatchMeasure tol).Lawful where
  irrefl := lossBetter_irrefl tol h
  trans := lossBetter_trans tol h
  first := by intro a b h; simp [fullbatchMeasure] at h

theorem grand_lawful (tol : K) (h : 0 ≤ tol) : (grandMeasure tol).Lawful where
  irrefl := lossBetter_irrefl tol h
  trans := lossBetter_trans tol h
  first := by
    intro a b h
    cases a with
    | none => rfl
    | some a => simp [grandMeasure] at h
end

section
variable {T S : Type}

/-- What the memory knows after `n` epochs. -/
def EsInv (M : Measure K) (step : T → T) (params : T → S) (f : S → Loss K) (t0 : T) (n : Nat) (es : Es K S) : Prop :=
  match es.best with
  | none => es.bad = n ∧ ∀ i < n, M.first (f (paramsAt step params t0 i)) = false
  | some (v, b, s) => b < n ∧ s = paramsAt step params t0 b ∧ v = f s ∧ n = b + 1 + es.bad ∧ M.first v = true ∧
      ∀ i < n, M.better (f (paramsAt step params t0 i)) v = false

theorem see_inv {M : Measure K} (hM : M.Lawful) (patience : Int) (step : T → T) (params : T → S) (f : S → Loss K) (t0 : T)
    {n : Nat} {es : Es K S} (h : EsInv M step params f t0 n es) (hb : es.bad < max 1 patience.toNat) :
    let r := es.see M patience n (f (paramsAt step params t0 n)) (paramsAt step params t0 n)
    EsInv M step params f t0 (n + 1) r.1 ∧ (r.2 = true → r.1.bad = max 1 patience.toNat) ∧
      (r.2 = false → r.1.bad < max 1 patience.toNat) := by
  intro r
  have hstop : ∀ {b : Nat}, b < max 1 patience.toNat →
      (decide (patience ≤ ((b + 1 : Nat) : Int)) = true → b + 1 = max 1 patience.toNat) ∧
      (decide (patience ≤ ((b + 1 : Nat) : Int)) = false → b + 1 < max 1 patience.toNat) := by
    intro b hb
    simp only [decide_eq_true_eq, decide_eq_false_iff_not]
    omega
  unfold EsInv at h
  cases hbest : es.best with
  | none =>
    rw [hbest] at h
    obtain ⟨hbad, hall⟩ := h
    by_cases hf : M.first (f (paramsAt step params t0 n)) = true
    · have hr : r = (⟨some (f (paramsAt step params t0 n), n, paramsAt step params t0 n), 0⟩, false) := by
        simp only [r, Es.see, hbest, hf, if_true]
      rw [hr]
      refine ⟨?_, by simp, fun _ => ?_⟩
      · refine ⟨by omega, rfl, rfl, by simp, hf, ?_⟩
        intro i hi
        rcases Nat.lt_or_eq_of_le (Nat.le_of_lt_succ hi) with hi | rfl
        · exact hM.first _ _ (hall i hi)
        · exact hM.irrefl _
      · show 0 < _; omega
    · have hr : r = (⟨none, es.bad + 1⟩, decide (patience ≤ ((es.bad + 1 : Nat) : Int))) := by
        simp only [r, Es.see, hbest, hf, Bool.false_eq_true, if_false]
      rw [hr]
      refine ⟨?_, (hstop hb).1, (hstop hb).2⟩
      refine ⟨by simp [hbad], ?_⟩
      intro i hi
      rcases Nat.lt_or_eq_of_le (Nat.le_of_lt_succ hi) with hi | rfl
      · exact hall i hi
      · simpa using hf
  | some p =>
    obtain ⟨v, b, s⟩ := p
    rw [hbest] at h
    obtain ⟨hbn, hs, hv, hn, hfirst, hall⟩ := h
    by_cases hf : M.better (f (paramsAt step params t0 n)) v = true
    · have hr : r = (⟨some (f (paramsAt step params t0 n), n, paramsAt step params t0 n), 0⟩, false) := by
        simp only [r, Es.see, hbest, hf, if_true]
      rw [hr]
      refine ⟨?_, by simp, fun _ => ?_⟩
      · refine ⟨by omega, rfl, rfl, by simp, ?_, ?_⟩
        · by_contra hc
          have := hM.first (f (paramsAt step params t0 n)) v (by simpa using hc)
          rw [this] at hf; cases hf
        · intro i hi
          rcases Nat.lt_or_eq_of_le (Nat.le_of_lt_succ hi) with hi | rfl
          · by_contra hc
            have := hM.trans _ _ _ (by simpa using hc) hf
            rw [hall i hi] at this; cases this
          · exact hM.irrefl _
      · show 0 < _; omega
    · have hr : r = (⟨some (v, b, s), es.bad + 1⟩, decide (patience ≤ ((es.bad + 1 : Nat) : Int))) := by
        simp only [r, Es.see, hbest, hf, Bool.false_eq_true, if_false]
      rw [hr]
      refine ⟨?_, (hstop hb).1, (hstop hb).2⟩
      refine ⟨by omega, hs, hv, by simp only; omega, hfirst, ?_⟩
      intro i hi
      rcases Nat.lt_or_eq_of_le (Nat.le_of_lt_succ hi) with hi | rfl
      · exact hall i hi
      · simpa using hf

theorem esLoop_inv {M : Measure K} (hM : M.Lawful) (patience : Int) (step : T → T) (params : T → S) (f : S → Loss K) (t0 : T)
    (k n : Nat) (es : Es K S) (h : EsInv M step params f t0 n es) (hb : es.bad < max 1 patience.toNat) :
    let r := esLoop M patience step params (some f) k n (afterEpochs step t0 n) es
    r.1 = afterEpochs step t0 r.2.2 ∧ EsInv M step params f t0 r.2.2 r.2.1 ∧ r.2.2 ≤ n + k ∧
      ((r.2.2 = n + k ∧ r.2.1.bad < max 1 patience.toNat) ∨ r.2.1.bad = max 1 patience.toNat) := by
  induction k generalizing n es with
  | zero => exact ⟨rfl, h, Nat.le_refl _, .inl ⟨rfl, hb⟩⟩
  | succ k ih =>
    obtain ⟨h1, h2, h3⟩ := see_inv hM patience step params f t0 h hb
    intro r
    have hp : params (step (afterEpochs step t0 n)) = paramsAt step params t0 n := rfl
    have hr : r = if (es.see M patience n (f (paramsAt step params t0 n)) (paramsAt step params t0 n)).2 = true then
        (afterEpochs step t0 (n + 1), (es.see M patience n (f (paramsAt step params t0 n)) (paramsAt step params t0 n)).1, n + 1)
        else esLoop M patience step params (some f) k (n + 1) (afterEpochs step t0 (n + 1))
          (es.see M patience n (f (paramsAt step params t0 n)) (paramsAt step params t0 n)).1 := rfl
    rw [hr]
    split
    · rename_i hstop
      exact ⟨rfl, h1, by simp only; omega, .inr (h2 hstop)⟩
    · rename_i hstop
      obtain ⟨a, b, c, d⟩ := ih (n + 1) _ h1 (h3 (by simpa using hstop))
      refine ⟨a, b, by omega, ?_⟩
      rcases d with ⟨d1, d2⟩ | d
      · exact .inl ⟨by omega, d2⟩
      · exact .inr d

/-- C139: training with validation nodes.  If some epoch has a usable measure, the model ends with the parameters of the
reported epoch, one that was run and that no epoch run beats; training ends `patience` epochs after it (at least one), or
with the last epoch.  If none has, it ends with the last parameters after `patience` epochs (at least one). -/
theorem C139_best (M : Measure K) (hM : M.Lawful) (maxEpochs patience : Int) (step : T → T) (params : T → S) (f : S → Loss K)
    (t0 : T) :
    let r := runTraining M maxEpochs patience step params (some f) t0
    (∃ b, r.bestEpoch = some b ∧ b < r.epochs ∧ r.params = paramsAt step params t0 b ∧ r.bestVal = some (f r.params) ∧
      (∀ i < r.epochs, M.better (f (paramsAt step params t0 i)) (f r.params) = false) ∧
      r.epochs = min maxEpochs.toNat (b + 1 + max 1 patience.toNat)) ∨
    (r.bestEpoch = none ∧ r.bestVal = none ∧ r.params = params (afterEpochs step t0 r.epochs) ∧
      (∀ i < r.epochs, M.first (f (paramsAt step params t0 i)) = false) ∧
      r.epochs = min maxEpochs.toNat (max 1 patience.toNat)) := by
  intro r
  have h0 : EsInv M step params f t0 0 ⟨none, 0⟩ := ⟨rfl, by intro i hi; omega⟩
  obtain ⟨h1, h2, h3, h4⟩ := esLoop_inv hM patience step params f t0 maxEpochs.toNat 0 ⟨none, 0⟩ h0 (by simp)
  set q := esLoop M patience step params (some f) maxEpochs.toNat 0 (afterEpochs step t0 0) ⟨none, 0⟩ with hq
  have hr : r = match q.2.1.best with
    | none => ⟨params q.1, q.2.2, none, none⟩
    | some (v, e, s) => ⟨s, q.2.2, some e, some v⟩ := rfl
  clear_value q
  unfold EsInv at h2
  rw [hr]
  cases hb : q.2.1.best with
  | none =>
    rw [hb] at h2
    right
    refine ⟨rfl, rfl, by rw [h1], h2.2, ?_⟩
    show q.2.2 = _
    omega
  | some p =>
    obtain ⟨v, b, s⟩ := p
    rw [hb] at h2
    obtain ⟨hbn, hs, hv, hn, hfirst, hall⟩ := h2
    left
    refine ⟨b, rfl, hbn, hs, by rw [hv], ?_, ?_⟩
    · intro i hi
      show M.better _ (f s) = false
      rw [← hv]; exact hall i hi
    · show q.2.2 = _
      omega

theorem esLoop_noval (M : Measure K) (patience : Int) (step : T → T) (params : T → S) (t0 : T) (k n : Nat) (es : Es K S) :
    esLoop M patience step params none k n (afterEpochs step t0 n) es = (afterEpochs step t0 (n + k), es, n + k) := by
  induction k generalizing n with
  | zero => rfl
  | succ k ih =>
    have : esLoop M patience step params none (k + 1) n (afterEpochs step t0 n) es =
      esLoop M patience step params none k (n + 1) (afterEpochs step t0 (n + 1)) es := rfl
    rw [this, ih]
    have e : n + 1 + k = n + (k + 1) := by omega
    rw [e]

/-- C139: without validation nodes all epochs are run and the last parameters are kept. -/
theorem C139_no_validation (M : Measure K) (maxEpochs patience : Int) (step : T → T) (params : T → S) (t0 : T) :
    runTraining M maxEpochs patience step params none t0 =
      ⟨params (afterEpochs step t0 maxEpochs.toNat), maxEpochs.toNat, none, none⟩ := by
  unfold runTraining
  have := esLoop_noval M patience step params t0 maxEpochs.toNat 0 ⟨none, 0⟩
  simp only [afterEpochs, Nat.zero_add] at this
  simp only [this]

/-- C139: a method trained with `train_fullbatch`, all validation losses usable: it ends with the parameters of an epoch
whose loss exceeds no loss seen by more than the tolerance, `patience` epochs later or after the last epoch. -/
theorem C139_fullbatch [IsStrictOrderedRing K] (tol : K) (htol : 0 ≤ tol) (maxEpochs patience : Int) (hmax : 0 < maxEpochs)
    (step : T → T) (params : T → S) (f : S → Loss K) (g : S → K) (hg : ∀ s, f s = some (g s)) (t0 : T) :
    ∃ r b, trainFullbatch tol maxEpochs patience step params (some f) t0 = .ok r ∧ r.bestEpoch = some b ∧ b < r.epochs ∧
      r.params = paramsAt step params t0 b ∧ r.bestVal = some (some (g r.params)) ∧
      (∀ i < r.epochs, g r.params - tol ≤ g (paramsAt step params t0 i)) ∧
      r.epochs = min maxEpochs.toNat (b + 1 + max 1 patience.toNat) := by
  have h := C139_best (fullbatchMeasure tol) (fullbatch_lawful tol htol) maxEpochs patience step params f t0
  refine ⟨runTraining (fullbatchMeasure tol) maxEpochs patience step params (some f) t0, ?_⟩
  rcases h with ⟨b, h1, h2, h3, h4, h5, h6⟩ | ⟨h1, h2, h3, h4, h5⟩
  · refine ⟨b, ?_, h1, h2, h3, ?_, ?_, h6⟩
    · unfold trainFullbatch
      rw [if_neg (by omega)]
    · rw [h4, hg]
    · intro i hi
      have := h5 i hi
      rw [hg, hg] at this
      simp only [fullbatchMeasure, lossBetter, decide_eq_false_iff_not, not_lt] at this
      exact this
  · exfalso
    have := h4 0 (by omega)
    simp [fullbatchMeasure] at this

/-- C139: GraFN ends with the parameters of an epoch with the highest accuracy seen. -/
theorem C139_grafn (maxEpochs patience : Int) (hmax : 0 < maxEpochs) (step : T → T) (params : T → S) (f : S → Loss K)
    (g : S → K) (hg : ∀ s, f s = some (g s)) (t0 : T) :
    let r := runTraining (grafnMeasure : Measure K) maxEpochs patience step params (some f) t0
    ∃ b, r.bestEpoch = some b ∧ b < r.epochs ∧ r.params = paramsAt step params t0 b ∧
      (∀ i < r.epochs, g (paramsAt step params t0 i) ≤ g r.params) ∧
      r.epochs = min maxEpochs.toNat (b + 1 + max 1 patience.toNat) := by
  intro r
  rcases C139_best (grafnMeasure : Measure K) accBetter_lawful maxEpochs patience step params f t0 with
    ⟨b, h1, h2, h3, h4, h5, h6⟩ | ⟨h1, h2, h3, h4, h5⟩
  · refine ⟨b, h1, h2, h3, ?_, h6⟩
    intro i hi
    have := h5 i hi
    rw [hg, hg] at this
    simp only [grafnMeasure, accBetter, decide_eq_false_iff_not, not_lt] at this
    exact this
  · exfalso
    have := h4 0 (by omega)
    simp [grafnMeasure] at this

end

/-- C139 is violated for `max_epochs = 0`: instead of the untrained model, `fit` raises an unrelated error. -/
theorem C139_zero_epochs_violated {T S : Type} (tol : K) (maxEpochs patience : Int) (h : maxEpochs ≤ 0) (step : T → T)
    (params : T → S) (val : Option (S → Loss K)) (t0 : T) :
    trainFullbatch tol maxEpochs patience step params val t0 = .error .runtimeError := by
  unfold trainFullbatch
  rw [if_pos h]

/-- C139 is violated when the loss of the first epoch is NaN: the parameters of that epoch are returned although later ones
have a usable loss (here the epoch number is the state, and its loss is 1 over it). -/
theorem C139_nan_violated :
    ∃ f : Nat → Loss Rat, (f 2).isSome ∧
      (match trainFullbatch (1 / 1000000000) 10 3 (· + 1) id (some f) 0 with
        | .ok r => r.params == 1 && r.bestEpoch == some 0 && r.epochs == 4
        | .error _ => false) = true := by
  refine ⟨fun n => if n = 1 then none else some (1 / n), by decide +kernel, ?_⟩
  decide +kernel

/-! ### GraphHop -/

section
variable {T S : Type}

/-- Whether epoch `e` of GraphHop counts as an improvement. -/
def hopImproves (minDelta : K) (step : T → T) (params : T → S) (val : S → Loss K) (t0 : T) (e : Nat) : Bool :=
  hopGood minDelta (if e = 0 then none else some (val (paramsAt step params t0 (e - 1)))) (val (paramsAt step params t0 e))

theorem hopLoop_inv (minDelta : K) (patience : Int) (step : T → T) (params : T → S) (val : S → Loss K) (t0 : T) (k n : Nat)
    (bad : Nat) (best : Option (Nat × S)) (prev : Option (Loss K))
    (hprev : prev = if n = 0 then none else some (val (paramsAt step params t0 (n - 1))))
    (hbest : match best with
      | none => n = 0 ∧ bad = 0
      | some (b, s) => s = paramsAt step params t0 b ∧ n = b + 1 + bad ∧ hopImproves minDelta step params val t0 b = true ∧
          ∀ i, b < i → i < n → hopImproves minDelta step params val t0 i = false)
    (hbad : n = 0 ∨ (bad : Int) < patience) :
    let r := hopLoop minDelta patience step params val k n (afterEpochs step t0 n) prev bad best
    (n + k = 0 ∧ r = (t0, none, 0)) ∨
    ∃ b, r.2.1 = some (b, paramsAt step params t0 b) ∧ b < r.2.2 ∧ r.2.2 ≤ n + k ∧
      hopImproves minDelta step params val t0 b = true ∧
      (∀ i, b < i → i < r.2.2 → hopImproves minDelta step params val t0 i = false) ∧
      (r.2.2 = n + k ∧ r.2.2 ≤ b + 1 + patience.toNat ∨ r.2.2 = b + 1 + patience.toNat) := by
  induction k generalizing n bad best prev with
  | zero =>
    intro r
    have hr : r = (afterEpochs step t0 n, best, n) := rfl
    cases best with
    | none =>
      left
      obtain ⟨rfl, -⟩ := hbest
      exact ⟨rfl, hr⟩
    | some p =>
      obtain ⟨b, s⟩ := p
      obtain ⟨hs, hn, hi, hall⟩ := hbest
      right
      rw [hr, hs]
      refine ⟨b, rfl, by simp only; omega, by simp, hi, hall, .inl ⟨by simp, ?_⟩⟩
      show n ≤ _
      omega
  | succ k ih =>
    have himp : hopGood minDelta prev (val (paramsAt step params t0 n)) = hopImproves minDelta step params val t0 n := by
      unfold hopImproves; rw [hprev]
    intro r
    set imp := hopImproves minDelta step params val t0 n with himpd
    have hr : r = if patience ≤ ((if imp then 0 else bad + 1 : Nat) : Int) then
        (afterEpochs step t0 (n + 1), (if imp then some (n, paramsAt step params t0 n) else best), n + 1)
        else hopLoop minDelta patience step params val k (n + 1) (afterEpochs step t0 (n + 1))
          (some (val (paramsAt step params t0 n))) (if imp then 0 else bad + 1)
          (if imp then some (n, paramsAt step params t0 n) else best) := by
      rw [← himp]; rfl
    have hbest' : match (if imp then some (n, paramsAt step params t0 n) else best) with
      | none => n + 1 = 0 ∧ (if imp then 0 else bad + 1) = 0
      | some (b, s) => s = paramsAt step params t0 b ∧ n + 1 = b + 1 + (if imp then 0 else bad + 1) ∧
          hopImproves minDelta step params val t0 b = true ∧
          ∀ i, b < i → i < n + 1 → hopImproves minDelta step params val t0 i = false := by
      cases hc : imp with
      | true =>
        refine ⟨rfl, by simp, by rw [← himpd, hc], ?_⟩
        intro i h1 h2; omega
      | false =>
        cases best with
        | none =>
          obtain ⟨rfl, -⟩ := hbest
          exfalso
          rw [himpd] at hc
          simp [hopImproves, hopGood] at hc
        | some p =>
          obtain ⟨b, s⟩ := p
          obtain ⟨hs, hn, hi, hall⟩ := hbest
          refine ⟨hs, by simp; omega, hi, ?_⟩
          intro i h1 h2
          rcases Nat.lt_or_eq_of_le (Nat.le_of_lt_succ h2) with h2 | rfl
          · exact hall i h1 h2
          · rw [← himpd, hc]
    have hB : ((if imp then 0 else bad + 1 : Nat) : Int) ≤ max 0 patience := by
      split
      · simp
      · rcases hbad with h0 | h0
        · subst h0
          exfalso
          rename_i hi0
          rw [himpd] at hi0
          simp [hopImproves, hopGood] at hi0
        · push_cast; omega
    generalize (if imp then 0 else bad + 1 : Nat) = B at hr hbest' hB
    generalize (if imp then some (n, paramsAt step params t0 n) else best) = best' at hr hbest'
    by_cases hstop : patience ≤ (B : Int)
    · right
      rw [if_pos hstop] at hr
      rw [hr]
      cases best' with
      | none => obtain ⟨h0, -⟩ := hbest'; omega
      | some p =>
        obtain ⟨b, s⟩ := p
        obtain ⟨hs, hn, hi, hall⟩ := hbest'
        refine ⟨b, by rw [hs], by simp only; omega, by simp only; omega, hi, hall, .inr ?_⟩
        show n + 1 = _
        omega
    · rw [if_neg hstop] at hr
      rw [hr]
      have := ih (n + 1) B best' (some (val (paramsAt step params t0 n))) (by simp) hbest' (.inr (by omega))
      rcases this with ⟨h0, -⟩ | ⟨b, h1, h2, h3, h4, h5, h6⟩
      · omega
      · right
        refine ⟨b, h1, h2, by omega, h4, h5, ?_⟩
        omega

/-- C139 (GraphHop, partial): a classifier of GraphHop ends with the parameters of the last epoch run whose loss was at least
`min_delta` below the loss of the epoch before it (the first epoch always counts); training ends `patience` epochs after it.
Missing: that this epoch is the best one, see `C139_graphhop_violated`. -/
theorem C139_graphhop_partial [IsStrictOrderedRing K] (minDelta : K) (maxEpochs patience : Int) (hmax : 0 < maxEpochs) (step : T → T) (params : T → S)
    (f : S → Loss K) (g : S → K) (hg : ∀ s, f s = some (g s)) (t0 : T) :
    let r := hopTrain minDelta maxEpochs patience step params f t0
    ∃ b, r.2.1 = some b ∧ r.1 = paramsAt step params t0 b ∧ b < r.2.2 ∧
      (b = 0 ∨ (g (paramsAt step params t0 b) ≤ g (paramsAt step params t0 (b - 1)) ∧
        minDelta ≤ g (paramsAt step params t0 (b - 1)) - g (paramsAt step params t0 b))) ∧
      (∀ i, b < i → i < r.2.2 → g (paramsAt step params t0 (i - 1)) < g (paramsAt step params t0 i) ∨
        g (paramsAt step params t0 (i - 1)) - g (paramsAt step params t0 i) < minDelta) ∧
      r.2.2 = min maxEpochs.toNat (b + 1 + patience.toNat) := by
  intro r
  have h := hopLoop_inv minDelta patience step params f t0 maxEpochs.toNat 0 0 none none rfl ⟨rfl, rfl⟩ (.inl rfl)
  set q := hopLoop minDelta patience step params f maxEpochs.toNat 0 (afterEpochs step t0 0) none 0 none with hq
  have hr : r = match q.2.1 with
    | none => (params q.1, none, q.2.2)
    | some (e, s) => (s, some e, q.2.2) := rfl
  clear_value q
  have himp : ∀ e, hopImproves minDelta step params f t0 e = true ↔ (e = 0 ∨ (g (paramsAt step params t0 e) ≤ g (paramsAt step params t0 (e - 1)) ∧
        minDelta ≤ g (paramsAt step params t0 (e - 1)) - g (paramsAt step params t0 e))) := by
    intro e
    unfold hopImproves
    by_cases he : e = 0
    · simp [he, hopGood]
    · simp only [he, if_false, hg, hopGood, false_or]
      simp only [Bool.not_eq_true', Bool.or_eq_false_iff, decide_eq_false_iff_not, not_lt]
      exact and_congr_left fun _ => sub_nonpos
  rcases h with ⟨h0, -⟩ | ⟨b, h1, h2, h3, h4, h5, h6⟩
  · omega
  · rw [hr, h1]
    refine ⟨b, rfl, rfl, h2, (himp b).mp h4, ?_, ?_⟩
    · intro i hi1 hi2
      have hx := h5 i hi1 hi2
      have hy : ¬ (hopImproves minDelta step params f t0 i = true) := by rw [hx]; simp
      rw [himp i] at hy
      push Not at hy
      obtain ⟨-, hy⟩ := hy
      by_cases hc : g (paramsAt step params t0 (i - 1)) < g (paramsAt step params t0 i)
      · exact .inl hc
      · exact .inr (hy (not_lt.mp hc))
    · show q.2.2 = _
      omega

end

/-- The losses of a run, by the number of epochs done. -/
def demoLosses (l : List Rat) : Nat → Loss Rat := fun n => l[n - 1]?

/-- C139 is violated by GraphHop: epochs are compared with the one before, not with the best.  With losses 10, 5, 8, 7, …
it keeps the parameters with loss 7; and with NaN losses it never stops early and keeps the last parameters. -/
theorem C139_graphhop_violated :
    hopTrain (1 / 100) 5 2 (· + 1) id (demoLosses [10, 5, 8, 7, 15 / 2]) 0 = (4, some 3, 5) ∧
    hopTrain (1 / 100 : Rat) 50 2 (· + 1) id (fun n => if n ≤ 1 then some 1 else none) 0 = (50, some 49, 50) := by
  decide +kernel

example : hopTrain (1 / 100) 50 2 (· + 1) id (demoLosses [10, 5, 4, 4, 4, 1]) 0 = (3, some 2, 5) := by decide +kernel

example : (match trainFullbatch (1 / 1000000000) 50 2 (· + 1) id (some (demoLosses [10, 5, 8, 7, 1])) 0 with
    | .ok r => r.params == 2 && r.bestEpoch == some 1 && r.bestVal == some (some 5) && r.epochs == 4
    | .error _ => false) = true := by decide +kernel

/-! ### Seeding -/

/-- C140: a method that seeds before it creates its network gives the same result for the same seed, whatever the state of
the global generator. -/
theorem C140_seed_first {S O G : Type} (net : Net K S O G) (manualSeed : Int → G) (tol : K) (maxEpochs patience : Int)
    (y : List Int) (train : List Bool) (val : Option (List Bool)) (seed : Int) (g g' : G) :
    fitGnn .seedFirst net manualSeed tol maxEpochs patience y train val seed g =
      fitGnn .seedFirst net manualSeed tol maxEpochs patience y train val seed g' := rfl

/-- C140 (partial): for the other methods the generator matters only through the initial weights: if those agree, so do the
results.  Missing: independence of the generator, see `C140_init_first_violated`. -/
theorem C140_init_first_partial {S O G : Type} (net : Net K S O G) (manualSeed : Int → G) (tol : K) (maxEpochs patience : Int)
    (y : List Int) (train : List Bool) (val : Option (List Bool)) (seed : Int) (g g' : G)
    (h : (net.init (nClasses y) g).1 = (net.init (nClasses y) g').1) :
    fitGnn .initFirst net manualSeed tol maxEpochs patience y train val seed g =
      fitGnn .initFirst net manualSeed tol maxEpochs patience y train val seed g' := by
  simp only [fitGnn, h]

/-- A network with one weight, drawn from a generator that counts, trained by halving. -/
def demoNet : Net Rat Rat Unit Nat where
  init _ g := (g, g + 1)
  opt _ := ()
  epoch _ t := (t.1 / 2, t.2.1, t.2.2 + 1)
  valLoss _ s := some s

/-- C140 is violated by every method that creates its network before seeding: the same data and the same seed give
different parameters when something drew from the generator before. -/
theorem C140_init_first_violated :
    ∃ (net : Net Rat Rat Unit Nat) (manualSeed : Int → Nat) (y : List Int) (train : List Bool) (g g' : Nat),
      (match fitGnn .initFirst net manualSeed 0 1 1 y train none 7 g, fitGnn .initFirst net manualSeed 0 1 1 y train none 7 g' with
        | .ok r, .ok r' => r.1.params != r'.1.params
        | _, _ => false) = true :=
  ⟨demoNet, Int.toNat, [0, 1], [true, true], 2, 4, by decide +kernel⟩

/-! ### Hidden labels -/

theorem masked_congr (m : List Bool) (y y' : List Int) (hl : y.length = y'.length) (h : SameOn m y y') : masked y m = masked y' m := by
  unfold masked
  induction m generalizing y y' with
  | nil => simp
  | cons b m ih =>
    cases y with
    | nil =>
      cases y' with
      | nil => rfl
      | cons _ _ => simp at hl
    | cons a y =>
      cases y' with
      | nil => simp at hl
      | cons a' y' =>
        have ih := ih y y' (by simpa using hl) fun i hi => by simpa using h (i + 1) (by simpa using hi)
        simp only [List.zip_cons_cons, List.filterMap_cons, ih]
        cases b with
        | false => rfl
        | true =>
          have := h 0 (by simp)
          simp only [List.getElem?_cons_zero, Option.some.injEq] at this
          rw [this]

/-- C142 (partial): the labels of nodes outside the training and validation masks change nothing, as long as the largest
label stays the same.  Missing: the largest label itself, see `C142_columns_violated`. -/
theorem C142_hidden_partial {S O G : Type} (order : SeedOrder) (net : Net K S O G) (manualSeed : Int → G) (tol : K)
    (maxEpochs patience : Int) (y y' : List Int) (train : List Bool) (val : Option (List Bool)) (seed : Int) (g : G)
    (hl : y.length = y'.length) (htrain : SameOn train y y') (hval : ∀ m, val = some m → SameOn m y y')
    (hmax : y.max? = y'.max?) :
    fitGnn order net manualSeed tol maxEpochs patience y train val seed g =
      fitGnn order net manualSeed tol maxEpochs patience y' train val seed g := by
  have hn : nClasses y = nClasses y' := by
    have key : ∀ l : List Int, nClasses l = match l.max? with | none => 0 | some m => (m + 1).toNat := by
      intro l
      cases l with
      | nil => rfl
      | cons a l => rfl
    rw [key, key, hmax]
  have hm := masked_congr train y y' hl htrain
  cases val with
  | none => simp only [fitGnn, hn, hm]
  | some m =>
    have hv := masked_congr m y y' hl (hval m rfl)
    simp only [fitGnn, hn, hm, hv]

/-- C142 is violated through the number of classes: a single hidden label adds output columns, so it is visible in the
predicted probabilities. -/
theorem C142_columns_violated :
    ∃ (y y' : List Int) (train : List Bool), y.length = y'.length ∧ SameOn train y y' ∧
      (match fitGnn .initFirst demoNet Int.toNat 0 1 1 y train none 7 0, fitGnn .initFirst demoNet Int.toNat 0 1 1 y' train none 7 0 with
        | .ok r, .ok r' => r.2 == 2 && r'.2 == 6
        | _, _ => false) = true := by
  refine ⟨[0, 1, 0], [0, 1, 5], [true, true, false], rfl, ?_, by decide +kernel⟩
  intro i hi
  rcases i with _ | _ | _ | i <;> simp_all

/-! ### The cache of prepared data -/

section
variable {V Opt P : Type} [DecidableEq Opt]

theorem prepRun_fresh (prepare : List V → Opt → Except PyErr P) (ops : List (PrepOp V Opt)) (c : Nat → V)
    (cache : PrepCache Opt P)
    (hc : ∀ ids opt p, cache.entry = some ((ids, opt), p) →
      prepare (ids.all.map c) opt = .ok p ∧ ∀ id v, PrepOp.write id v ∈ ops → id ∉ ids.all)
    (hops : NoLateWrites ops) : prepRun prepare (c, cache) ops = fresh prepare c ops := by
  induction ops generalizing c cache with
  | nil => rfl
  | cons op ops ih =>
    cases op with
    | write id v =>
      have hstep : prepStep prepare (c, cache) (.write id v) = ((fun i => if i = id then v else c i, cache), none) := rfl
      rw [prepRun, hstep]
      simp only [Option.toList_none, List.nil_append]
      rw [ih _ cache _ hops, fresh]
      intro ids opt p he
      obtain ⟨h1, h2⟩ := hc ids opt p he
      refine ⟨?_, fun id' v' hm => h2 id' v' (List.mem_cons_of_mem _ hm)⟩
      rw [← h1]
      congr 1
      refine List.map_congr_left fun i hi => ?_
      rw [if_neg]
      rintro rfl
      exact h2 i v List.mem_cons_self hi
    | prep ids opt =>
      obtain ⟨hw, hops⟩ := hops
      have hres : ∃ cache', prepCached prepare c cache ids opt = (cache', prepare (ids.all.map c) opt) ∧
          (∀ ids' opt' p, cache'.entry = some ((ids', opt'), p) →
            prepare (ids'.all.map c) opt' = .ok p ∧ ∀ id v, PrepOp.write id v ∈ ops → id ∉ ids'.all) := by
        have hold : ∀ ids' opt' p, cache.entry = some ((ids', opt'), p) →
            prepare (ids'.all.map c) opt' = .ok p ∧ ∀ id v, PrepOp.write id v ∈ ops → id ∉ ids'.all := fun ids' opt' p he =>
          ⟨(hc ids' opt' p he).1, fun id v hm => (hc ids' opt' p he).2 id v (List.mem_cons_of_mem _ hm)⟩
        have hmiss : ∃ cache', (match prepare (ids.all.map c) opt with
            | .ok p => ((⟨some ((ids, opt), p)⟩ : PrepCache Opt P), (.ok p : Except PyErr P))
            | .error e => (cache, .error e)) = (cache', prepare (ids.all.map c) opt) ∧
            (∀ ids' opt' p, cache'.entry = some ((ids', opt'), p) →
              prepare (ids'.all.map c) opt' = .ok p ∧ ∀ id v, PrepOp.write id v ∈ ops → id ∉ ids'.all) := by
          cases hp : prepare (ids.all.map c) opt with
          | error e => exact ⟨cache, rfl, hold⟩
          | ok p =>
            refine ⟨⟨some ((ids, opt), p)⟩, rfl, ?_⟩
            intro ids' opt' p' he
            simp only [Option.some.injEq, Prod.mk.injEq] at he
            obtain ⟨⟨rfl, rfl⟩, rfl⟩ := he
            exact ⟨hp, hw⟩
        unfold prepCached
        cases hentry : cache.entry with
        | none => exact hmiss
        | some q =>
          obtain ⟨key, p⟩ := q
          simp only
          split
          · rename_i hkey
            subst hkey
            exact ⟨cache, by rw [(hc ids opt p hentry).1], hold⟩
          · exact hmiss
      obtain ⟨cache', h1, h2⟩ := hres
      have hstep : prepStep prepare (c, cache) (.prep ids opt) = ((c, cache'), some (prepare (ids.all.map c) opt)) := by
        simp only [prepStep, h1]
      rw [prepRun, hstep]
      simp only [Option.toList_some, List.singleton_append]
      rw [ih c cache' h2 hops, fresh]

/-- C141 (partial): in every history in which no object of a dataset is written to after the dataset was first used, every
call gives what preparing the data anew would give.  Missing: later writes, see `C141_stale_violated`. -/
theorem C141_cache_partial (prepare : List V → Opt → Except PyErr P) (ops : List (PrepOp V Opt)) (c : Nat → V)
    (hops : NoLateWrites ops) : prepRun prepare (c, ⟨none⟩) ops = fresh prepare c ops :=
  prepRun_fresh prepare ops c ⟨none⟩ (by intro ids opt p h; cases h) hops

end

/-- A dataset whose objects have the numbers 1 to 7. -/
def demoIds : DataIds := ⟨1, 2, 3, 4, 5, 6, 7⟩

/-- C141 is violated by writes: after the features were changed in place, `predict_proba` and even a new `fit` of the same
method still use the old ones. -/
theorem C141_stale_violated :
    ∃ (prepare : List Nat → Unit → Except PyErr (List Nat)) (ops : List (PrepOp Nat Unit)),
      prepRun prepare (id, ⟨none⟩) ops = [.ok [1, 2, 3, 4, 5, 6, 7], .ok [1, 2, 3, 4, 5, 6, 7]] ∧
      fresh prepare id ops = [.ok [1, 2, 3, 4, 5, 6, 7], .ok [1, 99, 3, 4, 5, 6, 7]] :=
  ⟨fun l _ => .ok l, [.prep demoIds (), .write 2 99, .prep demoIds ()], rfl, rfl⟩

example : NoLateWrites ([.write 2 5, .prep demoIds (), .write 8 1, .prep demoIds ()] : List (PrepOp Nat Unit)) := by
  simp [NoLateWrites, demoIds, DataIds.all]

end ModSSC.Gnn
