import Verif.Supervised.TextModel
import Verif.Supervised.NetProps

/-!
# C198: the text CNN classifier
-/

namespace ModSSC.Supervised.TextCnn
open ModSSC Supervised Supervised.Spec Supervised.Net Supervised.Net.Spec

/-! ## Specification -/

/-- How the axes are read: number of texts, channels, positions. -/
def Axes (layout : String) (dims : List Nat) (n c l : Nat) : Prop :=
  (layout = "channels_last" ∧ dims = [n, l, c]) ∨ (layout = "channels_first" ∧ dims = [n, c, l]) ∨ (c = 1 ∧ dims = [n, l])

/-- The parameters are in range. -/
structure HyperOk (h : TextHyper) : Prop where
  layout : h.layout = "channels_last" ∨ h.layout = "channels_first"
  kernels : h.kernels ≠ [] ∧ ∀ k ∈ h.kernels, 0 < k
  filters : 0 < h.filters
  batch : 0 < h.base.batchSize
  epochs : 0 < h.base.maxEpochs
  lr : h.base.lrPositive = true
  dropout : h.base.dropoutOk = true

/-- The same texts with the last two axes exchanged. -/
def transpose {K : Type} (X : Tensor K) : Tensor K :=
  { X with dims := (match X.dims with | [n, a, b] => [n, b, a] | d => d)
           cell := (match X.dims with | [_, _, _] => fun i s t => X.cell i t s | _ => X.cell) }

/-- Every stretch of `k` positions of `x` also occurs in `y`. -/
def Occurs {K : Type} (k : Nat) (x y : Text K) : Prop :=
  ∀ t, t + k ≤ x.len → ∃ t', t' + k ≤ y.len ∧ ∀ c < x.channels, ∀ s < k, x.at_ c (t + s) = y.at_ c (t' + s)

/-! ## Helper lemmas -/

section
variable {K P W α : Type}

theorem prepare_ok {layout : String} (X : Tensor K) (n c l : Nat) (ts : List (Text K))
    (h : prepare layout X = .ok (n, c, l, ts)) : (layout = "channels_last" ∨ layout = "channels_first" → Axes layout X.dims n c l) ∧
      ts.length = n ∧ ∀ t ∈ ts, t.channels = c ∧ t.len = l := by
  unfold prepare at h
  split at h
  · rename_i n' a b hd
    split_ifs at h with h1 h2
    · simp only [Except.ok.injEq, Prod.mk.injEq] at h
      obtain ⟨rfl, rfl, rfl, rfl⟩ := h
      refine ⟨fun _ => .inl ⟨h1, hd⟩, by simp, ?_⟩
      intro t ht
      obtain ⟨i, -, rfl⟩ := List.mem_map.mp ht
      exact ⟨rfl, rfl⟩
    · simp only [Except.ok.injEq, Prod.mk.injEq] at h
      obtain ⟨rfl, rfl, rfl, rfl⟩ := h
      refine ⟨fun _ => .inr (.inl ⟨h2, hd⟩), by simp, ?_⟩
      intro t ht
      obtain ⟨i, -, rfl⟩ := List.mem_map.mp ht
      exact ⟨rfl, rfl⟩
  · rename_i n' d hd
    simp only [Except.ok.injEq, Prod.mk.injEq] at h
    obtain ⟨rfl, rfl, rfl, rfl⟩ := h
    refine ⟨fun _ => .inr (.inr ⟨rfl, hd⟩), by simp, ?_⟩
    intro t ht
    obtain ⟨i, -, rfl⟩ := List.mem_map.mp ht
    exact ⟨rfl, rfl⟩
  · cases h

theorem prepare_of {layout : String} (X : Tensor K) (n c l : Nat) (h : Axes layout X.dims n c l) :
    ∃ ts, prepare layout X = .ok (n, c, l, ts) := by
  unfold prepare
  rcases h with ⟨h1, h2⟩ | ⟨h1, h2⟩ | ⟨h1, h2⟩
  · rw [h2]
    exact ⟨_, if_pos h1⟩
  · rw [h2]
    simp only
    rw [if_neg (by rw [h1]; decide), if_pos h1]
    exact ⟨_, rfl⟩
  · rw [h2, h1]
    exact ⟨_, rfl⟩

theorem checkHyper_iff {h : TextHyper} : (checkHyper h = .ok () ∧ (h.layout = "channels_last" ∨ h.layout = "channels_first")) ↔
    HyperOk h := by
  unfold checkHyper
  constructor
  · rintro ⟨he, hl⟩
    split_ifs at he with h1 h2 h3 h4 h5 h6 h7
    refine ⟨hl, ⟨h1, ?_⟩, by omega, by omega, by omega, by simpa using h5, by simpa using h6⟩
    intro k hk
    by_contra hc
    exact h7 (List.any_eq_true.mpr ⟨k, hk, by simpa using hc⟩)
  · rintro ⟨hl, ⟨h1, h7⟩, h2, h3, h4, h5, h6⟩
    refine ⟨?_, hl⟩
    rw [if_neg h1, if_neg (by omega), if_neg (by omega), if_neg (by omega), if_neg (by simp [h5]), if_neg (by simp [h6]), if_neg]
    intro ha
    obtain ⟨k, hk, hk'⟩ := List.any_eq_true.mp ha
    have := h7 k hk
    simp at hk'
    omega

theorem checkFit_ok {h : TextHyper} {X : Option (Tensor K)} {y : Option (Targets α)} {dev : Nat}
    {b : Nat × Nat × Nat × List (Text K)} {ys : List α} {ks : List Nat} (hc : checkFit h X y = .ok (dev, b, ys, ks)) :
    ∃ X1 y1, X = some X1 ∧ y = some y1 ∧ HyperOk h ∧ prepare h.layout X1 = .ok b ∧ b.1 = y1.flat.length ∧
      b.1 * b.2.1 * b.2.2.1 ≠ 0 ∧ X1.device = y1.device ∧ dev = X1.device ∧ ys = y1.flat ∧ ks = usable h b.2.2.1 ∧ ks ≠ [] := by
  unfold checkFit at hc
  cases y with
  | none => cases hc
  | some y1 =>
    simp only at hc
    split_ifs at hc with h1
    cases X with
    | none => cases hc
    | some X1 =>
      simp only at hc
      obtain ⟨b', hb, hc⟩ := ebind_ok.mp hc
      by_cases h2 : b'.1 ≠ y1.flat.length
      · rw [if_pos h2] at hc; cases hc
      rw [if_neg h2] at hc
      by_cases h3 : b'.1 * b'.2.1 * b'.2.2.1 = 0
      · rw [if_pos h3] at hc; cases hc
      rw [if_neg h3] at hc
      by_cases h4 : X1.device ≠ y1.device
      · rw [if_pos h4] at hc; cases hc
      rw [if_neg h4] at hc
      obtain ⟨u, hu, hc⟩ := ebind_ok.mp hc
      by_cases h5 : usable h b'.2.2.1 = []
      · rw [if_pos h5] at hc; cases hc
      rw [if_neg h5] at hc
      simp only [Except.ok.injEq, Prod.mk.injEq] at hc
      obtain ⟨rfl, rfl, rfl, rfl⟩ := hc
      have hl : h.layout = "channels_last" ∨ h.layout = "channels_first" := by
        by_contra hn
        push_neg at hn
        exact h1 hn
      exact ⟨X1, y1, rfl, rfl, checkHyper_iff.mp ⟨hu, hl⟩, hb, not_not.mp h2, h3, not_not.mp h4, rfl, rfl, rfl, h5⟩

theorem checkFit_of {h : TextHyper} {X1 : Tensor K} {y1 : Targets α} {b : Nat × Nat × Nat × List (Text K)} (hh : HyperOk h)
    (hb : prepare h.layout X1 = .ok b) (h2 : b.1 = y1.flat.length) (h3 : b.1 * b.2.1 * b.2.2.1 ≠ 0)
    (h4 : X1.device = y1.device) (h5 : usable h b.2.2.1 ≠ []) :
    checkFit h (some X1) (some y1) = .ok (X1.device, b, y1.flat, usable h b.2.2.1) := by
  obtain ⟨g1, g2⟩ := checkHyper_iff.mpr hh
  unfold checkFit
  simp only
  rw [if_neg (by rintro ⟨e1, e2⟩; rcases g2 with e | e; exact e1 e; exact e2 e), ebind_of_ok hb, if_neg (by simpa using h2), if_neg h3,
    if_neg (by simpa using h4), ebind_of_ok g1, if_neg h5]

theorem usable_mem {h : TextHyper} {len k : Nat} (hpos : ∀ k ∈ h.kernels, 0 < k) :
    k ∈ usable h len ↔ (k : Int) ∈ h.kernels ∧ k ≤ len := by
  unfold usable
  rw [List.mem_map]
  constructor
  · rintro ⟨z, hz, rfl⟩
    obtain ⟨h1, h2⟩ := List.mem_filter.mp hz
    have := hpos z h1
    have e : ((z.toNat : Nat) : Int) = z := by omega
    rw [e]
    refine ⟨h1, ?_⟩
    have h2' : z ≤ (len : Int) := by simpa using h2
    omega
  · rintro ⟨h1, h2⟩
    exact ⟨k, List.mem_filter.mpr ⟨h1, by simpa using h2⟩, rfl⟩

theorem foldl_max_le {l : List Nat} {a m : Nat} : l.foldl max a ≤ m ↔ a ≤ m ∧ ∀ k ∈ l, k ≤ m := by
  induction l generalizing a with
  | nil => simp
  | cons b l ih =>
    rw [List.foldl_cons, ih]
    simp only [List.mem_cons, forall_eq_or_imp]
    constructor
    · rintro ⟨h1, h2⟩; exact ⟨by omega, by omega, h2⟩
    · rintro ⟨h1, h2, h3⟩; exact ⟨by omega, h3⟩

end

section
variable {K P W α : Type} [Field K] [LinearOrder K] [IsStrictOrderedRing K] [LinearOrder α]

theorem fit_ok {nn : List Nat → Nn (Text K) P W K} (hperm : ∀ ks w n, ((nn ks).randperm w n).1.Perm (List.range n)) {h : TextHyper}
    {st st' : TextState α P} {w w' : W} {X : Option (Tensor K)} {y : Option (Targets α)} {r : Nat × Nat × Nat}
    (hf : fit nn h st w X y = ((st', w'), .ok r)) :
    ∃ dev b ys ks, checkFit h X y = .ok (dev, b, ys, ks) ∧ st'.kernels = some ks ∧
      Holds (nn ks) h.base b.2.2.2 ys b.2.1 ((nn ks).manualSeed h.base.seedOr0) dev ⟨st'.classes, st'.model, none⟩ ∧
      r = (b.1, b.2.1 * b.2.2.1, (Labels.unique ys).length) := by
  unfold fit at hf
  cases hc : checkFit h X y with
  | error e => rw [hc] at hf; simp at hf
  | ok d =>
    obtain ⟨dev, b, ys, ks⟩ := d
    rw [hc] at hf
    simp only at hf
    obtain ⟨X1, y1, -, -, hh, hb, hl, -, -, -, rfl, -, -⟩ := checkFit_ok hc
    obtain ⟨-, hn, -⟩ := prepare_ok X1 b.1 b.2.1 b.2.2.1 b.2.2.2 hb
    cases hi : (nn ks).init b.2.1 (Labels.encodeLabels y1.flat).2.length ((nn ks).manualSeed h.base.seedOr0) with
    | mk res w1 =>
      rw [hi] at hf
      cases res with
      | error e => simp at hf
      | ok p0 =>
        simp only at hf
        cases ht : trainEpochs (nn ks) (encoded b.2.2.2 y1.flat) h.base.batchSize.toNat h.base.maxEpochs.toNat p0 w1 with
        | mk pw err =>
          obtain ⟨p1, w2⟩ := pw
          rw [ht] at hf
          cases err with
          | some e => simp at hf
          | none =>
            simp only [Prod.mk.injEq, Except.ok.injEq] at hf
            obtain ⟨⟨rfl, rfl⟩, rfl⟩ := hf
            have hlen : b.2.2.2.length = y1.flat.length := by rw [hn, hl]
            have hbt : 0 < h.base.batchSize.toNat := by have := hh.batch; omega
            exact ⟨dev, b, y1.flat, ks, rfl, rfl, ⟨hlen, rfl, p0, p1, congrArg Prod.fst hi, rfl,
              trainEpochs_ok (hperm ks) hlen hbt ht⟩, rfl⟩

/-! ## C198 -/

/-- C198: after a successful fit the network has exactly the given kernels that fit into the training texts (at least one), the
classes are the labels, and it was trained for the given number of epochs, each a pass over every text once with its own label.  The
start does not depend on what was fitted before. -/
theorem C198_trained (nn : List Nat → Nn (Text K) P W K) (hperm : ∀ ks w n, ((nn ks).randperm w n).1.Perm (List.range n))
    (h : TextHyper) (st st' : TextState α P) (w w' : W) (X : Tensor K) (y : Targets α) (r : Nat × Nat × Nat)
    (hf : fit nn h st w (some X) (some y) = ((st', w'), .ok r)) :
    ∃ n c l ts ks, Axes h.layout X.dims n c l ∧ prepare h.layout X = .ok (n, c, l, ts) ∧ st'.kernels = some ks ∧ ks ≠ [] ∧
      (∀ k : Nat, k ∈ ks ↔ (k : Int) ∈ h.kernels ∧ k ≤ l) ∧
      Net.Spec.Fitted (nn ks) h.base ts y.flat c ((nn ks).manualSeed h.base.seedOr0) X.device ⟨st'.classes, st'.model, none⟩ ∧
      r = (n, c * l, (Labels.unique y.flat).length) := by
  obtain ⟨dev, ⟨n, c, l, ts⟩, ys, ks, hc, hk, hH, rfl⟩ := fit_ok hperm hf
  obtain ⟨X1, y1, e1, e2, hh, hb, -, -, -, rfl, rfl, rfl, hne⟩ := checkFit_ok hc
  obtain rfl := Option.some.inj e1
  obtain rfl := Option.some.inj e2
  exact ⟨n, c, l, ts, _, (prepare_ok _ _ _ _ _ hb).1 hh.layout, hb, hk, hne, fun k => usable_mem hh.kernels.2, hH.fitted, rfl⟩

/-- C198: if building and stepping the network never raise, a fit is accepted exactly if there are texts with labels, as many labels
as texts, on the same device, nothing is empty, the parameters are in range and some kernel fits into the texts. -/
theorem C198_accepts (nn : List Nat → Nn (Text K) P W K) (hi : ∀ ks f c w, ∃ q, ((nn ks).init f c w).1 = .ok q)
    (hs : ∀ ks p B w, ∃ q, ((nn ks).step p B w).1 = .ok q) (h : TextHyper) (st : TextState α P) (w : W) (X : Option (Tensor K))
    (y : Option (Targets α)) :
    (∃ r, (fit nn h st w X y).2 = .ok r) ↔ ∃ X1 y1 n c l, X = some X1 ∧ y = some y1 ∧ HyperOk h ∧ Axes h.layout X1.dims n c l ∧
      n = y1.flat.length ∧ 0 < n ∧ 0 < c ∧ 0 < l ∧ X1.device = y1.device ∧ ∃ k ∈ h.kernels, k ≤ (l : Int) := by
  have hfit : (∃ r, (fit nn h st w X y).2 = .ok r) ↔ ∃ d, checkFit h X y = .ok d := by
    unfold fit
    cases hc : checkFit h X y with
    | error e => simp
    | ok d =>
      obtain ⟨dev, b, ys, ks⟩ := d
      simp only
      obtain ⟨q, hq⟩ := hi ks b.2.1 (Labels.encodeLabels ys).2.length ((nn ks).manualSeed h.base.seedOr0)
      cases hin : (nn ks).init b.2.1 (Labels.encodeLabels ys).2.length ((nn ks).manualSeed h.base.seedOr0) with
      | mk res w1 =>
        rw [hin] at hq
        simp only at hq
        subst hq
        simp only
        have ht := trainEpochs_total (hs ks) (data := encoded b.2.2.2 ys) (b := h.base.batchSize.toNat)
          (e := h.base.maxEpochs.toNat) (p := q) (w := w1)
        cases he : trainEpochs (nn ks) (encoded b.2.2.2 ys) h.base.batchSize.toNat h.base.maxEpochs.toNat q w1 with
        | mk pw err =>
          rw [he] at ht
          simp only at ht
          subst ht
          simp
  rw [hfit]
  constructor
  · rintro ⟨⟨dev, ⟨n, c, l, ts⟩, ys, ks⟩, hc⟩
    obtain ⟨X1, y1, rfl, rfl, hh, hb, h2, h3, h4, -, -, rfl, hne⟩ := checkFit_ok hc
    have h3' : n * c * l ≠ 0 := h3
    obtain ⟨k, hk⟩ := List.exists_mem_of_ne_nil _ hne
    have hk' := (usable_mem hh.kernels.2).mp hk
    refine ⟨X1, y1, n, c, l, rfl, rfl, hh, (prepare_ok _ _ _ _ _ hb).1 hh.layout, h2, ?_, ?_, ?_, h4, k, hk'.1, by exact_mod_cast hk'.2⟩
    · exact Nat.pos_of_ne_zero fun e => h3' (by rw [e]; simp)
    · exact Nat.pos_of_ne_zero fun e => h3' (by rw [e]; simp)
    · exact Nat.pos_of_ne_zero fun e => h3' (by rw [e]; simp)
  · rintro ⟨X1, y1, n, c, l, rfl, rfl, hh, hax, h2, hn, hc, hl, h4, k, hk, hkl⟩
    obtain ⟨ts, hb⟩ := prepare_of X1 n c l hax
    refine ⟨_, checkFit_of hh hb h2 (Nat.mul_ne_zero (Nat.mul_ne_zero hn.ne' hc.ne') hl.ne') h4 ?_⟩
    have hpos := hh.kernels.2 k hk
    have hm : k.toNat ∈ usable h l := (usable_mem hh.kernels.2).mpr ⟨by
      rw [show ((k.toNat : Nat) : Int) = k by omega]; exact hk, by omega⟩
    exact List.ne_nil_of_mem hm

/-- C198: a refused or accepted fit does not depend on what was fitted before, nor on torch's generator: same network, kernels,
classes and answers. -/
theorem C198_reproducible (nn : List Nat → Nn (Text K) P W K) (h : TextHyper)
    (st1 st2 : TextState α P) (w1 w2 : W) (X : Option (Tensor K)) (y : Option (Targets α)) :
    (fit nn h st1 w1 X y).2 = (fit nn h st2 w2 X y).2 ∧
      ∀ r, (fit nn h st1 w1 X y).2 = .ok r → (fit nn h st1 w1 X y).1 = (fit nn h st2 w2 X y).1 := by
  unfold fit
  cases hc : checkFit h X y with
  | error e => exact ⟨rfl, fun r hr => by cases hr⟩
  | ok d =>
    obtain ⟨dev, b, ys, ks⟩ := d
    simp only
    cases hin : (nn ks).init b.2.1 (Labels.encodeLabels ys).2.length ((nn ks).manualSeed h.base.seedOr0) with
    | mk res v1 =>
      cases res with
      | error e => exact ⟨rfl, fun r hr => by cases hr⟩
      | ok p =>
        simp only
        cases he : trainEpochs (nn ks) (encoded b.2.2.2 ys) h.base.batchSize.toNat h.base.maxEpochs.toNat p v1 with
        | mk pw err =>
          obtain ⟨p1, v2⟩ := pw
          cases err with
          | some e => exact ⟨rfl, fun r hr => by cases hr⟩
          | none => exact ⟨rfl, fun r _ => rfl⟩

/-- C198: exchanging the last two axes of the texts and the layout together changes nothing: training and scores are the same. -/
theorem C198_layout (nn : List Nat → Nn (Text K) P W K) (h h' : TextHyper) (hl : h.layout = "channels_last")
    (hh' : h' = { h with layout := "channels_first" }) (st : TextState α P) (w : W) (X : Tensor K) (y : Option (Targets α)) :
    fit nn h' st w (some (transpose X)) y = fit nn h st w (some X) y ∧
      scores nn h' st (some (transpose X)) = scores nn h st (some X) := by
  have hp : prepare "channels_first" (transpose X) = prepare "channels_last" X := by
    unfold prepare transpose
    rcases hd : X.dims with _ | ⟨n, _ | ⟨a, _ | ⟨b, _ | ⟨d, l⟩⟩⟩⟩ <;> simp
  have hchk : checkFit h' (some (transpose X)) y = checkFit h (some X) y := by
    unfold checkFit
    cases y with
    | none => rfl
    | some y1 =>
      simp only
      rw [if_neg (by rw [hh']; simp), if_neg (by rw [hl]; simp), show h'.layout = "channels_first" by rw [hh'], hl, hp]
      rw [hh']
      rfl
  constructor
  · unfold fit
    rw [hchk, hh']
  · unfold scores
    rw [show h'.layout = "channels_first" by rw [hh'], hl]
    simp only [hp]
    rfl

end

section
variable {K P W α : Type} [Field K] [LinearOrder K] [IsStrictOrderedRing K] [LinearOrder α]

/-- C198: after a successful fit, texts with as many channels are answered exactly if they are on the same device and no shorter than the
longest kernel used; each gets a distribution over the training labels and the label with the largest probability. -/
theorem C198_predict (nn : List Nat → Nn (Text K) P W K) (outputs : P → Nat) (hnn : ∀ ks, Lawful (nn ks) outputs) (h : TextHyper)
    (st st' : TextState α P) (w w' : W) (X : Tensor K) (y : Targets α) (r : Nat × Nat × Nat)
    (hf : fit nn h st w (some X) (some y) = ((st', w'), .ok r)) (n c l : Nat) (hX : Axes h.layout X.dims n c l)
    (Q : Tensor K) (m l' : Nat) (hQ : Axes h.layout Q.dims m c l') (hd : Q.device = X.device) :
    ((∀ k : Nat, (k : Int) ∈ h.kernels → k ≤ l → k ≤ l') → ∃ s pred, scores nn h st' (some Q) = .ok s ∧
      predict nn h st' (some Q) = .ok pred ∧ Answers y.flat m s pred) ∧
    (∀ k : Nat, (k : Int) ∈ h.kernels → k ≤ l → l' < k → scores nn h st' (some Q) = .error .validation) := by
  obtain ⟨dev, ⟨n1, c1, l1, ts⟩, ys, ks, hc, hk, hH, rfl⟩ := fit_ok (fun ks => (hnn ks).perm) hf
  obtain ⟨X1, y1, e1, e2, hh, hb, hlen, hne, -, rfl, rfl, rfl, -⟩ := checkFit_ok hc
  obtain rfl := Option.some.inj e1
  obtain rfl := Option.some.inj e2
  obtain ⟨ts', hb'⟩ := prepare_of X n c l hX
  rw [hb'] at hb
  simp only [Except.ok.injEq, Prod.mk.injEq] at hb
  obtain ⟨rfl, rfl, rfl, rfl⟩ := hb
  obtain ⟨p, h1, h2, h3⟩ := hH.sizes (hnn _)
  have hys : y.flat ≠ [] := by
    intro e
    rw [e] at hlen
    have hl0 : n = 0 := hlen
    exact hne (by show n * c * l = 0; rw [hl0]; simp)
  obtain ⟨qs, hq⟩ := prepare_of Q m c l' hQ
  obtain ⟨-, hqn, -⟩ := prepare_ok _ _ _ _ _ hq
  have hsc : scores nn h st' (some Q) = if l' < (usable h l).foldl max 0 then .error .validation
      else .ok (qs.map fun r => (nn (usable h l)).softmax ((nn (usable h l)).logits p r)) := by
    unfold scores
    have hm : st'.model = some p := h1
    have hcl : st'.classes = some (X.device, Labels.unique y.flat) := hH.classes
    rw [hm, hcl, hk]
    simp only
    rw [ebind_of_ok hq, if_neg (by simpa using hd)]
    split_ifs with g1 g2
    · rfl
    · exact absurd (show c = (nn (usable h l)).inputs p from h3.symm) g2
    · rfl
  constructor
  · intro hfit
    have hle : ¬ l' < (usable h l).foldl max 0 := by
      rw [not_lt, foldl_max_le]
      exact ⟨Nat.zero_le _, fun k hk => hfit k ((usable_mem hh.kernels.2).mp hk).1 ((usable_mem hh.kernels.2).mp hk).2⟩
    rw [if_neg hle] at hsc
    obtain ⟨pred, g1, g2⟩ := answers_of (hnn (usable h l)) hys h2 X.device qs
    rw [hqn] at g2
    refine ⟨_, pred, hsc, ?_, g2⟩
    unfold predict
    rw [ebind_of_ok hsc, show st'.classes = some (X.device, Labels.unique y.flat) from hH.classes]
    exact g1
  · intro k hk1 hk2 hlt
    rw [hsc, if_pos]
    by_contra hn
    have := (foldl_max_le.mp (not_lt.mp hn)).2 k ((usable_mem hh.kernels.2).mpr ⟨hk1, hk2⟩)
    omega

end

section
variable {K : Type} [Field K] [LinearOrder K]

theorem foldl_max_mem (l : List K) (a : K) : l.foldl max a ∈ a :: l := by
  induction l generalizing a with
  | nil => simp
  | cons b l ih =>
    rw [List.foldl_cons]
    rcases List.mem_cons.mp (ih (max a b)) with h | h
    · rw [h]
      rcases max_choice a b with e | e <;> rw [e] <;> simp
    · simp [h]

theorem le_foldl_max (l : List K) (a : K) : ∀ x ∈ a :: l, x ≤ l.foldl max a := by
  induction l generalizing a with
  | nil => simp
  | cons b l ih =>
    intro x hx
    rw [List.foldl_cons]
    rcases List.mem_cons.mp hx with rfl | hx
    · exact le_trans (le_max_left _ _) (ih (max x b) _ (List.mem_cons_self ..))
    · rcases List.mem_cons.mp hx with rfl | hx
      · exact le_trans (le_max_right _ _) (ih (max a x) _ (List.mem_cons_self ..))
      · exact ih _ _ (by simp [hx])

theorem maxOf_spec {l : List K} (h : l ≠ []) : maxOf l ∈ l ∧ ∀ x ∈ l, x ≤ maxOf l := by
  cases l with
  | nil => exact absurd rfl h
  | cons a l => exact ⟨foldl_max_mem l a, le_foldl_max l a⟩

/-- C198: a feature of a text is the largest response of its filter at any position at which the kernel fits. -/
theorem C198_feature (act : K → K) (k : Nat) (f : Filter K) (x : Text K) (hk : k ≤ x.len) :
    (∃ t, t + k ≤ x.len ∧ feature act k f x =
      act (f.bias + ∑ c ∈ Finset.range x.channels, ∑ s ∈ Finset.range k, f.w c s * x.at_ c (t + s))) ∧
    ∀ t, t + k ≤ x.len → act (f.bias + ∑ c ∈ Finset.range x.channels, ∑ s ∈ Finset.range k, f.w c s * x.at_ c (t + s)) ≤
      feature act k f x := by
  have hne : ((List.range (x.len + 1 - k)).map fun t => act (conv x.channels k f x.at_ t)) ≠ [] := by
    simp; omega
  obtain ⟨h1, h2⟩ := maxOf_spec hne
  constructor
  · obtain ⟨t, ht, e⟩ := List.mem_map.mp h1
    have := List.mem_range.mp ht
    exact ⟨t, by omega, e.symm⟩
  · intro t ht
    exact h2 _ (List.mem_map.mpr ⟨t, List.mem_range.mpr (by omega), rfl⟩)

/-- C198: the scores of a text depend only on which stretches as long as the kernels occur in it, not on where or how often. -/
theorem C198_stretches (act : K → K) (W : Weights K) (x y : Text K) (hc : x.channels = y.channels)
    (h : ∀ kf ∈ W.convs, kf.1 ≤ x.len ∧ kf.1 ≤ y.len ∧ Occurs kf.1 x y ∧ Occurs kf.1 y x) : forward act W x = forward act W y := by
  have hconv : ∀ (k : Nat) (f : Filter K) (x y : Text K) (t t' : Nat), x.channels = y.channels →
      (∀ c < x.channels, ∀ s < k, x.at_ c (t + s) = y.at_ c (t' + s)) →
      act (f.bias + ∑ c ∈ Finset.range x.channels, ∑ s ∈ Finset.range k, f.w c s * x.at_ c (t + s)) =
      act (f.bias + ∑ c ∈ Finset.range y.channels, ∑ s ∈ Finset.range k, f.w c s * y.at_ c (t' + s)) := by
    intro k f x y t t' hc h
    congr 2
    rw [← hc]
    refine Finset.sum_congr rfl fun c hcm => Finset.sum_congr rfl fun s hsm => ?_
    rw [h c (Finset.mem_range.mp hcm) s (Finset.mem_range.mp hsm)]
  have hle : ∀ (k : Nat) (f : Filter K) (x y : Text K), x.channels = y.channels → k ≤ x.len → k ≤ y.len → Occurs k x y →
      feature act k f x ≤ feature act k f y := by
    intro k f x y hc h1 h2 ho
    obtain ⟨⟨t, ht, e⟩, -⟩ := C198_feature act k f x h1
    obtain ⟨t', ht', he⟩ := ho t ht
    rw [e, hconv k f x y t t' hc he]
    exact (C198_feature act k f y h2).2 t' ht'
  have hf : (W.convs.flatMap fun kf => kf.2.map fun f => feature act kf.1 f x) =
      W.convs.flatMap fun kf => kf.2.map fun f => feature act kf.1 f y := by
    have : ∀ L : List (Nat × List (Filter K)), (∀ kf ∈ L, kf ∈ W.convs) →
        (L.flatMap fun kf => kf.2.map fun f => feature act kf.1 f x) = L.flatMap fun kf => kf.2.map fun f => feature act kf.1 f y := by
      intro L
      induction L with
      | nil => intro _; rfl
      | cons kf L ih =>
        intro hL
        rw [List.flatMap_cons, List.flatMap_cons, ih (fun q hq => hL q (by simp [hq]))]
        congr 1
        refine List.map_congr_left fun f _ => ?_
        obtain ⟨h1, h2, h3, h4⟩ := h kf (hL kf (by simp))
        exact le_antisymm (hle kf.1 f x y hc h1 h2 h3) (hle kf.1 f y x hc.symm h2 h1 h4)
    exact this W.convs fun _ h => h
  unfold forward
  simp only
  rw [hf]

end

/-! ## Examples and what does not hold -/

/-- Three texts of two positions with one channel (helper for examples). -/
def texts3 : Tensor ℚ := ⟨0, [3, 2, 1], fun i t _ => i + t⟩

/-- The arguments of the examples: kernels 1, 2 and 5. -/
def hyper3 : TextHyper := ⟨hyp (some 3), "channels_last", [1, 2, 5], 4⟩

example : fit (fun _ => tiny (Text ℚ) 9) hyper3 TextState.fresh 8 (some texts3) (some ⟨0, [7, 5, 7]⟩) =
    ((⟨some (0, [5, 7]), some (1, 2, 7), some [1, 2]⟩, 6), .ok (3, 2, 2)) := by decide +kernel

example : Axes hyper3.layout texts3.dims 3 1 2 := .inl ⟨rfl, rfl⟩

example : HyperOk hyper3 := ⟨.inl rfl, ⟨by decide, by decide⟩, by decide, by decide, by decide, rfl, rfl⟩

/-- Two texts with the same stretches of two positions: `0 1 0 1` and `0 1 0`. -/
example : Occurs 2 (⟨1, 4, fun _ t => ((t % 2 : Nat) : ℚ)⟩ : Text ℚ) ⟨1, 3, fun _ t => ((t % 2 : Nat) : ℚ)⟩ := by
  intro t ht
  have ht' : t + 2 ≤ 4 := ht
  refine ⟨t % 2, by show t % 2 + 2 ≤ 3; omega, fun c _ s _ => ?_⟩
  show (((t + s) % 2 : Nat) : ℚ) = (((t % 2 + s) % 2 : Nat) : ℚ)
  congr 1
  omega

/-- C198 violated: when a step of a second fit raises, the classifier keeps the network of the first fit but has the labels of the
second, and answers with them. -/
theorem C198_failed_fit_violated : ∃ (nn : Nn (Text ℚ) (Nat × Nat × Nat) Nat ℚ) (outputs : Nat × Nat × Nat → Nat),
    Lawful nn outputs ∧ ∃ (h : TextHyper) (X : Tensor ℚ) (y1 y2 : Targets Int) (st1 st2 : TextState Int (Nat × Nat × Nat))
      (v1 v2 : Nat) (r : Nat × Nat × Nat) (pred2 : List Int),
      fit (fun _ => nn) h TextState.fresh 0 (some X) (some y1) = ((st1, v1), .ok r) ∧
      fit (fun _ => nn) h st1 v1 (some X) (some y2) = ((st2, v2), .error .runtimeError) ∧
      predict (fun _ => nn) h st2 (some X) = .ok pred2 ∧ pred2 ≠ [] ∧ ∀ l ∈ pred2, l ∉ y1.flat :=
  ⟨tiny _ 3, _, tiny_lawful _ 3, hyper3, texts3, ⟨0, [7, 5, 7]⟩, ⟨0, [1, 2, 3]⟩,
    ⟨some (0, [5, 7]), some (1, 2, 7), some [1, 2]⟩, ⟨some (0, [1, 2, 3]), some (1, 2, 7), some [1, 2]⟩, 6, 5, (3, 2, 2),
    [2, 2, 2], by decide +kernel, by decide +kernel, by decide +kernel, by decide, by decide⟩

end ModSSC.Supervised.TextCnn
