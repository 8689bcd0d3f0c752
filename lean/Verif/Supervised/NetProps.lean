import Verif.Supervised.NetModel
import Verif.Supervised.KnnProps
import Verif.Deep.BatchProps

/-!
# The torch classifiers trained by gradient steps (C159)
-/

namespace ModSSC.Supervised.Net.Spec
open ModSSC Supervised.Spec

/-- What is assumed of a network with `outputs p` outputs: `randperm` permutes, layers have the asked sizes and keep
them, softmax gives distributions. -/
structure Lawful {R P W K : Type} [Field K] [LinearOrder K] (nn : Nn R P W K) (outputs : P → Nat) : Prop where
  perm : ∀ w n, (nn.randperm w n).1.Perm (List.range n)
  init : ∀ f c w p, (nn.init f c w).1 = .ok p → outputs p = c ∧ nn.inputs p = f
  step : ∀ p B w q, (nn.step p B w).1 = .ok q → outputs q = outputs p ∧ nn.inputs q = nn.inputs p
  logits : ∀ p r, (nn.logits p r).length = outputs p
  softmax : ∀ l, (nn.softmax l).length = l.length
  dist : ∀ l, l ≠ [] → (∀ x ∈ nn.softmax l, 0 ≤ x) ∧ (nn.softmax l).sum = 1

/-- `s` shows the rows `B` in order, each with the position of its own label among the classes. -/
def Shows {R α : Type} (rows : List R) (y classes : List α) (B : List Nat) (s : List (R × Nat)) : Prop :=
  s.length = B.length ∧ ∀ (k i : Nat), B[k]? = some i → ∃ (r : R) (c : Nat) (l : α),
    rows[i]? = some r ∧ y[i]? = some l ∧ classes[c]? = some l ∧ s[k]? = some (r, c)

/-- One optimiser step per batch, in this order, leads from the weights `p` to `q`. -/
def Steps {R P W K α : Type} (nn : Nn R P W K) (rows : List R) (y classes : List α) : P → List (List Nat) → P → Prop
  | p, [], q => p = q
  | p, B :: Bs, q => ∃ s w p1, Shows rows y classes B s ∧ (nn.step p s w).1 = .ok p1 ∧ Steps nn rows y classes p1 Bs q

/-- The batches of one epoch: every row in exactly one batch, no batch empty or too large, no batch too many. -/
structure EpochOk (n b : Nat) (Bs : List (List Nat)) : Prop where
  all : Bs.flatten.Perm (List.range n)
  size : ∀ B ∈ Bs, B ≠ [] ∧ B.length ≤ b
  count : Bs.length = (n + b - 1) / b

/-- The weights `p` come from `p0` by so many epochs over the rows. -/
def TrainedOn {R P W K α : Type} (nn : Nn R P W K) (rows : List R) (y classes : List α) (b epochs : Nat) (p0 p : P) :
    Prop :=
  ∃ sched : List (List (List Nat)), sched.length = epochs ∧ (∀ E ∈ sched, EpochOk rows.length b E) ∧
    Steps nn rows y classes p0 sched.flatten p

/-- The classifier holds the classes of the labels, in increasing order, and a network trained on these rows and labels
from its initial weights, drawn from the generator state `w0`. -/
def Fitted {R P W K α : Type} [LinearOrder α] (nn : Nn R P W K) (h : Hyper) (rows : List R) (y : List α) (inputs : Nat)
    (w0 : W) (dev : Nat) (st : NetState α P) : Prop :=
  rows.length = y.length ∧ ∃ classes p0 p, IsClasses y classes ∧ st.classes = some (dev, classes) ∧
    (nn.init inputs classes.length w0).1 = .ok p0 ∧ st.model = some p ∧
    TrainedOn nn rows y classes h.batchSize.toNat h.maxEpochs.toNat p0 p

/-- How the axes of an image tensor are read: four axes are samples, channels, height and width; three have one
channel; two are rows to be shaped as before, or as the constructor says. -/
def ReadAs (cfg before : Option (Nat × Nat × Nat)) (dims : List Nat) (s : Nat × Nat × Nat) : Prop :=
  (∃ n, dims = [n, s.1, s.2.1, s.2.2]) ∨ (∃ n, dims = [n, s.2.1, s.2.2] ∧ s.1 = 1) ∨
    ∃ n, dims = [n, s.1 * s.2.1 * s.2.2] ∧ (before = some s ∨ before = none ∧ cfg = some s)

end ModSSC.Supervised.Net.Spec

namespace ModSSC.Supervised.Net
open ModSSC Supervised Supervised.Spec Spec

set_option linter.unusedSectionVars false

section
variable {R P W K α : Type} [Field K] [LinearOrder K] [LinearOrder α]

/-! ### Training -/

theorem encoded_length {rows : List R} {y : List α} (h : rows.length = y.length) :
    (encoded rows y).length = rows.length := by
  simp [encoded, Labels.encodeLabels, h]

theorem encoded_get {rows : List R} {y : List α} (h : rows.length = y.length) {i : Nat} (hi : i < rows.length) :
    ∃ r c l, rows[i]? = some r ∧ y[i]? = some l ∧ (Labels.unique y)[c]? = some l ∧
      (encoded rows y)[i]? = some (r, c) := by
  have hiy : i < y.length := by omega
  refine ⟨rows[i], Labels.searchsorted (Labels.unique y) y[i], y[i], List.getElem?_eq_getElem hi,
    List.getElem?_eq_getElem hiy,
    Labels.searchsorted_decode (Labels.unique_sorted y) (Labels.mem_unique.mpr (List.getElem_mem hiy)), ?_⟩
  unfold encoded
  rw [List.getElem?_zip_eq_some]
  refine ⟨List.getElem?_eq_getElem hi, ?_⟩
  simp [Labels.encodeLabels, List.getElem?_eq_getElem hiy]

theorem shows_batch {rows : List R} {y : List α} (h : rows.length = y.length) :
    ∀ {B : List Nat}, (∀ i ∈ B, i < rows.length) →
      Shows rows y (Labels.unique y) B (B.filterMap fun i => (encoded rows y)[i]?)
  | [], _ => ⟨rfl, fun k i hk => by simp at hk⟩
  | j :: B, hB => by
    obtain ⟨r, c, l, h1, h2, h3, h4⟩ := encoded_get h (hB j (by simp))
    obtain ⟨g1, g2⟩ := shows_batch h (B := B) (fun i hi => hB i (by simp [hi]))
    rw [List.filterMap_cons, h4]
    refine ⟨by simp [g1], fun k i hk => ?_⟩
    cases k with
    | zero =>
      simp only [List.getElem?_cons_zero, Option.some.injEq] at hk
      subst hk
      exact ⟨r, c, l, h1, h2, h3, rfl⟩
    | succ k =>
      rw [List.getElem?_cons_succ] at hk ⊢
      exact g2 k i hk

theorem steps_append {nn : Nn R P W K} {rows : List R} {y classes : List α} :
    ∀ {A B : List (List Nat)} {p q r : P}, Steps nn rows y classes p A q → Steps nn rows y classes q B r →
      Steps nn rows y classes p (A ++ B) r
  | [], _, _, _, _, h1, h2 => by
    obtain rfl := h1
    exact h2
  | _ :: _, _, _, _, _, ⟨s, w, p1, g1, g2, g3⟩, h2 => ⟨s, w, p1, g1, g2, steps_append g3 h2⟩

theorem trainBatches_ok {nn : Nn R P W K} {rows : List R} {y : List α} (h : rows.length = y.length) :
    ∀ {Bs : List (List Nat)} {p q : P} {w w' : W}, (∀ B ∈ Bs, ∀ i ∈ B, i < rows.length) →
      trainBatches nn (encoded rows y) Bs p w = ((q, w'), none) → Steps nn rows y (Labels.unique y) p Bs q
  | [], p, q, w, w', _, ht => by
    simp only [trainBatches, Prod.mk.injEq] at ht
    exact ht.1.1
  | B :: Bs, p, q, w, w', hB, ht => by
    unfold trainBatches at ht
    cases hs : nn.step p (B.filterMap fun i => (encoded rows y)[i]?) w with
    | mk res w1 =>
      rw [hs] at ht
      cases res with
      | error e => simp at ht
      | ok p1 =>
        simp only at ht
        exact ⟨_, w, p1, shows_batch h (hB B (by simp)), by rw [hs],
          trainBatches_ok h (fun B' hB' => hB B' (by simp [hB'])) ht⟩

theorem epochOk_iter {n b : Nat} (hb : 0 < b) {idx : List Nat} (hp : idx.Perm (List.range n)) :
    EpochOk n b (Deep.iterBatchIndices n b idx) := by
  have hl : idx.length = n := by rw [hp.length_eq, List.length_range]
  refine ⟨?_, fun B hB => ?_, Deep.iter_length n b idx⟩
  · rw [Deep.iter_flatten n b idx hb hl]
    exact hp
  · obtain ⟨h1, h2, -⟩ := Deep.iter_mem n b idx hb hl B hB
    exact ⟨h1, h2⟩

theorem epochOk_lt {n b : Nat} {Bs : List (List Nat)} (h : EpochOk n b Bs) : ∀ B ∈ Bs, ∀ i ∈ B, i < n := by
  intro B hB i hi
  exact List.mem_range.mp (h.all.mem_iff.mp (List.mem_flatten.mpr ⟨B, hB, hi⟩))

theorem trainEpochs_ok {nn : Nn R P W K} (hperm : ∀ w n, (nn.randperm w n).1.Perm (List.range n)) {rows : List R}
    {y : List α} (h : rows.length = y.length) {b : Nat} (hb : 0 < b) :
    ∀ {e : Nat} {p q : P} {w w' : W}, trainEpochs nn (encoded rows y) b e p w = ((q, w'), none) →
      TrainedOn nn rows y (Labels.unique y) b e p q
  | 0, p, q, w, w', ht => by
    simp only [trainEpochs, Prod.mk.injEq] at ht
    exact ⟨[], rfl, by simp, ht.1.1⟩
  | e + 1, p, q, w, w', ht => by
    unfold trainEpochs at ht
    simp only [encoded_length h] at ht
    have hE := epochOk_iter hb (hperm w rows.length)
    cases hs : trainBatches nn (encoded rows y)
        (Deep.iterBatchIndices rows.length b (nn.randperm w rows.length).1) p (nn.randperm w rows.length).2 with
    | mk pw err =>
      obtain ⟨p1, w1⟩ := pw
      rw [hs] at ht
      cases err with
      | some e => simp at ht
      | none =>
        simp only at ht
        obtain ⟨sched, g1, g2, g3⟩ := trainEpochs_ok hperm h hb ht
        refine ⟨Deep.iterBatchIndices rows.length b (nn.randperm w rows.length).1 :: sched, by simp [g1], ?_, ?_⟩
        · intro E hE'
          rcases List.mem_cons.mp hE' with rfl | hE'
          · exact hE
          · exact g2 E hE'
        · rw [List.flatten_cons]
          exact steps_append (trainBatches_ok h (epochOk_lt hE) hs) g3

theorem loaderEpochs_ok {nn : Nn R P W K} (hperm : ∀ w n, (nn.randperm w n).1.Perm (List.range n)) {rows : List R}
    {y : List α} (h : rows.length = y.length) {b : Nat} (hb : 0 < b) :
    ∀ {e : Nat} {p q : P} {g : Option W} {w w' : W}, loaderEpochs nn (encoded rows y) b e p g w = ((q, w'), none) →
      TrainedOn nn rows y (Labels.unique y) b e p q
  | 0, p, q, g, w, w', ht => by
    simp only [loaderEpochs, Prod.mk.injEq] at ht
    exact ⟨[], rfl, by simp, ht.1.1⟩
  | e + 1, p, q, g, w, w', ht => by
    unfold loaderEpochs at ht
    simp only [encoded_length h] at ht
    have hE := epochOk_iter hb (hperm (g.getD w) rows.length)
    generalize (if g.isSome = true then w else (nn.randperm (g.getD w) rows.length).2) = w0 at ht
    cases hs : trainBatches nn (encoded rows y)
        (Deep.iterBatchIndices rows.length b (nn.randperm (g.getD w) rows.length).1) p w0 with
    | mk pw err =>
      obtain ⟨p1, w1⟩ := pw
      rw [hs] at ht
      cases err with
      | some e => simp at ht
      | none =>
        simp only at ht
        obtain ⟨sched, g1, g2, g3⟩ := loaderEpochs_ok hperm h hb ht
        refine ⟨Deep.iterBatchIndices rows.length b (nn.randperm (g.getD w) rows.length).1 :: sched, by simp [g1], ?_, ?_⟩
        · intro E hE'
          rcases List.mem_cons.mp hE' with rfl | hE'
          · exact hE
          · exact g2 E hE'
        · rw [List.flatten_cons]
          exact steps_append (trainBatches_ok h (epochOk_lt hE) hs) g3

/-! ### The checks -/

theorem denseIn_ok {X : Option (Dense K)} {y : Option (Targets α)} {X2 : Arr2 K} {dev : Nat} {ys : List α} :
    denseIn X y = .ok (X2, dev, ys) ↔ ∃ X1 y1, X = some X1 ∧ y = some y1 ∧ ensure2d X1.arr = .ok X2 ∧
      X2.rows.length = ys.length ∧ X2.rows.length * X2.width ≠ 0 ∧ X1.device = y1.device ∧ dev = X1.device ∧
      ys = y1.flat := by
  cases X with
  | none => simp [denseIn]
  | some X =>
  cases y with
  | none => simp [denseIn]
  | some y =>
  simp only [denseIn]
  cases hX : ensure2d X.arr with
  | error e =>
    simp only [reduceCtorEq, false_iff]
    rintro ⟨X1, y1, e1, e2, h, -⟩
    obtain rfl := Option.some.inj e1
    rw [hX] at h
    cases h
  | ok A =>
    simp only
    by_cases h1 : A.rows.length ≠ y.flat.length
    · rw [if_pos h1]
      simp only [reduceCtorEq, false_iff]
      rintro ⟨X1, y1, e1, e2, h, h2, -, -, -, h3⟩
      obtain rfl := Option.some.inj e1
      obtain rfl := Option.some.inj e2
      rw [hX] at h
      obtain rfl := Except.ok.inj h
      exact h1 (h3 ▸ h2)
    rw [if_neg h1]
    by_cases h2 : A.rows.length * A.width = 0
    · rw [if_pos h2]
      simp only [reduceCtorEq, false_iff]
      rintro ⟨X1, y1, e1, e2, h, -, h3, -⟩
      obtain rfl := Option.some.inj e1
      rw [hX] at h
      obtain rfl := Except.ok.inj h
      exact h3 h2
    rw [if_neg h2]
    by_cases h3 : X.device ≠ y.device
    · rw [if_pos h3]
      simp only [reduceCtorEq, false_iff]
      rintro ⟨X1, y1, e1, e2, -, -, -, h4, -⟩
      obtain rfl := Option.some.inj e1
      obtain rfl := Option.some.inj e2
      exact h3 h4
    rw [if_neg h3]
    constructor
    · intro h
      obtain ⟨rfl, h4⟩ := Prod.mk.inj (Except.ok.inj h)
      obtain ⟨rfl, rfl⟩ := Prod.mk.inj h4
      exact ⟨X, y, rfl, rfl, hX, not_not.mp h1, h2, not_not.mp h3, rfl, rfl⟩
    · rintro ⟨X1, y1, e1, e2, h, -, -, -, rfl, rfl⟩
      obtain rfl := Option.some.inj e1
      obtain rfl := Option.some.inj e2
      rw [hX] at h
      obtain rfl := Except.ok.inj h
      rfl

theorem hyperMlp_ok {h : Hyper} : hyperMlp h = .ok () ↔ 0 < h.batchSize ∧ 0 < h.maxEpochs ∧ h.lrPositive = true ∧
    h.dropoutOk = true ∧ ∀ s ∈ h.hiddenSizes, 0 < s := by
  unfold hyperMlp
  split_ifs with h1 h2 h3 h4 h5
  · simp only [reduceCtorEq, false_iff]; omega
  · simp only [reduceCtorEq, false_iff]; omega
  · simp [h3]
  · simp [h4]
  · simp only [reduceCtorEq, false_iff]
    simp only [List.any_eq_true, decide_eq_true_eq] at h5
    obtain ⟨s, hs, hs0⟩ := h5
    rintro ⟨-, -, -, -, h⟩
    have := h s hs
    omega
  · simp only [true_iff]
    simp only [List.any_eq_true, decide_eq_true_eq, not_exists, not_and, not_le] at h5
    exact ⟨by omega, by omega, by simpa using h3, by simpa using h4, h5⟩

theorem hyperLogreg_ok {h : Hyper} : hyperLogreg h = .ok () ↔ 0 < h.batchSize ∧ 0 < h.maxEpochs := by
  unfold hyperLogreg
  split_ifs with h1 h2
  · simp only [reduceCtorEq, false_iff]; omega
  · simp only [reduceCtorEq, false_iff]; omega
  · simp only [true_iff]; omega

/-- The tensors and parameters that the dense classifiers accept. -/
structure DenseOk (h : Hyper) (X : Option (Dense K)) (y : Option (Targets α)) (X2 : Arr2 K) (dev : Nat) (ys : List α) :
    Prop where
  dense : denseIn X y = .ok (X2, dev, ys)
  len : X2.rows.length = ys.length
  batch : 0 < h.batchSize
  epochs : 0 < h.maxEpochs

theorem mlp_in {h : Hyper} {X : Option (Dense K)} {y : Option (Targets α)} {X2 : Arr2 K} {dev : Nat} {ys : List α}
    (hc : (do let d ← denseIn X y; hyperMlp h; Except.ok d) = .ok (X2, dev, ys)) : DenseOk h X y X2 dev ys := by
  obtain ⟨d, hd, h1⟩ := ebind_ok.mp hc
  obtain ⟨u, hu, h2⟩ := ebind_ok.mp h1
  obtain rfl := Except.ok.inj h2
  obtain ⟨g1, g2, -⟩ := hyperMlp_ok.mp hu
  obtain ⟨-, -, -, -, -, hl, -⟩ := denseIn_ok.mp hd
  exact ⟨hd, hl, g1, g2⟩

theorem logreg_in {h : Hyper} {X : Option (Dense K)} {y : Option (Targets α)} {X2 : Arr2 K} {dev : Nat} {ys : List α}
    (hc : (do let d ← denseIn X y; hyperLogreg h; Except.ok d) = .ok (X2, dev, ys)) : DenseOk h X y X2 dev ys := by
  obtain ⟨d, hd, h1⟩ := ebind_ok.mp hc
  obtain ⟨u, hu, h2⟩ := ebind_ok.mp h1
  obtain rfl := Except.ok.inj h2
  obtain ⟨g1, g2⟩ := hyperLogreg_ok.mp hu
  obtain ⟨-, -, -, -, -, hl, -⟩ := denseIn_ok.mp hd
  exact ⟨hd, hl, g1, g2⟩

/-! ### What a successful fit stores -/

/-- The classifier holds a network trained on this data. -/
structure Holds (nn : Nn R P W K) (h : Hyper) (rows : List R) (ys : List α) (inputs : Nat) (w0 : W) (dev : Nat)
    (st : NetState α P) : Prop where
  len : rows.length = ys.length
  classes : st.classes = some (dev, Labels.unique ys)
  model : ∃ p0 p, (nn.init inputs (Labels.unique ys).length w0).1 = .ok p0 ∧ st.model = some p ∧
    TrainedOn nn rows ys (Labels.unique ys) h.batchSize.toNat h.maxEpochs.toNat p0 p

theorem fitMlp_ok {nn : Nn (List K) P W K} (hperm : ∀ w n, (nn.randperm w n).1.Perm (List.range n)) {h : Hyper}
    {st st' : NetState α P} {w w' : W} {X : Option (Dense K)} {y : Option (Targets α)} {r : Nat × Nat × Nat}
    (hf : fitMlp nn h st w X y = ((st', w'), .ok r)) :
    ∃ X2 dev ys, DenseOk h X y X2 dev ys ∧ Holds nn h X2.rows ys X2.width (nn.manualSeed h.seedOr0) dev st' ∧
      st'.shape = st.shape ∧ r = (X2.rows.length, X2.width, (Labels.unique ys).length) := by
  unfold fitMlp at hf
  cases hc : (do let d ← denseIn X y; hyperMlp h; Except.ok d) with
  | error e => rw [hc] at hf; simp at hf
  | ok d =>
    obtain ⟨X2, dev, ys⟩ := d
    rw [hc] at hf
    have hD := mlp_in hc
    simp only at hf
    cases hi : nn.init X2.width (Labels.encodeLabels ys).2.length (nn.manualSeed h.seedOr0) with
    | mk res w1 =>
      rw [hi] at hf
      cases res with
      | error e => simp at hf
      | ok p0 =>
        simp only at hf
        cases ht : trainEpochs nn (encoded X2.rows ys) h.batchSize.toNat h.maxEpochs.toNat p0 w1 with
        | mk pw err =>
          obtain ⟨p1, w2⟩ := pw
          rw [ht] at hf
          cases err with
          | some e => simp at hf
          | none =>
            simp only [Prod.mk.injEq, Except.ok.injEq] at hf
            obtain ⟨⟨rfl, rfl⟩, rfl⟩ := hf
            have hb : 0 < h.batchSize.toNat := by have := hD.batch; omega
            exact ⟨X2, dev, ys, hD, ⟨hD.len, rfl, p0, p1, congrArg Prod.fst hi, rfl,
              trainEpochs_ok hperm hD.len hb ht⟩, rfl, rfl⟩

theorem fitLogreg_ok {nn : Nn (List K) P W K} (hperm : ∀ w n, (nn.randperm w n).1.Perm (List.range n)) {h : Hyper}
    {st st' : NetState α P} {w w' : W} {X : Option (Dense K)} {y : Option (Targets α)} {r : Nat × Nat × Nat}
    (hf : fitLogreg nn h st w X y = ((st', w'), .ok r)) :
    ∃ X2 dev ys, DenseOk h X y X2 dev ys ∧ Holds nn h X2.rows ys X2.width w dev st' ∧
      st'.shape = st.shape ∧ r = (X2.rows.length, X2.width, (Labels.unique ys).length) := by
  unfold fitLogreg at hf
  cases hc : (do let d ← denseIn X y; hyperLogreg h; Except.ok d) with
  | error e => rw [hc] at hf; simp at hf
  | ok d =>
    obtain ⟨X2, dev, ys⟩ := d
    rw [hc] at hf
    have hD := logreg_in hc
    simp only at hf
    cases hi : nn.init X2.width (Labels.encodeLabels ys).2.length w with
    | mk res w1 =>
      rw [hi] at hf
      cases res with
      | error e => simp at hf
      | ok p0 =>
        simp only at hf
        cases ht : trainEpochs nn (encoded X2.rows ys) h.batchSize.toNat h.maxEpochs.toNat p0
            (nn.manualSeed h.seedOr0) with
        | mk pw err =>
          obtain ⟨p1, w2⟩ := pw
          rw [ht] at hf
          cases err with
          | some e => simp at hf
          | none =>
            simp only [Prod.mk.injEq, Except.ok.injEq] at hf
            obtain ⟨⟨rfl, rfl⟩, rfl⟩ := hf
            have hb : 0 < h.batchSize.toNat := by have := hD.batch; omega
            exact ⟨X2, dev, ys, hD, ⟨hD.len, rfl, p0, p1, congrArg Prod.fst hi, rfl,
              trainEpochs_ok hperm hD.len hb ht⟩, rfl, rfl⟩

theorem Holds.fitted {nn : Nn R P W K} {h : Hyper} {rows : List R} {ys : List α} {inputs : Nat} {w0 : W} {dev : Nat}
    {st : NetState α P} (H : Holds nn h rows ys inputs w0 dev st) : Spec.Fitted nn h rows ys inputs w0 dev st := by
  obtain ⟨p0, p, h1, h2, h3⟩ := H.model
  exact ⟨H.len, _, p0, p, unique_isClasses ys, H.classes, h1, h2, h3⟩

/-! ### Images -/

theorem shapeOf_ok {cfg fitted : Option (Nat × Nat × Nat)} {dims : List Nat} {s : Nat × Nat × Nat} :
    shapeOf cfg fitted dims = .ok s ↔ ReadAs cfg fitted dims s := by
  unfold shapeOf ReadAs
  match dims with
  | [n, c, hh, ww] =>
    simp only [Except.ok.injEq, List.cons.injEq, and_true, reduceCtorEq, false_and, and_false, exists_false, or_false]
    constructor
    · rintro rfl; exact ⟨n, rfl, rfl, rfl, rfl⟩
    · rintro ⟨-, -, rfl, rfl, rfl⟩; rfl
  | [n, hh, ww] =>
    simp only [Except.ok.injEq, List.cons.injEq, and_true, reduceCtorEq, false_and, and_false, exists_false, or_false,
      false_or]
    constructor
    · rintro rfl; exact ⟨n, ⟨rfl, rfl, rfl⟩, rfl⟩
    · rintro ⟨-, ⟨-, rfl, rfl⟩, e⟩; rw [← e]
  | [n, f] =>
    simp only [List.cons.injEq, and_true, reduceCtorEq, false_and, and_false, exists_false, false_or]
    cases fitted with
    | some s0 =>
      simp only [Option.some_or, Option.some.injEq, reduceCtorEq, false_and, or_false]
      by_cases hf : f ≠ s0.1 * s0.2.1 * s0.2.2
      · rw [if_pos hf]
        simp only [reduceCtorEq, false_iff]
        rintro ⟨m, ⟨-, h⟩, rfl⟩
        exact hf h
      · rw [if_neg hf]
        simp only [Except.ok.injEq]
        constructor
        · rintro rfl; exact ⟨n, ⟨rfl, not_not.mp hf⟩, rfl⟩
        · rintro ⟨m, -, rfl⟩; rfl
    | none =>
      simp only [Option.none_or, reduceCtorEq, true_and, false_or]
      cases cfg with
      | none => simp
      | some s0 =>
        simp only [Option.some.injEq]
        by_cases hf : f ≠ s0.1 * s0.2.1 * s0.2.2
        · rw [if_pos hf]
          simp only [reduceCtorEq, false_iff]
          rintro ⟨m, ⟨-, h⟩, rfl⟩
          exact hf h
        · rw [if_neg hf]
          simp only [Except.ok.injEq]
          constructor
          · rintro rfl; exact ⟨n, ⟨rfl, not_not.mp hf⟩, rfl⟩
          · rintro ⟨m, -, rfl⟩; rfl
  | [] => simp
  | [_] => simp
  | _ :: _ :: _ :: _ :: _ :: _ => simp

theorem prepare_infer {cfg fitted : Option (Nat × Nat × Nat)} {X : Img K} {sh : Option (Nat × Nat × Nat)}
    {s : Nat × Nat × Nat} {rows : List (List K)} :
    prepareImg cfg fitted true X = (sh, .ok (s, rows)) ↔ ReadAs cfg fitted X.dims s ∧ rows = X.rows ∧ sh = some s := by
  unfold prepareImg
  rw [← shapeOf_ok]
  cases hs : shapeOf cfg fitted X.dims with
  | error e => simp
  | ok s0 =>
    simp only [settle, if_true, Prod.mk.injEq, Except.ok.injEq]
    constructor
    · rintro ⟨rfl, rfl, rfl⟩; exact ⟨rfl, rfl, rfl⟩
    · rintro ⟨rfl, rfl, rfl⟩; exact ⟨rfl, rfl, rfl⟩

theorem prepare_check {cfg fitted : Option (Nat × Nat × Nat)} {X : Img K} {d : (Nat × Nat × Nat) × List (List K)} :
    (prepareImg cfg fitted false X).2 = .ok d ↔ ReadAs cfg fitted X.dims d.1 ∧ d.2 = X.rows ∧
      (fitted = none ∨ fitted = some d.1) := by
  obtain ⟨s, rows⟩ := d
  unfold prepareImg
  simp only
  rw [← shapeOf_ok]
  cases hs : shapeOf cfg fitted X.dims with
  | error e => simp
  | ok s0 =>
    simp only [settle, Bool.false_eq_true, if_false, Except.ok.injEq]
    cases fitted with
    | none =>
      simp only [Option.any_none, Bool.false_eq_true, if_false, Except.ok.injEq, Prod.mk.injEq, true_or, and_true]
      constructor
      · rintro ⟨rfl, rfl⟩; exact ⟨rfl, rfl⟩
      · rintro ⟨rfl, rfl⟩; exact ⟨rfl, rfl⟩
    | some s1 =>
      simp only [Option.any_some, decide_eq_true_eq, reduceCtorEq, Option.some.injEq, false_or]
      by_cases he : s0 ≠ s1
      · rw [if_pos he]
        simp only [reduceCtorEq, false_iff]
        rintro ⟨rfl, -, rfl⟩
        exact he rfl
      · rw [if_neg he]
        simp only [Except.ok.injEq, Prod.mk.injEq]
        constructor
        · rintro ⟨rfl, rfl⟩; exact ⟨rfl, rfl, (not_not.mp he).symm⟩
        · rintro ⟨rfl, rfl, -⟩; exact ⟨rfl, rfl⟩

theorem hyperConv_ok {h : Hyper} (hh : hyperConv h = .ok ()) : 0 < h.batchSize ∧ 0 < h.maxEpochs := by
  unfold hyperConv at hh
  split_ifs at hh
  omega

theorem hyperPre_ok {h : Hyper} (hh : hyperPre h = .ok ()) : 0 < h.batchSize ∧ 0 < h.maxEpochs := by
  unfold hyperPre at hh
  split_ifs at hh
  omega

/-- What `fit` of an image classifier has read. -/
structure ImgOk (cfg before : Option (Nat × Nat × Nat)) (h : Hyper) (X : Option (Img K)) (y : Option (Targets α))
    (X1 : Img K) (y1 : Targets α) (s : Nat × Nat × Nat) : Prop where
  x : X = some X1
  y : y = some y1
  shape : ReadAs cfg before X1.dims s
  device : X1.device = y1.device
  batch : 0 < h.batchSize
  epochs : 0 < h.maxEpochs

theorem fitConv_ok {nn : Nn (Pic K) P W K} (hperm : ∀ w n, (nn.randperm w n).1.Perm (List.range n)) {h : Hyper}
    {cfg : Option (Nat × Nat × Nat)} {st st' : NetState α P} {w w' : W} {X : Option (Img K)} {y : Option (Targets α)}
    {r : Nat × Nat × Nat} (hf : fitConv nn h cfg st w X y = ((st', w'), .ok r)) :
    ∃ X1 y1 s, ImgOk cfg st.shape h X y X1 y1 s ∧
      Holds nn h (X1.rows.map fun row => (s, row)) y1.flat s.1 (nn.manualSeed h.seedOr0) X1.device st' ∧
      st'.shape = some s ∧ r = (X1.rows.length, volume s, (Labels.unique y1.flat).length) := by
  cases y with
  | none => simp [fitConv] at hf
  | some y =>
  cases X with
  | none => simp [fitConv] at hf
  | some X =>
  simp only [fitConv] at hf
  cases hp : prepareImg cfg st.shape true X with
  | mk sh res =>
    rw [hp] at hf
    cases res with
    | error e => simp at hf
    | ok d =>
      obtain ⟨s, rows⟩ := d
      obtain ⟨hs, rfl, rfl⟩ := prepare_infer.mp hp
      simp only at hf
      by_cases h1 : X.rows.length ≠ y.flat.length
      · rw [if_pos h1] at hf; simp at hf
      rw [if_neg h1] at hf
      by_cases h2 : X.rows.length * volume s = 0
      · rw [if_pos h2] at hf; simp at hf
      rw [if_neg h2] at hf
      by_cases h3 : X.device ≠ y.device
      · rw [if_pos h3] at hf; simp at hf
      rw [if_neg h3] at hf
      cases hh : hyperConv h with
      | error e => rw [hh] at hf; simp at hf
      | ok u =>
        obtain ⟨hb, he⟩ := hyperConv_ok hh
        rw [hh] at hf
        simp only at hf
        cases hi : nn.init s.1 (Labels.encodeLabels y.flat).2.length (nn.manualSeed h.seedOr0) with
        | mk res w1 =>
          rw [hi] at hf
          cases res with
          | error e => simp at hf
          | ok p0 =>
            simp only at hf
            cases ht : trainEpochs nn (encoded (X.rows.map fun r => (s, r)) y.flat) h.batchSize.toNat h.maxEpochs.toNat
                p0 w1 with
            | mk pw err =>
              obtain ⟨p1, w2⟩ := pw
              rw [ht] at hf
              cases err with
              | some e => simp at hf
              | none =>
                simp only [Prod.mk.injEq, Except.ok.injEq] at hf
                obtain ⟨⟨rfl, rfl⟩, rfl⟩ := hf
                have hl : (X.rows.map fun r => (s, r)).length = y.flat.length := by
                  rw [List.length_map]; exact not_not.mp h1
                exact ⟨X, y, s, ⟨rfl, rfl, hs, not_not.mp h3, hb, he⟩, ⟨hl, rfl, p0, p1, congrArg Prod.fst hi, rfl,
                  trainEpochs_ok hperm hl (by omega) ht⟩, rfl, rfl⟩

theorem fitPre_ok {nn : Nn (Pic K) P W K} (hperm : ∀ w n, (nn.randperm w n).1.Perm (List.range n)) {h : Hyper}
    {cfg : Option (Nat × Nat × Nat)} {st st' : NetState α P} {w w' : W} {X : Option (Img K)} {y : Option (Targets α)}
    {r : Nat × Nat × Nat} (hf : fitPre nn h cfg st w X y = ((st', w'), .ok r)) :
    ∃ X1 y1 s, ImgOk cfg st.shape h X y X1 y1 s ∧
      Holds nn h (X1.rows.map fun row => (s, row)) y1.flat 0 (nn.manualSeed h.seedOr0) X1.device st' ∧
      st'.shape = some s ∧ r = (X1.rows.length, volume s, (Labels.unique y1.flat).length) := by
  cases X with
  | none => simp [fitPre] at hf
  | some X =>
  cases y with
  | none => simp [fitPre] at hf
  | some y =>
  simp only [fitPre] at hf
  cases hh : hyperPre h with
  | error e => rw [hh] at hf; simp at hf
  | ok u =>
    obtain ⟨hb, he⟩ := hyperPre_ok hh
    rw [hh] at hf
    simp only at hf
    by_cases h2 : X.dims.prod = 0
    · rw [if_pos h2] at hf; simp at hf
    rw [if_neg h2] at hf
    by_cases h3 : X.device ≠ y.device
    · rw [if_pos h3] at hf; simp at hf
    rw [if_neg h3] at hf
    cases hi : nn.init 0 (Labels.encodeLabels y.flat).2.length (nn.manualSeed h.seedOr0) with
    | mk res w1 =>
      rw [hi] at hf
      cases res with
      | error e => simp at hf
      | ok p0 =>
        simp only at hf
        cases hp : prepareImg cfg st.shape true X with
        | mk sh res =>
          rw [hp] at hf
          cases res with
          | error e => simp at hf
          | ok d =>
            obtain ⟨s, rows⟩ := d
            obtain ⟨hs, rfl, rfl⟩ := prepare_infer.mp hp
            simp only at hf
            by_cases h1 : X.rows.length ≠ y.flat.length
            · rw [if_pos h1] at hf; simp at hf
            rw [if_neg h1] at hf
            cases ht : trainEpochs nn (encoded (X.rows.map fun r => (s, r)) y.flat) h.batchSize.toNat h.maxEpochs.toNat
                p0 w1 with
            | mk pw err =>
              obtain ⟨p1, w2⟩ := pw
              rw [ht] at hf
              cases err with
              | some e => simp at hf
              | none =>
                simp only [Prod.mk.injEq, Except.ok.injEq] at hf
                obtain ⟨⟨rfl, rfl⟩, rfl⟩ := hf
                have hl : (X.rows.map fun r => (s, r)).length = y.flat.length := by
                  rw [List.length_map]; exact not_not.mp h1
                exact ⟨X, y, s, ⟨rfl, rfl, hs, not_not.mp h3, hb, he⟩, ⟨hl, rfl, p0, p1, congrArg Prod.fst hi, rfl,
                  trainEpochs_ok hperm hl (by omega) ht⟩, rfl, rfl⟩

/-- The state of torch's generator when a `DataLoader` classifier creates its layers. -/
def loaderStart (nn : Nn R P W K) (h : Hyper) (w : W) : W := (h.seed.map nn.manualSeed).getD w

theorem fitLoader_ok {nn : Nn R P W K} (hperm : ∀ w n, (nn.randperm w n).1.Perm (List.range n)) {h : Hyper}
    {st st' : NetState α P} {w w' : W} {dev width : Nat} {rows : List R} {y : Targets α} {r : Nat × Nat × Nat}
    (hf : fitLoader nn h st w dev width rows y = ((st', w'), .ok r)) :
    Holds nn h rows y.flat width (loaderStart nn h w) dev st' ∧ 0 < h.batchSize ∧ rows ≠ [] ∧ dev = y.device ∧
      st'.shape = st.shape ∧ r = (rows.length, width, (Labels.unique y.flat).length) := by
  unfold fitLoader at hf
  rw [← loaderStart] at hf
  by_cases h1 : rows.length = 0
  · rw [if_pos h1] at hf; simp at hf
  rw [if_neg h1] at hf
  by_cases h2 : y.flat.length = 0
  · rw [if_pos h2] at hf; simp at hf
  rw [if_neg h2] at hf
  by_cases h3 : rows.length ≠ y.flat.length
  · rw [if_pos h3] at hf; simp at hf
  rw [if_neg h3] at hf
  by_cases h4 : dev ≠ y.device
  · rw [if_pos h4] at hf; simp at hf
  rw [if_neg h4] at hf
  simp only at hf
  cases hi : nn.init width (Labels.encodeLabels y.flat).2.length (loaderStart nn h w) with
  | mk res w1 =>
    rw [hi] at hf
    cases res with
    | error e => simp at hf
    | ok p0 =>
      simp only at hf
      by_cases h5 : h.batchSize ≤ 0
      · rw [if_pos h5] at hf; simp at hf
      rw [if_neg h5] at hf
      cases ht : loaderEpochs nn (encoded rows y.flat) h.batchSize.toNat h.maxEpochs.toNat p0
          (h.seed.map nn.manualSeed) w1 with
      | mk pw err =>
        obtain ⟨p1, w2⟩ := pw
        rw [ht] at hf
        cases err with
        | some e => simp at hf
        | none =>
          simp only [Prod.mk.injEq, Except.ok.injEq] at hf
          obtain ⟨⟨rfl, rfl⟩, rfl⟩ := hf
          exact ⟨⟨not_not.mp h3, rfl, p0, p1, congrArg Prod.fst hi, rfl,
            loaderEpochs_ok hperm (not_not.mp h3) (by omega) ht⟩, by omega,
            fun h0 => h1 (by rw [h0]; rfl), not_not.mp h4, rfl, rfl⟩

/-! ### Theorems: training -/

/-- **C159 (training, dense).**  A successful fit of the multi-layer perceptron, whatever was fitted before: it stores
the labels that occur in increasing order and a network trained for the given number of epochs, each a pass over every
row exactly once in batches of at most the batch size, each sample shown with its own label.  It returns the sizes. -/
theorem C159_trained_mlp (nn : Nn (List K) P W K) (outputs : P → Nat) (hnn : Lawful nn outputs) (h : Hyper)
    (st st' : NetState α P) (w w' : W) (X : Dense K) (y : Targets α) (X2 : Arr2 K) (hX : ensure2d X.arr = .ok X2)
    (r : Nat × Nat × Nat) (hf : fitMlp nn h st w (some X) (some y) = ((st', w'), .ok r)) :
    Spec.Fitted nn h X2.rows y.flat X2.width (nn.manualSeed h.seedOr0) X.device st' ∧ 0 < h.batchSize ∧
      0 < h.maxEpochs ∧ r.1 = X2.rows.length ∧ r.2.1 = X2.width ∧ IsClasses y.flat (Labels.unique y.flat) ∧
      r.2.2 = (Labels.unique y.flat).length := by
  obtain ⟨X3, dev, ys, hD, hH, -, rfl⟩ := fitMlp_ok hnn.perm hf
  obtain ⟨X1, y1, e1, e2, h3, -, -, -, rfl, rfl⟩ := denseIn_ok.mp hD.dense
  obtain rfl := Option.some.inj e1
  obtain rfl := Option.some.inj e2
  rw [hX] at h3
  obtain rfl := Except.ok.inj h3
  exact ⟨hH.fitted, hD.batch, hD.epochs, rfl, rfl, unique_isClasses _, rfl⟩

/-- **C159 (training, logistic regression).**  The same, but the initial weights come from the state in which torch's
generator happens to be. -/
theorem C159_trained_logreg (nn : Nn (List K) P W K) (outputs : P → Nat) (hnn : Lawful nn outputs) (h : Hyper)
    (st st' : NetState α P) (w w' : W) (X : Dense K) (y : Targets α) (X2 : Arr2 K) (hX : ensure2d X.arr = .ok X2)
    (r : Nat × Nat × Nat) (hf : fitLogreg nn h st w (some X) (some y) = ((st', w'), .ok r)) :
    Spec.Fitted nn h X2.rows y.flat X2.width w X.device st' ∧ 0 < h.batchSize ∧
      0 < h.maxEpochs ∧ r.1 = X2.rows.length ∧ r.2.1 = X2.width ∧ r.2.2 = (Labels.unique y.flat).length := by
  obtain ⟨X3, dev, ys, hD, hH, -, rfl⟩ := fitLogreg_ok hnn.perm hf
  obtain ⟨X1, y1, e1, e2, h3, -, -, -, rfl, rfl⟩ := denseIn_ok.mp hD.dense
  obtain rfl := Option.some.inj e1
  obtain rfl := Option.some.inj e2
  rw [hX] at h3
  obtain rfl := Except.ok.inj h3
  exact ⟨hH.fitted, hD.batch, hD.epochs, rfl, rfl, rfl⟩

/-- **C159 (training, images).**  The same for the convolutional classifier, on the samples in the shape in which the
axes are read, which it stores. -/
theorem C159_trained_image (nn : Nn (Pic K) P W K) (outputs : P → Nat) (hnn : Lawful nn outputs) (h : Hyper)
    (cfg : Option (Nat × Nat × Nat)) (st st' : NetState α P) (w w' : W) (X : Img K) (y : Targets α)
    (r : Nat × Nat × Nat) (hf : fitConv nn h cfg st w (some X) (some y) = ((st', w'), .ok r)) :
    ∃ s, ReadAs cfg st.shape X.dims s ∧ st'.shape = some s ∧
      Spec.Fitted nn h (X.rows.map fun row => (s, row)) y.flat s.1 (nn.manualSeed h.seedOr0) X.device st' ∧
      0 < h.batchSize ∧ 0 < h.maxEpochs := by
  obtain ⟨X1, y1, s, hI, hH, hs, -⟩ := fitConv_ok hnn.perm hf
  obtain rfl := Option.some.inj hI.x
  obtain rfl := Option.some.inj hI.y
  exact ⟨s, hI.shape, hs, hH.fitted, hI.batch, hI.epochs⟩

/-- **C159 (training, pretrained image network).** -/
theorem C159_trained_pretrained (nn : Nn (Pic K) P W K) (outputs : P → Nat) (hnn : Lawful nn outputs) (h : Hyper)
    (cfg : Option (Nat × Nat × Nat)) (st st' : NetState α P) (w w' : W) (X : Img K) (y : Targets α)
    (r : Nat × Nat × Nat) (hf : fitPre nn h cfg st w (some X) (some y) = ((st', w'), .ok r)) :
    ∃ s, ReadAs cfg st.shape X.dims s ∧ st'.shape = some s ∧
      Spec.Fitted nn h (X.rows.map fun row => (s, row)) y.flat 0 (nn.manualSeed h.seedOr0) X.device st' ∧
      0 < h.batchSize ∧ 0 < h.maxEpochs := by
  obtain ⟨X1, y1, s, hI, hH, hs, -⟩ := fitPre_ok hnn.perm hf
  obtain rfl := Option.some.inj hI.x
  obtain rfl := Option.some.inj hI.y
  exact ⟨s, hI.shape, hs, hH.fitted, hI.batch, hI.epochs⟩

/-- **C159 (training with a data loader).**  The same for the sequence and spectrogram classifiers; without a seed the
initial weights come from the state of torch's generator. -/
theorem C159_trained_loader (nn : Nn R P W K) (outputs : P → Nat) (hnn : Lawful nn outputs) (h : Hyper)
    (st st' : NetState α P) (w w' : W) (dev width : Nat) (rows : List R) (y : Targets α)
    (r : Nat × Nat × Nat) (hf : fitLoader nn h st w dev width rows y = ((st', w'), .ok r)) :
    Spec.Fitted nn h rows y.flat width ((h.seed.map nn.manualSeed).getD w) dev st' ∧ 0 < h.batchSize ∧ rows ≠ [] ∧
      dev = y.device := by
  obtain ⟨hH, hb, hr, hd, -, -⟩ := fitLoader_ok hnn.perm hf
  exact ⟨hH.fitted, hb, hr, hd⟩

/-! ### Theorems: reproducibility -/

/-- **C159 (reproducible).**  What a fit of the perceptron stores and raises does not depend on earlier fits nor on the
state of torch's generator; with the state of the generator it leaves, this is a function of the constructor arguments
and the data. -/
theorem C159_reproducible_mlp (nn : Nn (List K) P W K) (h : Hyper) (st1 st2 : NetState α P) (w1 w2 : W)
    (X : Option (Dense K)) (y : Option (Targets α)) (st1' : NetState α P) (w1' : W) (r : Nat × Nat × Nat)
    (hf : fitMlp nn h st1 w1 X y = ((st1', w1'), .ok r)) :
    ∃ st2', fitMlp nn h st2 w2 X y = ((st2', w1'), .ok r) ∧ st2'.classes = st1'.classes ∧
      st2'.model = st1'.model := by
  unfold fitMlp at hf ⊢
  cases hc : (do let d ← denseIn X y; hyperMlp h; Except.ok d) with
  | error e => rw [hc] at hf; simp at hf
  | ok d =>
    obtain ⟨X2, dev, ys⟩ := d
    rw [hc] at hf
    simp only at hf ⊢
    cases hi : nn.init X2.width (Labels.encodeLabels ys).2.length (nn.manualSeed h.seedOr0) with
    | mk res wi =>
      rw [hi] at hf
      cases res with
      | error e => simp at hf
      | ok p0 =>
        simp only at hf ⊢
        cases ht : trainEpochs nn (encoded X2.rows ys) h.batchSize.toNat h.maxEpochs.toNat p0 wi with
        | mk pw err =>
          obtain ⟨p1, w3⟩ := pw
          rw [ht] at hf
          cases err with
          | some e => simp at hf
          | none =>
            simp only [Prod.mk.injEq, Except.ok.injEq] at hf
            obtain ⟨⟨rfl, rfl⟩, rfl⟩ := hf
            exact ⟨_, rfl, rfl, rfl⟩

/-- **C159 (reproducible, errors).**  Whether a fit of the perceptron raises does not depend on the history either. -/
theorem C159_reproducible_error (nn : Nn (List K) P W K) (h : Hyper) (st1 st2 : NetState α P) (w1 w2 : W)
    (X : Option (Dense K)) (y : Option (Targets α)) :
    (fitMlp nn h st1 w1 X y).2 = (fitMlp nn h st2 w2 X y).2 := by
  unfold fitMlp
  cases (do let d ← denseIn X y; hyperMlp h; Except.ok d) with
  | error e => rfl
  | ok d =>
    obtain ⟨X2, dev, ys⟩ := d
    simp only
    cases nn.init X2.width (Labels.encodeLabels ys).2.length (nn.manualSeed h.seedOr0) with
    | mk res wi =>
      cases res with
      | error e => rfl
      | ok p0 =>
        simp only
        cases trainEpochs nn (encoded X2.rows ys) h.batchSize.toNat h.maxEpochs.toNat p0 wi with
        | mk pw err => cases err <;> rfl

/-- The shape in which two axes are read does not matter when the tensor has another number of axes. -/
theorem prepare_dims {cfg f1 f2 : Option (Nat × Nat × Nat)} {X : Img K} (hd : X.dims.length ≠ 2)
    {sh : Option (Nat × Nat × Nat)} {d : (Nat × Nat × Nat) × List (List K)}
    (hp : prepareImg cfg f1 true X = (sh, .ok d)) : prepareImg cfg f2 true X = (sh, .ok d) := by
  obtain ⟨s, rows⟩ := d
  obtain ⟨hs, h1, h2⟩ := prepare_infer.mp hp
  refine prepare_infer.mpr ⟨?_, h1, h2⟩
  rcases hs with ⟨n, hn⟩ | ⟨n, hn⟩ | ⟨n, hn, -⟩
  · exact Or.inl ⟨n, hn⟩
  · exact Or.inr (Or.inl ⟨n, hn⟩)
  · rw [hn] at hd; simp at hd

/-- **C159 (reproducible, images).**  On tensors that are not flattened rows, or after fits that stored the same shape,
a fit of the convolutional classifier does not depend on the history. -/
theorem C159_reproducible_image (nn : Nn (Pic K) P W K) (h : Hyper) (cfg : Option (Nat × Nat × Nat))
    (st1 st2 : NetState α P) (w1 w2 : W) (X : Img K) (y : Option (Targets α))
    (hd : X.dims.length ≠ 2 ∨ st1.shape = st2.shape) (st1' : NetState α P) (w1' : W) (r : Nat × Nat × Nat)
    (hf : fitConv nn h cfg st1 w1 (some X) y = ((st1', w1'), .ok r)) :
    fitConv nn h cfg st2 w2 (some X) y = ((st1', w1'), .ok r) := by
  cases y with
  | none => simp [fitConv] at hf
  | some y =>
  simp only [fitConv] at hf ⊢
  cases hp : prepareImg cfg st1.shape true X with
  | mk sh res =>
    rw [hp] at hf
    cases res with
    | error e => simp at hf
    | ok d =>
      have hp2 : prepareImg cfg st2.shape true X = (sh, .ok d) := by
        rcases hd with hd | hd
        · exact prepare_dims hd hp
        · rw [← hd]; exact hp
      rw [hp2]
      obtain ⟨s, rows⟩ := d
      simp only at hf ⊢
      by_cases h1 : rows.length ≠ y.flat.length
      · rw [if_pos h1] at hf; simp at hf
      rw [if_neg h1] at hf ⊢
      by_cases h2 : rows.length * volume s = 0
      · rw [if_pos h2] at hf; simp at hf
      rw [if_neg h2] at hf ⊢
      by_cases h3 : X.device ≠ y.device
      · rw [if_pos h3] at hf; simp at hf
      rw [if_neg h3] at hf ⊢
      cases hh : hyperConv h with
      | error e => rw [hh] at hf; simp at hf
      | ok u =>
        rw [hh] at hf
        simp only at hf ⊢
        cases hi : nn.init s.1 (Labels.encodeLabels y.flat).2.length (nn.manualSeed h.seedOr0) with
        | mk res wi =>
          rw [hi] at hf
          cases res with
          | error e => simp at hf
          | ok p0 =>
            simp only at hf ⊢
            cases ht : trainEpochs nn (encoded (rows.map fun r => (s, r)) y.flat) h.batchSize.toNat h.maxEpochs.toNat
                p0 wi with
            | mk pw err =>
              obtain ⟨p1, w3⟩ := pw
              rw [ht] at hf
              cases err with
              | some e => simp at hf
              | none => exact hf

/-- **C159 (reproducible, data loader).**  With a seed, a fit of the sequence classifiers does not depend on the
history. -/
theorem C159_reproducible_loader (nn : Nn R P W K) (h : Hyper) (s : Int) (hs : h.seed = some s)
    (st1 st2 : NetState α P) (w1 w2 : W) (dev width : Nat) (rows : List R) (y : Targets α) (st1' : NetState α P)
    (w1' : W) (r : Nat × Nat × Nat) (hf : fitLoader nn h st1 w1 dev width rows y = ((st1', w1'), .ok r)) :
    ∃ st2', fitLoader nn h st2 w2 dev width rows y = ((st2', w1'), .ok r) ∧ st2'.classes = st1'.classes ∧
      st2'.model = st1'.model := by
  unfold fitLoader at hf ⊢
  simp only [hs, Option.map_some, Option.getD_some] at hf ⊢
  by_cases h1 : rows.length = 0
  · rw [if_pos h1] at hf; simp at hf
  rw [if_neg h1] at hf ⊢
  by_cases h2 : y.flat.length = 0
  · rw [if_pos h2] at hf; simp at hf
  rw [if_neg h2] at hf ⊢
  by_cases h3 : rows.length ≠ y.flat.length
  · rw [if_pos h3] at hf; simp at hf
  rw [if_neg h3] at hf ⊢
  by_cases h4 : dev ≠ y.device
  · rw [if_pos h4] at hf; simp at hf
  rw [if_neg h4] at hf ⊢
  cases hi : nn.init width (Labels.encodeLabels y.flat).2.length (nn.manualSeed s) with
  | mk res wi =>
    rw [hi] at hf
    cases res with
    | error e => simp at hf
    | ok p0 =>
      simp only at hf ⊢
      by_cases h5 : h.batchSize ≤ 0
      · rw [if_pos h5] at hf; simp at hf
      rw [if_neg h5] at hf ⊢
      cases ht : loaderEpochs nn (encoded rows y.flat) h.batchSize.toNat h.maxEpochs.toNat p0
          (some (nn.manualSeed s)) wi with
      | mk pw err =>
        obtain ⟨p1, w3⟩ := pw
        rw [ht] at hf
        cases err with
        | some e => simp at hf
        | none =>
          simp only [Prod.mk.injEq, Except.ok.injEq] at hf
          obtain ⟨⟨rfl, rfl⟩, rfl⟩ := hf
          exact ⟨_, rfl, rfl, rfl⟩

/-- **C159 (no seed is seed 0).**  A perceptron constructed without a seed is fitted as with the seed 0. -/
theorem C159_no_seed (nn : Nn (List K) P W K) (h : Hyper) (st : NetState α P) (w : W) (X : Option (Dense K))
    (y : Option (Targets α)) :
    fitMlp nn { h with seed := none } st w X y = fitMlp nn { h with seed := some 0 } st w X y := rfl

/-- **C159 (logistic regression, partial).**  Two fits of the logistic regression agree when torch's generator gave
them the same initial weights.  Missing: the seed does not determine these weights (`C159_logreg_violated`). -/
theorem C159_logreg_partial (nn : Nn (List K) P W K) (h : Hyper) (st1 st2 : NetState α P) (w1 w2 : W)
    (hw : ∀ f c, (nn.init f c w1).1 = (nn.init f c w2).1)
    (X : Option (Dense K)) (y : Option (Targets α)) (st1' : NetState α P) (w1' : W) (r : Nat × Nat × Nat)
    (hf : fitLogreg nn h st1 w1 X y = ((st1', w1'), .ok r)) :
    ∃ st2', fitLogreg nn h st2 w2 X y = ((st2', w1'), .ok r) ∧ st2'.classes = st1'.classes ∧
      st2'.model = st1'.model := by
  unfold fitLogreg at hf ⊢
  cases hc : (do let d ← denseIn X y; hyperLogreg h; Except.ok d) with
  | error e => rw [hc] at hf; simp at hf
  | ok d =>
    obtain ⟨X2, dev, ys⟩ := d
    rw [hc] at hf
    simp only at hf ⊢
    cases hi : nn.init X2.width (Labels.encodeLabels ys).2.length w1 with
    | mk res wi =>
      have hj := hw X2.width (Labels.encodeLabels ys).2.length
      rw [hi] at hf hj
      cases res with
      | error e => simp at hf
      | ok p0 =>
        cases hi2 : nn.init X2.width (Labels.encodeLabels ys).2.length w2 with
        | mk res2 wj =>
          rw [hi2] at hj
          simp only at hj
          subst hj
          simp only at hf ⊢
          cases ht : trainEpochs nn (encoded X2.rows ys) h.batchSize.toNat h.maxEpochs.toNat p0
              (nn.manualSeed h.seedOr0) with
          | mk pw err =>
            obtain ⟨p1, w3⟩ := pw
            rw [ht] at hf
            cases err with
            | some e => simp at hf
            | none =>
              simp only [Prod.mk.injEq, Except.ok.injEq] at hf
              obtain ⟨⟨rfl, rfl⟩, rfl⟩ := hf
              exact ⟨_, rfl, rfl, rfl⟩

/-! ### Theorems: predicting -/

theorem steps_outputs {nn : Nn R P W K} {outputs : P → Nat} (hnn : Lawful nn outputs) {rows : List R}
    {y classes : List α} : ∀ {Bs : List (List Nat)} {p q : P}, Steps nn rows y classes p Bs q →
      outputs q = outputs p ∧ nn.inputs q = nn.inputs p
  | [], _, _, h => by obtain rfl := h; exact ⟨rfl, rfl⟩
  | _ :: _, _, _, ⟨_, _, _, _, h1, h2⟩ => by
    obtain ⟨g1, g2⟩ := hnn.step _ _ _ _ h1
    obtain ⟨g3, g4⟩ := steps_outputs hnn h2
    exact ⟨g3.trans g1, g4.trans g2⟩

theorem Holds.sizes {nn : Nn R P W K} {outputs : P → Nat} (hnn : Lawful nn outputs) {h : Hyper} {rows : List R}
    {ys : List α} {inputs : Nat} {w0 : W} {dev : Nat} {st : NetState α P} (H : Holds nn h rows ys inputs w0 dev st) :
    ∃ p, st.model = some p ∧ outputs p = (Labels.unique ys).length ∧ nn.inputs p = inputs := by
  obtain ⟨p0, p, h1, h2, sched, -, -, h3⟩ := H.model
  obtain ⟨g1, g2⟩ := hnn.init _ _ _ _ h1
  obtain ⟨g3, g4⟩ := steps_outputs hnn h3
  exact ⟨p, h2, g3.trans g1, g4.trans g2⟩

end

end ModSSC.Supervised.Net

namespace ModSSC.Supervised.Net.Spec
open ModSSC Supervised.Spec

/-- The answers for `n` samples: a distribution over the classes of the training labels for each, and the class with the
largest probability, the first of them if there are several. -/
structure Answers {K α : Type} [Field K] [LinearOrder K] [LinearOrder α] (y : List α) (n : Nat) (scores : List (List K))
    (pred : List α) : Prop where
  rows : scores.length = n
  preds : pred.length = n
  dist : ∃ classes, IsClasses y classes ∧
    (∀ row ∈ scores, row.length = classes.length ∧ (∀ x ∈ row, 0 ≤ x) ∧ row.sum = 1) ∧
    ∀ (i : Nat) (row : List K), scores[i]? = some row → ∃ (c : Nat) (l : α), FirstMax row c ∧ classes[c]? = some l ∧
      pred[i]? = some l

end ModSSC.Supervised.Net.Spec

namespace ModSSC.Supervised.Net
open ModSSC Supervised Supervised.Spec Spec

section
variable {R P W K α : Type} [Field K] [LinearOrder K] [IsStrictOrderedRing K] [LinearOrder α]

theorem unique_ne_nil {ys : List α} (h : ys ≠ []) : (Labels.unique ys).length ≠ 0 := by
  intro h0
  cases ys with
  | nil => exact h rfl
  | cons a l =>
    have := (Labels.mem_unique (l := a :: l) (a := a)).mpr (by simp)
    rw [List.length_eq_zero_iff.mp h0] at this
    simp at this

theorem answers_of {nn : Nn R P W K} {outputs : P → Nat} (hnn : Lawful nn outputs) {ys : List α} (hne : ys ≠ [])
    {p : P} (hp : outputs p = (Labels.unique ys).length) (dev : Nat) (Q : List R) :
    ∃ pred, decode (some (dev, Labels.unique ys)) (Q.map fun r => nn.softmax (nn.logits p r)) = .ok pred ∧
      Answers ys Q.length (Q.map fun r => nn.softmax (nn.logits p r)) pred := by
  have hu := unique_ne_nil hne
  have hlen : ∀ r, (nn.softmax (nn.logits p r)).length = (Labels.unique ys).length := fun r => by
    rw [hnn.softmax, hnn.logits, hp]
  have hnl : ∀ r, nn.logits p r ≠ [] := fun r h0 => hu (by rw [← hp, ← hnn.logits p r, h0]; rfl)
  have hns : ∀ r, nn.softmax (nn.logits p r) ≠ [] := fun r h0 => hu (by rw [← hlen r, h0]; rfl)
  have hat : ∀ r, ∃ (c : Nat) (l : α), FirstMax (nn.softmax (nn.logits p r)) c ∧ (Labels.unique ys)[c]? = some l ∧
      classAt (Labels.unique ys) (nn.softmax (nn.logits p r)) = .ok l := fun r => by
    have hfm := argmax_firstMax (hns r)
    obtain ⟨m, h1, -⟩ := id hfm
    have hlt := (List.getElem?_eq_some_iff.mp h1).1
    rw [hlen r] at hlt
    refine ⟨_, _, hfm, List.getElem?_eq_getElem hlt, ?_⟩
    unfold classAt
    rw [List.getElem?_eq_getElem hlt]
  have hdec : ∀ row ∈ Q.map (fun r => nn.softmax (nn.logits p r)), ∃ b, classAt (Labels.unique ys) row = .ok b := by
    intro row hr
    obtain ⟨r, -, rfl⟩ := List.mem_map.mp hr
    obtain ⟨c, l, -, -, h⟩ := hat r
    exact ⟨l, h⟩
  obtain ⟨pred, hpred⟩ := mapM_total hdec
  have hF := mapM_ok.mp hpred
  refine ⟨pred, hpred, by simp, by rw [← hF.length_eq]; simp, Labels.unique ys, unique_isClasses ys, ?_, ?_⟩
  · intro row hr
    obtain ⟨r, -, rfl⟩ := List.mem_map.mp hr
    exact ⟨hlen r, (hnn.dist _ (hnl r)).1, (hnn.dist _ (hnl r)).2⟩
  · intro i row hi
    obtain ⟨hlt, hrow⟩ := List.getElem?_eq_some_iff.mp hi
    have hlt2 : i < pred.length := by rw [← hF.length_eq]; exact hlt
    have hg := List.forall₂_iff_get.mp hF
    have hgi := hg.2 i hlt hlt2
    simp only [List.get_eq_getElem] at hgi
    rw [hrow] at hgi
    rw [List.getElem?_map] at hi
    obtain ⟨r, -, rfl⟩ := Option.map_eq_some_iff.mp hi
    obtain ⟨c, l, h1, h2, h3⟩ := hat r
    rw [h3] at hgi
    refine ⟨c, l, h1, h2, ?_⟩
    rw [List.getElem?_eq_getElem hlt2, ← Except.ok.inj hgi]

theorem dense_answers {nn : Nn (List K) P W K} {outputs : P → Nat} (hnn : Lawful nn outputs) {h : Hyper}
    {rows : List (List K)} {ys : List α} {width : Nat} {w0 : W} {dev : Nat} {st : NetState α P}
    (H : Holds nn h rows ys width w0 dev st) (hne : ys ≠ []) (Q : Dense K) (Q2 : Arr2 K) (hQ : ensure2d Q.arr = .ok Q2)
    (hd : Q.device = dev) (hw : Q2.width = width) :
    ∃ scores pred, denseScores nn st (some Q) = .ok scores ∧ densePredict nn st (some Q) = .ok pred ∧
      Answers ys Q2.rows.length scores pred := by
  obtain ⟨p, h1, h2, h3⟩ := H.sizes hnn
  obtain ⟨pred, g1, g2⟩ := answers_of hnn hne h2 dev Q2.rows
  have hs : denseScores nn st (some Q) = .ok (Q2.rows.map fun r => nn.softmax (nn.logits p r)) := by
    unfold denseScores
    rw [h1, H.classes]
    simp only
    rw [hQ]
    show (if Q.device ≠ dev then _ else _) = _
    rw [if_neg (by simp [hd]), if_neg (by simp [hw, h3])]
  refine ⟨_, pred, hs, ?_, g2⟩
  unfold densePredict
  rw [hs, H.classes]
  exact g1

/-- **C159 (answers, perceptron).**  After a successful fit, on rows of the training width on the same device: scores
are distributions over the training classes, and each prediction is the training class of the largest score. -/
theorem C159_predict_mlp (nn : Nn (List K) P W K) (outputs : P → Nat) (hnn : Lawful nn outputs) (h : Hyper)
    (st st' : NetState α P) (w w' : W) (X : Dense K) (y : Targets α) (X2 : Arr2 K) (hX : ensure2d X.arr = .ok X2)
    (r : Nat × Nat × Nat) (hf : fitMlp nn h st w (some X) (some y) = ((st', w'), .ok r))
    (Q : Dense K) (Q2 : Arr2 K) (hQ : ensure2d Q.arr = .ok Q2) (hd : Q.device = X.device) (hw : Q2.width = X2.width) :
    ∃ scores pred, denseScores nn st' (some Q) = .ok scores ∧ densePredict nn st' (some Q) = .ok pred ∧
      Answers y.flat Q2.rows.length scores pred := by
  obtain ⟨X3, dev, ys, hD, hH, -, rfl⟩ := fitMlp_ok hnn.perm hf
  obtain ⟨X1, y1, e1, e2, h3, h4, h5, -, rfl, rfl⟩ := denseIn_ok.mp hD.dense
  obtain rfl := Option.some.inj e1
  obtain rfl := Option.some.inj e2
  rw [hX] at h3
  obtain rfl := Except.ok.inj h3
  refine dense_answers hnn hH (fun h0 => ?_) Q Q2 hQ hd hw
  rw [h4, h0] at h5
  simp at h5

/-- **C159 (answers, logistic regression).** -/
theorem C159_predict_logreg (nn : Nn (List K) P W K) (outputs : P → Nat) (hnn : Lawful nn outputs) (h : Hyper)
    (st st' : NetState α P) (w w' : W) (X : Dense K) (y : Targets α) (X2 : Arr2 K) (hX : ensure2d X.arr = .ok X2)
    (r : Nat × Nat × Nat) (hf : fitLogreg nn h st w (some X) (some y) = ((st', w'), .ok r))
    (Q : Dense K) (Q2 : Arr2 K) (hQ : ensure2d Q.arr = .ok Q2) (hd : Q.device = X.device) (hw : Q2.width = X2.width) :
    ∃ scores pred, denseScores nn st' (some Q) = .ok scores ∧ densePredict nn st' (some Q) = .ok pred ∧
      Answers y.flat Q2.rows.length scores pred := by
  obtain ⟨X3, dev, ys, hD, hH, -, rfl⟩ := fitLogreg_ok hnn.perm hf
  obtain ⟨X1, y1, e1, e2, h3, h4, h5, -, rfl, rfl⟩ := denseIn_ok.mp hD.dense
  obtain rfl := Option.some.inj e1
  obtain rfl := Option.some.inj e2
  rw [hX] at h3
  obtain rfl := Except.ok.inj h3
  refine dense_answers hnn hH (fun h0 => ?_) Q Q2 hQ hd hw
  rw [h4, h0] at h5
  simp at h5

theorem img_answers {nn : Nn (Pic K) P W K} {outputs : P → Nat} (hnn : Lawful nn outputs) {h : Hyper}
    {rows : List (Pic K)} {ys : List α} {inputs : Nat} {w0 : W} {dev : Nat} {st : NetState α P}
    {cfg : Option (Nat × Nat × Nat)} {s : Nat × Nat × Nat} (H : Holds nn h rows ys inputs w0 dev st)
    (hs : st.shape = some s) (hne : ys ≠ []) (Q : Img K) (hQ : ReadAs cfg (some s) Q.dims s) (hd : Q.device = dev) :
    ∃ scores pred, imgScores nn cfg st (some Q) = .ok scores ∧ imgPredict nn cfg st (some Q) = .ok pred ∧
      Answers ys Q.rows.length scores pred := by
  obtain ⟨p, h1, h2, -⟩ := H.sizes hnn
  obtain ⟨pred, g1, g2⟩ := answers_of hnn hne h2 dev (Q.rows.map fun r => (s, r))
  have hp : (prepareImg cfg st.shape false Q).2 = .ok (s, Q.rows) :=
    prepare_check.mpr ⟨by rw [hs]; exact hQ, rfl, Or.inr hs⟩
  have hsc : imgScores nn cfg st (some Q) =
      .ok ((Q.rows.map fun r => (s, r)).map fun r => nn.softmax (nn.logits p r)) := by
    unfold imgScores
    rw [h1, H.classes]
    simp only
    rw [hp]
    show (if Q.device ≠ dev then _ else _) = _
    rw [if_neg (by simp [hd]), List.map_map]
    rfl
  refine ⟨_, pred, hsc, ?_, by simpa using g2⟩
  unfold imgPredict
  rw [hsc, H.classes]
  exact g1

/-- **C159 (answers, images).**  After a successful fit the convolutional classifier answers on tensors of the fitted
shape, given with all axes or as rows. -/
theorem C159_predict_image (nn : Nn (Pic K) P W K) (outputs : P → Nat) (hnn : Lawful nn outputs) (h : Hyper)
    (cfg : Option (Nat × Nat × Nat)) (st st' : NetState α P) (w w' : W) (X : Img K) (y : Targets α)
    (r : Nat × Nat × Nat) (hf : fitConv nn h cfg st w (some X) (some y) = ((st', w'), .ok r)) (hX : X.rows ≠ []) :
    ∃ s, st'.shape = some s ∧ ReadAs cfg st.shape X.dims s ∧
      ∀ Q : Img K, Q.device = X.device → ReadAs cfg (some s) Q.dims s →
        ∃ scores pred, imgScores nn cfg st' (some Q) = .ok scores ∧ imgPredict nn cfg st' (some Q) = .ok pred ∧
          Answers y.flat Q.rows.length scores pred := by
  obtain ⟨X1, y1, s, hI, hH, hs, -⟩ := fitConv_ok hnn.perm hf
  obtain rfl := Option.some.inj hI.x
  obtain rfl := Option.some.inj hI.y
  refine ⟨s, hs, hI.shape, fun Q hd hQ => img_answers hnn hH hs (fun h0 => hX ?_) Q hQ hd⟩
  have := hH.len
  rw [h0, List.length_map] at this
  exact List.length_eq_zero_iff.mp this

/-- **C159 (answers, pretrained image network).** -/
theorem C159_predict_pretrained (nn : Nn (Pic K) P W K) (outputs : P → Nat) (hnn : Lawful nn outputs) (h : Hyper)
    (cfg : Option (Nat × Nat × Nat)) (st st' : NetState α P) (w w' : W) (X : Img K) (y : Targets α)
    (r : Nat × Nat × Nat) (hf : fitPre nn h cfg st w (some X) (some y) = ((st', w'), .ok r)) (hX : X.rows ≠ []) :
    ∃ s, st'.shape = some s ∧ ReadAs cfg st.shape X.dims s ∧
      ∀ Q : Img K, Q.device = X.device → ReadAs cfg (some s) Q.dims s →
        ∃ scores pred, imgScores nn cfg st' (some Q) = .ok scores ∧ imgPredict nn cfg st' (some Q) = .ok pred ∧
          Answers y.flat Q.rows.length scores pred := by
  obtain ⟨X1, y1, s, hI, hH, hs, -⟩ := fitPre_ok hnn.perm hf
  obtain rfl := Option.some.inj hI.x
  obtain rfl := Option.some.inj hI.y
  refine ⟨s, hs, hI.shape, fun Q hd hQ => img_answers hnn hH hs (fun h0 => hX ?_) Q hQ hd⟩
  have := hH.len
  rw [h0, List.length_map] at this
  exact List.length_eq_zero_iff.mp this

/-- **C159 (answers, data loader).** -/
theorem C159_predict_loader (nn : Nn R P W K) (outputs : P → Nat) (hnn : Lawful nn outputs) (h : Hyper)
    (st st' : NetState α P) (w w' : W) (dev width : Nat) (rows : List R) (y : Targets α) (r : Nat × Nat × Nat)
    (hf : fitLoader nn h st w dev width rows y = ((st', w'), .ok r)) (Q : List R) (hQ : Q ≠ []) :
    ∃ scores pred, loaderScores nn st' dev Q = .ok scores ∧ decode st'.classes scores = .ok pred ∧
      Answers y.flat Q.length scores pred := by
  obtain ⟨hH, -, hr, -, -, -⟩ := fitLoader_ok hnn.perm hf
  obtain ⟨p, h1, h2, -⟩ := hH.sizes hnn
  have hne : y.flat ≠ [] := fun h0 => hr (by
    have := hH.len
    rw [h0] at this
    exact List.length_eq_zero_iff.mp this)
  obtain ⟨pred, g1, g2⟩ := answers_of hnn hne h2 dev Q
  refine ⟨_, pred, ?_, by rw [hH.classes]; exact g1, g2⟩
  unfold loaderScores
  rw [h1, hH.classes]
  simp only
  rw [if_neg (by simpa using hQ), if_neg (by simp)]

/-! ### Theorems: what is accepted, and failed fits -/

theorem trainBatches_total {nn : Nn R P W K} (hs : ∀ p B w, ∃ q, (nn.step p B w).1 = .ok q) {data : List (R × Nat)} :
    ∀ {Bs : List (List Nat)} {p : P} {w : W}, (trainBatches nn data Bs p w).2 = none
  | [], _, _ => rfl
  | B :: Bs, p, w => by
    unfold trainBatches
    obtain ⟨q, hq⟩ := hs p (B.filterMap fun i => data[i]?) w
    cases h : nn.step p (B.filterMap fun i => data[i]?) w with
    | mk res w1 =>
      rw [h] at hq
      simp only at hq
      subst hq
      exact trainBatches_total hs

theorem trainEpochs_total {nn : Nn R P W K} (hs : ∀ p B w, ∃ q, (nn.step p B w).1 = .ok q) {data : List (R × Nat)}
    {b : Nat} : ∀ {e : Nat} {p : P} {w : W}, (trainEpochs nn data b e p w).2 = none
  | 0, _, _ => rfl
  | e + 1, p, w => by
    unfold trainEpochs
    have ht := trainBatches_total hs (data := data)
      (Bs := Deep.iterBatchIndices data.length b (nn.randperm w data.length).1) (p := p)
      (w := (nn.randperm w data.length).2)
    simp only
    cases h : trainBatches nn data (Deep.iterBatchIndices data.length b (nn.randperm w data.length).1) p
        (nn.randperm w data.length).2 with
    | mk pw err =>
      rw [h] at ht
      simp only at ht
      subst ht
      exact trainEpochs_total hs

/-- **C159 (what is accepted).**  If building and stepping the network never raise, the perceptron accepts exactly:
features and labels both given, at least one row and one column, as many labels as rows, on the same device, and
parameters in range. -/
theorem C159_accepts (nn : Nn (List K) P W K) (hi : ∀ f c w, ∃ q, (nn.init f c w).1 = .ok q)
    (hs : ∀ p B w, ∃ q, (nn.step p B w).1 = .ok q) (h : Hyper) (st : NetState α P) (w : W)
    (X : Option (Dense K)) (y : Option (Targets α)) :
    (∃ r, (fitMlp nn h st w X y).2 = .ok r) ↔
      (∃ X1 y1 X2, X = some X1 ∧ y = some y1 ∧ ensure2d X1.arr = .ok X2 ∧ X2.rows.length = y1.flat.length ∧
        0 < X2.rows.length ∧ 0 < X2.width ∧ X1.device = y1.device) ∧
      0 < h.batchSize ∧ 0 < h.maxEpochs ∧ h.lrPositive = true ∧ h.dropoutOk = true ∧ ∀ s ∈ h.hiddenSizes, 0 < s := by
  unfold fitMlp
  cases hc : (do let d ← denseIn X y; hyperMlp h; Except.ok d) with
  | error e =>
    simp only [reduceCtorEq, exists_false, false_iff]
    rintro ⟨⟨X1, y1, X2, rfl, rfl, h1, h2, h3, h4, h5⟩, h6⟩
    have hd : denseIn (some X1) (some y1) = .ok (X2, X1.device, y1.flat) :=
      denseIn_ok.mpr ⟨X1, y1, rfl, rfl, h1, h2, (Nat.mul_pos h3 h4).ne', h5, rfl, rfl⟩
    rw [hd] at hc
    have hm : hyperMlp h = .ok () := hyperMlp_ok.mpr h6
    simp [hm, bind, Except.bind] at hc
  | ok d =>
    obtain ⟨X2, dev, ys⟩ := d
    obtain ⟨d', hd, h1⟩ := ebind_ok.mp hc
    obtain ⟨u, hu, h2⟩ := ebind_ok.mp h1
    obtain rfl := Except.ok.inj h2
    have hH := hyperMlp_ok.mp hu
    obtain ⟨X1, y1, e1, e2, g1, g2, g3, g4, g5, g6⟩ := denseIn_ok.mp hd
    have hpos := Nat.pos_of_ne_zero g3
    refine iff_of_true ?_ ⟨⟨X1, y1, X2, e1, e2, g1, g6 ▸ g2, Nat.pos_of_mul_pos_right hpos,
      Nat.pos_of_mul_pos_left hpos, g4⟩, hH⟩
    simp only
    obtain ⟨q, hq⟩ := hi X2.width (Labels.encodeLabels ys).2.length (nn.manualSeed h.seedOr0)
    cases hin : nn.init X2.width (Labels.encodeLabels ys).2.length (nn.manualSeed h.seedOr0) with
    | mk res w1 =>
      rw [hin] at hq
      simp only at hq
      subst hq
      simp only
      have ht := trainEpochs_total hs (data := encoded X2.rows ys) (b := h.batchSize.toNat) (e := h.maxEpochs.toNat)
        (p := q) (w := w1)
      cases hte : trainEpochs nn (encoded X2.rows ys) h.batchSize.toNat h.maxEpochs.toNat q w1 with
      | mk pw err =>
        rw [hte] at ht
        simp only at ht
        subst ht
        exact ⟨_, rfl⟩

theorem hyperConv_iff {h : Hyper} : hyperConv h = .ok () ↔ h.hiddenSizes ≠ [] ∧ 0 < h.batchSize ∧ 0 < h.maxEpochs ∧
    h.lrPositive = true ∧ h.dropoutOk = true ∧ ∀ s ∈ h.hiddenSizes, 0 < s := by
  unfold hyperConv
  by_cases h1 : h.hiddenSizes = []
  · simp [h1]
  · by_cases h2 : h.batchSize ≤ 0
    · simp [h1, h2]
    · by_cases h3 : h.maxEpochs ≤ 0
      · simp [h1, h2, h3]
      · have h2' := not_le.mp h2
        have h3' := not_le.mp h3
        cases h4 : h.lrPositive <;> cases h5 : h.dropoutOk <;> simp [h1, h2, h3, h2', h3']

theorem hyperPre_iff {h : Hyper} : hyperPre h = .ok () ↔ 0 < h.batchSize ∧ 0 < h.maxEpochs ∧ h.lrPositive = true := by
  unfold hyperPre
  by_cases h2 : h.batchSize ≤ 0
  · simp [h2]
  · by_cases h3 : h.maxEpochs ≤ 0
    · simp [h2, h3]
    · have h2' := not_le.mp h2
      have h3' := not_le.mp h3
      cases h4 : h.lrPositive <;> simp [h2, h3, h2', h3']

/-- **C159 (what the image network accepts).**  If building and stepping the network never raise, the image network accepts exactly:
images and labels both given, images that fit the shape, as many labels as images, at least one image with at least one number, on the
same device, and parameters in range. -/
theorem C159_image_accepts (nn : Nn (Pic K) P W K) (hi : ∀ f c w, ∃ q, (nn.init f c w).1 = .ok q)
    (hs : ∀ p B w, ∃ q, (nn.step p B w).1 = .ok q) (h : Hyper) (cfg : Option (Nat × Nat × Nat)) (st : NetState α P) (w : W)
    (X : Option (Img K)) (y : Option (Targets α)) :
    (∃ r, (fitConv nn h cfg st w X y).2 = .ok r) ↔
      (∃ X1 y1 s rows, X = some X1 ∧ y = some y1 ∧ (prepareImg cfg st.shape true X1).2 = .ok (s, rows) ∧
        rows.length = y1.flat.length ∧ 0 < rows.length ∧ 0 < volume s ∧ X1.device = y1.device) ∧
      h.hiddenSizes ≠ [] ∧ 0 < h.batchSize ∧ 0 < h.maxEpochs ∧ h.lrPositive = true ∧ h.dropoutOk = true ∧
        ∀ s ∈ h.hiddenSizes, 0 < s := by
  rw [← hyperConv_iff]
  have bad : ∀ {e : PyErr} {Q : Prop}, ¬ Q → ((∃ r : Nat × Nat × Nat, Except.error e = .ok r) ↔ Q) := fun hq =>
    ⟨fun ⟨r, hr⟩ => (by cases hr), fun q => absurd q hq⟩
  unfold fitConv
  cases y with
  | none => exact bad (by rintro ⟨⟨_, _, _, _, _, h, _⟩, _⟩; cases h)
  | some y =>
    cases X with
    | none => exact bad (by rintro ⟨⟨_, _, _, _, h, _⟩, _⟩; cases h)
    | some X =>
      dsimp only
      rcases hp : prepareImg cfg st.shape true X with ⟨sh, e | ⟨s, rows⟩⟩
      · dsimp only
        refine bad ?_
        rintro ⟨⟨X1, y1, s, rows, e1, e2, h1, -⟩, -⟩
        obtain rfl := Option.some.inj e1
        rw [hp] at h1
        cases h1
      · dsimp only
        have hQ : ((∃ X1 y1 s rows, some X = some X1 ∧ some y = some y1 ∧ (prepareImg cfg st.shape true X1).2 = .ok (s, rows) ∧
            rows.length = y1.flat.length ∧ 0 < rows.length ∧ 0 < volume s ∧ X1.device = y1.device) ∧ hyperConv h = .ok ()) ↔
            (rows.length = y.flat.length ∧ rows.length * volume s ≠ 0 ∧ X.device = y.device) ∧ hyperConv h = .ok () := by
          apply and_congr_left'
          constructor
          · rintro ⟨X1, y1, s', rows', e1, e2, h1, h2, h3, h4, h5⟩
            obtain rfl := Option.some.inj e1
            obtain rfl := Option.some.inj e2
            rw [hp] at h1
            obtain ⟨rfl, rfl⟩ := Prod.mk.inj (Except.ok.inj h1)
            exact ⟨h2, (Nat.mul_pos h3 h4).ne', h5⟩
          · rintro ⟨h2, h3, h5⟩
            have := Nat.pos_of_ne_zero h3
            exact ⟨X, y, s, rows, rfl, rfl, by rw [hp], h2, Nat.pos_of_mul_pos_right this, Nat.pos_of_mul_pos_left this, h5⟩
        rw [hQ]
        by_cases c1 : rows.length = y.flat.length
        · rw [if_neg (not_not.mpr c1)]
          by_cases c2 : rows.length * volume s = 0
          · rw [if_pos c2]
            exact bad fun q => q.1.2.1 c2
          · rw [if_neg c2]
            by_cases c3 : X.device = y.device
            · rw [if_neg (not_not.mpr c3)]
              cases hc : hyperConv h with
              | error e => exact bad fun q => (by cases q.2)
              | ok u =>
                refine iff_of_true ?_ ⟨⟨c1, c2, c3⟩, rfl⟩
                dsimp only
                obtain ⟨q, hq⟩ := hi s.1 (Labels.encodeLabels y.flat).2.length (nn.manualSeed h.seedOr0)
                rcases hin : nn.init s.1 (Labels.encodeLabels y.flat).2.length (nn.manualSeed h.seedOr0) with ⟨res, w1⟩
                rw [hin] at hq
                dsimp only at hq
                subst hq
                dsimp only
                have ht := trainEpochs_total hs (data := encoded (rows.map fun r => (s, r)) y.flat) (b := h.batchSize.toNat)
                  (e := h.maxEpochs.toNat) (p := q) (w := w1)
                rcases hte : trainEpochs nn (encoded (rows.map fun r => (s, r)) y.flat) h.batchSize.toNat h.maxEpochs.toNat q w1 with ⟨⟨p1, w2⟩, err⟩
                rw [hte] at ht
                dsimp only at ht
                subst ht
                exact ⟨_, rfl⟩
            · rw [if_pos c3]
              exact bad fun q => c3 q.1.2.2
        · rw [if_pos c1]
          exact bad fun q => c1 q.1.1

/-- **C159 (what the pretrained network accepts).**  The same for the pretrained image network. -/
theorem C159_pretrained_accepts (nn : Nn (Pic K) P W K) (hi : ∀ f c w, ∃ q, (nn.init f c w).1 = .ok q)
    (hs : ∀ p B w, ∃ q, (nn.step p B w).1 = .ok q) (h : Hyper) (cfg : Option (Nat × Nat × Nat)) (st : NetState α P) (w : W)
    (X : Option (Img K)) (y : Option (Targets α)) :
    (∃ r, (fitPre nn h cfg st w X y).2 = .ok r) ↔
      (∃ X1 y1 s rows, X = some X1 ∧ y = some y1 ∧ (prepareImg cfg st.shape true X1).2 = .ok (s, rows) ∧
        rows.length = y1.flat.length ∧ X1.dims.prod ≠ 0 ∧ X1.device = y1.device) ∧
      0 < h.batchSize ∧ 0 < h.maxEpochs ∧ h.lrPositive = true := by
  rw [← hyperPre_iff]
  have bad : ∀ {e : PyErr} {Q : Prop}, ¬ Q → ((∃ r : Nat × Nat × Nat, Except.error e = .ok r) ↔ Q) := fun hq =>
    ⟨fun ⟨r, hr⟩ => (by cases hr), fun q => absurd q hq⟩
  unfold fitPre
  cases X with
  | none => exact bad (by rintro ⟨⟨_, _, _, _, h, _⟩, _⟩; cases h)
  | some X =>
    cases y with
    | none => exact bad (by rintro ⟨⟨_, _, _, _, _, h, _⟩, _⟩; cases h)
    | some y =>
      dsimp only
      cases hc : hyperPre h with
      | error e => exact bad fun q => (by cases q.2)
      | ok u =>
        dsimp only
        by_cases c2 : X.dims.prod = 0
        · rw [if_pos c2]
          exact bad (by rintro ⟨⟨X1, y1, s, rows, e1, -, -, -, h, -⟩, -⟩; obtain rfl := Option.some.inj e1; exact h c2)
        · rw [if_neg c2]
          by_cases c3 : X.device = y.device
          · rw [if_neg (not_not.mpr c3)]
            obtain ⟨q, hq⟩ := hi 0 (Labels.encodeLabels y.flat).2.length (nn.manualSeed h.seedOr0)
            rcases hin : nn.init 0 (Labels.encodeLabels y.flat).2.length (nn.manualSeed h.seedOr0) with ⟨res, w1⟩
            rw [hin] at hq
            dsimp only at hq
            subst hq
            dsimp only
            rcases hp : prepareImg cfg st.shape true X with ⟨sh, e | ⟨s, rows⟩⟩
            · dsimp only
              refine bad ?_
              rintro ⟨⟨X1, y1, s, rows, e1, e2, h1, -⟩, -⟩
              obtain rfl := Option.some.inj e1
              rw [hp] at h1
              cases h1
            · dsimp only
              by_cases c1 : rows.length = y.flat.length
              · rw [if_neg (not_not.mpr c1)]
                refine iff_of_true ?_ ⟨⟨X, y, s, rows, rfl, rfl, by rw [hp], c1, c2, c3⟩, rfl⟩
                have ht := trainEpochs_total hs (data := encoded (rows.map fun r => (s, r)) y.flat) (b := h.batchSize.toNat)
                  (e := h.maxEpochs.toNat) (p := q) (w := w1)
                rcases hte : trainEpochs nn (encoded (rows.map fun r => (s, r)) y.flat) h.batchSize.toNat h.maxEpochs.toNat q w1 with ⟨⟨p1, w2⟩, err⟩
                rw [hte] at ht
                dsimp only at ht
                subst ht
                exact ⟨_, rfl⟩
              · rw [if_pos c1]
                refine bad ?_
                rintro ⟨⟨X1, y1, s, rows, e1, e2, h1, h2, -⟩, -⟩
                obtain rfl := Option.some.inj e1
                obtain rfl := Option.some.inj e2
                rw [hp] at h1
                obtain ⟨rfl, rfl⟩ := Prod.mk.inj (Except.ok.inj h1)
                exact c1 h2
          · rw [if_pos c3]
            refine bad ?_
            rintro ⟨⟨X1, y1, s, rows, e1, e2, -, -, -, h⟩, -⟩
            obtain rfl := Option.some.inj e1
            obtain rfl := Option.some.inj e2
            exact c3 h

/-- **C159 (failed fit, partial).**  If building and stepping the network never raise, a fit of the perceptron or the
logistic regression that raises leaves the classifier and torch's generator as they were.  Missing: exceptions of the
network itself (`C159_failed_fit_violated`), and the image and sequence classifiers (`C159_image_shape_violated`,
`C159_pretrained_violated`, `C159_loader_violated`). -/
theorem C159_failed_fit_partial (nn : Nn (List K) P W K) (hi : ∀ f c w, ∃ q, (nn.init f c w).1 = .ok q)
    (hs : ∀ p B w, ∃ q, (nn.step p B w).1 = .ok q) (h : Hyper) (st st' : NetState α P) (w w' : W)
    (X : Option (Dense K)) (y : Option (Targets α)) (e : PyErr)
    (hf : fitMlp nn h st w X y = ((st', w'), .error e) ∨ fitLogreg nn h st w X y = ((st', w'), .error e)) :
    st' = st ∧ w' = w := by
  rcases hf with hf | hf
  · unfold fitMlp at hf
    cases hc : (do let d ← denseIn X y; hyperMlp h; Except.ok d) with
    | error e =>
      rw [hc] at hf
      simp only [Prod.mk.injEq] at hf
      exact ⟨hf.1.1.symm, hf.1.2.symm⟩
    | ok d =>
      obtain ⟨X2, dev, ys⟩ := d
      rw [hc] at hf
      simp only at hf
      obtain ⟨q, hq⟩ := hi X2.width (Labels.encodeLabels ys).2.length (nn.manualSeed h.seedOr0)
      cases hin : nn.init X2.width (Labels.encodeLabels ys).2.length (nn.manualSeed h.seedOr0) with
      | mk res w1 =>
        rw [hin] at hq hf
        simp only at hq
        subst hq
        simp only at hf
        have ht := trainEpochs_total hs (data := encoded X2.rows ys) (b := h.batchSize.toNat) (e := h.maxEpochs.toNat)
          (p := q) (w := w1)
        cases hte : trainEpochs nn (encoded X2.rows ys) h.batchSize.toNat h.maxEpochs.toNat q w1 with
        | mk pw err =>
          rw [hte] at ht hf
          simp only at ht
          subst ht
          simp at hf
  · unfold fitLogreg at hf
    cases hc : (do let d ← denseIn X y; hyperLogreg h; Except.ok d) with
    | error e =>
      rw [hc] at hf
      simp only [Prod.mk.injEq] at hf
      exact ⟨hf.1.1.symm, hf.1.2.symm⟩
    | ok d =>
      obtain ⟨X2, dev, ys⟩ := d
      rw [hc] at hf
      simp only at hf
      obtain ⟨q, hq⟩ := hi X2.width (Labels.encodeLabels ys).2.length w
      cases hin : nn.init X2.width (Labels.encodeLabels ys).2.length w with
      | mk res w1 =>
        rw [hin] at hq hf
        simp only at hq
        subst hq
        simp only at hf
        have ht := trainEpochs_total hs (data := encoded X2.rows ys) (b := h.batchSize.toNat) (e := h.maxEpochs.toNat)
          (p := q) (w := nn.manualSeed h.seedOr0)
        cases hte : trainEpochs nn (encoded X2.rows ys) h.batchSize.toNat h.maxEpochs.toNat q
            (nn.manualSeed h.seedOr0) with
        | mk pw err =>
          rw [hte] at ht hf
          simp only at ht
          subst ht
          simp at hf

/-! ### GraphSAGE -/

/-- **C159 (graph network, partial).**  After a successful fit of the inductive GraphSAGE classifier every training label
is at most the largest class, the classes are `0, 1, …`, up to the largest label, and every prediction is one of them.
Missing: a prediction can be a label that no training node has (`C159_sage_violated`). -/
theorem C159_sage_partial {Gr : Type} (nn : GraphNn Gr P W K) (h : Hyper) (st st' : NetState Int P) (w w' : W) (g : Gr)
    (y : List Int) (r : Nat × Nat) (hf : fitSage nn h st w g y = ((st', w'), .ok r)) :
    ∃ m, m ∈ y ∧ (∀ a ∈ y, a ≤ m) ∧ -1 ≤ m ∧ y.length = nn.nodes g ∧ (r.2 : Int) = m + 1 ∧
      (∃ cs, st'.classes = some (0, cs) ∧ ∀ a, a ∈ cs ↔ 0 ≤ a ∧ a ≤ m) ∧
      ∀ g' pred, sagePredict nn st' g' = .ok pred → ∀ a ∈ pred, 0 ≤ a ∧ a ≤ m := by
  have hfold : ∀ (l : List Int) (a : Int), (l.foldl max a = a ∨ l.foldl max a ∈ l) ∧ a ≤ l.foldl max a ∧
      ∀ b ∈ l, b ≤ l.foldl max a := by
    intro l
    induction l with
    | nil => intro a; simp
    | cons b l ih =>
      intro a
      obtain ⟨h1, h2, h3⟩ := ih (max a b)
      rw [List.foldl_cons]
      refine ⟨?_, le_trans (le_max_left a b) h2, ?_⟩
      · rcases h1 with h1 | h1
        · rw [h1]
          rcases max_choice a b with h4 | h4 <;> rw [h4]
          · exact Or.inl rfl
          · exact Or.inr (by simp)
        · exact Or.inr (List.mem_cons_of_mem _ h1)
      · intro c hc
        rcases List.mem_cons.mp hc with rfl | hc
        · exact le_trans (le_max_right a c) h2
        · exact h3 c hc
  unfold fitSage at hf
  by_cases h1 : y.length ≠ nn.nodes g
  · rw [if_pos h1] at hf; simp at hf
  rw [if_neg h1] at hf
  cases y with
  | nil => simp [maxLabel] at hf
  | cons a0 l =>
    obtain ⟨g1, g2, g3⟩ := hfold l a0
    simp only [maxLabel] at hf
    generalize hm : l.foldl max a0 = m at *
    by_cases h2 : m + 1 < 0
    · rw [if_pos h2] at hf; simp at hf
    rw [if_neg h2] at hf
    have key : st'.classes = some (0, (List.range (m + 1).toNat).map fun (i : Nat) => (i : Int)) ∧
        r = (nn.nodes g, (m + 1).toNat) := by
      cases hi : nn.init g (m + 1).toNat ((h.seed.map nn.manualSeed).getD w) with
      | mk res w1 =>
        rw [hi] at hf
        cases res with
        | error e => simp at hf
        | ok p0 =>
          simp only at hf
          cases ht : sageEpochs nn g (a0 :: l) h.maxEpochs.toNat p0 w1 with
          | mk pw err =>
            obtain ⟨p1, w2⟩ := pw
            rw [ht] at hf
            cases err with
            | some e => simp at hf
            | none =>
              simp only [Prod.mk.injEq, Except.ok.injEq] at hf
              obtain ⟨⟨rfl, rfl⟩, rfl⟩ := hf
              exact ⟨rfl, rfl⟩
    obtain ⟨hcl, rfl⟩ := key
    have hcs : ∀ a, a ∈ ((List.range (m + 1).toNat).map fun (i : Nat) => (i : Int)) ↔ 0 ≤ a ∧ a ≤ m := by
      intro a
      rw [List.mem_map]
      constructor
      · rintro ⟨i, hi, rfl⟩
        rw [List.mem_range] at hi
        omega
      · rintro ⟨h3, h4⟩
        exact ⟨a.toNat, List.mem_range.mpr (by omega), by omega⟩
    refine ⟨m, ?_, ?_, by omega, not_not.mp h1, by simp only; omega, ⟨_, hcl, hcs⟩, ?_⟩
    · rcases g1 with g1 | g1
      · rw [g1]; simp
      · exact List.mem_cons_of_mem _ g1
    · intro a ha
      rcases List.mem_cons.mp ha with rfl | ha
      · exact g2
      · exact g3 a ha
    · intro g' pred hp a ha
      unfold sagePredict at hp
      cases hmo : st'.model with
      | none => rw [hmo] at hp; simp at hp
      | some p =>
        rw [hmo, hcl] at hp
        simp only [decode] at hp
        have hF := mapM_ok.mp hp
        obtain ⟨k, hk, hka⟩ := List.getElem_of_mem ha
        have hg := List.forall₂_iff_get.mp hF
        have hk' := hg.2 k (by rw [hg.1]; exact hk) hk
        simp only [List.get_eq_getElem, hka] at hk'
        rw [← hcs]
        unfold classAt at hk'
        split at hk'
        · next c hc => exact Except.ok.inj hk' ▸ List.mem_of_getElem? hc
        · cases hk'

end

/-! ### A small network -/

/-- The row with a one at position `v`. -/
def hot (c v : Nat) : List ℚ := (List.range c).map fun i => if i = v then 1 else 0

theorem hot_sum {c v : Nat} (h : v < c) : (hot c v).sum = 1 := by
  unfold hot
  induction c with
  | zero => omega
  | succ c ih =>
    rw [List.range_succ, List.map_append, List.sum_append]
    by_cases hv : v = c
    · subst hv
      have : ((List.range v).map fun i => if i = v then (1 : ℚ) else 0) = (List.range v).map fun _ => 0 :=
        List.map_congr_left fun i hi => by rw [if_neg (by have := List.mem_range.mp hi; omega)]
      rw [this]
      simp
    · rw [ih (by omega)]
      simp [Ne.symm hv]

/-- Weights: the numbers of inputs and outputs, and a number to which training adds.  With `most` classes or more a
step raises, as if memory ran out. -/
def tiny (R : Type) (most : Nat) : Nn R (Nat × Nat × Nat) Nat ℚ where
  manualSeed s := s.toNat
  init f c w := (.ok (f, c, w), w + 1)
  randperm w n := (List.range n, w + 1)
  step p B w := if most ≤ p.2.1 then (.error .runtimeError, w) else (.ok (p.1, p.2.1, p.2.2 + (B.map Prod.snd).sum), w)
  inputs p := p.1
  logits p _ := hot p.2.1 (p.2.2 % p.2.1)
  softmax l := hot l.length (argmax l)

theorem tiny_lawful (R : Type) (most : Nat) : Lawful (tiny R most) (fun p => p.2.1) where
  perm _ _ := List.Perm.refl _
  init f c w p h := by
    obtain rfl := Except.ok.inj h
    exact ⟨rfl, rfl⟩
  step p B w q h := by
    simp only [tiny] at h
    by_cases hm : most ≤ p.2.1
    · rw [if_pos hm] at h; cases h
    · rw [if_neg hm] at h
      obtain rfl := Except.ok.inj h
      exact ⟨rfl, rfl⟩
  logits p r := by simp [tiny, hot]
  softmax l := by simp [tiny, hot]
  dist l h := by
    refine ⟨fun x hx => ?_, hot_sum ?_⟩
    · obtain ⟨i, -, rfl⟩ := List.mem_map.mp hx
      split_ifs <;> norm_num
    · obtain ⟨m, h1, -⟩ := argmax_firstMax h
      exact (List.getElem?_eq_some_iff.mp h1).1

/-- Two epochs in batches of two. -/
def hyp (seed : Option Int) : Hyper := ⟨2, 2, seed, true, true, [4]⟩

/-- Three rows of one column, with labels. -/
def rows3 : Dense ℚ := ⟨0, .vec [1, 2, 3]⟩

/-- A fit meets the hypotheses of the theorems on training, reproducibility and answers: seven goes in, the classes are
5 and 7, and two epochs of steps are made. -/
example : fitMlp (tiny (List ℚ) 9) (hyp (some 3)) NetState.fresh 8 (some rows3) (some ⟨0, [7, 5, 7]⟩) =
    ((⟨some (0, [5, 7]), some (1, 2, 7), none⟩, 6), .ok (3, 1, 2)) := by decide +kernel

example : densePredict (tiny (List ℚ) 9) ⟨some (0, [5, 7]), some (1, 2, 7), none⟩ (some rows3) =
    .ok ([7, 7, 7] : List Int) := by decide +kernel

example : fitLogreg (tiny (List ℚ) 9) (hyp (some 3)) NetState.fresh 8 (some rows3) (some ⟨0, [7, 5, 7]⟩) =
    ((⟨some (0, [5, 7]), some (1, 2, 12), none⟩, 5), .ok (3, 1, 2)) := by decide +kernel

/-- Three pictures of one channel and one by two pixels. -/
def pics3 : Img ℚ := ⟨0, [3, 1, 2], [[1, 2], [3, 4], [5, 6]]⟩

/-- The same as rows. -/
def flat3 : Img ℚ := ⟨0, [3, 2], [[1, 2], [3, 4], [5, 6]]⟩

example : fitConv (tiny (Pic ℚ) 9) (hyp (some 3)) none NetState.fresh 8 (some pics3) (some ⟨0, [7, 5, 7]⟩) =
    ((⟨some (0, [5, 7]), some (1, 2, 7), some (1, 1, 2)⟩, 6), .ok (3, 2, 2)) := by decide +kernel

example : imgPredict (tiny (Pic ℚ) 9) none ⟨some (0, [5, 7]), some (1, 2, 7), some (1, 1, 2)⟩ (some flat3) =
    .ok ([7, 7, 7] : List Int) := by decide +kernel

example : fitPre (tiny (Pic ℚ) 9) (hyp (some 3)) none NetState.fresh 8 (some pics3) (some ⟨0, [7, 5, 7]⟩) =
    ((⟨some (0, [5, 7]), some (0, 2, 7), some (1, 1, 2)⟩, 6), .ok (3, 2, 2)) := by decide +kernel

example : fitLoader (tiny (List ℚ) 9) (hyp (some 3)) NetState.fresh 8 0 1 [[1], [2], [3]] ⟨0, [7, 5, 7]⟩ =
    ((⟨some (0, [5, 7]), some (1, 2, 7), none⟩, 4), .ok (3, 1, 2)) := by decide +kernel

/-- The hypotheses of `C159_accepts` and `C159_failed_fit_partial`: a network that never raises. -/
def calm (R : Type) : Nn R (Nat × Nat × Nat) Nat ℚ :=
  { tiny R 9 with step := fun p B w => (.ok (p.1, p.2.1, p.2.2 + (B.map Prod.snd).sum), w) }

example : (∀ f c w, ∃ q, ((calm (List ℚ)).init f c w).1 = .ok q) ∧
    (∀ p B w, ∃ q, ((calm (List ℚ)).step p B w).1 = .ok q) ∧
    fitMlp (calm (List ℚ)) (hyp (some 3)) NetState.fresh 8 (some rows3) (some ⟨0, [7, 5]⟩) =
      ((NetState.fresh, 8), .error .validation) :=
  ⟨fun _ _ _ => ⟨_, rfl⟩, fun _ _ _ => ⟨_, rfl⟩, by decide +kernel⟩

/-! ### What does not hold -/

/-- **C159 (logistic regression is not reproducible).**  The same data, arguments and seed give different networks,
because the layer is created before the generator is seeded. -/
theorem C159_logreg_violated : ∃ (nn : Nn (List ℚ) (Nat × Nat × Nat) Nat ℚ) (outputs : Nat × Nat × Nat → Nat),
    Lawful nn outputs ∧ ∃ (h : Hyper) (X : Dense ℚ) (y : Targets Int) (w1 w2 : Nat)
      (st1 st2 : NetState Int (Nat × Nat × Nat)) (v1 v2 : Nat) (r : Nat × Nat × Nat), h.seed = some 3 ∧
      fitLogreg nn h NetState.fresh w1 (some X) (some y) = ((st1, v1), .ok r) ∧
      fitLogreg nn h NetState.fresh w2 (some X) (some y) = ((st2, v2), .ok r) ∧ st1.model ≠ st2.model ∧
      densePredict nn st1 (some X) ≠ densePredict nn st2 (some X) :=
  ⟨tiny _ 9, _, tiny_lawful _ 9, hyp (some 3), rows3, ⟨0, [7, 5, 7]⟩, 8, 9,
    ⟨some (0, [5, 7]), some (1, 2, 12), none⟩, ⟨some (0, [5, 7]), some (1, 2, 13), none⟩, 5, 5, (3, 1, 2), rfl,
    by decide +kernel, by decide +kernel, by decide +kernel, by decide +kernel⟩

/-- **C159 (failed fit, not kept).**  When a step of a second fit raises, the classifier keeps the network of the first
fit but already has the classes of the second: it goes on answering, with labels that belong to other data. -/
theorem C159_failed_fit_violated : ∃ (nn : Nn (List ℚ) (Nat × Nat × Nat) Nat ℚ) (outputs : Nat × Nat × Nat → Nat),
    Lawful nn outputs ∧ ∃ (h : Hyper) (X : Dense ℚ) (y1 y2 : Targets Int) (st1 st2 : NetState Int (Nat × Nat × Nat))
      (v1 v2 : Nat) (r : Nat × Nat × Nat) (pred1 pred2 : List Int),
      fitMlp nn h NetState.fresh 0 (some X) (some y1) = ((st1, v1), .ok r) ∧
      densePredict nn st1 (some X) = .ok pred1 ∧
      fitMlp nn h st1 v1 (some X) (some y2) = ((st2, v2), .error .runtimeError) ∧
      densePredict nn st2 (some X) = .ok pred2 ∧ ∀ l ∈ pred2, l ∉ y1.flat :=
  ⟨tiny _ 3, _, tiny_lawful _ 3, hyp (some 3), rows3, ⟨0, [7, 5, 7]⟩, ⟨0, [1, 2, 3]⟩,
    ⟨some (0, [5, 7]), some (1, 2, 7), none⟩, ⟨some (0, [1, 2, 3]), some (1, 2, 7), none⟩, 6, 5, (3, 1, 2), [7, 7, 7],
    [2, 2, 2], by decide +kernel, by decide +kernel, by decide +kernel, by decide +kernel, by decide⟩

/-- **C159 (failed image fit).**  A fit that is refused because the labels do not match has already replaced the shape:
the classifier, still fitted, refuses its own training data. -/
theorem C159_image_shape_violated : ∃ (nn : Nn (Pic ℚ) (Nat × Nat × Nat) Nat ℚ) (outputs : Nat × Nat × Nat → Nat),
    Lawful nn outputs ∧ ∃ (h : Hyper) (X X' : Img ℚ) (y : Targets Int) (st1 st2 : NetState Int (Nat × Nat × Nat))
      (v1 v2 : Nat) (r : Nat × Nat × Nat) (pred : List Int),
      fitConv nn h none NetState.fresh 0 (some X) (some y) = ((st1, v1), .ok r) ∧
      imgPredict nn none st1 (some X) = .ok pred ∧
      fitConv nn h none st1 v1 (some X') (some y) = ((st2, v2), .error .validation) ∧
      imgPredict nn none st2 (some X) = .error .validation :=
  ⟨tiny _ 9, _, tiny_lawful _ 9, hyp (some 3), pics3, ⟨0, [1, 2, 2], [[1, 2, 3, 4]]⟩, ⟨0, [7, 5, 7]⟩,
    ⟨some (0, [5, 7]), some (1, 2, 7), some (1, 1, 2)⟩, ⟨some (0, [5, 7]), some (1, 2, 7), some (1, 2, 2)⟩, 6, 6,
    (3, 2, 2), [7, 7, 7], by decide +kernel, by decide +kernel, by decide +kernel, by decide +kernel⟩

/-- **C159 (history in image fits).**  Rows are read in the shape of an earlier fit, not in the one given to the
constructor: a new classifier and one that was fitted before are trained on different samples. -/
theorem C159_image_history_violated : ∃ (nn : Nn (Pic ℚ) (Nat × Nat × Nat) Nat ℚ) (outputs : Nat × Nat × Nat → Nat),
    Lawful nn outputs ∧ ∃ (h : Hyper) (cfg : Option (Nat × Nat × Nat)) (X X' : Img ℚ) (y : Targets Int)
      (st1 st2 st3 : NetState Int (Nat × Nat × Nat)) (v1 v2 v3 : Nat) (r1 r2 r3 : Nat × Nat × Nat),
      fitConv nn h cfg NetState.fresh 0 (some X') (some y) = ((st1, v1), .ok r1) ∧
      fitConv nn h cfg st1 v1 (some X) (some y) = ((st2, v2), .ok r2) ∧
      fitConv nn h cfg NetState.fresh v1 (some X) (some y) = ((st3, v3), .ok r3) ∧
      st2.shape ≠ st3.shape ∧ st3.shape = cfg :=
  ⟨tiny _ 9, _, tiny_lawful _ 9, hyp (some 3), some (2, 1, 1), flat3, pics3, ⟨0, [7, 5, 7]⟩,
    ⟨some (0, [5, 7]), some (1, 2, 7), some (1, 1, 2)⟩, ⟨some (0, [5, 7]), some (1, 2, 7), some (1, 1, 2)⟩,
    ⟨some (0, [5, 7]), some (2, 2, 7), some (2, 1, 1)⟩, 6, 6, 6, (3, 2, 2), (3, 2, 2), (3, 2, 2), by decide +kernel,
    by decide +kernel, by decide +kernel, by decide +kernel, by decide +kernel⟩

/-- **C159 (failed fit of a pretrained network).**  A first fit that is refused because the labels do not match leaves an
untrained network that answers. -/
theorem C159_pretrained_violated : ∃ (nn : Nn (Pic ℚ) (Nat × Nat × Nat) Nat ℚ) (outputs : Nat × Nat × Nat → Nat),
    Lawful nn outputs ∧ ∃ (h : Hyper) (X : Img ℚ) (y : Targets Int) (st : NetState Int (Nat × Nat × Nat)) (v : Nat)
      (pred : List Int), fitPre nn h none NetState.fresh 0 (some X) (some y) = ((st, v), .error .validation) ∧
      imgPredict nn none st (some X) = .ok pred :=
  ⟨tiny _ 9, _, tiny_lawful _ 9, hyp (some 3), pics3, ⟨0, [7, 5]⟩,
    ⟨some (0, [5, 7]), some (0, 2, 3), some (1, 1, 2)⟩, 4, [7, 7, 7], by decide +kernel, by decide +kernel⟩

/-- **C159 (failed and empty fits with a data loader).**  A batch size of zero is refused only after an untrained
network was stored, and it answers; zero epochs are accepted, and the network is untrained. -/
theorem C159_loader_violated : ∃ (nn : Nn (List ℚ) (Nat × Nat × Nat) Nat ℚ) (outputs : Nat × Nat × Nat → Nat),
    Lawful nn outputs ∧ ∃ (rows : List (List ℚ)) (y : Targets Int) (st : NetState Int (Nat × Nat × Nat)) (v : Nat)
      (scores : List (List ℚ)), fitLoader nn ⟨0, 2, some 3, true, true, []⟩ NetState.fresh 0 0 1 rows y =
        ((st, v), .error .valueError) ∧ loaderScores nn st 0 rows = .ok scores ∧
      fitLoader nn ⟨2, 0, some 3, true, true, []⟩ NetState.fresh 0 0 1 rows y = ((st, v), .ok (3, 1, 2)) ∧
      (nn.init 1 2 (nn.manualSeed 3)).1 = .ok (st.model.getD (0, 0, 0)) :=
  ⟨tiny _ 9, _, tiny_lawful _ 9, [[1], [2], [3]], ⟨0, [7, 5, 7]⟩, ⟨some (0, [5, 7]), some (1, 2, 3), none⟩, 4,
    [[0, 1], [0, 1], [0, 1]], by decide +kernel, by decide +kernel, by decide +kernel, by decide +kernel⟩

/-- A graph network for the witness: it always prefers the position `1`. -/
def tinyGraph : GraphNn Nat Nat Nat ℚ where
  manualSeed s := s.toNat
  nodes g := g
  init _ c w := (.ok c, w)
  step p _ _ w := (.ok p, w)
  logits p g := List.replicate g (hot p 1)
  softmax l := l

/-- **C159 (graph network).**  The inductive GraphSAGE classifier predicts a label that no training node has. -/
theorem C159_sage_violated : ∃ (nn : GraphNn Nat Nat Nat ℚ) (h : Hyper) (g : Nat) (y pred : List Int)
    (st : NetState Int Nat) (v : Nat) (r : Nat × Nat), fitSage nn h NetState.fresh 0 g y = ((st, v), .ok r) ∧
      sagePredict nn st g = .ok pred ∧ pred ≠ [] ∧ ∀ l ∈ pred, l ∉ y :=
  ⟨tinyGraph, hyp (some 3), 2, [0, 2], [1, 1], ⟨some (0, [0, 1, 2]), some 3, none⟩, 3, (2, 3), by decide +kernel,
    by decide +kernel, by decide, by decide⟩

end ModSSC.Supervised.Net
