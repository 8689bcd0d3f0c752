import Verif.Supervised.AudioModel
import Verif.Supervised.NetProps

/-!
# The pretrained audio classifier (C201)
-/

namespace ModSSC.Supervised.AudioPre.Spec
open ModSSC Supervised

/-- How the axes of a tensor are read: `n` waveforms of length `t`. -/
def Axes (dims : List Nat) (n t : Nat) : Prop := (dims = [t] ∧ n = 1) ∨ dims = [n, t] ∨ dims = [n, 1, t]

/-- What is assumed of the networks: `randperm` permutes, a backbone gives one feature vector of `width` per waveform, whatever it has
learned, the head has the asked sizes and keeps them, softmax gives distributions. -/
structure Lawful {B H W K : Type} [Field K] [LinearOrder K] (A : Audio B H W K) (width : Nat) (outputs : H → Nat) : Prop where
  perm : ∀ w n, (A.randperm w n).1.Perm (List.range n)
  feats : ∀ b m waves, ∃ fs, features (A.out b m waves) = .ok fs ∧ fs.length = waves.length ∧ ∀ f ∈ fs, f.length = width
  init : ∀ f c w, outputs (A.headInit f c w).1 = c ∧ A.headInputs (A.headInit f c w).1 = f
  stepHead : ∀ h batch, outputs (A.stepHead h batch) = outputs h ∧ A.headInputs (A.stepHead h batch) = A.headInputs h
  stepBoth : ∀ b h batch, outputs (A.stepBoth b h batch).2 = outputs h ∧ A.headInputs (A.stepBoth b h batch).2 = A.headInputs h
  logits : ∀ h f, (A.headLogits h f).length = outputs h
  softmax : ∀ l, (A.softmax l).length = l.length
  dist : ∀ l, l ≠ [] → (∀ x ∈ A.softmax l, 0 ≤ x) ∧ (A.softmax l).sum = 1

end ModSSC.Supervised.AudioPre.Spec

namespace ModSSC.Supervised.AudioPre
open ModSSC Supervised Supervised.Net Supervised.Spec Net.Spec Spec

/-! ### Waveforms and features -/

theorem prepare_of {K : Type} (X : Waves K) (n t : Nat) (h : Axes X.dims n t) : ∃ rows, prepare X = .ok rows ∧ rows.length = n ∧
    ∀ r ∈ rows, r.length = t := by
  unfold prepare
  rcases h with ⟨h, rfl⟩ | h | h <;> rw [h] <;> simp

theorem axes_of {K : Type} (X : Waves K) (rows : List (List K)) (h : prepare X = .ok rows) : ∃ t, Axes X.dims rows.length t := by
  unfold prepare at h
  rcases hd : X.dims with _ | ⟨a, _ | ⟨b, _ | ⟨c, _ | ⟨d, l⟩⟩⟩⟩ <;> rw [hd] at h <;> simp only at h
  · cases h
  · obtain rfl := Except.ok.inj h
    exact ⟨a, .inl ⟨rfl, rfl⟩⟩
  · obtain rfl := Except.ok.inj h
    exact ⟨b, .inr (.inl (by simp))⟩
  · by_cases hb : b ≠ 1
    · rw [if_pos hb] at h; cases h
    · rw [if_neg hb] at h
      obtain rfl := Except.ok.inj h
      rw [not_not] at hb
      exact ⟨c, .inr (.inr (by simp [hb]))⟩
  · cases h

section
variable {K : Type} [Field K]

theorem foldl_getD (l : List (List K)) (j : Nat) {l' : List (List K)} (h : l.Perm l') :
    (l.map fun f => f.getD j 0).sum = (l'.map fun f => f.getD j 0).sum := (h.map _).sum_eq

/-- **C201 (features).**  Of a tuple the first entry counts and of a list the last.  Features with a time axis are averaged: the order of
the frames does not matter, and if all are equal the result is each of them. -/
theorem C201_features :
    (∀ (x : List (List K)), features (.t2 x) = .ok x) ∧
    (∀ (o : Out K) (l : List (Out K)), (∀ m, o ≠ .tuple m) → (∀ m, o ≠ .list m) → features (.tuple (o :: l)) = features o ∧
      features (.list (l ++ [o])) = features o ∧ features (.tuple (.list (l ++ [o]) :: l)) = features o) ∧
    (∀ (F : Nat) (x x' : List (List (List K))), (∀ fr ∈ x, fr ≠ [] ∧ ∀ f ∈ fr, f.length = F) → List.Forall₂ List.Perm x x' →
      features (.t3 x) = features (.t3 x')) ∧
    ∀ (F k : Nat) (x : List (List K)), (k : K) ≠ 0 → (∀ f ∈ x, f.length = F) → features (.t3 (x.map (List.replicate k))) = .ok x := by
  refine ⟨fun x => rfl, ?_, ?_, ?_⟩
  · intro o l h1 h2
    have hlast : (l ++ [o]).getLast? = some o := by simp
    have h0 : ∀ o' : Out K, o' = o → (match o' with
        | .tuple l | .list l => match l.getLast? with
          | none => (Except.error .indexError : Except PyErr (Out K))
          | some a => .ok a
        | o => .ok o) = .ok o := by
      rintro o' rfl
      cases o' with
      | tuple m => exact absurd rfl (h1 m)
      | list m => exact absurd rfl (h2 m)
      | _ => rfl
    have hu : unwrap o = .ok o := by
      unfold unwrap
      cases o with
      | tuple m => exact absurd rfl (h1 m)
      | list m => exact absurd rfl (h2 m)
      | _ => rfl
    have hu1 : unwrap (.tuple (o :: l)) = .ok o := by
      show (match o with
        | .tuple l | .list l => match l.getLast? with
          | none => (Except.error .indexError : Except PyErr (Out K))
          | some a => .ok a
        | o => .ok o) = .ok o
      exact h0 o rfl
    have hu2 : unwrap (.list (l ++ [o])) = .ok o := by
      show (match (l ++ [o]).getLast? with
          | none => (Except.error .indexError : Except PyErr (Out K))
          | some a => .ok a) = .ok o
      rw [hlast]
    have hu3 : unwrap (.tuple (.list (l ++ [o]) :: l)) = .ok o := by
      show (match (l ++ [o]).getLast? with
          | none => (Except.error .indexError : Except PyErr (Out K))
          | some a => .ok a) = .ok o
      rw [hlast]
    unfold features
    rw [hu, hu1, hu2, hu3]
    exact ⟨rfl, rfl, rfl⟩
  · intro F x x' hx hp
    show Except.ok (x.map meanTime) = Except.ok (x'.map meanTime)
    congr 1
    induction hp with
    | nil => rfl
    | @cons a b l l' hab _ ih =>
      rw [List.map_cons, List.map_cons, ih fun fr hfr => hx fr (List.mem_cons_of_mem _ hfr)]
      congr 1
      obtain ⟨hne, hF⟩ := hx a List.mem_cons_self
      have hhead : ∀ c : List (List K), c ≠ [] → (∀ f ∈ c, f.length = F) → (c.headD []).length = F := by
        intro c hc hcF
        cases c with
        | nil => exact absurd rfl hc
        | cons f c => exact hcF f List.mem_cons_self
      unfold meanTime
      rw [hhead a hne hF, hhead b (fun e => hne (by rw [e] at hab; exact hab.eq_nil)) (fun f hf => hF f (hab.mem_iff.mpr hf))]
      refine List.map_congr_left fun j _ => ?_
      rw [foldl_getD a j hab, hab.length_eq]
  · intro F k x hk hx
    show Except.ok ((x.map (List.replicate k)).map meanTime) = Except.ok x
    congr 1
    rw [List.map_map]
    conv_rhs => rw [← List.map_id x]
    refine List.map_congr_left fun f hf => ?_
    have hk0 : k ≠ 0 := fun e => hk (by rw [e]; simp)
    obtain ⟨m, rfl⟩ := Nat.exists_eq_succ_of_ne_zero hk0
    show meanTime (List.replicate (m + 1) f) = f
    unfold meanTime
    rw [show ((List.replicate (m + 1) f).headD []) = f by rw [List.replicate_succ]; rfl]
    apply List.ext_getElem (by simp)
    intro i h1 h2
    simp only [List.getElem_map, List.getElem_range, List.map_replicate, List.sum_replicate, List.length_replicate, nsmul_eq_mul]
    rw [mul_div_cancel_left₀ _ hk, List.getD_eq_getElem _ _ h2]

example : features (K := ℚ) (.tuple [.list [.noTensor, .t3 [[[1, 2], [3, 6]], [[5, 5], [5, 5]]]]]) = .ok [[2, 4], [5, 5]] := by decide +kernel

end

/-! ### Fits -/

section
variable {B H W K α : Type} [Field K] [LinearOrder K] [IsStrictOrderedRing K] [LinearOrder α]

theorem step_ok (A : Audio B H W K) (width : Nat) (outputs : H → Nat) (hA : Lawful A width outputs) (frozen : Bool) (p : B × H)
    (batch : List (List K × Nat)) (hp : A.headInputs p.2 = width) : ∃ q, step A frozen p batch = .ok q ∧ outputs q.2 = outputs p.2 ∧
      A.headInputs q.2 = width ∧ (frozen = true → q.1 = p.1) := by
  obtain ⟨fs, h1, -, h3⟩ := hA.feats p.1 (!frozen) (batch.map Prod.fst)
  have hin : headIn A p.1 p.2 (!frozen) (batch.map Prod.fst) = .ok fs := by
    unfold headIn
    rw [ebind_of_ok h1, if_neg]
    simp only [List.any_eq_true, decide_eq_true_eq, not_exists, not_and, not_not]
    exact fun f hf => (h3 f hf).trans hp.symm
  unfold step
  rw [ebind_of_ok hin]
  cases frozen with
  | true => exact ⟨_, rfl, (hA.stepHead _ _).1, ((hA.stepHead _ _).2).trans hp, fun _ => rfl⟩
  | false => exact ⟨_, rfl, (hA.stepBoth _ _ _).1, ((hA.stepBoth _ _ _).2).trans hp, fun h => by cases h⟩

/-- What training keeps. -/
def Kept (A : Audio B H W K) (width : Nat) (outputs : H → Nat) (frozen : Bool) (p q : B × H) : Prop :=
  outputs q.2 = outputs p.2 ∧ A.headInputs q.2 = width ∧ (frozen = true → q.1 = p.1)

theorem batches_kept (A : Audio B H W K) (width : Nat) (outputs : H → Nat) (hA : Lawful A width outputs) (frozen : Bool)
    (data : List (List K × Nat)) (Bs : List (List Nat)) (p : B × H) (w : W) (hp : A.headInputs p.2 = width) :
    ∃ q w', trainBatches (nnOf A frozen) data Bs p w = ((q, w'), none) ∧ Kept A width outputs frozen p q := by
  induction Bs generalizing p w with
  | nil => exact ⟨p, w, rfl, rfl, hp, fun _ => rfl⟩
  | cons b Bs ih =>
    obtain ⟨q, h1, h2, h3, h4⟩ := step_ok A width outputs hA frozen p (b.filterMap fun i => data[i]?) hp
    obtain ⟨q', w', g1, g2, g3, g4⟩ := ih q w h3
    refine ⟨q', w', ?_, g2.trans h2, g3, fun e => (g4 e).trans (h4 e)⟩
    unfold trainBatches
    have hs : (nnOf A frozen).step p (b.filterMap fun i => data[i]?) w = (.ok q, w) := by
      show (step A frozen p (b.filterMap fun i => data[i]?), w) = _
      rw [h1]
    rw [hs]
    exact g1

theorem epochs_kept (A : Audio B H W K) (width : Nat) (outputs : H → Nat) (hA : Lawful A width outputs) (frozen : Bool)
    (data : List (List K × Nat)) (b e : Nat) (p : B × H) (w : W) (hp : A.headInputs p.2 = width) :
    ∃ q w', trainEpochs (nnOf A frozen) data b e p w = ((q, w'), none) ∧ Kept A width outputs frozen p q := by
  induction e generalizing p w with
  | zero => exact ⟨p, w, rfl, rfl, hp, fun _ => rfl⟩
  | succ e ih =>
    obtain ⟨q, w1, h1, h2, h3, h4⟩ := batches_kept A width outputs hA frozen data
      (Deep.iterBatchIndices data.length b ((nnOf A frozen).randperm w data.length).1) p ((nnOf A frozen).randperm w data.length).2 hp
    obtain ⟨q', w', g1, g2, g3, g4⟩ := ih q w1 h3
    refine ⟨q', w', ?_, g2.trans h2, g3, fun e => (g4 e).trans (h4 e)⟩
    unfold trainEpochs
    simp only [h1]
    exact g1

/-- The parameters and data that are accepted before anything is stored. -/
theorem checkFit_iff (h : Hyper) (X : Option (Waves K)) (y : Option (Targets α)) (X1 : Waves K) (ys : List α) :
    checkFit h X y = .ok (X1, ys) ↔ X = some X1 ∧ (∃ y1, y = some y1 ∧ ys = y1.flat ∧ X1.device = y1.device) ∧ 0 < h.batchSize ∧
      0 < h.maxEpochs ∧ h.lrPositive = true ∧ X1.dims.prod ≠ 0 := by
  unfold checkFit
  cases X with
  | none => simp
  | some X =>
    cases y with
    | none => simp
    | some y =>
      simp only
      by_cases h1 : h.batchSize ≤ 0
      · rw [if_pos h1]; exact ⟨fun h => (by cases h), fun h => absurd h1 (by have := h.2.2.1; omega)⟩
      rw [if_neg h1]
      by_cases h2 : h.maxEpochs ≤ 0
      · rw [if_pos h2]; exact ⟨fun h => (by cases h), fun h => absurd h2 (by have := h.2.2.2.1; omega)⟩
      rw [if_neg h2]
      by_cases h3 : h.lrPositive = false
      · rw [if_pos h3]; exact ⟨fun h => (by cases h), fun h => absurd h.2.2.2.2.1 (by rw [h3]; decide)⟩
      rw [if_neg h3]
      by_cases h4 : X.dims.prod = 0
      · rw [if_pos h4]
        refine ⟨fun h => (by cases h), fun h => ?_⟩
        obtain rfl := Option.some.inj h.1
        exact absurd h4 h.2.2.2.2.2
      rw [if_neg h4]
      by_cases h5 : X.device ≠ y.device
      · rw [if_pos h5]
        refine ⟨fun h => (by cases h), fun h => ?_⟩
        obtain rfl := Option.some.inj h.1
        obtain ⟨y1, e, -, hd⟩ := h.2.1
        obtain rfl := Option.some.inj e
        exact absurd hd h5
      rw [if_neg h5]
      constructor
      · intro h
        obtain ⟨rfl, rfl⟩ := Prod.mk.inj (Except.ok.inj h)
        exact ⟨rfl, ⟨y, rfl, rfl, not_not.mp h5⟩, by omega, by omega, by simpa using h3, h4⟩
      · rintro ⟨e1, ⟨y1, e2, rfl, -⟩, -⟩
        rw [Option.some.inj e1, Option.some.inj e2]

/-- What a successful fit leaves. -/
theorem fit_of (A : Audio B H W K) (width : Nat) (outputs : H → Nat) (hA : Lawful A width outputs) (frozen : Bool) (h : Hyper)
    (st : AudioState α B H) (w : W) (X : Waves K) (y : Targets α) (b0 : B) (hb : A.pretrained = .ok b0) (n t : Nat)
    (hX : Axes X.dims n t) (hprod : X.dims.prod ≠ 0) (hn : n = y.flat.length) (hd : X.device = y.device) (h1 : 0 < h.batchSize)
    (h2 : 0 < h.maxEpochs) (h3 : h.lrPositive = true) : ∃ rows b hd' w', prepare X = .ok rows ∧ rows.length = n ∧
      fit A frozen h st w (some X) (some y) =
        ((⟨some (X.device, Labels.unique y.flat), some b, some hd'⟩, w'), .ok (n, width, (Labels.unique y.flat).length)) ∧
      TrainedOn (nnOf A frozen) rows y.flat (Labels.unique y.flat) h.batchSize.toNat h.maxEpochs.toNat
        (b0, (A.headInit width (Labels.unique y.flat).length (A.manualSeed h.seedOr0)).1) (b, hd') ∧
      outputs hd' = (Labels.unique y.flat).length ∧ A.headInputs hd' = width ∧ (frozen = true → b = b0) := by
  obtain ⟨rows, hr, hlen, -⟩ := prepare_of X n t hX
  have hn0 : n ≠ 0 := by
    rcases hX with ⟨-, e⟩ | e | e
    · omega
    · intro e0; rw [e, e0] at hprod; simp at hprod
    · intro e0; rw [e, e0] at hprod; simp at hprod
  obtain ⟨fs, f1, f2, f3⟩ := hA.feats b0 false (rows.take 1)
  have hw : (fs.headD []).length = width := by
    cases fs with
    | nil =>
      rw [List.length_nil, List.length_take, hlen] at f2
      omega
    | cons f fs => exact f3 f List.mem_cons_self
  have hlen2 : rows.length = y.flat.length := hlen.trans hn
  obtain ⟨⟨b, hd'⟩, w', e1, e2, e3, e4⟩ := epochs_kept A width outputs hA frozen (encoded rows y.flat) h.batchSize.toNat h.maxEpochs.toNat
    (b0, (A.headInit width (Labels.unique y.flat).length (A.manualSeed h.seedOr0)).1)
    (A.headInit width (Labels.unique y.flat).length (A.manualSeed h.seedOr0)).2 (hA.init _ _ _).2
  refine ⟨rows, b, hd', w', hr, hlen, ?_, trainEpochs_ok hA.perm hlen2 (by omega) e1, e2.trans (hA.init _ _ _).1, e3, e4⟩
  unfold fit
  rw [(checkFit_iff h (some X) (some y) X y.flat).mpr ⟨rfl, ⟨y, rfl, rfl, hd⟩, h1, h2, h3, hprod⟩]
  simp only
  rw [hb]
  simp only
  rw [ebind_of_ok hr, if_neg (by simpa using hlen2), ebind_of_ok f1]
  simp only
  have hcl : (Labels.encodeLabels y.flat).2 = Labels.unique y.flat := rfl
  rw [hcl, hw, e1]
  simp only [hlen]

/-- **C201 (accepted).**  With a backbone that can be loaded, a fit succeeds exactly if there are waveforms and labels as tensors on one
device, the waveforms as one axis (a single one), two, or three with one channel, not empty, with as many labels as waveforms, and batch
size, epochs and learning rate are positive. -/
theorem C201_accepts (A : Audio B H W K) (width : Nat) (outputs : H → Nat) (hA : Lawful A width outputs) (frozen : Bool) (h : Hyper)
    (st : AudioState α B H) (w : W) (X : Option (Waves K)) (y : Option (Targets α)) (b0 : B) (hb : A.pretrained = .ok b0) :
    (∃ r, (fit A frozen h st w X y).2 = .ok r) ↔ ∃ X1 y1 n t, X = some X1 ∧ y = some y1 ∧ Axes X1.dims n t ∧ 0 < n ∧ 0 < t ∧
      n = y1.flat.length ∧ X1.device = y1.device ∧ 0 < h.batchSize ∧ 0 < h.maxEpochs ∧ h.lrPositive = true := by
  have hprod : ∀ (dims : List Nat) (n t : Nat), Axes dims n t → (dims.prod ≠ 0 ↔ 0 < n ∧ 0 < t) := by
    rintro dims n t (⟨rfl, rfl⟩ | rfl | rfl) <;> simp <;> omega
  constructor
  · rintro ⟨r, hr⟩
    unfold fit at hr
    cases hc : checkFit h X y with
    | error e => rw [hc] at hr; cases hr
    | ok d =>
      obtain ⟨X1, ys⟩ := d
      obtain ⟨rfl, ⟨y1, rfl, rfl, hd⟩, h1, h2, h3, h4⟩ := (checkFit_iff h X y X1 ys).mp hc
      rw [hc] at hr
      simp only at hr
      rw [hb] at hr
      simp only at hr
      cases hp : prepare X1 with
      | error e => rw [hp] at hr; cases hr
      | ok rows =>
        obtain ⟨t, hax⟩ := axes_of X1 rows hp
        by_cases hl : rows.length ≠ y1.flat.length
        · rw [hp] at hr
          simp only [bind, Except.bind] at hr
          rw [if_pos hl] at hr
          cases hr
        · have := (hprod _ _ _ hax).mp h4
          exact ⟨X1, y1, rows.length, t, rfl, rfl, hax, this.1, this.2, not_not.mp hl, hd, h1, h2, h3⟩
  · rintro ⟨X1, y1, n, t, rfl, rfl, hax, hn0, ht0, hn, hd, h1, h2, h3⟩
    obtain ⟨_, _, _, _, -, -, e, -⟩ := fit_of A width outputs hA frozen h st w X1 y1 b0 hb n t hax ((hprod _ _ _ hax).mpr ⟨hn0, ht0⟩) hn hd h1 h2 h3
    rw [e]
    exact ⟨_, rfl⟩

/-- **C201 (trained).**  After a successful fit the classes are the labels in increasing order, and backbone and head come from the
pretrained backbone and a head drawn from the seed by the given number of epochs, each a pass over every waveform once with its own label.
A frozen backbone is the pretrained one.  What was fitted before does not matter. -/
theorem C201_trained (A : Audio B H W K) (width : Nat) (outputs : H → Nat) (hA : Lawful A width outputs) (frozen : Bool) (h : Hyper)
    (X : Waves K) (y : Targets α) (r : Nat × Nat × Nat) (b0 : B) (hb : A.pretrained = .ok b0)
    (hok : ∃ st w, (fit A frozen h st w (some X) (some y)).2 = .ok r) :
    ∃ rows b hd w', prepare X = .ok rows ∧ (∀ st w, fit A frozen h st w (some X) (some y) =
        ((⟨some (X.device, Labels.unique y.flat), some b, some hd⟩, w'), .ok r)) ∧ r = (rows.length, width, (Labels.unique y.flat).length) ∧
      IsClasses y.flat (Labels.unique y.flat) ∧
      TrainedOn (nnOf A frozen) rows y.flat (Labels.unique y.flat) h.batchSize.toNat h.maxEpochs.toNat
        (b0, (A.headInit width (Labels.unique y.flat).length (A.manualSeed h.seedOr0)).1) (b, hd) ∧
      (frozen = true → b = b0) := by
  obtain ⟨st, w, hr⟩ := hok
  obtain ⟨X1, y1, n, t, e1, e2, hax, hn0, ht0, hn, hd, h1, h2, h3⟩ := (C201_accepts A width outputs hA frozen h st w (some X) (some y) b0 hb).mp ⟨r, hr⟩
  obtain rfl := Option.some.inj e1
  obtain rfl := Option.some.inj e2
  have hp : X.dims.prod ≠ 0 := by
    rcases hax with ⟨e, rfl⟩ | e | e <;> rw [e] <;> simp <;> omega
  obtain ⟨rows, b, hd', w', g1, g2, g3, g4, -, -, g7⟩ := fit_of A width outputs hA frozen h st w X y b0 hb n t hax hp hn hd h1 h2 h3
  rw [g3] at hr
  have hr' := Except.ok.inj hr
  have hsame : ∀ st2 w2, fit A frozen h st2 w2 (some X) (some y) = fit A frozen h st w (some X) (some y) := by
    intro st2 w2
    obtain ⟨rows', b', hd2, w2', q1, q2, q3, -⟩ := fit_of A width outputs hA frozen h st2 w2 X y b0 hb n t hax hp hn hd h1 h2 h3
    have key : ∀ (s s' : AudioState α B H) (v v' : W), ∀ z, (fit A frozen h s v (some X) (some y)).2 = .ok z →
        fit A frozen h s v (some X) (some y) = fit A frozen h s' v' (some X) (some y) := by
      intro s s' v v' z hz
      unfold fit at hz ⊢
      cases hc : checkFit h (some X) (some y) with
      | error e => rw [hc] at hz; cases hz
      | ok d =>
        obtain ⟨X1, ys⟩ := d
        rw [hc] at hz
        simp only at hz ⊢
        rw [hb] at hz ⊢
        simp only at hz ⊢
        split at hz
        · cases hz
        · split at hz
          · cases hz
          · rfl
    exact key st2 st w2 w _ (by rw [q3])
  refine ⟨rows, b, hd', w', g1, fun st2 w2 => by rw [hsame st2 w2, g3, hr'], by rw [← hr', g2], unique_isClasses _, g4, g7⟩

/-- **C201 (answers).**  After a successful fit, waveforms on the device of the training data get one distribution over the classes each,
and the class with the largest probability, the first of them if there are several. -/
theorem C201_answers (A : Audio B H W K) (width : Nat) (outputs : H → Nat) (hA : Lawful A width outputs) (frozen : Bool) (h : Hyper)
    (st st' : AudioState α B H) (w w' : W) (X : Waves K) (y : Targets α) (r : Nat × Nat × Nat) (b0 : B) (hb : A.pretrained = .ok b0)
    (hf : fit A frozen h st w (some X) (some y) = ((st', w'), .ok r)) (Q : Waves K) (m t' : Nat) (hQ : Axes Q.dims m t')
    (hd : Q.device = X.device) : ∃ s pred, scores A st' (some Q) = .ok s ∧ predict A st' (some Q) = .ok pred ∧ Answers y.flat m s pred := by
  obtain ⟨X1, y1, n, t, e1, e2, hax, hn0, ht0, hn, hdv, h1, h2, h3⟩ := (C201_accepts A width outputs hA frozen h st w (some X) (some y) b0 hb).mp
    ⟨r, by rw [hf]⟩
  obtain rfl := Option.some.inj e1
  obtain rfl := Option.some.inj e2
  have hp : X.dims.prod ≠ 0 := by
    rcases hax with ⟨e, rfl⟩ | e | e <;> rw [e] <;> simp <;> omega
  obtain ⟨rows, b, hd', v, -, -, g3, -, g5, g6, -⟩ := fit_of A width outputs hA frozen h st w X y b0 hb n t hax hp hn hdv h1 h2 h3
  rw [g3] at hf
  obtain ⟨hs, -⟩ := Prod.mk.inj hf
  obtain ⟨rfl, -⟩ := Prod.mk.inj hs
  obtain ⟨q, hq, hql, -⟩ := prepare_of Q m t' hQ
  obtain ⟨fs, f1, f2, f3⟩ := hA.feats b false q
  -- the head alone as a network on features
  let nn : Nn (List K) H W K :=
    { manualSeed := A.manualSeed
      init := fun f c w => (.ok (A.headInit f c w).1, (A.headInit f c w).2)
      randperm := A.randperm
      step := fun p batch w => (.ok (A.stepHead p batch), w)
      inputs := A.headInputs
      logits := A.headLogits
      softmax := A.softmax }
  have hnn : Net.Spec.Lawful nn outputs := by
    refine ⟨hA.perm, ?_, ?_, hA.logits, hA.softmax, hA.dist⟩
    · intro f c w p hp
      obtain rfl := Except.ok.inj hp
      exact hA.init f c w
    · intro p batch w q hq
      obtain rfl := Except.ok.inj hq
      exact hA.stepHead p batch
  have hne : y.flat ≠ [] := by
    intro e
    rw [e] at hn
    simp at hn
    omega
  obtain ⟨pred, p1, p2⟩ := answers_of hnn hne g5 X.device fs
  have hin : headIn A b hd' false q = .ok fs := by
    unfold headIn
    rw [ebind_of_ok f1, if_neg]
    simp only [List.any_eq_true, decide_eq_true_eq, not_exists, not_and, not_not]
    exact fun f hf => (f3 f hf).trans g6.symm
  have hsc : scores A (⟨some (X.device, Labels.unique y.flat), some b, some hd'⟩ : AudioState α B H) (some Q) =
      .ok (fs.map fun f => A.softmax (A.headLogits hd' f)) := by
    unfold scores
    simp only
    rw [ebind_of_ok hq, if_neg (by simpa using hd), ebind_of_ok hin]
  refine ⟨_, pred, hsc, ?_, ?_⟩
  · unfold predict
    rw [ebind_of_ok hsc]
    exact p1
  · rw [f2, hql] at p2
    exact p2

end

/-- Waveforms in two axes with a channel axis between them. -/
def mono {K : Type} (n t : Nat) (X : Waves K) : Waves K :=
  ⟨X.device, [n, 1, t], fun i => X.cell (match i with | [a, _, c] => [a, c] | _ => [])⟩

/-- A single waveform as a batch of one. -/
def single {K : Type} (t : Nat) (X : Waves K) : Waves K := ⟨X.device, [1, t], fun i => X.cell (i.drop 1)⟩

/-- **C201 (layouts).**  A channel axis of length one changes neither fits nor scores, and a single waveform is a batch of one. -/
theorem C201_layouts {B H W K α : Type} [Field K] [LinearOrder α] (A : Audio B H W K) (frozen : Bool) (h : Hyper) (st : AudioState α B H)
    (w : W) (X : Waves K) (y : Option (Targets α)) (n t : Nat) :
    (X.dims = [n, t] → fit A frozen h st w (some (mono n t X)) y = fit A frozen h st w (some X) y ∧
      scores A st (some (mono n t X)) = scores A st (some X)) ∧
    (X.dims = [t] → fit A frozen h st w (some (single t X)) y = fit A frozen h st w (some X) y ∧
      scores A st (some (single t X)) = scores A st (some X)) := by
  have key : ∀ X' : Waves K, X'.device = X.device → X'.dims.prod = X.dims.prod → prepare X' = prepare X →
      fit A frozen h st w (some X') y = fit A frozen h st w (some X) y ∧ scores A st (some X') = scores A st (some X) := by
    intro X' h1 h2 h3
    constructor
    · unfold fit checkFit
      cases y with
      | none => rfl
      | some y =>
        simp only [h1, h2]
        by_cases g1 : h.batchSize ≤ 0
        · simp only [if_pos g1]
        by_cases g2 : h.maxEpochs ≤ 0
        · simp only [if_neg g1, if_pos g2]
        by_cases g3 : h.lrPositive = false
        · simp only [if_neg g1, if_neg g2, if_pos g3]
        by_cases g4 : X.dims.prod = 0
        · simp only [if_neg g1, if_neg g2, if_neg g3, if_pos g4]
        by_cases g5 : X.device ≠ y.device
        · simp only [if_neg g1, if_neg g2, if_neg g3, if_neg g4, if_pos g5]
        · simp only [if_neg g1, if_neg g2, if_neg g3, if_neg g4, if_neg g5, h1, h3]
    · unfold scores
      simp only [h1, h3]
  constructor
  · intro hd
    refine key _ rfl (by rw [hd]; simp [mono]) ?_
    unfold prepare
    rw [hd]
    simp [mono]
  · intro hd
    refine key _ rfl (by rw [hd]; simp [single]) ?_
    unfold prepare
    rw [hd]
    simp [single]

/-! ### What does not hold -/

namespace AudioDemo

/-- A backbone that has no weights and gives the first sample; a head that knows its outputs and a number. -/
def audio : Audio Unit (Nat × Nat × Nat) Nat ℚ where
  manualSeed s := s.toNat
  randperm w n := (List.range n, w + 1)
  pretrained := .ok ()
  out _ _ waves := .t2 (waves.map fun x => [x.headD 0])
  headInit f c w := ((f, c, w), w + 1)
  headInputs h := h.1
  headLogits h _ := hot h.2.1 (h.2.2 % h.2.1)
  stepHead h batch := (h.1, h.2.1, h.2.2 + (batch.map Prod.snd).sum)
  stepBoth _ h batch := ((), h.1, h.2.1, h.2.2 + (batch.map Prod.snd).sum)
  softmax l := hot l.length (argmax l)

/-- Three waveforms of two samples. -/
def waves3 : Waves ℚ := ⟨0, [3, 2], fun i => ((i.getD 0 0 + i.getD 1 0 : Nat) : ℚ)⟩

theorem audio_lawful : Spec.Lawful audio 1 (fun h => h.2.1) where
  perm _ _ := List.Perm.refl _
  feats _ _ waves := ⟨waves.map fun x => [x.headD 0], rfl, by simp, by simp⟩
  init _ _ _ := ⟨rfl, rfl⟩
  stepHead _ _ := ⟨rfl, rfl⟩
  stepBoth _ _ _ := ⟨rfl, rfl⟩
  logits h _ := by simp [audio, hot]
  softmax l := by simp [audio, hot]
  dist l h := by
    refine ⟨fun x hx => ?_, hot_sum ?_⟩
    · obtain ⟨i, -, rfl⟩ := List.mem_map.mp hx
      split_ifs <;> norm_num
    · obtain ⟨m, h1, -⟩ := argmax_firstMax h
      exact (List.getElem?_eq_some_iff.mp h1).1

end AudioDemo

open AudioDemo

example : fit audio true (hyp (some 3)) AudioState.fresh 8 (some waves3) (some ⟨0, [7, 5, 7]⟩) =
    ((⟨some (0, [5, 7]), some (), some (1, 2, 7)⟩, 6), .ok (3, 1, 2)) := by decide +kernel

/-- **C201 violated (failed fit).**  A fit that is refused because waveforms and labels do not match has already replaced the classes:
the head of the first fit then answers with labels it was never trained on. -/
theorem C201_failed_fit_violated : ∃ (st1 st2 : AudioState Int Unit (Nat × Nat × Nat)) (v1 v2 : Nat) (r : Nat × Nat × Nat),
    fit audio true (hyp (some 3)) AudioState.fresh 8 (some waves3) (some ⟨0, [7, 5, 7]⟩) = ((st1, v1), .ok r) ∧
    fit audio true (hyp (some 3)) st1 v1 (some waves3) (some ⟨0, [1, 2]⟩) = ((st2, v2), .error .validation) ∧
    predict audio st1 (some waves3) = .ok [7, 7, 7] ∧ predict audio st2 (some waves3) = .ok [2, 2, 2] :=
  ⟨⟨some (0, [5, 7]), some (), some (1, 2, 7)⟩, ⟨some (0, [1, 2]), some (), some (1, 2, 7)⟩, 6, 3, (3, 1, 2),
    by decide +kernel, by decide +kernel, by decide +kernel, by decide +kernel⟩

end ModSSC.Supervised.AudioPre
