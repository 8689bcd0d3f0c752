import Verif.Inductive.DispatchModel
import Verif.Inductive.PredictProps
import Verif.ExceptLemmas

/-!
# The numpy / torch dispatch: properties
-/

namespace ModSSC.Inductive
open ModSSC

/-! ### Specification -/

namespace Spec

/-- A numpy array. -/
def IsNumpy (x : Inp) : Prop := ∃ s v, x = .leaf (.array s v)

/-- A tensor, or a dictionary with a tensor in it. -/
def IsTorch (x : Inp) : Prop :=
  (∃ d s v, x = .leaf (.tensor d s v)) ∨ ∃ l k d s v, x = .dict l ∧ (k, Leaf.tensor d s v) ∈ l

/-- In the representation a method of the given backend was trained on. -/
def Fits (b : Backend) (x : Inp) : Prop := match b with | .numpy => IsNumpy x | .torch => IsTorch x

/-- `row` says "label `c`" in columns that stand for the labels `classes`. -/
def Indicates (classes : List Int) (c : Int) (row : List Rat) : Prop :=
  row.length = classes.length ∧ ∀ (j : Nat) (a : Int), classes[j]? = some a → row[j]? = some (if a = c then 1 else 0)

end Spec

open Spec

deriving instance DecidableEq for Scores

theorem detect_ok {installed : Bool} {x : Inp} {b : Backend} : detectBackend installed x = .ok b ↔
    Fits b x ∧ (b = .torch → installed = true) := by
  cases x with
  | leaf v =>
    cases v with
    | array s v =>
      simp only [detectBackend, Except.ok.injEq]
      constructor
      · rintro rfl; exact ⟨⟨s, v, rfl⟩, by simp⟩
      · rintro ⟨h, -⟩
        cases b with
        | numpy => rfl
        | torch => rcases h with ⟨_, _, _, h⟩ | ⟨_, _, _, _, _, h, -⟩ <;> simp at h
    | tensor d s v =>
      cases installed <;> cases b <;> simp [detectBackend, isTorchTensor, Leaf.isTensor, Fits, IsNumpy, IsTorch]
    | other =>
      cases installed <;> cases b <;> simp [detectBackend, isTorchTensor, Leaf.isTensor, Fits, IsNumpy, IsTorch]
  | dict l =>
    have hany : (l.any fun p => p.2.isTensor) = true ↔ ∃ k d s v, (k, Leaf.tensor d s v) ∈ l := by
      rw [List.any_eq_true]
      constructor
      · rintro ⟨⟨k, v⟩, h1, h2⟩
        cases v with
        | tensor d s v => exact ⟨k, d, s, v, h1⟩
        | array s v => simp [Leaf.isTensor] at h2
        | other => simp [Leaf.isTensor] at h2
      · rintro ⟨k, d, s, v, h⟩
        exact ⟨_, h, rfl⟩
    by_cases h : isTorchTensor installed (.dict l) = true
    · have h' := h
      simp only [isTorchTensor, Bool.and_eq_true, hany] at h'
      simp only [detectBackend]
      rw [if_pos h]
      simp only [Except.ok.injEq]
      constructor
      · rintro rfl
        obtain ⟨h1, k, d, s, v, h2⟩ := h'
        exact ⟨.inr ⟨l, k, d, s, v, rfl, h2⟩, fun _ => h1⟩
      · rintro ⟨h2, -⟩
        cases b with
        | torch => rfl
        | numpy => obtain ⟨_, _, h2⟩ := h2; simp at h2
    · have h' := h
      simp only [isTorchTensor, Bool.and_eq_true, hany] at h'
      simp only [detectBackend]
      rw [if_neg h]
      simp only [reduceCtorEq, false_iff]
      rintro ⟨h2, h3⟩
      cases b with
      | numpy => obtain ⟨_, _, h2⟩ := h2; simp at h2
      | torch =>
        rcases h2 with ⟨_, _, _, h2⟩ | ⟨l', k, d, s, v, h2, h4⟩
        · simp at h2
        · cases h2
          exact h' ⟨h3 rfl, k, d, s, v, h4⟩

theorem detect_error {installed : Bool} {x : Inp} {e : PyErr} (h : detectBackend installed x = .error e) : e = .validation := by
  unfold detectBackend at h
  split at h
  · cases h
  · split_ifs at h
    exact (Except.error.inj h).symm

theorem fits_unique {b b' : Backend} {x : Inp} (h : Fits b x) (h' : Fits b' x) : b = b' := by
  cases b <;> cases b' <;> simp only [Fits, IsNumpy, IsTorch] at h h' <;>
    first
      | rfl
      | (exfalso; obtain ⟨_, _, rfl⟩ := h; simp at h')
      | (exfalso; obtain ⟨_, _, rfl⟩ := h'; simp at h)

/-- **C166 (training).**  A method starts training exactly on arrays with a numpy or scikit-learn classifier and on torch
data with a torch classifier. -/
theorem C166_train (installed : Bool) (spec : String) (xl : Inp) (b : Backend) :
    trainBackend installed spec xl = .ok b ↔
      (b = .numpy ∧ IsNumpy xl ∧ spec ≠ "torch") ∨ (b = .torch ∧ installed = true ∧ IsTorch xl ∧ spec = "torch") := by
  unfold trainBackend
  simp only [ebind_ok, Except.ok.injEq, exists_and_left, exists_eq_right_right, detect_ok]
  constructor
  · rintro ⟨b', ⟨h1, h2⟩, u, h3, rfl⟩
    cases b' with
    | numpy =>
      simp only [ensureClassifierBackend] at h3
      split_ifs at h3 with h
      exact .inl ⟨rfl, h1, h⟩
    | torch =>
      simp only [ensureClassifierBackend] at h3
      split_ifs at h3 with h
      exact .inr ⟨rfl, h2 rfl, h1, not_not.mp h⟩
  · rintro (⟨rfl, h1, h2⟩ | ⟨rfl, h1, h2, h3⟩)
    · exact ⟨.numpy, ⟨h1, by simp⟩, (), by simp [ensureClassifierBackend, h2], rfl⟩
    · exact ⟨.torch, ⟨h2, fun _ => h1⟩, (), by simp [ensureClassifierBackend, h3], rfl⟩

/-- What the classifier gets is in the same representation. -/
theorem prepare_numpy {flat : Bool} {b : Backend} {x x' : Inp} (h : prepare flat b x = .ok x') : IsNumpy x' ↔ IsNumpy x := by
  unfold prepare at h
  split_ifs at h with hc
  · cases x with
    | dict l => simp only [flattenIfNumpy, Except.ok.injEq] at h; rw [← h]
    | leaf v =>
      cases v with
      | array s v =>
        cases s with
        | nil => simp only [flattenIfNumpy, Except.ok.injEq] at h; rw [← h]
        | cons n s =>
          simp only [flattenIfNumpy] at h
          split_ifs at h <;> exact ⟨fun _ => ⟨_, _, rfl⟩, fun _ => ⟨_, _, (Except.ok.inj h).symm⟩⟩
      | tensor d s v => simp only [flattenIfNumpy, Except.ok.injEq] at h; rw [← h]
      | other => simp only [flattenIfNumpy, Except.ok.injEq] at h; rw [← h]
  · rw [Except.ok.inj h]

theorem scores_fit {m : FittedClf} {x : Inp} {b : Backend} {s : Scores} (h : predictScores m x b = .ok s) : Fits b x := by
  cases b with
  | numpy =>
    simp only [predictScores, predictScoresNumpy] at h
    split at h
    · exact ⟨_, _, rfl⟩
    · cases h
  | torch =>
    simp only [predictScores, predictScoresTorch] at h
    cases hs : torchSource x with
    | none => rw [hs] at h; cases h
    | some src =>
    rw [hs] at h
    simp only at h
    cases hf : m.predictScores.or m.predictProba with
    | none => rw [hf] at h; cases h
    | some f =>
    rw [hf] at h
    simp only [ebind_ok] at h
    obtain ⟨r, -, h⟩ := h
    cases hd : r.device with
    | none => rw [hd] at h; cases h
    | some d =>
    rw [hd] at h
    simp only at h
    split_ifs at h
    cases src with
    | array _ _ => cases h
    | other => cases h
    | tensor d' sh v =>
      cases x with
      | leaf v' => cases v' <;> simp only [torchSource, reduceCtorEq] at hs
                   exact .inl ⟨_, _, _, rfl⟩
      | dict l =>
        refine .inr ⟨l, "x", d', sh, v, rfl, ?_⟩
        simp only [torchSource] at hs
        obtain ⟨l1, l2, rfl, -⟩ := List.lookup_eq_some_iff.mp hs
        simp

/-- **C166 (probabilities).**  `predict_proba` of every method answers only data in the representation it was trained
on. -/
theorem C166_proba (installed looks flat : Bool) (o : Fitted) (x : Inp) (s : Scores)
    (h : proba installed looks flat (some o) x = .ok s) : Fits o.backend x := by
  simp only [proba, ebind_ok] at h
  obtain ⟨b, hb, x', hx, r, hr, -⟩ := h
  unfold predictionBackend at hb
  split_ifs at hb with hl
  · simp only [ebind_ok] at hb
    obtain ⟨b', h1, h2⟩ := hb
    split_ifs at h2 with hne
    rw [not_not] at hne
    rw [← hne]
    exact (detect_ok.mp h1).1
  · obtain rfl := Except.ok.inj hb
    have h1 := scores_fit hr
    cases hob : o.backend with
    | numpy => rw [hob] at h1 hx; exact (prepare_numpy hx).mp h1
    | torch =>
      rw [hob] at h1 hx
      simp only [prepare, reduceCtorEq, and_false, if_false, Except.ok.injEq] at hx
      rw [hx]; exact h1

/-- **C166 (other data refused).**  A method that looks at its input refuses data in the other representation (or in
none) with a validation error, whatever its classifier would do with it. -/
theorem C166_refused (installed flat : Bool) (o : Fitted) (x : Inp) (h : ¬ Fits o.backend x) :
    proba installed true flat (some o) x = .error .validation ∧ labels installed true flat (some o) x = .error .validation := by
  have hb : predictionBackend installed true o x = .error .validation := by
    unfold predictionBackend
    rw [if_pos rfl]
    cases hd : detectBackend installed x with
    | error e => rw [detect_error hd]; rfl
    | ok b =>
      have hne : b ≠ o.backend := by
        rintro rfl
        exact h (detect_ok.mp hd).1
      show (if b ≠ o.backend then _ else _) = _
      rw [if_pos hne]
  simp only [proba, labels]
  rw [hb]
  exact ⟨rfl, rfl⟩

/-- **C166 (labels).**  Such a method predicts exactly what its classifier does, for data in the representation it was
trained on. -/
theorem C166_labels (installed : Bool) (o : Fitted) (x : Inp) (y : List Int) (hi : o.backend = .torch → installed = true) :
    labels installed true false (some o) x = .ok y ↔ Fits o.backend x ∧ ∃ f, o.clf.predict = some f ∧ f x = .ok y := by
  constructor
  · intro h
    by_cases hf : Fits o.backend x
    · refine ⟨hf, ?_⟩
      simp only [labels, ebind_ok] at h
      obtain ⟨b, -, x', hx, h⟩ := h
      simp only [prepare, Bool.false_eq_true, false_and, if_false, Except.ok.injEq] at hx
      subst hx
      cases hp : o.clf.predict with
      | none => rw [hp] at h; cases h
      | some f => rw [hp] at h; exact ⟨f, rfl, h⟩
    · rw [(C166_refused installed false o x hf).2] at h
      cases h
  · rintro ⟨hf, f, hp, hy⟩
    simp only [labels, ebind_ok]
    refine ⟨o.backend, ?_, x, by simp [prepare], by rw [hp]; exact hy⟩
    unfold predictionBackend
    rw [if_pos rfl, ebind_of_ok (detect_ok.mpr ⟨hf, hi⟩)]
    simp

/-- **C166 (not fitted).** -/
theorem C166_unfitted (installed looks flat : Bool) (x : Inp) :
    proba installed looks flat none x = .error .runtimeError ∧ labels installed looks flat none x = .error .runtimeError :=
  ⟨rfl, rfl⟩

/-! ### Scores from labels -/

theorem classToIdx_nodup {cs : List Int} (hn : cs.Nodup) {i : Nat} {c : Int} (h : cs[i]? = some c) : classToIdx cs c = some i := by
  have hi : i < cs.length := (List.getElem?_eq_some_iff.mp h).1
  have key : ((List.range cs.length).filter fun j => cs[j]? = some c) = [i] := by
    have h1 : ((List.range cs.length).filter fun j => cs[j]? = some c) = (List.range cs.length).filter (· = i) := by
      apply List.filter_congr
      intro j hj
      rw [List.mem_range] at hj
      simp only [decide_eq_decide]
      constructor
      · intro hc
        exact (List.getElem?_inj hj hn).mp (hc.trans h.symm)
      · rintro rfl; exact h
    rw [h1]
    have h2 := List.nodup_range (n := cs.length)
    have h3 : ∀ (l : List Nat), l.Nodup → i ∈ l → l.filter (· = i) = [i] := by
      intro l
      induction l with
      | nil => intro _ h; simp at h
      | cons a l ih =>
        intro hl hm
        rw [List.nodup_cons] at hl
        rw [List.filter_cons]
        by_cases ha : a = i
        · subst ha
          simp only [decide_true, if_true, List.cons.injEq, true_and]
          rw [List.filter_eq_nil_iff]
          intro b hb
          simp only [decide_eq_true_eq]
          rintro rfl
          exact hl.1 hb
        · simp only [ha, decide_false, Bool.false_eq_true, if_false]
          exact ih hl.2 (by rcases List.mem_cons.mp hm with h | h; exact absurd h.symm ha; exact h)
    exact h3 _ h2 (List.mem_range.mpr hi)
  unfold classToIdx
  rw [key]
  rfl

theorem classToIdx_none {cs : List Int} {c : Int} (h : c ∉ cs) : classToIdx cs c = none := by
  unfold classToIdx
  rw [List.getLast?_eq_none_iff, List.filter_eq_nil_iff]
  intro j _
  simp only [decide_eq_true_eq]
  intro hc
  exact h (List.mem_of_getElem? hc)

theorem eyeRow_indicates {cs : List Int} (hn : cs.Nodup) {i : Nat} {c : Int} (h : cs[i]? = some c) :
    Indicates cs c (eyeRow cs.length i) := by
  refine ⟨by simp [eyeRow], fun j a hj => ?_⟩
  have hjl : j < cs.length := (List.getElem?_eq_some_iff.mp hj).1
  simp only [eyeRow, List.getElem?_map, List.getElem?_range hjl, Option.map_some, Option.some.injEq]
  by_cases e : j = i
  · subst e
    rw [h] at hj
    simp [Option.some.inj hj]
  · rw [if_neg e, if_neg]
    rintro rfl
    exact e ((List.getElem?_inj hjl hn).mp (hj.trans h.symm))

/-- **C166 (scores from labels).**  A classifier that only predicts labels gets as scores, row by row, the indicator of
its label among its classes; it is an error exactly if it predicts a label it does not list. -/
theorem C166_indicator (cs pred : List Int) (hn : cs.Nodup) :
    ((∃ s, labelScores (some cs) pred = .ok s) ↔ ∀ c ∈ pred, c ∈ cs) ∧
    (∀ e, labelScores (some cs) pred = .error e → e = .typeError) ∧
    ∀ s, labelScores (some cs) pred = .ok s → s.cols = cs.length ∧ List.Forall₂ (Indicates cs) pred s.rows := by
  have hstep : labelRow cs = fun c =>
      if c ∈ cs then .ok (eyeRow cs.length (cs.idxOf c)) else Except.error PyErr.typeError := by
    funext c
    unfold labelRow
    by_cases hc : c ∈ cs
    · rw [classToIdx_nodup hn (i := cs.idxOf c) (List.getElem?_idxOf hc), if_pos hc]
    · rw [classToIdx_none hc, if_neg hc]
  unfold labelScores
  simp only [Option.getD_some]
  rw [hstep]
  refine ⟨⟨?_, ?_⟩, ?_, ?_⟩
  · rintro ⟨s, h⟩ c hc
    simp only [ebind_ok] at h
    obtain ⟨rows, h1, -⟩ := h
    obtain ⟨b, hb⟩ : ∃ b, (if c ∈ cs then .ok (eyeRow cs.length (cs.idxOf c)) else Except.error PyErr.typeError) =
        (.ok b : Except PyErr (List Rat)) := by
      have := mapM_ok.mp h1
      clear h1
      induction this with
      | nil => simp at hc
      | cons h _ ih =>
        rcases List.mem_cons.mp hc with rfl | hc
        · exact ⟨_, h⟩
        · exact ih hc
    split_ifs at hb with h
    exact h
  · intro h
    obtain ⟨r, hr⟩ := mapM_total (f := fun c => if c ∈ cs then .ok (eyeRow cs.length (cs.idxOf c)) else Except.error PyErr.typeError)
      (l := pred) (fun c hc => ⟨eyeRow cs.length (cs.idxOf c), by rw [if_pos (h c hc)]⟩)
    exact ⟨⟨cs.length, r⟩, by rw [ebind_of_ok hr]⟩
  · intro e h
    have key : ∀ (l : List Int) e, l.mapM (fun c => if c ∈ cs then .ok (eyeRow cs.length (cs.idxOf c))
        else Except.error PyErr.typeError) = .error e → e = .typeError := by
      intro l
      induction l with
      | nil => intro e h; simp [pure, Except.pure] at h
      | cons a l ih =>
        intro e h
        rw [List.mapM_cons] at h
        by_cases ha : a ∈ cs
        · rw [if_pos ha] at h
          simp only [bind, Except.bind] at h
          split at h
          · next e' he => cases h; exact ih _ he
          · cases h
        · rw [if_neg ha] at h
          cases h
          rfl
    cases hm : pred.mapM (fun c => if c ∈ cs then .ok (eyeRow cs.length (cs.idxOf c)) else Except.error PyErr.typeError) with
    | error e' => rw [hm] at h; cases h; exact key _ _ hm
    | ok r => rw [hm] at h; cases h
  · intro s h
    simp only [ebind_ok, Except.ok.injEq] at h
    obtain ⟨rows, h1, rfl⟩ := h
    refine ⟨rfl, (mapM_ok.mp h1).imp fun c row hr => ?_⟩
    split_ifs at hr with hc
    obtain rfl := Except.ok.inj hr
    exact eyeRow_indicates hn (List.getElem?_idxOf hc)

/-- The same without `classes_`: the columns stand for the labels that occur in this very prediction. -/
theorem C166_indicator_partial (pred : List Int) : ∃ s, labelScores none pred = .ok s ∧ s.cols = (npUnique pred).length ∧
    List.Forall₂ (Indicates (npUnique pred)) pred s.rows := by
  obtain ⟨h1, -, h3⟩ := C166_indicator (npUnique pred) pred (nodup_npUnique pred)
  obtain ⟨s, hs⟩ := h1.mpr fun c hc => mem_npUnique.mpr hc
  exact ⟨s, hs, h3 s hs⟩

theorem indicates_sum {cs : List Int} (hn : cs.Nodup) {c : Int} (hc : c ∈ cs) {row : List Rat} (h : Indicates cs c row) :
    row.sum = 1 := by
  have hrow : row = cs.map fun a => if a = c then (1 : Rat) else 0 := by
    apply List.ext_getElem?
    intro j
    rw [List.getElem?_map]
    cases hj : cs[j]? with
    | none =>
      rw [List.getElem?_eq_none_iff] at hj
      simp [h.1, hj]
    | some a => rw [h.2 j a hj]; rfl
  rw [hrow]
  clear hrow h
  induction cs with
  | nil => simp at hc
  | cons a cs ih =>
    rw [List.nodup_cons] at hn
    rw [List.map_cons, List.sum_cons]
    by_cases ha : a = c
    · subst ha
      rw [if_pos rfl]
      have : (cs.map fun b => if b = a then (1 : Rat) else 0).sum = 0 := by
        apply List.sum_eq_zero
        intro v hv
        obtain ⟨b, hb, rfl⟩ := List.mem_map.mp hv
        rw [if_neg]
        rintro rfl
        exact hn.1 hb
      rw [this, add_zero]
    · rw [if_neg ha, zero_add]
      exact ih hn.2 (by rcases List.mem_cons.mp hc with h | h; exact absurd h.symm ha; exact h)

/-- **C166 (probabilities of a label-only classifier).**  On arrays its `predict_proba` gives each sample the indicator of
the label that `predict` gives. -/
theorem C166_label_only (installed looks : Bool) (o : Fitted) (f : Inp → Except PyErr (List Int)) (cs : List Int) (x : Inp)
    (hb : o.backend = .numpy) (h1 : o.clf.predictScores = none) (h2 : o.clf.predictProba = none) (h3 : o.clf.predict = some f)
    (h4 : o.clf.classes = some cs) (hn : cs.Nodup) (s : Scores) (h : proba installed looks false (some o) x = .ok s) :
    ∃ y, labels installed looks false (some o) x = .ok y ∧ s.cols = cs.length ∧ List.Forall₂ (Indicates cs) y s.rows := by
  simp only [proba, ebind_ok] at h
  obtain ⟨b, hb', x', hx, r, hr, hs⟩ := h
  have hbn : b = .numpy := by
    unfold predictionBackend at hb'
    split_ifs at hb' with hl
    · simp only [ebind_ok] at hb'
      obtain ⟨b', -, h⟩ := hb'
      split_ifs at h with hne
      rw [← Except.ok.inj h, ← hb]
      exact not_not.mp hne
    · rw [← Except.ok.inj hb', hb]
  subst hbn
  obtain rfl := Except.ok.inj hs
  simp only [predictScores, predictScoresNumpy, h1, h2, h3, h4, Option.or_none] at hr
  split at hr
  · next sh v =>
    obtain ⟨y, hy, hl⟩ := ebind_ok.mp hr
    obtain ⟨a1, -, a3⟩ := C166_indicator cs y hn
    obtain ⟨b1, b2⟩ := a3 r hl
    have hmem := a1.mp ⟨r, hl⟩
    refine ⟨y, ?_, b1, ?_⟩
    · simp only [labels, ebind_ok]
      exact ⟨.numpy, hb', _, hx, by rw [h3]; exact hy⟩
    · have hrows : r.rows.map normRow = r.rows := by
        conv_rhs => rw [← List.map_id r.rows]
        apply List.map_congr_left
        intro row hrow
        obtain ⟨c, hc, hi⟩ : ∃ c, c ∈ y ∧ Indicates cs c row := by
          clear hl a1 a3 hmem hr hy
          generalize r.rows = rows at b2 hrow
          induction b2 with
          | nil => simp at hrow
          | cons h _ ih =>
            rcases List.mem_cons.mp hrow with rfl | hrow
            · exact ⟨_, by simp, h⟩
            · obtain ⟨c, hc, h⟩ := ih hrow; exact ⟨c, by simp [hc], h⟩
        have hs := indicates_sum hn (hmem c hc) hi
        unfold normRow
        rw [hs]
        simp
      simp only
      rw [hrows]
      exact b2
  · cases hr

/-- **C166 (which scores).**  Otherwise the scores are those of `predict_scores`, or of `predict_proba` if there is no
`predict_scores`, for exactly this input, each row divided by its sum. -/
theorem C166_source (installed looks : Bool) (o : Fitted) (f : Inp → Except PyErr RawScores) (x : Inp)
    (hf : o.clf.predictScores = some f ∨ (o.clf.predictScores = none ∧ o.clf.predictProba = some f)) (s : Scores)
    (h : proba installed looks false (some o) x = .ok s) :
    ∃ r, f x = .ok r ∧ r.ndim = 2 ∧ s.cols = r.scores.cols ∧ List.Forall₂ IsNormalized r.scores.rows s.rows := by
  simp only [proba, ebind_ok] at h
  obtain ⟨b, -, x', hx, t, ht, hs⟩ := h
  obtain rfl := Except.ok.inj hs
  simp only [prepare, Bool.false_eq_true, false_and, if_false, Except.ok.injEq] at hx
  subst hx
  have hor : o.clf.predictScores.or o.clf.predictProba = some f := by
    rcases hf with h | ⟨h, h'⟩
    · rw [h]; rfl
    · rw [h, h']; rfl
  have hfin : ∀ l : List (List Rat), List.Forall₂ IsNormalized l (l.map normRow) := by
    intro l
    induction l with
    | nil => exact .nil
    | cons a l ih => exact .cons (normRow_spec a) ih
  cases b with
  | numpy =>
    simp only [predictScores, predictScoresNumpy] at ht
    split at ht
    · rw [hor] at ht
      simp only [ebind_ok] at ht
      obtain ⟨r, hr, ht⟩ := ht
      split_ifs at ht with hd
      obtain rfl := Except.ok.inj ht
      exact ⟨r, hr, not_not.mp hd, rfl, hfin _⟩
    · cases ht
  | torch =>
    simp only [predictScores, predictScoresTorch] at ht
    split at ht
    · cases ht
    · rw [hor] at ht
      simp only [ebind_ok] at ht
      obtain ⟨r, hr, ht⟩ := ht
      cases hdv : r.device with
      | none => rw [hdv] at ht; cases ht
      | some d =>
      rw [hdv] at ht
      simp only at ht
      split_ifs at ht with hd
      split at ht
      · split_ifs at ht with hdd
        obtain rfl := Except.ok.inj ht
        exact ⟨r, hr, not_not.mp hd, rfl, hfin _⟩
      · cases ht

/-! ### Flattening -/

/-- **C166 (flattening).**  S4VM's classifier gets arrays with at most two axes, with as many rows and the same numbers in
the same order. -/
theorem C166_flat (n : Nat) (sh : List Nat) (v : List Rat) (x' : Inp)
    (h : prepare true .numpy (.leaf (.array (n :: sh) v)) = .ok x') :
    ∃ sh', x' = .leaf (.array (n :: sh') v) ∧ sh'.length ≤ 1 ∧ sh'.prod = sh.prod := by
  simp only [prepare, and_self, if_true, flattenIfNumpy] at h
  split_ifs at h with h1
  · exact ⟨sh, (Except.ok.inj h).symm, h1, rfl⟩
  · exact ⟨[sh.prod], (Except.ok.inj h).symm, by simp, by simp⟩

/-- **C166 (which methods look).**  `SupervisedMethod` looks at the data of every prediction: data of the other backend is
refused by both calls, and `predict` answers exactly what the classifier says of the data as given; `S4VMMethod` refuses it in
`predict_proba`. -/
theorem C166_methods (installed : Bool) (o : Fitted) (x : Inp) (hi : o.backend = .torch → installed = true) :
    (¬ Fits o.backend x → proba installed supervised.1 supervised.2.2 (some o) x = .error .validation ∧
      labels installed supervised.2.1 supervised.2.2 (some o) x = .error .validation ∧
      proba installed s4vm.1 s4vm.2.2 (some o) x = .error .validation) ∧
    ∀ y, labels installed supervised.2.1 supervised.2.2 (some o) x = .ok y ↔
      Fits o.backend x ∧ ∃ f, o.clf.predict = some f ∧ f x = .ok y :=
  ⟨fun h => ⟨(C166_refused installed false o x h).1, (C166_refused installed false o x h).2, (C166_refused installed true o x h).1⟩,
    fun y => C166_labels installed o x y hi⟩

/-! ### What does not hold -/

/-- A classifier for the examples: it answers everything with label 3. -/
def labelThree : FittedClf := ⟨none, none, some fun _ => .ok [3], none⟩

/-- **C166 (violated: labels).**  The methods whose backend check never fires hand torch data to a classifier trained on
arrays: `predict` answers what `predict_proba` refuses. -/
theorem C166_labels_violated : ∃ (o : Fitted) (x : Inp) (y : List Int), ¬ Fits o.backend x ∧
    labels true selfLabelling.2.1 selfLabelling.2.2 (some o) x = .ok y ∧
    labels true s4vm.2.1 s4vm.2.2 (some o) x = .ok y ∧
    proba true selfLabelling.1 selfLabelling.2.2 (some o) x = .error .validation :=
  ⟨⟨labelThree, .numpy⟩, .leaf (.tensor "cpu" [1, 1] [0]), [3], by simp [Fits, IsNumpy], rfl, rfl, rfl⟩

/-- **C166 (violated: columns).**  Without `classes_` the columns mean different labels in different calls: two samples
with different labels get the same scores. -/
theorem C166_columns_violated : ∃ s, labelScores none [3] = .ok s ∧ labelScores none [5] = .ok s :=
  ⟨⟨1, [[1]]⟩, by decide +kernel, by decide +kernel⟩

/-- **C166 (violated: no rows).**  An empty array with more than two axes is an error for S4VM, one with two axes is not. -/
theorem C166_empty_violated : ∃ (o : Fitted) (y : List Int),
    labels true s4vm.2.1 s4vm.2.2 (some o) (.leaf (.array [0, 2] [])) = .ok y ∧
    labels true s4vm.2.1 s4vm.2.2 (some o) (.leaf (.array [0, 2, 2] [])) = .error .valueError :=
  ⟨⟨⟨none, none, some fun _ => .ok [], none⟩, .numpy⟩, [], rfl, rfl⟩

/-! ### Examples -/

example : trainBackend true "sklearn" (.leaf (.array [1, 1] [0])) = .ok .numpy := by decide +kernel
example : trainBackend true "torch" (.dict [("edge_index", .other), ("x", .tensor "cpu" [1, 1] [0])]) = .ok .torch := by
  decide +kernel
example : trainBackend true "torch" (.leaf (.array [1, 1] [0])) = .error .validation := by decide +kernel

/-- A label-only classifier with two samples. -/
def demoLabels : Fitted := ⟨⟨none, none, some fun _ => .ok [5, 3], some [3, 5]⟩, .numpy⟩

example : (proba true true false (some demoLabels) (.leaf (.array [2, 1] [0, 1]))).map (·.rows) = .ok [[0, 1], [1, 0]] := by
  decide +kernel
example : labels true true false (some demoLabels) (.leaf (.array [2, 1] [0, 1])) = .ok [5, 3] := by decide +kernel

/-- A torch classifier with scores. -/
def demoTorchClf : Fitted :=
  ⟨⟨none, some fun _ => .ok ⟨some "cpu", 2, ⟨2, [[1, 3]]⟩⟩, none, none⟩, .torch⟩

example : (proba true true false (some demoTorchClf) (.leaf (.tensor "cpu" [1, 1] [0]))).map (·.rows) = .ok [[1 / 4, 3 / 4]] := by
  decide +kernel
example : (proba true true false (some demoTorchClf) (.leaf (.tensor "cuda" [1, 1] [0]))).map (·.rows) = .error .validation := by
  decide +kernel
example : prepare true .numpy (.leaf (.array [2, 2, 1] [1, 2, 3, 4])) = .ok (.leaf (.array [2, 2] [1, 2, 3, 4])) := by
  decide +kernel

end ModSSC.Inductive
