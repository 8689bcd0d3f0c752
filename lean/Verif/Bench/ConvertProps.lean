import Verif.ExceptLemmas
import Verif.Bench.ConvertSpec

/-!
# C164: data reaches a method, in training and in evaluation, in one representation
-/

namespace ModSSC.Bench.Convert

/-! ### helper lemmas -/

mutual
theorem Val.induct {P : Val → Prop} (hn : P .nothing) (ht : ∀ d a, P (.tensor d a)) (ha : ∀ a, P (.array a))
    (hd : ∀ l : List (String × Val), (∀ p ∈ l, P p.2) → P (.dict l)) (hs : ∀ l : List Val, (∀ v ∈ l, P v) → P (.seq l))
    (ho : ∀ s, P (.other s)) : ∀ v, P v
  | .nothing => hn
  | .tensor d a => ht d a
  | .array a => ha a
  | .dict l => hd l (Val.inductDict hn ht ha hd hs ho l)
  | .seq l => hs l (Val.inductSeq hn ht ha hd hs ho l)
  | .other s => ho s

theorem Val.inductDict {P : Val → Prop} (hn : P .nothing) (ht : ∀ d a, P (.tensor d a)) (ha : ∀ a, P (.array a))
    (hd : ∀ l : List (String × Val), (∀ p ∈ l, P p.2) → P (.dict l)) (hs : ∀ l : List Val, (∀ v ∈ l, P v) → P (.seq l))
    (ho : ∀ s, P (.other s)) : ∀ (l : List (String × Val)), ∀ p ∈ l, P p.2
  | [] => by simp
  | (k, v) :: l => by
    intro p hp
    rcases List.mem_cons.1 hp with h | hp
    · rw [h]
      exact Val.induct hn ht ha hd hs ho v
    · exact Val.inductDict hn ht ha hd hs ho l p hp

theorem Val.inductSeq {P : Val → Prop} (hn : P .nothing) (ht : ∀ d a, P (.tensor d a)) (ha : ∀ a, P (.array a))
    (hd : ∀ l : List (String × Val), (∀ p ∈ l, P p.2) → P (.dict l)) (hs : ∀ l : List Val, (∀ v ∈ l, P v) → P (.seq l))
    (ho : ∀ s, P (.other s)) : ∀ (l : List Val), ∀ v ∈ l, P v
  | [] => by simp
  | w :: l => by
    intro v hv
    rcases List.mem_cons.1 hv with h | hv
    · rw [h]
      exact Val.induct hn ht ha hd hs ho w
    · exact Val.inductSeq hn ht ha hd hs ho l v hv
end

theorem trainFlagsDict_eq (l : List (String × Val)) : trainFlagsDict l =
    (l.any (fun p => (trainFlags p.2).1), l.any (fun p => (trainFlags p.2).2)) := by
  induction l with
  | nil => simp [trainFlagsDict]
  | cons p l ih => obtain ⟨k, v⟩ := p; simp [trainFlagsDict, ih, both]

theorem trainFlagsSeq_eq (l : List Val) : trainFlagsSeq l =
    (l.any (fun v => (trainFlags v).1), l.any (fun v => (trainFlags v).2 || (!(trainFlags v).1 && !(trainFlags v).2))) := by
  induction l with
  | nil => simp [trainFlagsSeq]
  | cons v l ih => simp [trainFlagsSeq, ih, both]

theorem evalFlagsDict_eq (l : List (String × Val)) : evalFlagsDict l =
    (l.any (fun p => (evalFlags p.2).1), l.any (fun p => (evalFlags p.2).2)) := by
  induction l with
  | nil => simp [evalFlagsDict]
  | cons p l ih => obtain ⟨k, v⟩ := p; simp [evalFlagsDict, ih, both]

theorem evalFlagsSeq_eq (l : List Val) : evalFlagsSeq l =
    (l.any (fun v => (evalFlags v).1), l.any (fun v => (evalFlags v).2)) := by
  induction l with
  | nil => simp [evalFlagsSeq]
  | cons v l ih => simp [evalFlagsSeq, ih, both]

theorem within_dict {x : Val} {l : List (String × Val)} :
    Within x (.dict l) ↔ x = .dict l ∨ ∃ p ∈ l, Within x p.2 := by
  constructor
  · intro h
    cases h with
    | here => exact .inl rfl
    | dict hp hw => exact .inr ⟨_, hp, hw⟩
  · rintro (rfl | ⟨p, hp, hw⟩)
    · exact .here
    · exact .dict hp hw

theorem within_seq {x : Val} {l : List Val} : Within x (.seq l) ↔ x = .seq l ∨ ∃ v ∈ l, Within x v := by
  constructor
  · intro h
    cases h with
    | here => exact .inl rfl
    | seq hp hw => exact .inr ⟨_, hp, hw⟩
  · rintro (rfl | ⟨p, hp, hw⟩)
    · exact .here
    · exact .seq hp hw

theorem within_tensor {x : Val} {d : String} {a : Arr} : Within x (.tensor d a) ↔ x = .tensor d a :=
  ⟨fun h => by cases h; rfl, fun h => h ▸ .here⟩

theorem within_array {x : Val} {a : Arr} : Within x (.array a) ↔ x = .array a :=
  ⟨fun h => by cases h; rfl, fun h => h ▸ .here⟩

theorem within_nothing {x : Val} : Within x .nothing ↔ x = .nothing :=
  ⟨fun h => by cases h; rfl, fun h => h ▸ .here⟩

theorem within_other {x : Val} {s : String} : Within x (.other s) ↔ x = .other s :=
  ⟨fun h => by cases h; rfl, fun h => h ▸ .here⟩

theorem hasTensor_dict {l : List (String × Val)} : HasTensor (.dict l) ↔ ∃ p ∈ l, HasTensor p.2 := by
  constructor
  · rintro ⟨x, hw, ht⟩
    rcases within_dict.1 hw with rfl | ⟨p, hp, hw⟩
    · exact ht.elim
    · exact ⟨p, hp, x, hw, ht⟩
  · rintro ⟨p, hp, x, hw, ht⟩
    exact ⟨x, .dict hp hw, ht⟩

theorem hasTensor_seq {l : List Val} : HasTensor (.seq l) ↔ ∃ v ∈ l, HasTensor v := by
  constructor
  · rintro ⟨x, hw, ht⟩
    rcases within_seq.1 hw with rfl | ⟨p, hp, hw⟩
    · exact ht.elim
    · exact ⟨p, hp, x, hw, ht⟩
  · rintro ⟨p, hp, x, hw, ht⟩
    exact ⟨x, .seq hp hw, ht⟩

theorem hasArray_dict {l : List (String × Val)} : HasArray (.dict l) ↔ ∃ p ∈ l, HasArray p.2 := by
  constructor
  · rintro ⟨x, hw, ht⟩
    rcases within_dict.1 hw with rfl | ⟨p, hp, hw⟩
    · exact ht.elim
    · exact ⟨p, hp, x, hw, ht⟩
  · rintro ⟨p, hp, x, hw, ht⟩
    exact ⟨x, .dict hp hw, ht⟩

theorem hasArray_seq {l : List Val} : HasArray (.seq l) ↔ ∃ v ∈ l, HasArray v := by
  constructor
  · rintro ⟨x, hw, ht⟩
    rcases within_seq.1 hw with rfl | ⟨p, hp, hw⟩
    · exact ht.elim
    · exact ⟨p, hp, x, hw, ht⟩
  · rintro ⟨p, hp, x, hw, ht⟩
    exact ⟨x, .seq hp hw, ht⟩

theorem hasTensor_tensor {d : String} {a : Arr} : HasTensor (.tensor d a) := ⟨_, .here, trivial⟩

theorem not_hasTensor_array {a : Arr} : ¬HasTensor (.array a) := by
  rintro ⟨x, hw, ht⟩; cases within_array.1 hw; exact ht

theorem not_hasTensor_nothing : ¬HasTensor .nothing := by
  rintro ⟨x, hw, ht⟩; cases within_nothing.1 hw; exact ht

theorem not_hasTensor_other {s : String} : ¬HasTensor (.other s) := by
  rintro ⟨x, hw, ht⟩; cases within_other.1 hw; exact ht

theorem not_hasArray_tensor {d : String} {a : Arr} : ¬HasArray (.tensor d a) := by
  rintro ⟨x, hw, ht⟩; cases within_tensor.1 hw; exact ht

theorem hasArray_array {a : Arr} : HasArray (.array a) := ⟨_, .here, trivial⟩

theorem not_hasArray_nothing : ¬HasArray .nothing := by
  rintro ⟨x, hw, ht⟩; cases within_nothing.1 hw; exact ht

theorem not_hasArray_other {s : String} : ¬HasArray (.other s) := by
  rintro ⟨x, hw, ht⟩; cases within_other.1 hw; exact ht

theorem plain_dict {l : List (String × Val)} : HasPlainItem (.dict l) ↔ ∃ p ∈ l, HasPlainItem p.2 := by
  constructor
  · rintro ⟨s, w, hw, hm, h⟩
    rcases within_dict.1 hw with h' | ⟨p, hp, hw⟩
    · cases h'
    · exact ⟨p, hp, s, w, hw, hm, h⟩
  · rintro ⟨p, hp, s, w, hw, hm, h⟩
    exact ⟨s, w, .dict hp hw, hm, h⟩

theorem plain_seq {l : List Val} : HasPlainItem (.seq l) ↔
    (∃ w ∈ l, ¬HasTensor w ∧ ¬HasArray w) ∨ ∃ v ∈ l, HasPlainItem v := by
  constructor
  · rintro ⟨s, w, hw, hm, h⟩
    rcases within_seq.1 hw with h' | ⟨p, hp, hw⟩
    · cases h'; exact .inl ⟨w, hm, h⟩
    · exact .inr ⟨p, hp, s, w, hw, hm, h⟩
  · rintro (⟨w, hm, h⟩ | ⟨p, hp, s, w, hw, hm, h⟩)
    · exact ⟨l, w, .here, hm, h⟩
    · exact ⟨s, w, .seq hp hw, hm, h⟩

theorem not_plain_tensor {d : String} {a : Arr} : ¬HasPlainItem (.tensor d a) := by
  rintro ⟨s, w, hw, _⟩; cases within_tensor.1 hw

theorem not_plain_array {a : Arr} : ¬HasPlainItem (.array a) := by
  rintro ⟨s, w, hw, _⟩; cases within_array.1 hw

theorem not_plain_nothing : ¬HasPlainItem .nothing := by
  rintro ⟨s, w, hw, _⟩; cases within_nothing.1 hw

theorem not_plain_other {s : String} : ¬HasPlainItem (.other s) := by
  rintro ⟨s, w, hw, _⟩; cases within_other.1 hw

theorem evalFlags_iff (v : Val) : ((evalFlags v).1 = true ↔ HasTensor v) ∧ ((evalFlags v).2 = true ↔ HasArray v) := by
  induction v using Val.induct with
  | hn => simp [evalFlags, not_hasTensor_nothing, not_hasArray_nothing]
  | ht d a => simp [evalFlags, hasTensor_tensor, not_hasArray_tensor]
  | ha a => simp [evalFlags, not_hasTensor_array, hasArray_array]
  | ho s => simp [evalFlags, not_hasTensor_other, not_hasArray_other]
  | hd l ih =>
    simp only [evalFlags, evalFlagsDict_eq, List.any_eq_true, hasTensor_dict, hasArray_dict]
    exact ⟨⟨fun ⟨p, hp, h⟩ => ⟨p, hp, (ih p hp).1.1 h⟩, fun ⟨p, hp, h⟩ => ⟨p, hp, (ih p hp).1.2 h⟩⟩,
      ⟨fun ⟨p, hp, h⟩ => ⟨p, hp, (ih p hp).2.1 h⟩, fun ⟨p, hp, h⟩ => ⟨p, hp, (ih p hp).2.2 h⟩⟩⟩
  | hs l ih =>
    simp only [evalFlags, evalFlagsSeq_eq, List.any_eq_true, hasTensor_seq, hasArray_seq]
    exact ⟨⟨fun ⟨p, hp, h⟩ => ⟨p, hp, (ih p hp).1.1 h⟩, fun ⟨p, hp, h⟩ => ⟨p, hp, (ih p hp).1.2 h⟩⟩,
      ⟨fun ⟨p, hp, h⟩ => ⟨p, hp, (ih p hp).2.1 h⟩, fun ⟨p, hp, h⟩ => ⟨p, hp, (ih p hp).2.2 h⟩⟩⟩

theorem trainFlags_iff (v : Val) :
    ((trainFlags v).1 = true ↔ HasTensor v) ∧ ((trainFlags v).2 = true ↔ HasArray v ∨ HasPlainItem v) := by
  induction v using Val.induct with
  | hn => simp [trainFlags, not_hasTensor_nothing, not_hasArray_nothing, not_plain_nothing]
  | ht d a => simp [trainFlags, hasTensor_tensor, not_hasArray_tensor, not_plain_tensor]
  | ha a => simp [trainFlags, not_hasTensor_array, hasArray_array]
  | ho s => simp [trainFlags, not_hasTensor_other, not_hasArray_other, not_plain_other]
  | hd l ih =>
    simp only [trainFlags, trainFlagsDict_eq, List.any_eq_true, hasTensor_dict, hasArray_dict, plain_dict]
    refine ⟨⟨fun ⟨p, hp, h⟩ => ⟨p, hp, (ih p hp).1.1 h⟩, fun ⟨p, hp, h⟩ => ⟨p, hp, (ih p hp).1.2 h⟩⟩, ?_, ?_⟩
    · rintro ⟨p, hp, h⟩
      rcases (ih p hp).2.1 h with h | h
      · exact .inl ⟨p, hp, h⟩
      · exact .inr ⟨p, hp, h⟩
    · rintro (⟨p, hp, h⟩ | ⟨p, hp, h⟩)
      · exact ⟨p, hp, (ih p hp).2.2 (.inl h)⟩
      · exact ⟨p, hp, (ih p hp).2.2 (.inr h)⟩
  | hs l ih =>
    simp only [trainFlags, trainFlagsSeq_eq, List.any_eq_true, hasTensor_seq, hasArray_seq, plain_seq, Bool.or_eq_true,
      Bool.and_eq_true, Bool.not_eq_true']
    refine ⟨⟨fun ⟨p, hp, h⟩ => ⟨p, hp, (ih p hp).1.1 h⟩, fun ⟨p, hp, h⟩ => ⟨p, hp, (ih p hp).1.2 h⟩⟩, ?_, ?_⟩
    · rintro ⟨p, hp, h | ⟨h1, h2⟩⟩
      · rcases (ih p hp).2.1 h with h | h
        · exact .inl ⟨p, hp, h⟩
        · exact .inr (.inr ⟨p, hp, h⟩)
      · refine .inr (.inl ⟨p, hp, fun h => ?_, fun h => ?_⟩)
        · rw [(ih p hp).1.2 h] at h1; cases h1
        · rw [(ih p hp).2.2 (.inl h)] at h2; cases h2
    · rintro (⟨p, hp, h⟩ | ⟨p, hp, h1, h2⟩ | ⟨p, hp, h⟩)
      · exact ⟨p, hp, .inl ((ih p hp).2.2 (.inl h))⟩
      · by_cases h : (trainFlags p).2 = true
        · exact ⟨p, hp, .inl h⟩
        · refine ⟨p, hp, .inr ⟨?_, by simpa using h⟩⟩
          by_contra hc
          exact h1 ((ih p hp).1.1 (by simpa using hc))
      · exact ⟨p, hp, .inl ((ih p hp).2.2 (.inr h))⟩

/-- C164: in training a value counts as torch data exactly if it is a tensor, or a dictionary with a tensor in it and
neither a numpy array nor a sequence with plain items. -/
theorem C164_training_torch (v : Val) : trainTorch v = true ↔
    v.isTensor ∨ (∃ l, v = .dict l) ∧ HasTensor v ∧ ¬HasArray v ∧ ¬HasPlainItem v := by
  cases v with
  | dict l =>
    have h := trainFlags_iff (.dict l)
    simp only [trainFlags] at h
    simp only [trainTorch, Bool.and_eq_true, h.1, Bool.not_eq_true', Val.isTensor, false_or]
    rw [← Bool.not_eq_true, h.2, not_or]
    exact ⟨fun ⟨a, b, c⟩ => ⟨⟨_, rfl⟩, a, b, c⟩, fun ⟨_, a, b, c⟩ => ⟨a, b, c⟩⟩
  | _ => simp [trainTorch, Val.isTensor]

/-- C164: in evaluation it does exactly if it is a tensor, or a dictionary with a tensor and no numpy array in it. -/
theorem C164_evaluation_torch (v : Val) : evalTorch v = true ↔
    v.isTensor ∨ (∃ l, v = .dict l) ∧ HasTensor v ∧ ¬HasArray v := by
  cases v with
  | dict l =>
    have h := evalFlags_iff (.dict l)
    simp only [evalFlags] at h
    simp only [evalTorch, Bool.and_eq_true, h.1, Bool.not_eq_true', Val.isTensor, false_or]
    rw [← Bool.not_eq_true, h.2]
    exact ⟨fun ⟨a, b⟩ => ⟨⟨_, rfl⟩, a, b⟩, fun ⟨_, a, b⟩ => ⟨a, b⟩⟩
  | _ => simp [evalTorch, Val.isTensor]

/-- C164, the failure: a tensor next to a list of plain numbers is torch data for the evaluation but not for the
training. -/
theorem C164_containers_violated (d : String) (a : Arr) (k s : String) :
    evalTorch (.dict [("x", .tensor d a), (k, .seq [.other s])]) = true ∧
      trainTorch (.dict [("x", .tensor d a), (k, .seq [.other s])]) = false := by
  constructor <;> rfl

/-! ### strict runs -/

theorem strictTensor_ok (v : Val) : strictTensor v = .ok () ↔
    (∀ d a, Features (.tensor d a) v → 2 ≤ a.shape.length ∧ a.dtype.floating = true) ∧
    (∀ a, Features (.array a) v → 2 ≤ a.shape.length) := by
  have key : ∀ w, (match w with
      | Val.tensor _ a =>
        if a.shape.length < 2 then (.error .runtimeError : Except PyErr Unit)
        else if a.dtype.floating then .ok () else .error .runtimeError
      | .array a => if a.shape.length < 2 then .error .runtimeError else .ok ()
      | _ => .ok ()) = .ok () ↔
      (∀ d a, w = .tensor d a → 2 ≤ a.shape.length ∧ a.dtype.floating = true) ∧ (∀ a, w = .array a → 2 ≤ a.shape.length) := by
    intro w
    cases w with
    | tensor d a =>
      simp only [Val.tensor.injEq, reduceCtorEq, false_imp_iff, implies_true, and_true]
      by_cases h : a.shape.length < 2
      · rw [if_pos h]
        exact ⟨fun h' => by (cases h'), fun h' => absurd (h' d a ⟨rfl, rfl⟩).1 (by omega)⟩
      · rw [if_neg h]
        by_cases h2 : a.dtype.floating = true
        · rw [if_pos h2]
          refine ⟨fun _ d' a' ⟨_, h'⟩ => ?_, fun _ => rfl⟩
          subst h'; exact ⟨by omega, h2⟩
        · rw [if_neg h2]
          exact ⟨fun h' => by (cases h'), fun h' => absurd (h' d a ⟨rfl, rfl⟩).2 h2⟩
    | array a =>
      simp only [Val.array.injEq, reduceCtorEq, false_imp_iff, implies_true, true_and]
      by_cases h : a.shape.length < 2
      · rw [if_pos h]
        exact ⟨fun h' => by (cases h'), fun h' => absurd (h' a rfl) (by omega)⟩
      · rw [if_neg h]
        exact ⟨fun _ a' h' => by subst h'; omega, fun _ => rfl⟩
    | _ => simp
  have hf : ∀ w, w ≠ .nothing → (Features w v ∧ (w.isTensor ∨ w.isArray) ↔ featureTensor v = w ∧ (w.isTensor ∨ w.isArray)) := by
    intro w hw
    cases v with
    | tensor d a => exact ⟨fun ⟨h, h'⟩ => by cases h; exact ⟨rfl, h'⟩, fun ⟨h, h'⟩ => by cases h; exact ⟨.tensor _ _, h'⟩⟩
    | array a => exact ⟨fun ⟨h, h'⟩ => by cases h; exact ⟨rfl, h'⟩, fun ⟨h, h'⟩ => by cases h; exact ⟨.array _, h'⟩⟩
    | dict l =>
      simp only [featureTensor]
      constructor
      · rintro ⟨h, h'⟩
        cases h with
        | dict h => rw [h]; exact ⟨rfl, h'⟩
      · rintro ⟨h, h'⟩
        cases hl : l.lookup "x" with
        | none => rw [hl] at h; exact absurd h.symm hw
        | some x => rw [hl] at h; cases h; exact ⟨.dict hl, h'⟩
    | _ => exact ⟨fun ⟨h, h'⟩ => (by cases h), fun ⟨h, h'⟩ => absurd h.symm hw⟩
  refine (key (featureTensor v)).trans ?_
  constructor
  · rintro ⟨h1, h2⟩
    exact ⟨fun d a h => h1 d a ((hf _ (by simp)).1 ⟨h, .inl trivial⟩).1,
      fun a h => h2 a ((hf _ (by simp)).1 ⟨h, .inr trivial⟩).1⟩
  · rintro ⟨h1, h2⟩
    exact ⟨fun d a h => h1 d a ((hf _ (by simp)).2 ⟨h, .inl trivial⟩).1,
      fun a h => h2 a ((hf _ (by simp)).2 ⟨h, .inr trivial⟩).1⟩

theorem strictInput_ok (rt : Bool) (v : Val) : strictInput rt v = .ok () ↔ v = .nothing ∨ StrictOk rt v := by
  by_cases hv : v = .nothing
  · subst hv; simp [strictInput]
  · have : strictInput rt v = if rt && !trainTorch v then .error .runtimeError else strictTensor v := by
      cases v <;> first | rfl | exact absurd rfl hv
    rw [this]
    unfold StrictOk
    rw [← C164_training_torch, ← strictTensor_ok]
    cases rt <;> cases trainTorch v <;> simp [hv]

/-- C164: a strict run hands the data over exactly as it is, and it does so exactly if the backend is not left open,
every input that is there is acceptable (torch data if the method needs torch; features with two axes or more, tensors
of a floating type) and there are as many labels as rows. -/
theorem C164_strict (ext : Ext) (resolve : String → String) (c : Cfg) (d : Inputs) (y : Val)
    (r : Inputs × Val × Report) : handOver ext resolve true c d y = .ok r ↔
      c.backend ≠ some "auto" ∧
      (∀ v ∈ [d.xl, d.xu, d.xuw, d.xus, d.xus1], v = .nothing ∨ StrictOk c.requiresTorch v) ∧
      (∀ n m, len0 d.xl = some n → len0 (labelsFor d.xl y) = some m → n = m) ∧
      r = (d, labelsFor d.xl y, ⟨false, true⟩) := by
  unfold handOver
  rw [if_pos rfl]
  by_cases hb : c.backend = some "auto"
  · rw [if_pos hb]; simp [hb]
  · rw [if_neg hb]
    have hrows : ∀ u : Unit, strictRows d.xl (labelsFor d.xl y) = .ok u ↔
        ∀ n m, len0 d.xl = some n → len0 (labelsFor d.xl y) = some m → n = m := by
      intro u
      unfold strictRows
      cases len0 d.xl <;> cases len0 (labelsFor d.xl y) <;> simp
    constructor
    · intro h
      obtain ⟨u, hu, h⟩ := ebind_ok.1 h
      unfold strictInputs at hu
      obtain ⟨us, hus, hu⟩ := ebind_ok.1 hu
      refine ⟨hb, ?_, (hrows u).1 hu, by injection h with h; exact h.symm⟩
      intro v hv
      have hus := mapM_ok.1 hus
      have : ∀ {l : List Val} {us : List Unit}, List.Forall₂ (fun v u => strictInput c.requiresTorch v = .ok u) l us →
          ∀ v ∈ l, strictInput c.requiresTorch v = .ok () := by
        intro l us h
        induction h with
        | nil => simp
        | cons h1 _ ih =>
          intro v hv
          rcases List.mem_cons.1 hv with rfl | hv
          · exact h1
          · exact ih v hv
      exact (strictInput_ok _ _).1 (this hus v hv)
    · rintro ⟨_, hall, hn, rfl⟩
      obtain ⟨us, hus⟩ := mapM_total (f := strictInput c.requiresTorch) (l := d.all)
        (fun v hv => ⟨(), (strictInput_ok _ _).2 (hall v hv)⟩)
      have : strictInputs c.requiresTorch d (labelsFor d.xl y) = .ok () := by
        unfold strictInputs
        rw [ebind_of_ok hus]
        exact (hrows ()).2 hn
      rw [ebind_of_ok this]

/-! ### conversion -/

theorem asTensor_ok {ext : Ext} {dev : String} {a : Arr} {w : Val} (h : asTensor ext dev a = .ok w) :
    ∃ b, w = .tensor dev b ∧ Numbers ext a b := by
  unfold asTensor at h
  unfold Numbers
  cases hd : a.dtype <;> rw [hd] at h <;> simp only [Except.ok.injEq, reduceCtorEq] at h <;> subst h <;>
    exact ⟨_, rfl, rfl, by simp [hd]⟩

theorem trainToItems_ok {ext : Ext} {dev : Option String} : ∀ {l l' : List (String × Val)},
    trainToItems ext dev l = .ok l' → List.Forall₂ (fun p q => p.1 = q.1 ∧ trainTo ext dev p.2 = .ok q.2) l l'
  | [], l', h => by
    simp only [trainToItems, Except.ok.injEq] at h
    subst h; exact .nil
  | (k, v) :: l, l', h => by
    simp only [trainToItems] at h
    obtain ⟨v', hv, h⟩ := ebind_ok.1 h
    obtain ⟨m, hm, h⟩ := ebind_ok.1 h
    injection h with h
    subst h
    exact .cons ⟨rfl, hv⟩ (trainToItems_ok hm)

theorem forall2_imp_mem {α β : Type} {R S : α → β → Prop} : ∀ {l : List α} {m : List β},
    List.Forall₂ R l m → (∀ a ∈ l, ∀ b, R a b → S a b) → List.Forall₂ S l m
  | _, _, .nil, _ => .nil
  | _, _, .cons h t, hi => .cons (hi _ List.mem_cons_self _ h)
      (forall2_imp_mem t fun a ha b hb => hi a (List.mem_cons_of_mem _ ha) b hb)

theorem turned_dict {ext : Ext} {dev : String} : ∀ {l l' : List (String × Val)},
    List.Forall₂ (fun p q => p.1 = q.1 ∧ Turned ext dev p.2 q.2) l l' → Turned ext dev (.dict l) (.dict l')
  | _, _, .nil => .empty
  | (k, v) :: l, (k', w) :: l', .cons h t => by
    obtain ⟨hk, h⟩ := h
    simp only at hk h
    subst hk
    exact .entry h (turned_dict t)

theorem trainTo_turned {ext : Ext} {dev : String} (v : Val) : ∀ {w : Val}, trainTo ext (some dev) v = .ok w →
    Turned ext dev v w := by
  induction v using Val.induct with
  | hn =>
    intro w h
    simp only [trainTo, Except.ok.injEq] at h
    subst h; exact .nothing
  | ht d a =>
    intro w h
    simp only [trainTo, Except.ok.injEq] at h
    subst h; exact .tensor d a
  | ha a =>
    intro w h
    simp only [trainTo] at h
    obtain ⟨b, rfl, hb⟩ := asTensor_ok h
    exact .array hb
  | ho s =>
    intro w h
    simp only [trainTo] at h
    obtain ⟨a, ha, h⟩ := ebind_ok.1 h
    obtain ⟨b, rfl, hb⟩ := asTensor_ok h
    exact .other ha hb
  | hs l _ =>
    intro w h
    simp only [trainTo] at h
    obtain ⟨a, ha, h⟩ := ebind_ok.1 h
    obtain ⟨b, rfl, hb⟩ := asTensor_ok h
    exact .seq ha hb
  | hd l ih =>
    intro w h
    simp only [trainTo] at h
    obtain ⟨l', hl, h⟩ := ebind_ok.1 h
    injection h with h
    subst h
    exact turned_dict (forall2_imp_mem (trainToItems_ok hl) fun p hp q hq => ⟨hq.1, ih p hp hq.2⟩)

theorem Turned.allOn {ext : Ext} {dev : String} {v w : Val} (h : Turned ext dev v w) : AllOn dev w := by
  induction h with
  | nothing => intro x hx; exact .inr (.inr (within_nothing.1 hx))
  | empty =>
    intro x hx
    rcases within_dict.1 hx with rfl | ⟨q, hq, hx⟩
    · exact .inr (.inl ⟨_, rfl⟩)
    · simp at hq
  | entry _ _ ih1 ih2 =>
    intro x hx
    rcases within_dict.1 hx with rfl | ⟨q, hq, hx⟩
    · exact .inr (.inl ⟨_, rfl⟩)
    · rcases List.mem_cons.1 hq with rfl | hq
      · exact ih1 x hx
      · exact ih2 x (.dict hq hx)
  | _ => intro x hx; exact .inl ⟨_, within_tensor.1 hx⟩

theorem lookup_mem {l : List (String × Val)} {k : String} {v : Val} (h : l.lookup k = some v) : (k, v) ∈ l := by
  induction l with
  | nil => simp at h
  | cons p l ih =>
    obtain ⟨j, w⟩ := p
    rw [List.lookup_cons] at h
    by_cases hk : k = j
    · subst hk
      simp at h
      subst h
      exact List.mem_cons_self
    · rw [show (k == j) = false by simpa using hk] at h
      exact List.mem_cons_of_mem _ (ih h)

theorem containerDeviceDict_none {l : List (String × Val)} :
    containerDeviceDict l = none ↔ ∀ p ∈ l, containerDevice p.2 = none := by
  induction l with
  | nil => simp [containerDeviceDict]
  | cons p l ih => obtain ⟨k, v⟩ := p; simp [containerDeviceDict, ih]

theorem containerDeviceSeq_none {l : List Val} :
    containerDeviceSeq l = none ↔ ∀ p ∈ l, containerDevice p = none := by
  induction l with
  | nil => simp [containerDeviceSeq]
  | cons v l ih => simp [containerDeviceSeq, ih]

theorem containerDeviceDict_some {l : List (String × Val)} {d : String} (h : containerDeviceDict l = some d) :
    ∃ p ∈ l, containerDevice p.2 = some d := by
  induction l with
  | nil => simp [containerDeviceDict] at h
  | cons p l ih =>
    obtain ⟨k, v⟩ := p
    simp only [containerDeviceDict, Option.or_eq_some_iff] at h
    rcases h with h | ⟨_, h⟩
    · exact ⟨_, List.mem_cons_self, h⟩
    · obtain ⟨p, hp, h⟩ := ih h
      exact ⟨p, List.mem_cons_of_mem _ hp, h⟩

theorem containerDeviceSeq_some {l : List Val} {d : String} (h : containerDeviceSeq l = some d) :
    ∃ p ∈ l, containerDevice p = some d := by
  induction l with
  | nil => simp [containerDeviceSeq] at h
  | cons v l ih =>
    simp only [containerDeviceSeq, Option.or_eq_some_iff] at h
    rcases h with h | ⟨_, h⟩
    · exact ⟨_, List.mem_cons_self, h⟩
    · obtain ⟨p, hp, h⟩ := ih h
      exact ⟨p, List.mem_cons_of_mem _ hp, h⟩

theorem xDevice_some {l : List (String × Val)} {d : String} (h : xDevice l = some d) : ∃ a, ("x", Val.tensor d a) ∈ l := by
  unfold xDevice at h
  cases hl : l.lookup "x" with
  | none => rw [hl] at h; cases h
  | some v =>
    rw [hl] at h
    cases v with
    | tensor e a => simp only [Option.some.injEq] at h; subst h; exact ⟨a, lookup_mem hl⟩
    | _ => cases h

theorem containerDevice_some (v : Val) : ∀ {d : String}, containerDevice v = some d → ∃ a, Within (.tensor d a) v := by
  induction v using Val.induct with
  | ht d a => intro e h; simp only [containerDevice, Option.some.injEq] at h; subst h; exact ⟨a, .here⟩
  | hd l ih =>
    intro e h
    simp only [containerDevice, Option.or_eq_some_iff] at h
    rcases h with h | ⟨_, h⟩
    · obtain ⟨a, ha⟩ := xDevice_some h
      exact ⟨a, .dict ha .here⟩
    · obtain ⟨p, hp, h⟩ := containerDeviceDict_some h
      obtain ⟨a, ha⟩ := ih p hp h
      exact ⟨a, .dict hp ha⟩
  | hs l ih =>
    intro e h
    simp only [containerDevice] at h
    obtain ⟨p, hp, h⟩ := containerDeviceSeq_some h
    obtain ⟨a, ha⟩ := ih p hp h
    exact ⟨a, .seq hp ha⟩
  | _ => intro e h; simp [containerDevice] at h

theorem containerDevice_none (v : Val) (h : containerDevice v = none) : ¬HasTensor v := by
  induction v using Val.induct with
  | ht d a => simp [containerDevice] at h
  | hn => exact not_hasTensor_nothing
  | ha => exact not_hasTensor_array
  | ho => exact not_hasTensor_other
  | hd l ih =>
    simp only [containerDevice, Option.or_eq_none_iff] at h
    rw [hasTensor_dict]
    rintro ⟨p, hp, ht⟩
    exact ih p hp (containerDeviceDict_none.1 h.2 p hp) ht
  | hs l ih =>
    simp only [containerDevice] at h
    rw [hasTensor_seq]
    rintro ⟨p, hp, ht⟩
    exact ih p hp (containerDeviceSeq_none.1 h p hp) ht

theorem trainTorch_device {v : Val} (h : trainTorch v = true) : ∃ d, containerDevice v = some d := by
  have ht : HasTensor v := by
    rcases (C164_training_torch v).1 h with h | h
    · exact ⟨v, .here, h⟩
    · exact h.2.1
  cases hc : containerDevice v with
  | some d => exact ⟨d, rfl⟩
  | none => exact absurd ht (containerDevice_none v hc)

/-- C164: when the data is not torch data and the method is to run on torch, everything handed over is the given data
turned into tensors on the configured device. -/
theorem C164_converted {ext : Ext} {resolve : String → String} {c : Cfg} {d d' : Inputs} {y yl : Val} {r : Report}
    (h : handOver ext resolve false c d y = .ok (d', yl, r)) (hc : autoTorch c = true) (hx : trainTorch d.xl = false) :
    d.Turned ext (resolve c.device) d' ∧ ∀ v ∈ [d'.xl, d'.xu, d'.xuw, d'.xus, d'.xus1], AllOn (resolve c.device) v := by
  unfold handOver at h
  rw [if_neg (by simp)] at h
  obtain ⟨e, he, h⟩ := ebind_ok.1 h
  injection h with h
  injection h with h _
  subst h
  unfold convertInputs at he
  rw [if_pos hc, if_pos (by simp [hx])] at he
  obtain ⟨xl, h1, he⟩ := ebind_ok.1 he
  obtain ⟨xu, h2, he⟩ := ebind_ok.1 he
  obtain ⟨xuw, h3, he⟩ := ebind_ok.1 he
  obtain ⟨xus, h4, he⟩ := ebind_ok.1 he
  obtain ⟨xus1, h5, he⟩ := ebind_ok.1 he
  injection he with he
  subst he
  have t1 := trainTo_turned _ h1
  have t2 := trainTo_turned _ h2
  have t3 := trainTo_turned _ h3
  have t4 := trainTo_turned _ h4
  have t5 := trainTo_turned _ h5
  refine ⟨⟨t1, t2, t3, t4, t5⟩, ?_⟩
  intro v hv
  simp only [List.mem_cons, List.not_mem_nil, or_false] at hv
  rcases hv with rfl | rfl | rfl | rfl | rfl
  · exact t1.allOn
  · exact t2.allOn
  · exact t3.allOn
  · exact t4.allOn
  · exact t5.allOn

/-- C164: when the data is torch data already, it is handed over as it is and the augmented rows follow it to its
device. -/
theorem C164_followed {ext : Ext} {resolve : String → String} {c : Cfg} {d d' : Inputs} {y yl : Val} {r : Report}
    (h : handOver ext resolve false c d y = .ok (d', yl, r)) (hc : autoTorch c = true) (hx : trainTorch d.xl = true) :
    d'.xl = d.xl ∧ d'.xu = d.xu ∧ ∃ dev, containerDevice d.xl = some dev ∧ Turned ext dev d.xuw d'.xuw ∧
      Turned ext dev d.xus d'.xus ∧ Turned ext dev d.xus1 d'.xus1 := by
  obtain ⟨dev, hdev⟩ := trainTorch_device hx
  unfold handOver at h
  rw [if_neg (by simp)] at h
  obtain ⟨e, he, h⟩ := ebind_ok.1 h
  injection h with h
  injection h with h _
  subst h
  unfold convertInputs at he
  rw [if_pos hc, if_neg (by simp [hx])] at he
  simp only [hdev, Option.getD_some] at he
  obtain ⟨xuw, h3, he⟩ := ebind_ok.1 he
  obtain ⟨xus, h4, he⟩ := ebind_ok.1 he
  obtain ⟨xus1, h5, he⟩ := ebind_ok.1 he
  injection he with he
  subst he
  exact ⟨rfl, rfl, dev, hdev, trainTo_turned _ h3, trainTo_turned _ h4, trainTo_turned _ h5⟩

/-- C164: a method that is not to run on torch gets the data as it is. -/
theorem C164_kept {ext : Ext} {resolve : String → String} {c : Cfg} {d : Inputs} {y : Val} (hc : autoTorch c = false) :
    handOver ext resolve false c d y = .ok (d, labelsFor d.xl y, ⟨false, false⟩) := by
  unfold handOver
  rw [if_neg (by simp)]
  have : convertInputs ext resolve c d = .ok d := by
    unfold convertInputs
    rw [if_neg (by simp [hc])]
  rw [ebind_of_ok this]

theorem AllOn.torch {dev : String} {v : Val} (h : AllOn dev v) (ht : HasTensor v) :
    trainTorch v = true ∧ containerDevice v = some dev := by
  have hT : trainTorch v = true := by
    rw [C164_training_torch]
    rcases h v .here with ⟨a, rfl⟩ | ⟨l, rfl⟩ | rfl
    · exact .inl trivial
    · refine .inr ⟨⟨l, rfl⟩, ht, ?_, ?_⟩
      · rintro ⟨x, hx, hxa⟩
        rcases h x hx with ⟨a, rfl⟩ | ⟨l, rfl⟩ | rfl <;> exact hxa
      · rintro ⟨l', w, hx, _⟩
        rcases h _ hx with ⟨a, h'⟩ | ⟨l, h'⟩ | h' <;> cases h'
    · exact absurd ht not_hasTensor_nothing
  refine ⟨hT, ?_⟩
  obtain ⟨d, hd⟩ := trainTorch_device hT
  obtain ⟨a, ha⟩ := containerDevice_some v hd
  rcases h _ ha with ⟨b, h'⟩ | ⟨l, h'⟩ | h'
  · injection h' with h' _
    rw [hd, h']
  · cases h'
  · cases h'

/-- C164: the labels go where the converted features are. -/
theorem C164_labels {ext : Ext} {resolve : String → String} {c : Cfg} {d d' : Inputs} {y yl : Val} {r : Report}
    (h : handOver ext resolve false c d y = .ok (d', yl, r)) (hc : autoTorch c = true) (hx : trainTorch d.xl = false)
    (ht : HasTensor d'.xl) :
    (∀ a, y = .array a → yl = .tensor (resolve c.device) { a with dtype := .i64 }) ∧
      (∀ e a, y = .tensor e a → yl = .tensor (resolve c.device) a) := by
  have hall := (C164_converted h hc hx).2 d'.xl (by simp)
  obtain ⟨hT, hdev⟩ := hall.torch ht
  unfold handOver at h
  rw [if_neg (by simp)] at h
  obtain ⟨e, he, h⟩ := ebind_ok.1 h
  injection h with h
  injection h with h h2
  injection h2 with h2 _
  subst h
  rw [← h2]
  constructor
  · rintro a rfl
    simp only [labelsFor, hT, hdev, if_true, Option.getD_some]
  · rintro e' a rfl
    simp only [labelsFor, hT, hdev, if_true, Option.getD_some]

/-- C164: what is converted is torch data, as soon as there is anything in it. -/
theorem C164_becomes_torch {ext : Ext} {dev : String} {v w : Val} (h : Turned ext dev v w) (ht : HasTensor w) :
    trainTorch w = true ∧ evalTorch w = true := by
  have h1 := h.allOn.torch ht
  refine ⟨h1.1, (C164_evaluation_torch w).2 ?_⟩
  rcases (C164_training_torch w).1 h1.1 with h | ⟨a, b, c, _⟩
  · exact .inl h
  · exact .inr ⟨a, b, c⟩

/-! ### evaluation -/

mutual
theorem evalTo_eq (ext : Ext) (dev : String) : ∀ v, evalTo ext dev v = trainTo ext (some dev) v
  | .nothing => rfl
  | .tensor _ _ => rfl
  | .array _ => rfl
  | .seq _ => rfl
  | .other _ => rfl
  | .dict l => by
    simp only [evalTo, trainTo]
    rw [evalToItems_eq ext dev l]

theorem evalToItems_eq (ext : Ext) (dev : String) : ∀ l, evalToItems ext dev l = trainToItems ext (some dev) l
  | [] => rfl
  | (k, v) :: l => by
    simp only [evalToItems, trainToItems]
    rw [evalTo_eq ext dev v, evalToItems_eq ext dev l]
end

theorem evalTo_id {ext : Ext} {dev : String} (v : Val) : AllOn dev v → evalTo ext dev v = .ok v := by
  induction v using Val.induct with
  | hn => intro _; rfl
  | ht d a =>
    intro h
    rcases h _ .here with ⟨b, h'⟩ | ⟨l, h'⟩ | h'
    · injection h' with h' _
      simp [evalTo, h']
    · cases h'
    · cases h'
  | ha a => intro h; rcases h _ .here with ⟨b, h'⟩ | ⟨l, h'⟩ | h' <;> cases h'
  | ho a => intro h; rcases h _ .here with ⟨b, h'⟩ | ⟨l, h'⟩ | h' <;> cases h'
  | hs a => intro h; rcases h _ .here with ⟨b, h'⟩ | ⟨l, h'⟩ | h' <;> cases h'
  | hd l ih =>
    intro h
    have : ∀ m : List (String × Val), (∀ p ∈ m, evalTo ext dev p.2 = .ok p.2) → evalToItems ext dev m = .ok m := by
      intro m
      induction m with
      | nil => intro _; rfl
      | cons p m im =>
        intro hm
        obtain ⟨k, v⟩ := p
        simp only [evalToItems]
        rw [ebind_of_ok (hm _ List.mem_cons_self), ebind_of_ok (im fun q hq => hm q (List.mem_cons_of_mem _ hq))]
    simp only [evalTo]
    rw [ebind_of_ok (this l fun p hp => ih p hp fun x hx => h x (.dict hp hx))]

/-- C164: if the evaluation finds the device the training data was moved to, then rows arrive in the evaluation in the
representation they have in training: the training rows themselves come out the same, other rows are turned the same way. -/
theorem C164_evaluated {ext : Ext} {resolve : String → String} {c : Cfg} {d d' : Inputs} {y yl : Val} {r : Report}
    (h : handOver ext resolve false c d y = .ok (d', yl, r)) (hc : autoTorch c = true) (hx : trainTorch d.xl = false)
    {m : Method} (hm : destDevice m = some (resolve c.device)) :
    evalInput ext false m d.xl = .ok d'.xl ∧
      ∀ x w, evalInput ext false m x = .ok w → Turned ext (resolve c.device) x w := by
  have heval : ∀ x, evalInput ext false m x = trainTo ext (some (resolve c.device)) x := by
    intro x
    unfold evalInput
    rw [hm]
    exact evalTo_eq ext _ x
  constructor
  · rw [heval]
    unfold handOver at h
    rw [if_neg (by simp)] at h
    obtain ⟨e, he, h⟩ := ebind_ok.1 h
    injection h with h
    injection h with h _
    subst h
    unfold convertInputs at he
    rw [if_pos hc, if_pos (by simp [hx])] at he
    obtain ⟨xl, h1, he⟩ := ebind_ok.1 he
    obtain ⟨xu, h2, he⟩ := ebind_ok.1 he
    obtain ⟨xuw, h3, he⟩ := ebind_ok.1 he
    obtain ⟨xus, h4, he⟩ := ebind_ok.1 he
    obtain ⟨xus1, h5, he⟩ := ebind_ok.1 he
    injection he with he
    subst he
    exact h1
  · intro x w hw
    rw [heval] at hw
    exact trainTo_turned x hw

/-- C164: torch data on the device of the method is evaluated as it is. -/
theorem C164_evaluated_torch {ext : Ext} {m : Method} {dev : String} (hm : destDevice m = some dev) {x : Val}
    (hx : AllOn dev x) : evalInput ext false m x = .ok x := by
  unfold evalInput
  rw [hm]
  exact evalTo_id x hx

/-- C164: a strict evaluation uses the rows as they are, or refuses them; with a device to run on they are torch data. -/
theorem C164_evaluated_strict {ext : Ext} {m : Method} {x w : Val} : evalInput ext true m x = .ok w ↔
    w = x ∧ (destDevice m ≠ none → x.isTensor ∨ (∃ l, x = .dict l) ∧ HasTensor x ∧ ¬HasArray x) := by
  rw [← C164_evaluation_torch]
  unfold evalInput
  cases hd : destDevice m with
  | none => simp only [Except.ok.injEq, ne_eq, not_true_eq_false, false_imp_iff, and_true]; exact eq_comm
  | some d =>
    simp only [if_true]
    by_cases h : evalTorch x = true
    · simp only [h, if_true, Except.ok.injEq, implies_true, and_true]; exact eq_comm
    · simp [h]

theorem firstSome_none {l : List (Option String)} : firstSome l = none ↔ ∀ x ∈ l, x = none := by
  induction l with
  | nil => simp [firstSome]
  | cons a l ih =>
    have : firstSome (a :: l) = a.or (firstSome l) := rfl
    rw [this, Option.or_eq_none_iff, ih]
    simp

/-- C164: the evaluation finds a device exactly if one of six attributes of the method has one, or one of seven
attributes of those. -/
theorem C164_found {m : Method} (hd : m.device = none) (hb : m.backend = some "torch") :
    destDevice m ≠ none ↔ ∃ a ∈ ["_svm", "_bundle", "_model", "_clf", "_clf1", "_clf2"], ∃ o, m.attrs.lookup a = some o ∧
      (firstDevice o ≠ none ∨
        ∃ n ∈ ["_model", "model", "_bundle", "_svm", "_clf", "_clf1", "_clf2"], firstDevice (o.attr n) ≠ none) := by
  have h0 : destDevice m = inferDevice m.attrs := by
    unfold destDevice
    rw [hd]
    simp only [hb, if_true]
  have hn : firstDevice .nothing = none := by simp [firstDevice]
  rw [h0]
  unfold inferDevice
  rw [ne_eq, firstSome_none]
  constructor
  · intro h
    rw [Classical.not_forall] at h
    obtain ⟨x, h⟩ := h
    rw [Classical.not_imp] at h
    obtain ⟨hx, h⟩ := h
    obtain ⟨a, ha, rfl⟩ := List.mem_map.1 hx
    refine ⟨a, ha, ?_⟩
    cases hl : m.attrs.lookup a with
    | none =>
      exfalso
      apply h
      simp only [hl, Option.getD_none, hn, Option.none_or]
      rw [firstSome_none]
      intro y hy
      obtain ⟨n, _, rfl⟩ := List.mem_map.1 hy
      exact hn
    | some o =>
      refine ⟨o, rfl, ?_⟩
      simp only [hl, Option.getD_some, Option.or_eq_none_iff, not_and_or] at h
      rcases h with h | h
      · exact .inl h
      · rw [firstSome_none, Classical.not_forall] at h
        obtain ⟨y, h⟩ := h
        rw [Classical.not_imp] at h
        obtain ⟨hy, h⟩ := h
        obtain ⟨n, hn, rfl⟩ := List.mem_map.1 hy
        exact .inr ⟨n, hn, h⟩
  · rintro ⟨a, ha, o, ho, h⟩ hall
    have hx := hall _ (List.mem_map.2 ⟨a, ha, rfl⟩)
    simp only [ho, Option.getD_some, Option.or_eq_none_iff] at hx
    rcases h with h | ⟨n, hn, h⟩
    · exact h hx.1
    · exact h (firstSome_none.1 hx.2 _ (List.mem_map.2 ⟨n, hn, rfl⟩))

theorem handOver_of_convert {ext : Ext} {resolve : String → String} {c : Cfg} {d d' : Inputs} (y : Val)
    (h : convertInputs ext resolve c d = .ok d') : ∃ yl r, handOver ext resolve false c d y = .ok (d', yl, r) := by
  refine ⟨labelsFor d'.xl y, ⟨false, false⟩, ?_⟩
  unfold handOver
  rw [if_neg (by simp), ebind_of_ok h]

/-- C164, the failure: a method trained on converted tensors that keeps its classifiers elsewhere (a list `_clfs`, as
Tri-Training and Democratic Co-Learning do), or whose classifier keeps its tensors elsewhere (k nearest neighbours),
gets the numpy arrays in the evaluation. -/
theorem C164_evaluated_violated (ext : Ext) (resolve : String → String) {c : Cfg} (hc : autoTorch c = true) {a : Arr}
    (ha : a.dtype ≠ .unsupported) (y : Val) {m : Method} (hd : m.device = none)
    (hm : ∀ p ∈ m.attrs, p.1 ∉ ["_svm", "_bundle", "_model", "_clf", "_clf1", "_clf2"] ∨
      ∃ inner, p.2 = .node none none none inner ∧
        ∀ q ∈ inner, q.1 ∉ ["_model", "model", "_bundle", "_svm", "_clf", "_clf1", "_clf2"]) :
    ∃ d' yl r, handOver ext resolve false c ⟨.array a, .nothing, .nothing, .nothing, .nothing⟩ y = .ok (d', yl, r) ∧
      d'.xl.isTensor ∧ evalInput ext false m (.array a) = .ok (.array a) := by
  have hdest : destDevice m = none := by
    by_cases hb : m.backend = some "torch"
    · by_contra hne
      obtain ⟨k, hk, o, ho, h⟩ := (C164_found hd hb).1 hne
      have hmem : (k, o) ∈ m.attrs := by
        clear h hne hm hd hb
        generalize m.attrs = l at ho
        induction l with
        | nil => simp at ho
        | cons p l ih =>
          obtain ⟨j, w⟩ := p
          rw [List.lookup_cons] at ho
          by_cases hkj : k = j
          · subst hkj
            simp at ho
            subst ho
            exact List.mem_cons_self
          · rw [show (k == j) = false by simpa using hkj] at ho
            exact List.mem_cons_of_mem _ (ih ho)
      rcases hm _ hmem with h' | ⟨inner, h', hin⟩
      · exact h' hk
      · simp only at h'
        subst h'
        rcases h with h | ⟨n, hn, h⟩
        · exact h (by simp [firstDevice])
        · apply h
          have : inner.lookup n = none := by
            rw [List.lookup_eq_none_iff]
            intro q hq
            refine bne_iff_ne.2 ?_
            intro hqn
            exact hin q hq (hqn ▸ hn)
          simp [Obj.attr, this, firstDevice]
    · unfold destDevice
      rw [hd]
      simp [hb]
  have hconv : ∃ b, asTensor ext (resolve c.device) a = .ok (.tensor (resolve c.device) b) := by
    unfold asTensor
    cases h : a.dtype <;> first | exact ⟨_, rfl⟩ | exact absurd h ha
  obtain ⟨b, hb⟩ := hconv
  have hconv : convertInputs ext resolve c ⟨.array a, .nothing, .nothing, .nothing, .nothing⟩ =
      .ok ⟨.tensor (resolve c.device) b, .nothing, .nothing, .nothing, .nothing⟩ := by
    unfold convertInputs
    rw [if_pos hc, if_pos (by simp [trainTorch])]
    simp only [trainTo, Option.getD_some, hb]
    rfl
  obtain ⟨yl, r, h⟩ := handOver_of_convert y hconv
  refine ⟨_, yl, r, h, trivial, ?_⟩
  unfold evalInput
  rw [hdest]

/-- C164, the failure: 8-bit features are scaled by 255, but augmented rows that an augmentation has turned into single
precision are not, so the two are on different scales. -/
theorem C164_scale_violated (ext : Ext) (resolve : String → String) {c : Cfg} (hc : autoTorch c = true) (a : Arr)
    (ha : a.dtype = .u8) (y : Val) : ∃ yl r,
      handOver ext resolve false c ⟨.array a, .array a, .array a, .array { a with dtype := .f32 }, .nothing⟩ y =
        .ok (⟨.tensor (resolve c.device) ⟨.f32, a.shape, a.vals.map fun v => ext.f32 (v / 255)⟩,
              .tensor (resolve c.device) ⟨.f32, a.shape, a.vals.map fun v => ext.f32 (v / 255)⟩,
              .tensor (resolve c.device) ⟨.f32, a.shape, a.vals.map fun v => ext.f32 (v / 255)⟩,
              .tensor (resolve c.device) ⟨.f32, a.shape, a.vals⟩, .nothing⟩, yl, r) := by
  have hconv : convertInputs ext resolve c ⟨.array a, .array a, .array a, .array { a with dtype := .f32 }, .nothing⟩ =
      .ok ⟨.tensor (resolve c.device) ⟨.f32, a.shape, a.vals.map fun v => ext.f32 (v / 255)⟩,
              .tensor (resolve c.device) ⟨.f32, a.shape, a.vals.map fun v => ext.f32 (v / 255)⟩,
              .tensor (resolve c.device) ⟨.f32, a.shape, a.vals.map fun v => ext.f32 (v / 255)⟩,
              .tensor (resolve c.device) ⟨.f32, a.shape, a.vals⟩, .nothing⟩ := by
    unfold convertInputs
    rw [if_pos hc, if_pos (by simp [trainTorch])]
    have : asTensor ext (resolve c.device) a =
        .ok (.tensor (resolve c.device) ⟨.f32, a.shape, a.vals.map fun v => ext.f32 (v / 255)⟩) := by
      unfold asTensor
      rw [ha]
    simp only [trainTo, Option.getD_some, this]
    rfl
  exact handOver_of_convert y hconv

/-- C164, the failure: the report of a run says that nothing was converted, whatever was. -/
theorem C164_report_violated {ext : Ext} {resolve : String → String} {strict : Bool} {c : Cfg} {d d' : Inputs}
    {y yl : Val} {r : Report} (h : handOver ext resolve strict c d y = .ok (d', yl, r)) :
    r = ⟨false, strict⟩ := by
  cases strict with
  | true => exact congrArg (fun t => t.2.2) ((C164_strict ext resolve c d y _).1 h).2.2.2
  | false =>
    unfold handOver at h
    rw [if_neg (by simp)] at h
    obtain ⟨e, he, h⟩ := ebind_ok.1 h
    injection h with h
    injection h with _ h
    injection h with _ h
    exact h.symm

/-! ### views -/

mutual
theorem dataDevice_none : ∀ v : Val, dataDevice v = none ↔ ¬HasTensor v
  | .nothing => by simp [dataDevice, not_hasTensor_nothing]
  | .tensor d a => by simp [dataDevice, hasTensor_tensor]
  | .array a => by simp [dataDevice, not_hasTensor_array]
  | .other s => by simp [dataDevice, not_hasTensor_other]
  | .dict l => by
    simp only [dataDevice]
    rw [dataDeviceDict_none l, hasTensor_dict]
    push Not
    rfl
  | .seq l => by
    simp only [dataDevice]
    rw [dataDeviceSeq_none l, hasTensor_seq]
    push Not
    rfl

theorem dataDeviceDict_none : ∀ l : List (String × Val), dataDeviceDict l = none ↔ ∀ p ∈ l, ¬HasTensor p.2
  | [] => by simp [dataDeviceDict]
  | (k, v) :: l => by
    simp only [dataDeviceDict, Option.or_eq_none_iff, List.forall_mem_cons]
    rw [dataDevice_none v, dataDeviceDict_none l]

theorem dataDeviceSeq_none : ∀ l : List Val, dataDeviceSeq l = none ↔ ∀ p ∈ l, ¬HasTensor p
  | [] => by simp [dataDeviceSeq]
  | v :: l => by
    simp only [dataDeviceSeq, Option.or_eq_none_iff, List.forall_mem_cons]
    rw [dataDevice_none v, dataDeviceSeq_none l]
end

mutual
theorem dataDevice_some : ∀ (v : Val) {d : String}, dataDevice v = some d → ∃ a, Within (.tensor d a) v
  | .nothing, _, h => by simp [dataDevice] at h
  | .array _, _, h => by simp [dataDevice] at h
  | .other _, _, h => by simp [dataDevice] at h
  | .tensor d a, e, h => by
    simp only [dataDevice, Option.some.injEq] at h
    subst h
    exact ⟨a, .here⟩
  | .dict l, e, h => by
    simp only [dataDevice] at h
    obtain ⟨p, hp, a, ha⟩ := dataDeviceDict_some l h
    exact ⟨a, .dict hp ha⟩
  | .seq l, e, h => by
    simp only [dataDevice] at h
    obtain ⟨p, hp, a, ha⟩ := dataDeviceSeq_some l h
    exact ⟨a, .seq hp ha⟩

theorem dataDeviceDict_some : ∀ (l : List (String × Val)) {d : String}, dataDeviceDict l = some d →
    ∃ p ∈ l, ∃ a, Within (.tensor d a) p.2
  | [], _, h => by simp [dataDeviceDict] at h
  | (k, v) :: l, d, h => by
    simp only [dataDeviceDict, Option.or_eq_some_iff] at h
    rcases h with h | ⟨_, h⟩
    · exact ⟨_, List.mem_cons_self, dataDevice_some v h⟩
    · obtain ⟨p, hp, h⟩ := dataDeviceDict_some l h
      exact ⟨p, List.mem_cons_of_mem _ hp, h⟩

theorem dataDeviceSeq_some : ∀ (l : List Val) {d : String}, dataDeviceSeq l = some d →
    ∃ p ∈ l, ∃ a, Within (.tensor d a) p
  | [], _, h => by simp [dataDeviceSeq] at h
  | v :: l, d, h => by
    simp only [dataDeviceSeq, Option.or_eq_some_iff] at h
    rcases h with h | ⟨_, h⟩
    · exact ⟨_, List.mem_cons_self, dataDevice_some v h⟩
    · obtain ⟨p, hp, h⟩ := dataDeviceSeq_some l h
      exact ⟨p, List.mem_cons_of_mem _ hp, h⟩
end

theorem AllOn.dataDevice {dev : String} {v : Val} (h : AllOn dev v) (ht : HasTensor v) :
    dataDevice v = some dev := by
  cases hd : Convert.dataDevice v with
  | none => exact absurd ht ((dataDevice_none v).1 hd)
  | some d =>
    obtain ⟨a, ha⟩ := dataDevice_some v hd
    rcases h _ ha with ⟨b, h'⟩ | ⟨l, h'⟩ | h'
    · injection h' with h' _
      rw [h']
    · cases h'
    · cases h'

/-- C164: with tensor features on a device, all views are turned into tensors on it, in training and in evaluation
alike: the same rows of a view get the same representation. -/
theorem C164_views {ext : Ext} {dev : String} {ref ref' : Val} (hr : AllOn dev ref) (ht : HasTensor ref)
    (hr' : AllOn dev ref') (ht' : HasTensor ref') :
    (∀ views out, buildViews ext false ref views = .ok out →
      List.Forall₂ (fun v w => w.1 = v.1 ∧ Turned ext dev v.2.1 w.2.1 ∧ Turned ext dev v.2.2 w.2.2) views out) ∧
    (∀ views out, evalViews ext false ref' views = .ok out →
      List.Forall₂ (fun v w => w.1 = v.1 ∧ Turned ext dev v.2 w.2) views out) ∧
    ∀ v, viewPart ext false ref v = evalView ext false ref' v := by
  obtain ⟨hT, hdev⟩ := hr.torch ht
  have hdev' := hr'.dataDevice ht'
  have h1 : ∀ v, viewPart ext false ref v = trainTo ext (some dev) v := by
    intro v
    unfold viewPart
    rw [if_pos hT, if_neg (by simp), hdev]
  have h2 : ∀ v, evalView ext false ref' v = trainTo ext (some dev) v := by
    intro v
    unfold evalView
    rw [hdev']
    exact evalTo_eq ext dev v
  refine ⟨?_, ?_, fun v => (h1 v).trans (h2 v).symm⟩
  · intro views out h
    refine forall2_imp_mem (mapM_ok.1 h) ?_
    intro v _ w hw
    obtain ⟨l, hl, hw⟩ := ebind_ok.1 hw
    obtain ⟨u, hu, hw⟩ := ebind_ok.1 hw
    injection hw with hw
    subst hw
    rw [h1] at hl hu
    exact ⟨rfl, trainTo_turned _ hl, trainTo_turned _ hu⟩
  · intro views out h
    refine forall2_imp_mem (mapM_ok.1 h) ?_
    intro v _ w hw
    obtain ⟨l, hl, hw⟩ := ebind_ok.1 hw
    injection hw with hw
    subst hw
    rw [h2] at hl
    exact ⟨rfl, trainTo_turned _ hl⟩

/-- C164: without tensor features views are used as they are; a strict run never changes a view. -/
theorem C164_views_kept {ext : Ext} {strict : Bool} {ref : Val} {views out : List (String × Val × Val)}
    (h : buildViews ext strict ref views = .ok out) (hs : strict = true ∨ trainTorch ref = false) :
    out = views ∧ (trainTorch ref = true → ∀ v ∈ views, trainTorch v.2.1 = true ∧ trainTorch v.2.2 = true) := by
  have h1 : ∀ v w, viewPart ext strict ref v = .ok w → w = v ∧ (trainTorch ref = true → trainTorch v = true) := by
    intro v w hw
    unfold viewPart at hw
    by_cases hT : trainTorch ref = true
    · rcases hs with hs | hs
      · rw [if_pos hT, if_pos hs] at hw
        by_cases hv : trainTorch v = true
        · rw [if_pos hv] at hw
          injection hw with hw
          exact ⟨hw.symm, fun _ => hv⟩
        · rw [if_neg hv] at hw; cases hw
      · rw [hs] at hT; cases hT
    · rw [if_neg hT] at hw
      injection hw with hw
      exact ⟨hw.symm, fun h => absurd h hT⟩
  have h2 := mapM_ok.1 h
  clear h
  induction h2 with
  | nil => exact ⟨rfl, by simp⟩
  | cons hv _ ih =>
    obtain ⟨l, hl, hw⟩ := ebind_ok.1 hv
    obtain ⟨u, hu, hw⟩ := ebind_ok.1 hw
    injection hw with hw
    subst hw
    obtain ⟨rfl, hl'⟩ := h1 _ _ hl
    obtain ⟨rfl, hu'⟩ := h1 _ _ hu
    obtain ⟨rfl, ih⟩ := ih
    refine ⟨rfl, fun hT v hv => ?_⟩
    rcases List.mem_cons.1 hv with rfl | hv
    · exact ⟨hl' hT, hu' hT⟩
    · exact ih hT v hv

/-- C164: the same for the evaluation; a strict evaluation with tensor features refuses every other view. -/
theorem C164_views_evaluated_kept {ext : Ext} {strict : Bool} {ref : Val} {views out : List (String × Val)}
    (h : evalViews ext strict ref views = .ok out) (hs : strict = true ∨ ¬HasTensor ref) :
    out = views ∧ (HasTensor ref → ∀ v ∈ views,
      v.2.isTensor ∨ (∃ l, v.2 = .dict l) ∧ HasTensor v.2 ∧ ¬HasArray v.2) := by
  have h1 : ∀ v w, evalView ext strict ref v = .ok w → w = v ∧ (HasTensor ref → evalTorch v = true) := by
    intro v w hw
    unfold evalView at hw
    cases hd : dataDevice ref with
    | none =>
      rw [hd] at hw
      injection hw with hw
      exact ⟨hw.symm, fun h => absurd h ((dataDevice_none ref).1 hd)⟩
    | some d =>
      have hT : HasTensor ref := by
        by_contra hc
        rw [(dataDevice_none ref).2 hc] at hd
        cases hd
      rcases hs with hs | hs
      · rw [hd] at hw
        simp only [hs, if_true] at hw
        by_cases hv : evalTorch v = true
        · rw [if_pos hv] at hw
          injection hw with hw
          exact ⟨hw.symm, fun _ => hv⟩
        · rw [if_neg hv] at hw; cases hw
      · exact absurd hT hs
  have h2 := mapM_ok.1 h
  clear h
  induction h2 with
  | nil => exact ⟨rfl, by simp⟩
  | cons hv _ ih =>
    obtain ⟨l, hl, hw⟩ := ebind_ok.1 hv
    injection hw with hw
    subst hw
    obtain ⟨rfl, hl'⟩ := h1 _ _ hl
    obtain ⟨rfl, ih⟩ := ih
    refine ⟨rfl, fun hT v hv => ?_⟩
    rcases List.mem_cons.1 hv with rfl | hv
    · exact (C164_evaluation_torch _).1 (hl' hT)
    · exact ih hT v hv

/-- C164: an object has a device exactly if it has a parameter, a buffer or a `device`; a collection does exactly if one
of its items does. -/
theorem C164_has_device : (∀ p b d attrs, firstDevice (.node p b d attrs) ≠ none ↔ p ≠ none ∨ b ≠ none ∨ d ≠ none) ∧
    (∀ l, firstDevice (.coll l) ≠ none ↔ ∃ o ∈ l, firstDevice o ≠ none) := by
  constructor
  · intro p b d attrs
    cases p <;> cases b <;> cases d <;> simp [firstDevice]
  · intro l
    simp only [firstDevice]
    induction l with
    | nil => simp [firstDeviceList]
    | cons o l ih =>
      simp only [firstDeviceList, ne_eq, Option.or_eq_none_iff, List.exists_mem_cons_iff]
      rw [not_and_or]
      exact or_congr Iff.rfl ih

/-! ### concrete cases -/

def demoExt : Ext := ⟨fun _ => .ok ⟨.i64, [], [5]⟩, id⟩

def demoResolve (s : String) : String := if s = "auto" then "cuda" else s

/-- FixMatch on whatever device there is. -/
def demoCfg : Cfg := ⟨true, none, none, none, "auto"⟩

/-- Two images of one pixel each, an augmented copy in single precision, and a graph. -/
def demoIn : Inputs :=
  ⟨.array ⟨.u8, [2, 1], [0, 255]⟩, .array ⟨.f64, [2, 1], [1, 2]⟩, .nothing, .array ⟨.f32, [2, 1], [0, 255]⟩,
    .dict [("x", .tensor "cpu" ⟨.f32, [1, 1], [3]⟩), ("edge_index", .array ⟨.i64, [2, 1], [0, 0]⟩)]⟩

/-- A bundle with a network on the GPU, as the deep methods keep it. -/
def deepMethod : Method := ⟨none, some "torch", [("_bundle", .node none none none [("model", .node (some "cuda") none none [])])]⟩

/-- Three classifiers in a list. -/
def triMethod : Method := ⟨none, some "torch", [("_clfs", .coll [.node (some "cuda") none none []])]⟩

/-- A classifier that keeps its training rows under a name that is not looked at. -/
def knnMethod : Method :=
  ⟨none, some "torch", [("_clf", .node none none none [("_X_train", .node none none (some "cuda") [])])]⟩

/-- C164_converted, C164_labels and C164_evaluated apply. -/
example : autoTorch demoCfg = true ∧ trainTorch demoIn.xl = false ∧ destDevice deepMethod = some (demoResolve demoCfg.device) ∧
    ∃ d' yl r, handOver demoExt demoResolve false demoCfg demoIn (.array ⟨.i64, [2], [1, 0]⟩) = .ok (d', yl, r) ∧
      d'.xl = .tensor "cuda" ⟨.f32, [2, 1], [0 / 255, 255 / 255]⟩ ∧ HasTensor d'.xl ∧
      yl = .tensor "cuda" ⟨.i64, [2], [1, 0]⟩ ∧ d'.xus = .tensor "cuda" ⟨.f32, [2, 1], [0, 255]⟩ ∧
      d'.xus1 = .dict [("x", .tensor "cuda" ⟨.f32, [1, 1], [3]⟩), ("edge_index", .tensor "cuda" ⟨.i64, [2, 1], [0, 0]⟩)] :=
  ⟨rfl, rfl, rfl, _, _, _, rfl, rfl, hasTensor_tensor, rfl, rfl, rfl⟩

/-- C164_found: the deep method is found, the list and the nearest neighbours are not. -/
example : destDevice deepMethod ≠ none ∧ destDevice triMethod = none ∧ destDevice knnMethod = none := by
  refine ⟨by decide, rfl, rfl⟩

/-- C164_evaluated_violated applies to both. -/
example : (∀ p ∈ triMethod.attrs, p.1 ∉ ["_svm", "_bundle", "_model", "_clf", "_clf1", "_clf2"]) ∧
    (∀ p ∈ knnMethod.attrs, ∃ inner, p.2 = .node none none none inner ∧
        ∀ q ∈ inner, q.1 ∉ ["_model", "model", "_bundle", "_svm", "_clf", "_clf1", "_clf2"]) := by
  refine ⟨by decide, ?_⟩
  intro p hp
  simp only [knnMethod, List.mem_singleton] at hp
  subst hp
  exact ⟨_, rfl, by decide⟩

/-- C164_strict: tensors pass a strict run, integer features, single axes and arrays for a torch method do not. -/
example :
    (∃ r, handOver demoExt demoResolve true demoCfg
      ⟨.tensor "cpu" ⟨.f32, [2, 1], [1, 2]⟩, .nothing, .nothing, .nothing, .nothing⟩ (.array ⟨.i64, [2], [1, 0]⟩) = .ok r) ∧
    handOver demoExt demoResolve true demoCfg
      ⟨.tensor "cpu" ⟨.i64, [2, 1], [1, 2]⟩, .nothing, .nothing, .nothing, .nothing⟩ (.array ⟨.i64, [2], [1, 0]⟩) =
        .error .runtimeError ∧
    handOver demoExt demoResolve true demoCfg
      ⟨.tensor "cpu" ⟨.f32, [2], [1, 2]⟩, .nothing, .nothing, .nothing, .nothing⟩ (.array ⟨.i64, [2], [1, 0]⟩) =
        .error .runtimeError ∧
    handOver demoExt demoResolve true demoCfg demoIn (.array ⟨.i64, [2], [1, 0]⟩) = .error .runtimeError :=
  ⟨⟨_, rfl⟩, rfl, rfl, rfl⟩

/-- C164_followed: torch data on the CPU, augmented rows as an array. -/
example : trainTorch (.dict [("x", .tensor "cpu" ⟨.f32, [1, 1], [3]⟩), ("n", .other "1")]) = true ∧
    ∃ r, handOver demoExt demoResolve false demoCfg
      ⟨.dict [("x", .tensor "cpu" ⟨.f32, [1, 1], [3]⟩), ("n", .other "1")], .nothing, .array ⟨.u8, [1, 1], [51]⟩, .nothing, .nothing⟩
      (.array ⟨.i64, [1], [1]⟩) = .ok r ∧ r.1.xuw = .tensor "cpu" ⟨.f32, [1, 1], [51 / 255]⟩ :=
  ⟨rfl, _, rfl, rfl⟩

/-- C164_kept: a method on numpy. -/
example : autoTorch ⟨false, some none, some "sklearn", some "torch", "cpu"⟩ = false := by decide

/-- C164_views: arrays become tensors next to tensor features. -/
example : ∃ out, buildViews demoExt false (.tensor "cuda" ⟨.f32, [1, 1], [3]⟩)
      [("a", .array ⟨.f64, [1, 1], [3]⟩, .array ⟨.u8, [1, 1], [255]⟩)] = .ok out ∧
    out = [("a", .tensor "cuda" ⟨.f32, [1, 1], [3]⟩, .tensor "cuda" ⟨.f32, [1, 1], [255 / 255]⟩)] ∧
    AllOn "cuda" (.tensor "cuda" ⟨.f32, [1, 1], [3]⟩) :=
  ⟨_, rfl, rfl, fun _ hx => .inl ⟨_, within_tensor.1 hx⟩⟩

end ModSSC.Bench.Convert
