import Verif.Preprocess.OneHotSpec
import Verif.ExceptLemmas
import Mathlib.Data.List.GetD

/-!
# One-hot encoding (C121)
-/

namespace ModSSC.Preprocess.OneHot
open ModSSC ModSSC.Preprocess.OneHot.Spec

variable {F : Type}

theorem numericColumn_iff (E : Ext F) (rows : List (List (Cell F))) (j : Nat) :
    isNumericColumn E (column rows j) = true ↔ NumericColumn E rows j := by
  simp only [isNumericColumn, column, NumericColumn, Numeric, List.all_map, List.all_eq_true, Function.comp,
    Bool.or_eq_true, Option.isSome_iff_exists]

theorem fit_rows (table : List (List (Cell F))) (idx : List Nat) :
    ((∀ i ∈ idx, i < table.length) ∧
      idx.mapM (rowAt table) = .ok (fitRows table idx)) ∨
    ((∃ i ∈ idx, table.length ≤ i) ∧
      ∃ e, idx.mapM (rowAt table) = .error e) := by
  induction idx with
  | nil => exact .inl ⟨by simp, rfl⟩
  | cons a idx ih =>
    rw [List.mapM_cons]
    by_cases ha : a < table.length
    · have hr : rowAt table a = .ok table[a] := by unfold rowAt; rw [List.getElem?_eq_getElem ha]
      rw [hr]
      rcases ih with ⟨h1, h2⟩ | ⟨⟨i, hi, h1⟩, e, h2⟩
      · refine .inl ⟨?_, ?_⟩
        · intro i hi
          rcases List.mem_cons.mp hi with rfl | hi
          · exact ha
          · exact h1 i hi
        · rw [h2]
          simp [fitRows, List.getElem?_eq_getElem ha, bind, Except.bind, pure, Except.pure]
      · exact .inr ⟨⟨i, by simp [hi], h1⟩, e, by rw [h2]; rfl⟩
    · have hr : rowAt table a = .error .indexError := by unfold rowAt; rw [List.getElem?_eq_none (by omega)]
      rw [hr]
      exact .inr ⟨⟨a, by simp, by omega⟩, _, rfl⟩

/-- **C121.**  Fitting succeeds exactly for positions inside the table.  It looks only at the rows at these positions, splits
the columns into numeric ones (all values read as numbers) and categorical ones, each in order, and the categories of a
categorical column are exactly the texts of its values there. -/
theorem C121_fit (E : Ext F) (hE : EncoderLaw E) (d : Nat) (table : List (List (Cell F))) (idx : List Nat) :
    ((∃ T, fit E d table idx = .ok T) ↔ ∀ i ∈ idx, i < table.length) ∧
    ∀ T, fit E d table idx = .ok T →
      T.numeric.Pairwise (· < ·) ∧ (T.categorical.map (·.1)).Pairwise (· < ·) ∧
      (∀ j, j ∈ T.numeric ↔ j < d ∧ NumericColumn E (fitRows table idx) j) ∧
      (∀ j, j ∈ T.categorical.map (·.1) ↔ j < d ∧ ¬ NumericColumn E (fitRows table idx) j) ∧
      ∀ p ∈ T.categorical, p.2.Nodup ∧
        ∀ t, t ∈ p.2 ↔ ∃ r ∈ fitRows table idx, t = categoricalCell E (r.getD p.1 .none) := by
  rcases fit_rows table idx with ⟨h1, h2⟩ | ⟨⟨i, hi, h1⟩, e, h2⟩
  · have hf : fit E d table idx = .ok ⟨(List.range d).filter fun j => isNumericColumn E (column (fitRows table idx) j),
        ((List.range d).filter fun j => !isNumericColumn E (column (fitRows table idx) j)).map fun j =>
          (j, E.categories ((column (fitRows table idx) j).map (categoricalCell E)))⟩ := by
      unfold fit; rw [h2]; rfl
    refine ⟨⟨fun _ => h1, fun _ => ⟨_, hf⟩⟩, ?_⟩
    intro T hT
    rw [hf, Except.ok.injEq] at hT
    subst hT
    have hmap : (((List.range d).filter fun j => !isNumericColumn E (column (fitRows table idx) j)).map fun j =>
          (j, E.categories ((column (fitRows table idx) j).map (categoricalCell E)))).map (·.1) =
        (List.range d).filter fun j => !isNumericColumn E (column (fitRows table idx) j) := by
      rw [List.map_map]; exact List.map_id _
    refine ⟨List.pairwise_lt_range.filter _, ?_, ?_, ?_, ?_⟩
    · simp only [hmap]; exact List.pairwise_lt_range.filter _
    · intro j
      simp only [List.mem_filter, List.mem_range, numericColumn_iff]
    · intro j
      simp only [hmap, List.mem_filter, List.mem_range, Bool.not_eq_true', ← Bool.not_eq_true, numericColumn_iff]
    · intro p hp
      simp only [List.mem_map] at hp
      obtain ⟨j, -, rfl⟩ := hp
      refine ⟨hE.nodup _, fun t => ?_⟩
      rw [hE.mem]
      simp only [column, List.map_map, List.mem_map, Function.comp]
      exact ⟨fun ⟨r, h, e⟩ => ⟨r, h, e.symm⟩, fun ⟨r, h, e⟩ => ⟨r, h, e.symm⟩⟩
  · have hf : fit E d table idx = .error e := by unfold fit; rw [h2]; rfl
    rw [hf]
    refine ⟨⟨fun ⟨T, h⟩ => by simp at h, fun h => by have := h i hi; omega⟩, fun T h => by simp at h⟩

theorem numericCell_ok {E : Ext F} {v : Cell F} {x : F} (h : numericCell E v = .ok x) : IsNumber E v x := by
  unfold numericCell at h
  by_cases hm : isMissing E v = true
  · rw [if_pos hm, Except.ok.injEq] at h
    exact .inl ⟨hm, h.symm⟩
  · rw [if_neg hm] at h
    refine .inr ⟨by simpa using hm, ?_⟩
    cases ht : toFloat E v with
    | none => rw [ht] at h; simp at h
    | some y => rw [ht] at h; simp at h; rw [h]

theorem mapM_forall₂ {α β : Type} {f : α → Except PyErr β} {R : α → β → Prop} (hf : ∀ a b, f a = .ok b → R a b) :
    ∀ {l : List α} {r : List β}, l.mapM f = .ok r → List.Forall₂ R l r
  | [], r, h => by
    simp only [List.mapM_nil, pure, Except.pure, Except.ok.injEq] at h
    subst h; exact .nil
  | a :: l, r, h => by
    rw [List.mapM_cons] at h
    obtain ⟨b, hb, h⟩ := ebind_ok.mp h
    obtain ⟨bs, hbs, h⟩ := ebind_ok.mp h
    simp only [pure, Except.pure, Except.ok.injEq] at h
    subst h
    exact .cons (hf a b hb) (mapM_forall₂ hf hbs)

theorem encodeCell_ok {E : Ext F} {ign : Bool} {cats : List (List Char)} {t : List Char} {b : List F}
    (h : encodeCell E ign cats t = .ok b) : Marks E cats t b := by
  unfold encodeCell at h
  split at h
  · rw [Except.ok.injEq] at h
    subst h
    refine ⟨by simp, fun k c hc => ?_⟩
    rw [List.getElem?_map, hc]
    rfl
  · simp at h

theorem flatten_length {E : Ext F} {row : List (Cell F)} {cat : List (Nat × List (List Char))} {blocks : List (List F)}
    (h : List.Forall₂ (fun p b => Marks E p.2 (categoricalCell E (row.getD p.1 .none)) b) cat blocks) :
    blocks.flatten.length = (cat.map fun p => p.2.length).sum := by
  induction h with
  | nil => rfl
  | cons h1 _ ih => simp [h1.1, ih]

/-- **C121.**  Every row of the output encodes the row of the table, whichever table is transformed; all rows have the same
number of features, which depends only on the fitted step. -/
theorem C121_transform (E : Ext F) (ign : Bool) (T : Fitted) (table : List (List (Cell F))) (out : List (List F))
    (h : transform E ign T table = .ok out) :
    List.Forall₂ (IsEncoding E T) table out ∧ ∀ r ∈ out, r.length = width T := by
  unfold transform at h
  split at h
  · simp at h
  have hrow : ∀ row feat, encodeRow E ign T row = .ok feat → IsEncoding E T row feat := by
    intro row feat hf
    unfold encodeRow at hf
    obtain ⟨nums, h1, hf⟩ := ebind_ok.mp hf
    obtain ⟨blocks, h2, hf⟩ := ebind_ok.mp hf
    rw [Except.ok.injEq] at hf
    refine ⟨nums, blocks, hf.symm, mapM_forall₂ (R := fun j x => IsNumber E (row.getD j .none) x) (fun a b h => numericCell_ok h) h1, ?_⟩
    exact mapM_forall₂ (R := fun p b => Marks E p.2 (categoricalCell E (row.getD p.1 .none)) b) (fun a b h => encodeCell_ok h) h2
  have hall := mapM_forall₂ hrow h
  refine ⟨hall, ?_⟩
  have hw : ∀ row feat, IsEncoding E T row feat → feat.length = width T := by
    rintro row feat ⟨nums, blocks, rfl, h1, h2⟩
    rw [List.length_append, flatten_length h2, ← h1.length_eq]
    rfl
  intro r hr
  obtain ⟨i, hi, rfl⟩ := List.getElem_of_mem hr
  have hi2 : i < table.length := by rw [hall.length_eq]; exact hi
  exact hw _ _ ((List.forall₂_iff_get.mp hall).2 i hi2 hi)

/-- **C121.**  Categories are not confused: two known texts with the same block are the same text; an unknown text has a block
of zeros and is different from every known one. -/
theorem C121_distinguishes (E : Ext F) (hE : EncoderLaw E) (cats : List (List Char)) (t u : List Char)
    (b c : List F) (hb : Marks E cats t b) (hc : Marks E cats u c) :
    (t ∈ cats → (b = c ↔ t = u)) ∧ (t ∉ cats → b = List.replicate cats.length E.zero) := by
  constructor
  · intro ht
    constructor
    · rintro rfl
      obtain ⟨k, hk, rfl⟩ := List.getElem_of_mem ht
      have h1 := hb.2 k _ (List.getElem?_eq_getElem hk)
      have h2 := hc.2 k _ (List.getElem?_eq_getElem hk)
      rw [h1, Option.some.injEq, if_pos rfl] at h2
      by_contra hne
      rw [if_neg hne] at h2
      exact hE.differ h2
    · rintro rfl
      apply List.ext_getElem?
      intro k
      by_cases hk : k < cats.length
      · rw [hb.2 k _ (List.getElem?_eq_getElem hk), hc.2 k _ (List.getElem?_eq_getElem hk)]
      · rw [List.getElem?_eq_none (by rw [hb.1]; omega), List.getElem?_eq_none (by rw [hc.1]; omega)]
  · intro ht
    apply List.ext_getElem?
    intro k
    by_cases hk : k < cats.length
    · rw [hb.2 k _ (List.getElem?_eq_getElem hk), List.getElem?_replicate, if_pos hk, if_neg]
      rintro rfl
      exact ht (List.getElem_mem hk)
    · rw [List.getElem?_eq_none (by rw [hb.1]; omega), List.getElem?_eq_none (by simpa using hk)]

theorem mapM_ok_iff {α β : Type} (f : α → Except PyErr β) (l : List α) :
    (∃ r, l.mapM f = .ok r) ↔ ∀ a ∈ l, ∃ b, f a = .ok b := by
  induction l with
  | nil => simp [pure, Except.pure]
  | cons a l ih =>
    rw [List.mapM_cons]
    constructor
    · rintro ⟨r, h⟩
      obtain ⟨b, hb, h⟩ := ebind_ok.mp h
      obtain ⟨bs, hbs, h⟩ := ebind_ok.mp h
      intro x hx
      rcases List.mem_cons.mp hx with rfl | hx
      · exact ⟨b, hb⟩
      · exact ih.mp ⟨bs, hbs⟩ x hx
    · intro h
      obtain ⟨b, hb⟩ := h a (by simp)
      obtain ⟨bs, hbs⟩ := ih.mpr fun x hx => h x (by simp [hx])
      exact ⟨b :: bs, by rw [hb, hbs]; rfl⟩

/-- **C121.**  A fitted step accepts exactly the tables whose values in the numeric columns are read as numbers and (unless
unknown categories are ignored) whose texts in the categorical columns are known. -/
theorem C121_accepts (E : Ext F) (ign : Bool) (T : Fitted) (hT : T.numeric ≠ [] ∨ T.categorical ≠ []) (table : List (List (Cell F))) :
    (∃ out, transform E ign T table = .ok out) ↔
      ∀ row ∈ table, (∀ j ∈ T.numeric, Numeric E (row.getD j .none)) ∧
        (ign = false → ∀ p ∈ T.categorical, categoricalCell E (row.getD p.1 .none) ∈ p.2) := by
  unfold transform
  rw [if_neg (by tauto), mapM_ok_iff]
  refine forall₂_congr fun row _ => ?_
  have h1 : (∃ nums, (T.numeric.mapM fun j => numericCell E (row.getD j .none)) = .ok nums) ↔
      ∀ j ∈ T.numeric, Numeric E (row.getD j .none) := by
    rw [mapM_ok_iff]
    refine forall₂_congr fun j _ => ?_
    unfold numericCell Numeric
    generalize row.getD j .none = v
    by_cases hm : isMissing E v = true
    · rw [if_pos hm]; simp [hm]
    · rw [if_neg hm]
      cases toFloat E v <;> simp [hm]
  have h2 : (∃ blocks, (T.categorical.mapM fun p => encodeCell E ign p.2 (categoricalCell E (row.getD p.1 .none))) = .ok blocks) ↔
      (ign = false → ∀ p ∈ T.categorical, categoricalCell E (row.getD p.1 .none) ∈ p.2) := by
    rw [mapM_ok_iff]
    cases ign with
    | true => simp [encodeCell]
    | false =>
      simp only [forall_const]
      refine forall₂_congr fun p _ => ?_
      unfold encodeCell
      generalize categoricalCell E (row.getD p.1 .none) = t
      by_cases hm : t ∈ p.2
      · rw [if_pos (.inl hm)]; simp [hm]
      · rw [if_neg (by simp [hm])]; simp [hm]
  rw [← h1, ← h2]
  unfold encodeRow
  constructor
  · rintro ⟨feat, hf⟩
    obtain ⟨nums, h1, hf⟩ := ebind_ok.mp hf
    obtain ⟨blocks, h2, hf⟩ := ebind_ok.mp hf
    exact ⟨⟨_, h1⟩, ⟨_, h2⟩⟩
  · rintro ⟨⟨nums, h1⟩, ⟨blocks, h2⟩⟩
    rw [h1, h2]
    exact ⟨_, rfl⟩

/-! ## Violations and examples -/

/-- Numbers for the examples: integers, `none` is NaN; decimal digits are parsed. -/
def demoExt : Ext (Option Nat) where
  isNan := Option.isNone
  nan := none
  zero := some 0
  one := some 1
  parse := fun s => if s ≠ [] ∧ s.all Char.isDigit then some (some (s.foldl (fun n c => 10 * n + (c.toNat - 48)) 0)) else none
  text := fun _ => ['n']
  categories := fun l => l.dedup

theorem demoExt_law : EncoderLaw demoExt where
  nodup := fun col => List.nodup_dedup col
  mem := fun col t => List.mem_dedup
  differ := by decide

/-- A table with a column of numbers and one of colours. -/
def demoTable : List (List (Cell (Option Nat))) :=
  [[.str ['1'], .str ['r']], [.str ['2'], .str ['g']], [.none, .str ['r']], [.str ['x'], .none]]

/-- **C121 (violated).**  "A fitted step can transform the table it was fitted on": a column whose values in the fit rows are
numbers is numeric; a text in another row of the same table makes `transform` fail. -/
theorem C121_train_violated :
    ∃ T, fit demoExt 2 demoTable [0, 1, 2] = .ok T ∧ transform demoExt true T demoTable = .error .valueError := by
  refine ⟨⟨[0], [(1, [['g'], ['r']])]⟩, ?_, by decide +kernel⟩
  have e : (fit demoExt 2 demoTable [0, 1, 2]).toOption.map (fun T => (T.numeric, T.categorical)) =
      some ([0], [(1, [['g'], ['r']])]) := by decide +kernel
  cases h : fit demoExt 2 demoTable [0, 1, 2] with
  | error x => rw [h] at e; simp [Except.toOption] at e
  | ok T =>
    rw [h] at e
    simp only [Except.toOption, Option.map_some, Option.some.injEq, Prod.mk.injEq] at e
    cases T
    simp only at e
    obtain ⟨rfl, rfl⟩ := e
    rfl

/-- **C121 (violated).**  "A missing value is different from every text": the text `__missing__` is not. -/
theorem C121_missing_violated (E : Ext F) :
    isMissing E (.none : Cell F) = true ∧ isMissing E (.str "__missing__".toList : Cell F) = false ∧
      categoricalCell E (.none : Cell F) = categoricalCell E (.str "__missing__".toList : Cell F) := by
  have h : isMissing E (.str "__missing__".toList : Cell F) = false := by
    show decide (strip "__missing__".toList ∈ missingTokens) = false
    decide +kernel
  refine ⟨rfl, h, ?_⟩
  unfold categoricalCell
  rw [h]
  rfl

example : transform demoExt true ⟨[0], [(1, [['g'], ['r']])]⟩ [[.str ['7'], .str ['r']], [.none, .str ['b']]] =
    .ok [[some 7, some 0, some 1], [none, some 0, some 0]] := by decide +kernel

example : isMissing demoExt (.str " N/A ".toList) = true ∧ isMissing demoExt (.str "NAN".toList) = false := by decide +kernel

end ModSSC.Preprocess.OneHot
