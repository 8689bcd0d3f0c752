import Verif.Labels.Model
import Verif.Labels.Spec
import Verif.ExceptLemmas

/-!
# Label encoding (C36), one-hot matrices (C38), encoding of both splits (C72)
-/

namespace ModSSC.Labels
open ModSSC Spec

section Encode
variable {α : Type} [LinearOrder α]

theorem mem_unique {l : List α} {a : α} : a ∈ unique l ↔ a ∈ l := by
  unfold unique
  rw [List.mem_dedup, (List.perm_insertionSort _ _).mem_iff]

theorem unique_sorted (l : List α) : (unique l).Pairwise (· < ·) := by
  have h1 : (unique l).Pairwise (· ≤ ·) :=
    (List.pairwise_insertionSort (· ≤ ·) l).sublist (List.dedup_sublist _)
  have h2 : (unique l).Nodup := List.nodup_dedup _
  exact (h1.and h2).imp (fun h => lt_of_le_of_ne h.1 h.2)

/-- In an increasing list, the number of entries below the entry at `i` is `i`. -/
theorem searchsorted_get {l : List α} (h : l.Pairwise (· < ·)) {i : Nat} (hi : i < l.length) :
    searchsorted l l[i] = i := by
  induction l generalizing i with
  | nil => simp at hi
  | cons a l ih =>
    rw [List.pairwise_cons] at h
    unfold searchsorted at ih ⊢
    cases i with
    | zero =>
      rw [List.getElem_cons_zero, List.countP_cons]
      have : List.countP (fun c => decide (c < a)) l = 0 := by
        rw [List.countP_eq_zero]
        intro b hb
        simpa using le_of_lt (h.1 b hb)
      simp [this]
    | succ i =>
      have hi' : i < l.length := by simpa using hi
      rw [List.getElem_cons_succ, List.countP_cons, ih h.2 hi']
      simp [h.1 _ (List.getElem_mem hi')]

theorem searchsorted_decode {l : List α} (h : l.Pairwise (· < ·)) {a : α} (ha : a ∈ l) :
    l[searchsorted l a]? = some a := by
  obtain ⟨i, hi, rfl⟩ := List.mem_iff_getElem.mp ha
  rw [searchsorted_get h hi, List.getElem?_eq_getElem hi]

/-- **C36 (the encoding is the rank encoding).**  For every label vector, the classes are exactly
the labels that occur, in increasing order, and every code decodes to its label. -/
theorem C36_encode (y : List α) : IsEncoding y (encodeLabels y).1 (encodeLabels y).2 where
  increasing := unique_sorted y
  occurs := fun _ => mem_unique
  length := by simp [encodeLabels]
  decode := by
    intro i h
    have hi : i < y.length := by simpa [encodeLabels] using h
    simp only [encodeLabels, List.getElem_map]
    rw [searchsorted_decode (unique_sorted y) (mem_unique.mpr (List.getElem_mem hi)),
      List.getElem?_eq_getElem hi]

/-- **C36 (order).**  The order of the codes is the order of the labels; in particular equal codes
are equal labels. -/
theorem C36_order {y : List α} {enc : List Nat} {classes : List α} (h : IsEncoding y enc classes)
    {i j : Nat} (hi : i < enc.length) (hj : j < enc.length) (hi' : i < y.length)
    (hj' : j < y.length) : (enc[i] < enc[j] ↔ y[i] < y[j]) ∧ (enc[i] = enc[j] ↔ y[i] = y[j]) := by
  have h1 := h.decode i hi
  have h2 := h.decode j hj
  rw [List.getElem?_eq_getElem hi'] at h1
  rw [List.getElem?_eq_getElem hj'] at h2
  obtain ⟨a1, a2⟩ := List.getElem?_eq_some_iff.mp h1
  obtain ⟨b1, b2⟩ := List.getElem?_eq_some_iff.mp h2
  have hmono : ∀ {a b : Nat} (ha : a < classes.length) (hb : b < classes.length),
      a < b → classes[a] < classes[b] :=
    fun ha hb hab => List.pairwise_iff_getElem.mp h.increasing _ _ ha hb hab
  have hlt : enc[i] < enc[j] → y[i] < y[j] := by
    intro hl
    rw [← a2, ← b2]; exact hmono a1 b1 hl
  have hgt : enc[j] < enc[i] → y[j] < y[i] := by
    intro hl
    rw [← a2, ← b2]; exact hmono b1 a1 hl
  have heq : enc[i] = enc[j] → y[i] = y[j] := by
    intro he
    rw [← he] at h2
    rw [h1] at h2
    simpa using h2
  constructor
  · refine ⟨hlt, fun hy => ?_⟩
    rcases Nat.lt_trichotomy enc[i] enc[j] with h | h | h
    · exact h
    · exact absurd (heq h) (ne_of_lt hy)
    · exact absurd (hgt h) (lt_asymm hy)
  · refine ⟨heq, fun hy => ?_⟩
    rcases Nat.lt_trichotomy enc[i] enc[j] with h | h | h
    · exact absurd hy (ne_of_lt (hlt h))
    · exact h
    · exact absurd hy.symm (ne_of_lt (hgt h))

theorem sorted_ext {l l' : List α} (h : l.Pairwise (· < ·)) (h' : l'.Pairwise (· < ·))
    (hm : ∀ a, a ∈ l ↔ a ∈ l') : l = l' := by
  have hp : l.Perm l' := by
    rw [List.perm_ext_iff_of_nodup (h.imp ne_of_lt) (h'.imp ne_of_lt)]
    exact hm
  exact hp.eq_of_pairwise (fun a b _ _ h1 h2 => absurd h1 (lt_asymm h2)) h h'

/-- **C36 (uniqueness).**  The specification leaves no freedom: any other encoding with these
properties is the one computed.  In particular every id `0 … C-1` is used. -/
theorem C36_unique {y : List α} {enc : List Nat} {classes : List α} (h : IsEncoding y enc classes) :
    enc = (encodeLabels y).1 ∧ classes = (encodeLabels y).2 := by
  have hc : classes = (encodeLabels y).2 :=
    sorted_ext h.increasing (unique_sorted y) (fun a => (h.occurs a).trans mem_unique.symm)
  refine ⟨?_, hc⟩
  apply List.ext_getElem
  · rw [h.length]; simp [encodeLabels]
  · intro i h1 h2
    have e1 := h.decode i h1
    have e2 := (C36_encode y).decode i h2
    rw [← e2, ← hc] at e1
    have hy : i < y.length := by rw [← h.length]; exact h1
    have hs : classes[enc[i]]? = some y[i] := by
      rw [h.decode i h1, List.getElem?_eq_getElem hy]
    obtain ⟨a1, -⟩ := List.getElem?_eq_some_iff.mp hs
    exact (List.getElem?_inj a1 (h.increasing.imp ne_of_lt)).mp e1

example : encodeLabels ([30, 10, 30, 20] : List Int) = ([2, 0, 2, 1], [10, 20, 30]) := by
  decide +kernel

/-- **C72 -- partial.**  If both splits contain the same label values, the label step numbers them
alike: equal labels of the two splits get equal ids. -/
theorem C72_same_ids_partial {train test : List α} (hset : ∀ a, a ∈ train ↔ a ∈ test) {i j : Nat}
    (hi : i < train.length) (hj : j < test.length) :
    (encodeStep train test).1.1[i]? = (encodeStep train test).2.1[j]? ↔ train[i] = test[j] := by
  have hc : unique train = unique test :=
    sorted_ext (unique_sorted _) (unique_sorted _)
      (fun a => mem_unique.trans ((hset a).trans mem_unique.symm))
  simp only [encodeStep, encodeLabels, List.getElem?_map, List.getElem?_eq_getElem hi,
    List.getElem?_eq_getElem hj, Option.map_some, Option.some.injEq]
  rw [hc]
  constructor
  · intro h
    have h1 := searchsorted_decode (unique_sorted test)
      (mem_unique.mpr ((hset _).mp (List.getElem_mem hi)))
    rw [h, searchsorted_decode (unique_sorted test) (mem_unique.mpr (List.getElem_mem hj))] at h1
    simpa using h1.symm
  · intro h; rw [h]

example : ∀ a : Int, a ∈ [3, 1, 1] ↔ a ∈ [1, 3] := by simp; omega

/-- **C72 is violated** when a class is missing from one split: every split is encoded on its own, so
label 2 has id 2 in the training split and id 1 in the test split, where id 1 means label 1 for the
training split. -/
theorem C72_missing_class_violated :
    encodeStep ([0, 1, 2] : List Int) [0, 2] = (([0, 1, 2], [0, 1, 2]), ([0, 1], [0, 2])) := by
  decide +kernel

end Encode

/-! ## One-hot -/

theorem row_entry {n j c : Nat} (hc : c < ((zeroRow n).set j 1).length) :
    ((zeroRow n).set j 1)[c] = if j = c then (1 : Rat) else 0 := by
  rw [List.getElem_set]
  simp [zeroRow]

theorem zero_entry {n c : Nat} (hc : c < (zeroRow n).length) : (zeroRow n)[c] = 0 := by
  simp [zeroRow]

/-- The integers an array of labels stands for, if it stands for any. -/
def Represents (a : LabelArr) (ys : List Int) : Prop :=
  match a with
  | .ints l => l = ys
  | .floats l => l = ys.map (fun (c : Int) => some (c : Rat))

theorem pyInt_cast (c : Int) : pyInt (c : Rat) = c := by
  unfold pyInt
  split
  · exact Rat.floor_intCast c
  · have : (-(c : Rat)) = ((-c : Int) : Rat) := by push_cast; rfl
    rw [this, Rat.floor_intCast]; omega

theorem classIds_ok {a : LabelArr} {ids : List Int} :
    classIds a = .ok ids ↔ Represents a ids := by
  cases a with
  | ints l => simp [classIds, Represents]
  | floats l =>
    simp only [classIds, Represents]
    constructor
    · intro h
      split at h
      · rename_i h1
        split at h
        · rename_i h2
          simp only [Except.ok.injEq] at h
          rw [List.all_eq_true] at h2
          rw [← h, List.map_map]
          conv_lhs => rw [← List.map_id l]
          apply List.map_congr_left
          intro q hq
          have := h2 q hq
          simp only [decide_eq_true_eq] at this
          simpa using this
        · simp at h
      · simp at h
    · intro h
      subst h
      rw [if_pos (by simp), if_pos (by simp [pyInt_cast])]
      congr 1
      rw [List.map_map]
      conv_rhs => rw [← List.map_id ids]
      apply List.map_congr_left
      intro c _
      simp [pyInt_cast]

/-- **C38 (transductive labels).**  The matrix is returned exactly for a positive number of classes
and integral labels below it; it is then the one-hot matrix, with zero rows for negative labels. -/
theorem C38_clamp (a : LabelArr) (n : Int) :
    (∀ M, labelsToOnehot a n = .ok M → ∃ ys, Represents a ys ∧ IsOneHot n.toNat ys M) ∧
    ((∃ M, labelsToOnehot a n = .ok M) ↔ 0 < n ∧ ∃ ys, Represents a ys ∧ ∀ c ∈ ys, c < n) := by
  have key : ∀ M, labelsToOnehot a n = .ok M ↔ 0 < n ∧ ∃ ids, classIds a = .ok ids ∧
      (∀ c ∈ ids, c < n) ∧ M = ids.map (fun c =>
        if 0 ≤ c then (zeroRow n.toNat).set c.toNat 1 else zeroRow n.toNat) := by
    intro M
    unfold labelsToOnehot
    by_cases hn : n ≤ 0
    · rw [if_pos hn]
      simp only [reduceCtorEq, false_iff, not_and]
      intro h; omega
    · rw [if_neg hn]
      cases hc : classIds a with
      | error e => simp
      | ok ids =>
        simp only [Except.ok.injEq, exists_eq_left']
        by_cases hany : ids.any (fun c => decide (0 ≤ c ∧ n ≤ c)) = true
        · rw [if_pos hany]
          rw [List.any_eq_true] at hany
          obtain ⟨c, hc1, hc2⟩ := hany
          simp only [decide_eq_true_eq] at hc2
          simp only [reduceCtorEq, false_iff, not_and]
          intro _ h
          have := h c hc1
          omega
        · rw [if_neg hany]
          simp only [Except.ok.injEq]
          have hall : ∀ c ∈ ids, c < n := by
            intro c hc1
            by_contra hcn
            apply hany
            rw [List.any_eq_true]
            refine ⟨c, hc1, ?_⟩
            simp only [decide_eq_true_eq]; omega
          constructor
          · intro h; exact ⟨by omega, hall, h.symm⟩
          · intro h; exact h.2.2.symm
  constructor
  · intro M hM
    obtain ⟨hn, ids, hids, hlt, rfl⟩ := (key M).mp hM
    refine ⟨ids, classIds_ok.mp hids, by simp, ?_, ?_⟩
    · intro r hr
      obtain ⟨c, -, rfl⟩ := List.mem_map.mp hr
      split <;> simp [zeroRow]
    · intro i c hi hy hc
      simp only [List.getElem_map]
      by_cases h0 : 0 ≤ ids[i]
      · simp only [if_pos h0]
        rw [row_entry]
        congr 1
        simp only [eq_iff_iff]
        omega
      · simp only [if_neg h0]
        rw [zero_entry, if_neg]
        omega
  · constructor
    · rintro ⟨M, hM⟩
      obtain ⟨hn, ids, hids, hlt, -⟩ := (key M).mp hM
      exact ⟨hn, ids, classIds_ok.mp hids, hlt⟩
    · rintro ⟨hn, ids, hids, hlt⟩
      exact ⟨_, (key _).mpr ⟨hn, ids, classIds_ok.mpr hids, hlt, rfl⟩⟩

example : labelsToOnehot (.floats [some 1, some (-1), some 0]) 2 = .ok [[0, 1], [0, 0], [1, 0]] := by
  decide +kernel

theorem npIndex_ok {n : Nat} {i : Int} {j : Nat} (h0 : 0 ≤ i) :
    npIndex n i = .ok j ↔ i < n ∧ j = i.toNat := by
  unfold npIndex
  by_cases h : 0 ≤ i ∧ i < n
  · rw [if_pos h]
    simp only [Except.ok.injEq]
    omega
  · rw [if_neg h, if_neg (by omega)]
    simp only [reduceCtorEq, false_iff]
    omega

theorem fancy_ok {y : List Int} {n : Nat} {M : List (List Rat)} (h0 : ∀ c ∈ y, 0 ≤ c) :
    fancyOnehot y n = .ok M ↔ (∀ c ∈ y, c < n) ∧ M = y.map (fun c => (zeroRow n).set c.toNat 1) := by
  unfold fancyOnehot
  rw [mapM_ok]
  induction y generalizing M with
  | nil => simp
  | cons c y ih =>
    have hc := h0 c (by simp)
    have ih := fun M => @ih M (fun x hx => h0 x (List.mem_cons_of_mem _ hx))
    rw [List.forall₂_cons_left_iff]
    constructor
    · rintro ⟨r, M', h1, h2, rfl⟩
      obtain ⟨g1, g2⟩ := (ih M').mp h2
      cases hi : npIndex n c with
      | error e => rw [hi] at h1; simp [Except.map] at h1
      | ok j =>
        rw [hi] at h1
        simp only [Except.map, Except.ok.injEq] at h1
        obtain ⟨k1, k2⟩ := (npIndex_ok hc).mp hi
        subst k2
        refine ⟨?_, by rw [← h1, g2, List.map_cons]⟩
        intro x hx
        rcases List.mem_cons.mp hx with rfl | hx
        · exact k1
        · exact g1 x hx
    · rintro ⟨g1, rfl⟩
      refine ⟨_, _, ?_, (ih _).mpr ⟨fun x hx => g1 x (List.mem_cons_of_mem _ hx), rfl⟩, rfl⟩
      rw [(npIndex_ok (j := c.toNat) hc).mpr ⟨g1 c (by simp), rfl⟩]
      rfl

/-- **C38 (supervised labels) -- partial.**  For labels that are not negative, `onehot` returns the
one-hot matrix exactly if every label is below the number of classes, and raises otherwise.  False
for negative labels (`C38_negative_violated`). -/
theorem C38_supervised_partial {y : List Int} {n : Int} (hn : 0 ≤ n) (h0 : ∀ c ∈ y, 0 ≤ c) :
    ((∃ M, onehot y n = .ok M) ↔ ∀ c ∈ y, c < n) ∧
    ∀ M, onehot y n = .ok M → IsOneHot n.toNat y M := by
  have hn' : ((n.toNat : Nat) : Int) = n := Int.toNat_of_nonneg hn
  unfold onehot
  rw [if_neg (by omega)]
  refine ⟨⟨?_, ?_⟩, ?_⟩
  · rintro ⟨M, hM⟩
    have := ((fancy_ok h0).mp hM).1
    rw [hn'] at this
    exact this
  · intro h
    exact ⟨_, (fancy_ok h0).mpr ⟨by rw [hn']; exact h, rfl⟩⟩
  · intro M hM
    obtain ⟨h1, rfl⟩ := (fancy_ok h0).mp hM
    refine ⟨by simp, ?_, ?_⟩
    · intro r hr
      obtain ⟨c, -, rfl⟩ := List.mem_map.mp hr
      simp [zeroRow]
    · intro i c hi hy hc
      simp only [List.getElem_map]
      rw [row_entry]
      have := h0 _ (List.getElem_mem hy)
      congr 1
      simp only [eq_iff_iff]
      omega

example : onehot [1, 0] 2 = .ok [[0, 1], [1, 0]] := by decide +kernel

theorem forall₂_left {α β : Type} {R : α → β → Prop} {l : List α} {m : List β}
    (h : List.Forall₂ R l m) {a : α} (ha : a ∈ l) : ∃ b, R a b := by
  induction h with
  | nil => simp at ha
  | cons h _ ih =>
    rcases List.mem_cons.mp ha with rfl | ha
    · exact ⟨_, h⟩
    · exact ih ha

theorem npIndex_emod {n : Nat} {i : Int} (h : -(n : Int) ≤ i ∧ i < n) :
    npIndex n i = npIndex n (i % n) := by
  have hn : 0 < (n : Int) := by omega
  have h1 := Int.emod_nonneg i (by omega : (n : Int) ≠ 0)
  have h2 := Int.emod_lt_of_pos i hn
  rw [(npIndex_ok h1 (j := (i % n).toNat)).mpr ⟨h2, rfl⟩]
  by_cases h0 : 0 ≤ i
  · rw [(npIndex_ok h0 (j := i.toNat)).mpr ⟨h.2, rfl⟩, Int.emod_eq_of_lt h0 h.2]
  · unfold npIndex
    rw [if_neg (by omega), if_pos (by omega)]
    have : i % n = i + n := by
      rw [← Int.add_emod_right, Int.emod_eq_of_lt (by omega) (by omega)]
    rw [this]

/-- **C38 (supervised labels, all integers) -- partial.**  `onehot` succeeds exactly on the labels
between `-n` and `n - 1`, and then encodes every label modulo `n`: what happens to labels outside the
range `C38_supervised_partial` covers. -/
theorem C38_supervised_modulo_partial {y : List Int} {n : Int} (hn : 0 ≤ n) :
    ((∃ M, onehot y n = .ok M) ↔ ∀ c ∈ y, -n ≤ c ∧ c < n) ∧
    ∀ M, onehot y n = .ok M → IsOneHot n.toNat (y.map (· % n)) M := by
  obtain ⟨m, rfl⟩ := Int.eq_ofNat_of_zero_le hn
  have hall : ∀ M, onehot y m = .ok M → ∀ c ∈ y, -(m : Int) ≤ c ∧ c < m := by
    intro M hM c hc
    unfold onehot fancyOnehot at hM
    rw [if_neg (by omega), mapM_ok] at hM
    obtain ⟨r, hr⟩ := forall₂_left hM hc
    by_contra hcon
    have : npIndex m c = .error .indexError := by
      unfold npIndex
      rw [if_neg (by omega), if_neg (by omega)]
    simp only [Int.toNat_natCast] at hr
    rw [this] at hr
    simp [Except.map] at hr
  have heq : (∀ c ∈ y, -(m : Int) ≤ c ∧ c < m) → onehot y m = onehot (y.map (· % (m : Int))) m := by
    intro h
    unfold onehot fancyOnehot
    rw [if_neg (by omega), if_neg (by omega)]
    simp only [Int.toNat_natCast]
    clear hall hn
    induction y with
    | nil => rfl
    | cons c y ih =>
      simp only [List.mapM_cons, List.map_cons]
      rw [← npIndex_emod (h c (by simp)), ih (fun c hc => h c (List.mem_cons_of_mem _ hc))]
  have hpos : (∀ c ∈ y, -(m : Int) ≤ c ∧ c < m) → ∀ c ∈ y.map (· % (m : Int)), 0 ≤ c ∧ c < m := by
    intro h c hc
    obtain ⟨x, hx, rfl⟩ := List.mem_map.mp hc
    have := h x hx
    exact ⟨Int.emod_nonneg _ (by omega), Int.emod_lt_of_pos _ (by omega)⟩
  refine ⟨⟨fun ⟨M, hM⟩ => hall M hM, fun h => ?_⟩, fun M hM => ?_⟩
  · rw [heq h]
    exact ((C38_supervised_partial hn (fun c hc => (hpos h c hc).1)).1).mpr
      (fun c hc => (hpos h c hc).2)
  · have h := hall M hM
    rw [heq h] at hM
    exact (C38_supervised_partial hn (fun c hc => (hpos h c hc).1)).2 M hM

example : onehot [-3, 1] 3 = .ok [[1, 0, 0], [0, 1, 0]] ∧ onehot [-4] 3 = .error .indexError := by
  decide +kernel

/-- **C38 is violated for negative labels** outside the transductive operators: the unlabeled marker
`-1` is taken for the last class, by `onehot` and by `labels_to_onehot` of the method utilities. -/
theorem C38_negative_violated :
    onehot [-1] 3 = .ok [[0, 0, 1]] ∧ labelsToOnehotUtils [-1] 3 = .ok [[0, 0, 1]] := by
  decide +kernel

/-- **C38 (method utilities).**  `labels_to_onehot` of the method utilities refuses a number of classes that is not positive, and is otherwise
the one-hot encoding of the classifiers: refused for a label of `n` or more, else one-hot. -/
theorem C38_utils_partial (y : List Int) (n : Int) : (n ≤ 0 → labelsToOnehotUtils y n = .error .valueError) ∧
    (0 < n → (∀ c ∈ y, 0 ≤ c) → ((∃ M, labelsToOnehotUtils y n = .ok M) ↔ ∀ c ∈ y, c < n) ∧
      ∀ M, labelsToOnehotUtils y n = .ok M → IsOneHot n.toNat y M) := by
  unfold labelsToOnehotUtils
  refine ⟨fun h => if_pos h, fun hn hy => ?_⟩
  have e : (if n ≤ 0 then .error .valueError else fancyOnehot y n.toNat) = onehot y n := by
    unfold onehot
    rw [if_neg (by omega), if_neg (by omega)]
  rw [e]
  exact C38_supervised_partial (by omega) hy

example : labelsToOnehotUtils [1, 0] 2 = .ok [[0, 1], [1, 0]] ∧ labelsToOnehotUtils [] 0 = .error .valueError := by
  decide +kernel

/-- **C38 (clamping).**  Rows are clamped exactly if the mask and the labels have one entry for each row; then a row in the mask is the
one of the labels and every other row is as it was. -/
theorem C38_hard_clamp (F Y : List (List Rat)) (mask : List Bool) :
    ((∃ M, hardClamp F Y mask = .ok M) ↔ mask.length = F.length ∧ Y.length = F.length) ∧
    ∀ M, hardClamp F Y mask = .ok M → M.length = F.length ∧
      ∀ i (h1 : i < M.length) (h2 : i < F.length) (h3 : i < Y.length) (h4 : i < mask.length),
        (mask[i] = true → M[i] = Y[i]) ∧ (mask[i] = false → M[i] = F[i]) := by
  unfold hardClamp
  by_cases h : mask.length = F.length ∧ mask.length = Y.length
  · rw [if_pos h]
    refine ⟨⟨fun _ => ⟨h.1, by omega⟩, fun _ => ⟨_, rfl⟩⟩, fun M hM => ?_⟩
    obtain rfl := Except.ok.inj hM
    refine ⟨by simp; omega, fun i h1 h2 h3 h4 => ⟨fun hm => ?_, fun hm => ?_⟩⟩ <;> simp [hm]
  · rw [if_neg h]
    exact ⟨⟨fun ⟨M, hM⟩ => (by cases hM), fun h' => absurd ⟨h'.1, by omega⟩ h⟩, fun M hM => (by cases hM)⟩

example : hardClamp [[1, 2], [3, 4]] [[1, 0], [0, 1]] [false, true] = .ok [[1, 2], [0, 1]] := by decide +kernel

/-- **C38 (one-hot step).**  The mask marks the labels that differ from the unlabeled value; a
labeled row has its one in the column of its class, the columns being the labels that occur, in
increasing order; unlabeled rows are zero. -/
theorem C38_ensure_onehot (y : List Int) (u : Int) :
    ∃ classes : List Int, classes.Pairwise (· < ·) ∧ (∀ a, a ∈ classes ↔ a ∈ y ∧ a ≠ u) ∧
    (ensureOnehot y u).1.length = y.length ∧ (ensureOnehot y u).2.length = y.length ∧
    (∀ r ∈ (ensureOnehot y u).1, r.length = classes.length) ∧
    ∀ i (hy : i < y.length), (ensureOnehot y u).2[i]? = some (decide (y[i] ≠ u)) ∧
      ∀ c (hc : c < classes.length), ((ensureOnehot y u).1[i]?).bind (fun r => r[c]?)
        = some (if y[i] ≠ u ∧ y[i] = classes[c] then 1 else 0) := by
  have hs := unique_sorted (y.filter (fun c => decide (c ≠ u)))
  refine ⟨unique (y.filter (fun c => decide (c ≠ u))), hs, ?_, by simp [ensureOnehot],
    by simp [ensureOnehot], ?_, ?_⟩
  · intro a
    rw [mem_unique, List.mem_filter]; simp
  · intro r hr
    obtain ⟨c, -, rfl⟩ := List.mem_map.mp hr
    split <;> simp [zeroRow]
  · intro i hy
    refine ⟨by simp [ensureOnehot, hy], ?_⟩
    intro c hc
    have hm : ∀ a, a ∈ unique (y.filter (fun c => decide (c ≠ u))) ↔ a ∈ y ∧ a ≠ u := by
      intro a; rw [mem_unique, List.mem_filter]; simp
    simp only [ensureOnehot, List.getElem?_map, List.getElem?_eq_getElem hy, Option.map_some,
      Option.bind_some]
    generalize unique (y.filter (fun c => decide (c ≠ u))) = classes at hs hm hc ⊢
    by_cases hu : y[i] ≠ u
    · rw [if_pos hu]
      have hlen : c < ((zeroRow classes.length).set (searchsorted classes y[i]) 1).length := by
        simpa [zeroRow] using hc
      rw [List.getElem?_eq_getElem hlen, row_entry]
      congr 1
      have hin : y[i] ∈ classes := (hm _).mpr ⟨List.getElem_mem hy, hu⟩
      have hd := searchsorted_decode hs hin
      congr 1
      simp only [eq_iff_iff]
      constructor
      · intro h
        subst h
        rw [List.getElem?_eq_getElem hc] at hd
        exact ⟨hu, (Option.some.inj hd).symm⟩
      · rintro ⟨-, h⟩
        rw [h, searchsorted_get hs hc]
    · rw [if_neg hu, if_neg (fun h => hu h.1)]
      have hlen : c < (zeroRow classes.length).length := by simpa [zeroRow] using hc
      rw [List.getElem?_eq_getElem hlen, zero_entry]

example : ensureOnehot [5, -1, 3] (-1) = ([[0, 1], [0, 0], [1, 0]], [true, false, true]) := by
  decide +kernel

end ModSSC.Labels
