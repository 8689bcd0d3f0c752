import Verif.Inductive.PredictProps

/-!
# Further properties of prediction: classifiers that do not name their classes, and views of different lengths
-/

namespace ModSSC.Inductive
open ModSSC DataLoader Spec

/-- The output of a classifier whose columns are taken to be those of `cs`. -/
def Out.named (cs : List Int) (o : Out) : Out := ⟨some cs, o.scores⟩

/-- The labels `predict` uses for columns: the classes of the first classifier, or the column numbers. -/
def columnLabels (o : Out) : List Int := o.classes.getD ((List.range o.scores.cols).map fun i : Nat => (i : Int))

theorem takeIdx_range {k : Nat} {idx : List Nat} (h : ∀ i ∈ idx, i < k) :
    takeIdx ((List.range k).map fun i : Nat => (i : Int)) idx = .ok (idx.map fun i : Nat => (i : Int)) := by
  induction idx with
  | nil => rfl
  | cons i idx ih =>
    have hi := h i List.mem_cons_self
    have ht := ih fun j hj => h j (List.mem_cons_of_mem _ hj)
    unfold takeIdx at ht ⊢
    rw [List.mapM_cons, ht, List.getElem?_map, List.getElem?_range hi]
    rfl

theorem decodeBest_columns {p : Scores} (hc : 0 < p.cols) (hr : ∀ r ∈ p.rows, r.length = p.cols) :
    decodeBest none p = decodeBest (some ((List.range p.cols).map fun i : Nat => (i : Int))) p := by
  have h0 : ¬ p.cols = 0 := by omega
  simp only [decodeBest, h0, if_false]
  rw [takeIdx_range]
  intro i hi
  obtain ⟨r, hrm, rfl⟩ := List.mem_map.mp hi
  rw [← hr r hrm]
  refine Evaluation.argmax_lt fun h => ?_
  have := hr r hrm
  rw [h] at this
  simp at this
  omega

theorem coProba_named {o1 o2 : Out} (hun : o1.classes = none ∨ o2.classes = none) (cs : List Int) :
    coProba o1 o2 = coProba (o1.named cs) (o2.named cs) := by
  have h1 : disagree o1.classes o2.classes = false := by
    rcases hun with h | h
    · simp [disagree, h]
    · rw [h]; cases o1.classes <;> rfl
  have h2 : disagree (o1.named cs).classes (o2.named cs).classes = false := by simp [disagree, Out.named]
  unfold coProba
  rw [h1, h2]
  rfl

/-- **C80 (co-training, unnamed classes).**  When one of the classifiers does not name its classes, its columns are taken to
be those of the other, or, if the first does not name them, the labels are the column numbers; with this reading `predict`
returns for every sample a label with the best mean score.  Missing: negative sums, as in `C80_co_predict_partial`. -/
theorem C80_co_unnamed_partial (o1 o2 : Out) (n : Nat) (hun : o1.classes = none ∨ o2.classes = none)
    (h1 : (o1.named (columnLabels o1)).Good n) (h2 : (o2.named (columnLabels o1)).Good n) (hcs0 : columnLabels o1 ≠ [])
    (hs : ∀ i, i < n → 0 ≤ ((columnLabels o1).map
      (meanScore (opinionsAt [o1.named (columnLabels o1), o2.named (columnLabels o1)] i))).sum) :
    ∃ ys, coPredict o1 o2 = .ok ys ∧ ys.length = n ∧ ∀ (i : Nat) (c : Int), ys[i]? = some c →
      IsBest (opinionsAt [o1.named (columnLabels o1), o2.named (columnLabels o1)] i) c := by
  obtain ⟨ys, e1, e2, e3⟩ := C80_co_predict_partial _ _ n (columnLabels o1) h1 h2 rfl rfl hcs0 hs
  refine ⟨ys, ?_, e2, e3⟩
  rw [← e1]
  unfold coPredict
  rw [coProba_named hun (columnLabels o1)]
  cases hp : coProba (o1.named (columnLabels o1)) (o2.named (columnLabels o1)) with
  | error e => rfl
  | ok p =>
    show decodeBest o1.classes p = decodeBest (some (columnLabels o1)) p
    cases hc : o1.classes with
    | some cs => simp [columnLabels, hc]
    | none =>
      have hcl : columnLabels o1 = (List.range o1.scores.cols).map fun i : Nat => (i : Int) := by simp [columnLabels, hc]
      have hp' := hp
      rw [coProba_eq h1 h2 rfl] at hp'
      obtain ⟨labels, q, q1, q2, q3, q4, q5, q6⟩ := triProba_spec (outs := [o1.named (columnLabels o1), o2.named (columnLabels o1)])
        (n := n) (by simp) (by simp [h1, h2])
      rw [q1] at hp'
      obtain rfl := Except.ok.inj hp'
      have hl := q6 (by simp [Out.named]) (o1.named (columnLabels o1)) (by simp)
      have hl' : labels = columnLabels o1 := (Option.some.inj hl).symm
      have hcols : q.cols = o1.scores.cols := by rw [q3, hl', hcl]; simp
      have hpos : 0 < q.cols := by
        rw [hcols]
        rcases Nat.eq_zero_or_pos o1.scores.cols with h | h
        · exact absurd (by rw [hcl, h]; rfl) hcs0
        · exact h
      rw [decodeBest_columns hpos (by
        intro r hr
        rw [q5] at hr
        obtain ⟨i, -, rfl⟩ := List.mem_map.mp hr
        rw [q3]
        simp [normRow]), hcols, hcl]

/-- Two classifiers without names: the columns are the labels. -/
example : (Out.named (columnLabels ⟨none, ⟨2, [[1/4, 3/4], [1, 0]]⟩⟩) ⟨none, ⟨2, [[1/4, 3/4], [1, 0]]⟩⟩).Good 2 ∧
    coPredict ⟨none, ⟨2, [[1/4, 3/4], [1, 0]]⟩⟩ ⟨some [5, 9], ⟨2, [[1/2, 1/2], [3/4, 1/4]]⟩⟩ = .ok [1, 0] :=
  ⟨⟨⟨[0, 1], rfl, by decide, rfl⟩, rfl, by simp [Scores.Rect, Out.named]⟩, by decide +kernel⟩

/-! ### Views of different lengths -/

/-- **C80 (co-training, rows).**  Views with different numbers of rows, none of them a single row, make prediction raise.
Missing: a single row, which is repeated, see `C80_co_rows_violated`. -/
theorem C80_co_rows_partial (o1 o2 : Out) (h : o1.scores.rows.length ≠ o2.scores.rows.length) (h1 : o1.scores.rows.length ≠ 1)
    (h2 : o2.scores.rows.length ≠ 1) : ∃ e, coPredict o1 o2 = .error e := by
  unfold coPredict coProba
  by_cases hc : o1.scores.cols ≠ o2.scores.cols
  · rw [if_pos hc]; exact ⟨_, rfl⟩
  · rw [if_neg hc]
    by_cases hd : disagree o1.classes o2.classes = true
    · rw [if_pos hd]; exact ⟨_, rfl⟩
    · rw [if_neg hd]
      have : addRows o1.scores.rows o2.scores.rows = .error .valueError := by
        unfold addRows
        rw [if_neg h, if_neg h1, if_neg h2]
      rw [this]
      exact ⟨_, rfl⟩

/-- **C80 (co-training, a single row), violated.**  Views with one and with two rows are not refused: the scores of the single
row are used for both samples of the other view. -/
theorem C80_co_rows_violated :
    coPredict ⟨some [5, 9], ⟨2, [[0, 1]]⟩⟩ ⟨some [5, 9], ⟨2, [[3/4, 1/4], [1/4, 3/4]]⟩⟩ = .ok [9, 9] ∧
    coPredict ⟨some [5, 9], ⟨2, [[3/4, 1/4], [1/4, 3/4]]⟩⟩ ⟨some [5, 9], ⟨2, [[1, 0]]⟩⟩ = .ok [5, 5] ∧
    ¬ ∀ o1 o2 : Out, o1.scores.rows.length ≠ o2.scores.rows.length → ∃ e, coPredict o1 o2 = .error e := by
  refine ⟨by decide +kernel, by decide +kernel, fun h => ?_⟩
  obtain ⟨e, he⟩ := h ⟨some [5, 9], ⟨2, [[0, 1]]⟩⟩ ⟨some [5, 9], ⟨2, [[3/4, 1/4], [1/4, 3/4]]⟩⟩ (by decide)
  have : coPredict ⟨some [5, 9], ⟨2, [[0, 1]]⟩⟩ ⟨some [5, 9], ⟨2, [[3/4, 1/4], [1/4, 3/4]]⟩⟩ = .ok [9, 9] := by
    decide +kernel
  rw [this] at he
  cases he

theorem triProba_plain {o : Out} {rest : List Out} (h1 : ((o :: rest).any badClasses) = false)
    (h2 : ((o :: rest).any fun o' => decide (o'.scores.cols ≠ o.scores.cols)) = false)
    (h3 : (((o :: rest).all fun o => o.classes.isSome) && (o :: rest).any fun o' => decide (o'.classes ≠ o.classes)) = false) :
    triProba (o :: rest) = (do
      let avg ← meanStack o.scores.cols ((o :: rest).map fun o => o.scores.rows)
      .ok ⟨o.scores.cols, avg.map normRow⟩) := by
  unfold triProba
  simp only [h1, h2, h3]
  rfl

/-- **C80 (tri-training, unnamed classes).**  When some classifier does not name its classes and all return equally many
columns, the columns have the labels of the first classifier, or, if it does not name them, their numbers; with this reading
`predict` returns for every sample a label with the best mean score.  Missing: negative sums. -/
theorem C80_tri_unnamed_partial (o : Out) (rest : List Out) (n : Nat) (hun : ∃ o' ∈ o :: rest, o'.classes = none)
    (hlen : ∀ o' ∈ o :: rest, ∀ cs, o'.classes = some cs → cs.length = o'.scores.cols)
    (hg : ∀ o' ∈ o :: rest, (o'.named (columnLabels o)).Good n) (hcs0 : columnLabels o ≠ [])
    (hs : ∀ i, i < n → 0 ≤ ((columnLabels o).map
      (meanScore (opinionsAt ((o :: rest).map (Out.named (columnLabels o))) i))).sum) :
    ∃ ys, triPredict (o :: rest) = .ok ys ∧ ys.length = n ∧ ∀ (i : Nat) (c : Int), ys[i]? = some c →
      IsBest (opinionsAt ((o :: rest).map (Out.named (columnLabels o))) i) c := by
  have hg' : ∀ o' ∈ (o :: rest).map (Out.named (columnLabels o)), o'.Good n := by
    intro o' ho
    obtain ⟨x, hx, rfl⟩ := List.mem_map.mp ho
    exact hg x hx
  have hall' : ∀ o' ∈ (o :: rest).map (Out.named (columnLabels o)), o'.classes = some (columnLabels o) := by
    intro o' ho
    obtain ⟨x, -, rfl⟩ := List.mem_map.mp ho
    rfl
  obtain ⟨ys, e1, e2, e3⟩ := C80_tri_predict_partial _ n (columnLabels o) (by simp) hg' hall' hcs0 hs
  refine ⟨ys, ?_, e2, e3⟩
  have hcols : ∀ o' ∈ o :: rest, o'.scores.cols = (columnLabels o).length := by
    intro o' ho
    obtain ⟨cs, hcs, -, hc⟩ := (hg o' ho).known
    obtain rfl := Option.some.inj hcs
    exact hc
  have hbad : ((o :: rest).any badClasses) = false := by
    rw [List.any_eq_false]
    intro o' ho
    unfold badClasses
    cases hc : o'.classes with
    | none => simp
    | some cs => simp [hlen o' ho cs hc]
  have hbad' : (((o :: rest).map (Out.named (columnLabels o))).any badClasses) = false := by
    rw [List.any_eq_false]
    intro o' ho
    obtain ⟨x, hx, rfl⟩ := List.mem_map.mp ho
    simp [badClasses, Out.named, hcols x hx]
  have hall : ((o :: rest).all fun o => o.classes.isSome) = false := by
    obtain ⟨o', ho', hn⟩ := hun
    rw [List.all_eq_false]
    exact ⟨o', ho', by simp [hn]⟩
  have hdiff : ((o :: rest).any fun o' => decide (o'.scores.cols ≠ o.scores.cols)) = false := by
    rw [List.any_eq_false]
    intro o' ho
    simp [hcols o' ho, hcols o List.mem_cons_self]
  have hdiff' : (((o :: rest).map (Out.named (columnLabels o))).any fun o' => decide (o'.scores.cols ≠ o.scores.cols)) = false := by
    rw [List.any_eq_false]
    intro o' ho
    obtain ⟨x, hx, rfl⟩ := List.mem_map.mp ho
    simp [Out.named, hcols x hx, hcols o List.mem_cons_self]
  have hcls' : (((o :: rest).map (Out.named (columnLabels o))).any fun o' => decide (o'.classes ≠ some (columnLabels o))) = false := by
    rw [List.any_eq_false]
    intro o' ho
    simp [hall' o' ho]
  have hmap : ((o :: rest).map (Out.named (columnLabels o))).map (fun o => o.scores.rows) = (o :: rest).map fun o => o.scores.rows := by
    rw [List.map_map]; rfl
  have hp : triProba (o :: rest) = triProba ((o :: rest).map (Out.named (columnLabels o))) := by
    rw [triProba_plain hbad hdiff (by rw [hall]; rfl), show (o :: rest).map (Out.named (columnLabels o)) =
        o.named (columnLabels o) :: rest.map (Out.named (columnLabels o)) from rfl, triProba_plain (o := o.named (columnLabels o)) (rest := rest.map (Out.named (columnLabels o))) hbad' hdiff' (by
        rw [show (o.named (columnLabels o)).classes = some (columnLabels o) from rfl]
        rw [List.map_cons (f := Out.named (columnLabels o))] at hcls'
        rw [hcls', Bool.and_false])]
    rw [List.map_cons (f := Out.named (columnLabels o))] at hmap
    rw [hmap]
    rfl
  rw [← e1]
  unfold triPredict
  rw [hp]
  obtain ⟨labels, q, q1, q2, q3, q4, q5, q6⟩ := triProba_spec (outs := (o :: rest).map (Out.named (columnLabels o)))
    (n := n) (by simp) hg'
  rw [ebind_of_ok q1, ebind_of_ok q1]
  have hl := q6 (fun a ha b hb => by rw [hall' a ha, hall' b hb]) (o.named (columnLabels o)) (by simp)
  have hl' : labels = columnLabels o := (Option.some.inj hl).symm
  show decodeBest o.classes q = decodeBest (some (columnLabels o)) q
  cases hc : o.classes with
  | some cs => simp [columnLabels, hc]
  | none =>
    have hcl : columnLabels o = (List.range o.scores.cols).map fun i : Nat => (i : Int) := by simp [columnLabels, hc]
    have hqc : q.cols = o.scores.cols := by rw [q3, hl', hcl]; simp
    have hpos : 0 < q.cols := by
      rw [hqc]
      rcases Nat.eq_zero_or_pos o.scores.cols with h | h
      · exact absurd (by rw [hcl, h]; rfl) hcs0
      · exact h
    rw [decodeBest_columns hpos (by
      intro r hr
      rw [q5] at hr
      obtain ⟨i, -, rfl⟩ := List.mem_map.mp hr
      rw [q3]
      simp [normRow]), hqc, hcl]

example : (∃ o' ∈ [⟨none, ⟨2, [[1/4, 3/4]]⟩⟩, ⟨some [5, 9], ⟨2, [[1/2, 1/2]]⟩⟩, (⟨none, ⟨2, [[1, 0]]⟩⟩ : Out)], o'.classes = none) ∧
    triPredict [⟨none, ⟨2, [[1/4, 3/4]]⟩⟩, ⟨some [5, 9], ⟨2, [[1/2, 1/2]]⟩⟩, ⟨none, ⟨2, [[1, 0]]⟩⟩] = .ok [0] ∧
    triPredict [⟨some [5, 9], ⟨2, [[1/2, 1/2]]⟩⟩, ⟨none, ⟨2, [[1, 0]]⟩⟩] = .ok [5] :=
  ⟨⟨_, List.mem_cons_self, rfl⟩, by decide +kernel, by decide +kernel⟩

end ModSSC.Inductive
