import Verif.Views.Model
import Verif.Views.Spec
import Verif.Sampling.SplitLemmas
import Verif.ExceptLemmas

/-!
# Feature views (C49) and their metadata (C91)
-/

namespace ModSSC.Views
open ModSSC Spec

variable {P V O Y E M σ : Type}

theorem randomSize_bounds (f : Rat) {n : Nat} (hn : n ≠ 0) : 1 ≤ randomSize f n ∧ randomSize f n ≤ n := by
  unfold randomSize
  omega

/-- What the specification of a view says about its columns; `columns` is the result for all views. -/
def MeetsSpec (spec : Option ColumnSpec) (n : Nat) (cols : List Nat) (columns : List (String × List Nat)) : Prop :=
  match spec with
  | none => cols = List.range n
  | some c =>
    (c.mode = "all" → cols = List.range n) ∧
    (c.mode = "indices" → ∀ j : Nat, j ∈ cols ↔ (j : Int) ∈ c.indices) ∧
    (c.mode = "random" → ∃ k : Int, Sampling.Spec.IsNearestEven (c.fraction * n) k ∧
      (cols.length : Int) = max 1 (min (n : Int) k)) ∧
    (c.mode = "complement" → ∃ other base, c.complementOf = some other ∧ Assoc.get columns other = some base ∧
      ∀ j, j ∈ cols ↔ j < n ∧ j ∉ base)

theorem validate_complement {c : ColumnSpec} {u : Unit} (h : c.validate = .ok u) (hm : c.mode = "complement") :
    ∃ other, c.complementOf = some other := by
  unfold ColumnSpec.validate at h
  split at h
  · simp at h
  split at h
  · simp at h
  split at h
  · simp at h
  split at h
  · simp at h
  · rename_i h4
    cases hc : c.complementOf with
    | some o => exact ⟨o, rfl⟩
    | none => exact absurd ⟨hm, .inl hc⟩ h4

theorem resolve_ok {R : Rng σ} (hR : R.Lawful) {gen : String → Int → Except PyErr σ} {spec : Option ColumnSpec} {n : Nat}
    {name : String} {resolved : List (String × List Nat)} {nf : List (String × Nat)} {cols : List Nat}
    (h : resolveColumns R gen spec n name resolved nf = .ok cols) :
    ColumnSet n cols ∧ MeetsSpec spec n cols resolved := by
  unfold resolveColumns at h
  by_cases hn : n = 0
  · rw [if_pos hn] at h; simp at h
  rw [if_neg hn] at h
  have hrange : ColumnSet n (List.range n) :=
    ⟨by simpa using hn, range_strict n, fun j hj => List.mem_range.mp hj⟩
  cases spec with
  | none =>
    obtain rfl := Except.ok.inj h
    exact ⟨hrange, rfl⟩
  | some c =>
    simp only at h
    by_cases hall : c.mode = "all"
    · rw [if_pos hall] at h
      obtain rfl := Except.ok.inj h
      refine ⟨hrange, fun _ => rfl, ?_, ?_, ?_⟩ <;> (intro hm; rw [hall] at hm; simp at hm)
    rw [if_neg hall] at h
    cases hv : c.validate with
    | error e => rw [hv] at h; simp at h
    | ok u =>
      rw [hv] at h
      simp only at h
      by_cases hi : c.mode = "indices"
      · rw [if_pos hi] at h
        by_cases h1 : c.indices = []
        · rw [if_pos h1] at h; simp at h
        rw [if_neg h1] at h
        by_cases h2 : ¬ c.indices.Nodup
        · rw [if_pos h2] at h; simp at h
        rw [if_neg h2] at h
        by_cases h3 : ∃ i ∈ c.indices, i < 0 ∨ (n : Int) ≤ i
        · rw [if_pos h3] at h; simp at h
        rw [if_neg h3] at h
        obtain rfl := Except.ok.inj h
        push Not at h2 h3
        have hmem : ∀ j : Nat, j ∈ npSort (c.indices.map Int.toNat) ↔ (j : Int) ∈ c.indices := by
          intro j
          rw [mem_npSort, List.mem_map]
          constructor
          · rintro ⟨i, hi, rfl⟩
            have := (h3 i hi).1
            rwa [Int.toNat_of_nonneg this]
          · intro hj
            exact ⟨j, hj, by simp⟩
        refine ⟨⟨?_, ?_, ?_⟩, fun hm => absurd hm hall, fun _ => hmem, ?_, ?_⟩
        · intro he
          have := length_npSort (c.indices.map Int.toNat)
          rw [he, List.length_map, List.length_nil] at this
          exact h1 (List.length_eq_zero_iff.mp this.symm)
        · refine npSort_strict (List.Nodup.map_on ?_ h2)
          intro a ha b hb hab
          have h5 := (h3 a ha).1
          have h6 := (h3 b hb).1
          omega
        · intro j hj
          have := (h3 _ ((hmem j).mp hj)).2
          omega
        · intro hm; rw [hi] at hm; simp at hm
        · intro hm; rw [hi] at hm; simp at hm
      rw [if_neg hi] at h
      by_cases hr : c.mode = "random"
      · rw [if_pos hr] at h
        cases hg : gen name c.seedOffset with
        | error e => rw [hg] at h; simp at h
        | ok s =>
          rw [hg] at h
          obtain rfl := Except.ok.inj h
          obtain ⟨b1, b2⟩ := randomSize_bounds c.fraction hn
          have hk : randomSize c.fraction n ≤ (List.range n).length := by simpa using b2
          have hsub := hR.choice_subperm s (List.range n) _ hk
          have hlen := hR.choice_length s (List.range n) _ hk
          refine ⟨⟨?_, ?_, ?_⟩, fun hm => absurd hm hall, fun hm => absurd hm hi, fun _ => ?_, ?_⟩
          · intro he
            have := length_npSort (R.choice s (List.range n) (randomSize c.fraction n)).1
            rw [he, hlen, List.length_nil] at this
            omega
          · refine npSort_strict ?_
            obtain ⟨l, hp, hs⟩ := hsub
            exact hp.nodup_iff.mp (hs.nodup List.nodup_range)
          · intro j hj
            exact List.mem_range.mp (hsub.subset (mem_npSort.mp hj))
          · refine ⟨pyRound (c.fraction * n), Sampling.pyRound_nearest _, ?_⟩
            rw [length_npSort, hlen]
            unfold randomSize
            omega
          · intro hm; rw [hr] at hm; simp at hm
      rw [if_neg hr] at h
      by_cases hc : c.mode = "complement"
      · rw [if_pos hc] at h
        obtain ⟨other, ho⟩ := validate_complement hv hc
        rw [ho, Option.getD_some] at h
        cases hg : Assoc.get resolved other with
        | none => rw [hg] at h; simp at h
        | some base =>
          rw [hg] at h
          simp only at h
          split at h
          · simp at h
          · split at h
            · simp at h
            · rename_i hne
              obtain rfl := Except.ok.inj h
              refine ⟨⟨hne, (range_strict n).filter _, ?_⟩, fun hm => absurd hm hall, fun hm => absurd hm hi,
                fun hm => absurd hm hr, fun _ => ⟨other, base, ho, hg, ?_⟩⟩
              · intro j hj
                exact List.mem_range.mp (List.mem_filter.mp hj).1
              · intro j
                simp [List.mem_filter]
      · rw [if_neg hc] at h; simp at h

/-- A rectangular array: what every numpy array is. -/
def Arr.WF : Arr V → Prop
  | .flat => True
  | .mat rows n => ∀ r ∈ rows, r.length = n

/-- `s'` is `s` with its feature columns restricted to `cols` and everything else as it was. -/
def IsViewOf (s : Split V O Y E M) (cols : List Nat) (s' : Split V O Y E M) : Prop :=
  s'.y = s.y ∧ s'.edges = s.edges ∧ s'.masks = s.masks ∧
  ∃ rows n rows', Restricts rows rows' cols ∧
    ((s.X = .plain (.mat rows n) ∧ s'.X = .plain (.mat rows' cols.length)) ∨
     ∃ rest, s.X = .dict (.mat rows n) rest ∧ s'.X = .dict (.mat rows' cols.length) rest)

theorem restricts_map {rows : List (List V)} {n : Nat} (hwf : ∀ r ∈ rows, r.length = n) {cols : List Nat}
    (hc : ∀ j ∈ cols, j < n) : Restricts rows (rows.map (fun r => cols.filterMap (fun j => r[j]?))) cols := by
  refine ⟨by simp, ?_⟩
  intro i r r' hr hr'
  rw [List.getElem?_map, hr] at hr'
  obtain rfl := Option.some.inj hr'
  have hlen : r.length = n := hwf r (List.mem_of_getElem? hr)
  clear hr hr' hwf
  simp only
  induction cols with
  | nil => simp
  | cons c cs ih =>
    have hcn : c < r.length := by rw [hlen]; exact hc c (by simp)
    have hrec := ih (fun j hj => hc j (by simp [hj]))
    rw [List.filterMap_cons, List.getElem?_eq_getElem hcn]
    simp only
    refine ⟨by simp [hrec.1], ?_⟩
    intro k d hk
    cases k with
    | zero =>
      rw [List.getElem?_cons_zero] at hk
      obtain rfl := Option.some.inj hk
      rw [List.getElem?_cons_zero, List.getElem?_eq_getElem hcn]
    | succ k =>
      rw [List.getElem?_cons_succ] at hk ⊢
      exact hrec.2 k d hk

theorem viewSplit_ok {s s' : Split V O Y E M} {cols : List Nat} (hwf : s.X.arr.WF) (h : viewSplit s cols = .ok s') :
    IsViewOf s cols s' := by
  unfold viewSplit at h
  cases hx : s.X.arr with
  | flat => rw [hx] at h; simp [takeColumns] at h
  | mat rows n =>
    rw [hx] at h hwf
    unfold takeColumns at h
    simp only at h
    by_cases hc : cols.all (fun j => decide (j < n)) = true
    · rw [if_pos hc] at h
      obtain rfl := Except.ok.inj h
      have hc' : ∀ j ∈ cols, j < n := by
        intro j hj
        simpa using List.all_eq_true.mp hc j hj
      refine ⟨rfl, rfl, rfl, rows, n, _, restricts_map hwf hc', ?_⟩
      cases hX : s.X with
      | plain a =>
        rw [hX] at hx
        simp only [Feats.arr] at hx
        subst hx
        exact .inl ⟨rfl, by simp [Feats.replace]⟩
      | dict a rest =>
        rw [hX] at hx
        simp only [Feats.arr] at hx
        subst hx
        exact .inr ⟨rest, rfl, by simp [Feats.replace]⟩
    · rw [if_neg hc] at h; simp at h

/-- What a view of the dataset `d` is: columns that meet the view's specification, the train part restricted to
them, and the test part as well if there is one. -/
def GoodView (v : ViewSpec P) (d : Dataset V O Y E M) (columns : List (String × List Nat)) (cols : List Nat)
    (out : Dataset V O Y E M) : Prop :=
  ∃ rows n, d.train.X.arr = .mat rows n ∧ ColumnSet n cols ∧ MeetsSpec v.columns n cols columns ∧
    IsViewOf d.train cols out.train ∧
    (d.test = none → out.test = none) ∧ (∀ t, d.test = some t → ∃ t', out.test = some t' ∧ IsViewOf t cols t')

theorem buildView_ok {R : Rng σ} (hR : R.Lawful) {gen : String → Int → Except PyErr σ}
    {run : P → Dataset V O Y E M → Except PyErr (Dataset V O Y E M)} {ds : Dataset V O Y E M} {v : ViewSpec P}
    {acc : Acc V O Y E M} {out : Dataset V O Y E M} {cols : List Nat} {n : Nat}
    (hwf : ∀ d, prepared run ds v = .ok d → d.train.X.arr.WF ∧ ∀ t, d.test = some t → t.X.arr.WF)
    (h : buildView R gen run ds v acc = .ok (out, cols, n)) :
    ∃ d, prepared run ds v = .ok d ∧ GoodView v d acc.columns cols out ∧ out.metaViews = d.metaViews ∧
      featureCount d = .ok n ∧ resolveColumns R gen v.columns n v.name acc.columns acc.nf = .ok cols := by
  unfold buildView at h
  obtain ⟨d, hd, h⟩ := ebind_ok.mp h
  obtain ⟨n', hn, h⟩ := ebind_ok.mp h
  obtain ⟨cols', hcols, h⟩ := ebind_ok.mp h
  obtain ⟨train, htr, h⟩ := ebind_ok.mp h
  obtain ⟨test, hte, h⟩ := ebind_ok.mp h
  obtain ⟨rfl, h6⟩ := Prod.mk.inj (Except.ok.inj h)
  obtain ⟨rfl, rfl⟩ := Prod.mk.inj h6
  obtain ⟨w1, w2⟩ := hwf d hd
  obtain ⟨c1, c2⟩ := resolve_ok hR hcols
  refine ⟨d, hd, ?_, rfl, hn, hcols⟩
  have hx : ∃ rows, d.train.X.arr = .mat rows n' := by
    unfold featureCount at hn
    cases ha : d.train.X.arr with
    | flat => rw [ha] at hn; simp at hn
    | mat rows m =>
      rw [ha] at hn
      simp only at hn
      cases ht : d.test with
      | none => rw [ht] at hn; obtain rfl := Except.ok.inj hn; exact ⟨rows, rfl⟩
      | some t =>
        rw [ht] at hn
        simp only at hn
        cases hta : t.X.arr with
        | flat => rw [hta] at hn; simp at hn
        | mat r2 m2 => rw [hta] at hn; obtain rfl := Except.ok.inj hn; exact ⟨rows, rfl⟩
  obtain ⟨rows, hx⟩ := hx
  refine ⟨rows, n', hx, c1, c2, viewSplit_ok w1 htr, ?_, ?_⟩
  · intro ht
    rw [ht] at hte
    exact (Except.ok.inj hte).symm
  · intro t ht
    rw [ht] at hte
    unfold viewTest at hte
    simp only at hte
    cases hv : viewSplit t cols' with
    | error e => rw [hv] at hte; simp at hte
    | ok t' =>
      rw [hv] at hte
      exact ⟨t', (Except.ok.inj hte).symm, viewSplit_ok (w2 t ht) hv⟩

/-- The columns meet the specification for any larger result. -/
theorem MeetsSpec.mono {spec : Option ColumnSpec} {n : Nat} {cols : List Nat} {c1 c2 : List (String × List Nat)}
    (hsub : ∀ k b, Assoc.get c1 k = some b → Assoc.get c2 k = some b) (h : MeetsSpec spec n cols c1) :
    MeetsSpec spec n cols c2 := by
  cases spec with
  | none => exact h
  | some c =>
    obtain ⟨h1, h2, h3, h4⟩ := h
    refine ⟨h1, h2, h3, fun hm => ?_⟩
    obtain ⟨o, b, e1, e2, e3⟩ := h4 hm
    exact ⟨o, b, e1, hsub _ _ e2, e3⟩

theorem viewLoop_ok {R : Rng σ} (hR : R.Lawful) {gen : String → Int → Except PyErr σ}
    {run : P → Dataset V O Y E M → Except PyErr (Dataset V O Y E M)} {ds : Dataset V O Y E M} (vs : List (ViewSpec P)) :
    ∀ (acc : Acc V O Y E M) (h h' : Heap) (acc' : Acc V O Y E M),
    (∀ v ∈ vs, ∀ d, prepared run ds v = .ok d → d.train.X.arr.WF ∧ ∀ t, d.test = some t → t.X.arr.WF) →
    (vs.map (·.name)).Nodup → (∀ v ∈ vs, v.name ∉ Assoc.keys acc.columns ∧ v.name ∉ Assoc.keys acc.views) →
    viewLoop R gen run ds vs acc h = (h', .ok acc') →
    Assoc.keys acc'.views = Assoc.keys acc.views ++ vs.map (·.name) ∧
    Assoc.keys acc'.columns = Assoc.keys acc.columns ++ vs.map (·.name) ∧
    (∀ k b, Assoc.get acc.columns k = some b → Assoc.get acc'.columns k = some b) ∧
    (∀ k d, Assoc.get acc.views k = some d → Assoc.get acc'.views k = some d) ∧
    ∀ v ∈ vs, ∃ d cols out, prepared run ds v = .ok d ∧ Assoc.get acc'.columns v.name = some cols ∧
      Assoc.get acc'.views v.name = some out ∧ GoodView v d acc'.columns cols out := by
  induction vs with
  | nil =>
    intro acc h h' acc' _ _ _ hl
    obtain ⟨rfl, h2⟩ := Prod.mk.inj hl
    obtain rfl := Except.ok.inj h2
    exact ⟨by simp, by simp, fun _ _ x => x, fun _ _ x => x, by simp⟩
  | cons v vs ih =>
    intro acc h h' acc' hwf hnd hfresh hl
    unfold viewLoop at hl
    cases hb : buildView R gen run ds v acc with
    | error e => rw [hb] at hl; simp at hl
    | ok x =>
      obtain ⟨out, cols, n⟩ := x
      rw [hb] at hl
      simp only at hl
      obtain ⟨d, hd, hgood, -, -, -⟩ := buildView_ok hR (hwf v (by simp)) hb
      rw [List.map_cons, List.nodup_cons] at hnd
      obtain ⟨f1, f2⟩ := hfresh v (by simp)
      have key := ih _ _ h' acc' (fun w hw => hwf w (by simp [hw])) hnd.2 (by
        intro w hw
        have hne : w.name ≠ v.name := fun e => hnd.1 (by rw [← e]; exact List.mem_map_of_mem hw)
        obtain ⟨g1, g2⟩ := hfresh w (by simp [hw])
        simp only [Assoc.keys_set, Assoc.has_iff, if_neg f1, if_neg f2, List.mem_append, List.mem_singleton, not_or]
        exact ⟨⟨g1, hne⟩, ⟨g2, hne⟩⟩) hl
      obtain ⟨k1, k2, k3, k4, k5⟩ := key
      simp only [Assoc.keys_set, Assoc.has_iff, if_neg f1, if_neg f2] at k1 k2
      have hsub : ∀ k b, Assoc.get acc.columns k = some b → Assoc.get acc'.columns k = some b := by
        intro k b hk
        refine k3 k b ?_
        simp only
        rw [Assoc.get_set, if_neg, hk]
        rintro rfl
        exact f1 (Assoc.mem_keys_iff.mpr ⟨b, hk⟩)
      refine ⟨by rw [k1]; simp, by rw [k2]; simp, hsub, ?_, ?_⟩
      · intro k d' hk
        refine k4 k d' ?_
        simp only
        rw [Assoc.get_set, if_neg, hk]
        rintro rfl
        exact f2 (Assoc.mem_keys_iff.mpr ⟨d', hk⟩)
      · intro w hw
        rcases List.mem_cons.mp hw with rfl | hw
        · refine ⟨d, cols,
            { out with metaViews := some (recordMeta out.metaViews w.name ⟨cols, modeName w.columns⟩ h).2 }, hd,
            k3 _ _ ?_, k4 _ _ ?_, ?_⟩
          · exact Assoc.get_set_self ..
          · exact Assoc.get_set_self ..
          · obtain ⟨rows, m, g1, g2, g3, g4, g5, g6⟩ := hgood
            exact ⟨rows, m, g1, g2, g3.mono hsub, g4, g5, g6⟩
        · exact k5 w hw

theorem validatePlan_nodup {strip : String → String} {plan : List (ViewSpec P)} {u : Unit}
    (h : validatePlan strip plan = .ok u) : (plan.map (·.name)).Nodup := by
  unfold validatePlan at h
  split at h
  · simp at h
  split at h
  · simp at h
  · rename_i h2
    simpa using h2

/-- **C49 (every plan).**  If view generation succeeds, there is one view per entry of the plan, in its order.  The
columns of each are a non-empty increasing selection that meets the view's specification, complements with respect to
the final columns of the view they name.  The view has the rows of the (preprocessed) dataset in order, restricted to
those columns, and its labels, edges and masks unchanged, in the train and in the test part. -/
theorem C49_views (R : Rng σ) (hR : R.Lawful) (gen : String → Int → Except PyErr σ) (strip : String → String)
    (run : P → Dataset V O Y E M → Except PyErr (Dataset V O Y E M)) (ds : Dataset V O Y E M) (plan : List (ViewSpec P))
    (hwf : ∀ v ∈ plan, ∀ d, prepared run ds v = .ok d → d.train.X.arr.WF ∧ ∀ t, d.test = some t → t.X.arr.WF)
    (h h' : Heap) (res : Acc V O Y E M) (hr : generateViews R gen strip run ds plan h = (h', .ok res)) :
    Assoc.keys res.views = plan.map (·.name) ∧ Assoc.keys res.columns = plan.map (·.name) ∧
    ∀ v ∈ plan, ∃ d cols out, prepared run ds v = .ok d ∧ Assoc.get res.columns v.name = some cols ∧
      Assoc.get res.views v.name = some out ∧ GoodView v d res.columns cols out := by
  unfold generateViews at hr
  cases hv : validatePlan strip plan with
  | error e => rw [hv] at hr; simp at hr
  | ok u =>
    rw [hv] at hr
    have key := viewLoop_ok hR plan {} h h' res hwf (validatePlan_nodup hv) (by simp [Assoc.keys]) hr
    obtain ⟨k1, k2, -, -, k5⟩ := key
    exact ⟨by rw [k1]; simp [Assoc.keys], by rw [k2]; simp [Assoc.keys], k5⟩

/-- **C49 (two-view split).**  The two column sets of a random feature split are disjoint, non-empty, increasing and
together all the columns; the first has the rounded fraction of the columns, at least one. -/
theorem C49_partition (R : Rng σ) (hR : R.Lawful) (gen : String → Int → Except PyErr σ) (strip : String → String)
    (run : P → Dataset V O Y E M → Except PyErr (Dataset V O Y E M)) (ds d : Dataset V O Y E M) (pre : Option P)
    (fraction : Rat) (offset : Int) (a b : String) (plan : List (ViewSpec P)) (rows : List (List V)) (n : Nat)
    (hp : twoViewPlan strip pre fraction offset a b = .ok plan) (hd : prepared run ds ⟨a, pre, none⟩ = .ok d)
    (hx : d.train.X.arr = .mat rows n) (hwf : d.train.X.arr.WF ∧ ∀ t, d.test = some t → t.X.arr.WF)
    (h h' : Heap) (res : Acc V O Y E M) (hr : generateViews R gen strip run ds plan h = (h', .ok res)) :
    ∃ ca cb, res.columns = [(a, ca), (b, cb)] ∧ Partition n ca cb ∧
      ∃ k : Int, Sampling.Spec.IsNearestEven (fraction * n) k ∧ (ca.length : Int) = max 1 (min (n : Int) k) := by
  have hplan : plan = twoViews pre fraction offset a b := by
    unfold twoViewPlan at hp
    split at hp
    · simp at hp
    · exact (Except.ok.inj hp).symm
  subst hplan
  have hprep : ∀ v ∈ twoViews pre fraction offset a b, prepared run ds v = .ok d := by
    intro v hv
    simp only [twoViews, List.mem_cons, List.not_mem_nil, or_false] at hv
    rcases hv with rfl | rfl <;> exact hd
  have key := C49_views R hR gen strip run ds _ (fun v hv d' hd' => by
    rw [hprep v hv] at hd'
    obtain rfl := Except.ok.inj hd'
    exact hwf) h h' res hr
  obtain ⟨-, k2, k3⟩ := key
  obtain ⟨da, ca, oa, p1, p2, -, rowsA, na, xa, sa, ma, -, -, -⟩ := k3
    { name := a, preprocess := pre, columns := some { mode := "random", fraction := fraction, seedOffset := offset } }
    (by simp [twoViews])
  obtain ⟨db, cb, ob, q1, q2, -, rowsB, nb, xb, sb, mb, -, -, -⟩ := k3
    { name := b, preprocess := pre, columns := some { mode := "complement", complementOf := some a } } (by simp [twoViews])
  rw [hprep _ (by simp [twoViews])] at p1 q1
  obtain rfl := Except.ok.inj p1
  obtain rfl := Except.ok.inj q1
  rw [hx] at xa xb
  obtain ⟨-, rfl⟩ := Arr.mat.inj xa
  obtain ⟨-, rfl⟩ := Arr.mat.inj xb
  obtain ⟨-, -, mr, -⟩ := ma
  obtain ⟨-, -, -, mc⟩ := mb
  obtain ⟨o, base, e1, e2, e3⟩ := mc rfl
  obtain rfl : a = o := Option.some.inj e1
  simp only at p2
  rw [p2] at e2
  obtain rfl := Option.some.inj e2
  refine ⟨ca, cb, ?_, ⟨sa, sb, fun j hj hj' => ((e3 j).mp hj').2 hj, fun j hj => ?_⟩, mr rfl⟩
  · have hk : Assoc.keys res.columns = [a, b] := by rw [k2]; rfl
    match hc : res.columns with
    | [] => rw [hc] at hk; simp [Assoc.keys] at hk
    | [_] => rw [hc] at hk; simp [Assoc.keys] at hk
    | _ :: _ :: _ :: _ => rw [hc] at hk; simp [Assoc.keys] at hk
    | [(x, cx), (y, cy)] =>
      rw [hc] at hk p2 q2
      simp only [Assoc.keys, List.map_cons, List.map_nil, List.cons.injEq, and_true] at hk
      obtain ⟨rfl, rfl⟩ := hk
      have hab : x ≠ y := by
        intro e
        subst e
        have : (x :: [x]).Nodup := by
          unfold generateViews at hr
          cases hv : validatePlan strip (twoViews pre fraction offset x x) with
          | error e => rw [hv] at hr; simp at hr
          | ok u => exact validatePlan_nodup hv
        simp at this
      simp only [Assoc.get_cons] at p2 q2
      simp [hab, hab.symm] at p2 q2
      rw [p2, q2]
  · by_cases hja : j ∈ ca
    · exact .inl hja
    · exact .inr ((e3 j).mpr ⟨hj, hja⟩)

theorem filterMap_ne_nil_of_lt {n : Nat} {l : List Nat} (hlt : l.length < n) :
    (List.range n).filter (fun j => decide (j ∉ l)) ≠ [] := by
  intro he
  have hsub : List.range n ⊆ l := by
    intro j hj
    by_contra hjl
    have : j ∈ (List.range n).filter (fun j => decide (j ∉ l)) := List.mem_filter.mpr ⟨hj, by simpa using hjl⟩
    rw [he] at this
    simp at this
  have := (List.subperm_of_subset List.nodup_range hsub).length_le
  rw [List.length_range] at this
  omega

theorem takeColumns_total {a : Arr V} {rows : List (List V)} {n : Nat} (ha : a = .mat rows n) {cols : List Nat}
    (hc : ∀ j ∈ cols, j < n) : ∃ a', takeColumns a cols = .ok a' := by
  subst ha
  refine ⟨.mat (rows.map (fun r => cols.filterMap (fun j => r[j]?))) cols.length, ?_⟩
  unfold takeColumns
  simp only
  rw [if_pos]
  rw [List.all_eq_true]
  intro j hj
  simpa using hc j hj

theorem view_total {d : Dataset V O Y E M} {rows : List (List V)} {n : Nat} (hx : d.train.X.arr = .mat rows n)
    (ht : ∀ t, d.test = some t → ∃ rs m, t.X.arr = .mat rs m ∧ n ≤ m) {cols : List Nat} (hc : ∀ j ∈ cols, j < n) :
    (∃ s, viewSplit d.train cols = .ok s) ∧ ∃ t, viewTest d.test cols = .ok t := by
  constructor
  · obtain ⟨a', ha'⟩ := takeColumns_total hx hc
    refine ⟨{ d.train with X := d.train.X.replace a' }, ?_⟩
    unfold viewSplit
    rw [ha']
  · cases hte : d.test with
    | none => exact ⟨none, rfl⟩
    | some t =>
      obtain ⟨rs, m, hm, hnm⟩ := ht t hte
      obtain ⟨a', ha'⟩ := takeColumns_total hm (fun j hj => lt_of_lt_of_le (hc j hj) hnm)
      refine ⟨some { t with X := t.X.replace a' }, ?_⟩
      unfold viewTest viewSplit
      simp only
      rw [ha']

theorem featureCount_total {d : Dataset V O Y E M} {rows : List (List V)} {n : Nat} (hx : d.train.X.arr = .mat rows n)
    (ht : ∀ t, d.test = some t → ∃ rs m, t.X.arr = .mat rs m ∧ n ≤ m) : featureCount d = .ok n := by
  unfold featureCount
  rw [hx]
  simp only
  cases hte : d.test with
  | none => rfl
  | some t =>
    obtain ⟨rs, m, hm, -⟩ := ht t hte
    simp only [hm]

/-- **C49 (when it succeeds).**  With a valid two-view plan, a generator, and a test part that has the columns of the
train part, the split is generated exactly when the rounded fraction of the columns leaves one for the second view. -/
theorem C49_returns (R : Rng σ) (hR : R.Lawful) (gen : String → Int → Except PyErr σ) (strip : String → String)
    (run : P → Dataset V O Y E M → Except PyErr (Dataset V O Y E M)) (ds d : Dataset V O Y E M) (pre : Option P)
    (fraction : Rat) (offset : Int) (a b : String) (plan : List (ViewSpec P)) (rows : List (List V)) (n : Nat)
    (hp : twoViewPlan strip pre fraction offset a b = .ok plan) (hd : prepared run ds ⟨a, pre, none⟩ = .ok d)
    (hx : d.train.X.arr = .mat rows n) (ht : ∀ t, d.test = some t → ∃ rs m, t.X.arr = .mat rs m ∧ n ≤ m)
    (s : σ) (hg : gen a offset = .ok s) (h : Heap) :
    (∃ h' res, generateViews R gen strip run ds plan h = (h', .ok res)) ↔ 2 ≤ n ∧ pyRound (fraction * n) < n := by
  obtain ⟨hplan, u, hval⟩ : plan = twoViews pre fraction offset a b ∧
      ∃ u, validatePlan strip (twoViews pre fraction offset a b) = .ok u := by
    unfold twoViewPlan at hp
    cases hv : validatePlan strip (twoViews pre fraction offset a b) with
    | error e => rw [hv] at hp; simp at hp
    | ok u => rw [hv] at hp; exact ⟨(Except.ok.inj hp).symm, u, rfl⟩
  subst hplan
  have hfr : 0 < fraction ∧ fraction ≤ 1 := by
    by_contra hne
    unfold validatePlan twoViews at hval
    split at hval
    · simp at hval
    split at hval
    · simp at hval
    simp [validateAll, ViewSpec.validate, ColumnSpec.validate, hne] at hval
  have hva : ColumnSpec.validate { mode := "random", fraction := fraction, seedOffset := offset } = .ok () := by
    simp [ColumnSpec.validate, hfr]
  have hab : a ≠ b := by
    have := validatePlan_nodup hval
    simp [twoViews] at this
    exact this
  have hvb : ColumnSpec.validate { mode := "complement", complementOf := some a } = .ok () := by
    unfold validatePlan twoViews at hval
    split at hval
    · simp at hval
    split at hval
    · simp at hval
    simp only [validateAll, ViewSpec.validate, hva] at hval
    split at hval
    · simp at hval
    · rename_i h1
      split at h1
      · simp at h1
      · split at h1
        · simp at h1
        · rename_i h2
          split at h2
          · simp at h2
          · exact h2
  unfold generateViews
  rw [hval]
  simp only [twoViews]
  have hfc := featureCount_total hx ht
  by_cases hn : n = 0
  · constructor
    · rintro ⟨h', res, hr⟩
      unfold viewLoop buildView at hr
      rw [show prepared run ds { name := a, preprocess := pre, columns := some { mode := "random", fraction := fraction, seedOffset := offset } } = .ok d from hd] at hr
      simp [bind, Except.bind, hfc, resolveColumns, hn] at hr
    · rintro ⟨h2, -⟩
      omega
  -- first view
  obtain ⟨b1, b2⟩ := randomSize_bounds fraction hn
  have hk : randomSize fraction n ≤ (List.range n).length := by simpa using b2
  let ca := npSort (R.choice s (List.range n) (randomSize fraction n)).1
  have hca : resolveColumns R gen (some { mode := "random", fraction := fraction, seedOffset := offset }) n a [] []
      = .ok ca := by
    unfold resolveColumns
    rw [if_neg hn]
    simp [hva, hg, ca]
  obtain ⟨ca1, -⟩ := resolve_ok hR hca
  have hlen : ca.length = randomSize fraction n := by
    simp only [ca]
    rw [length_npSort, hR.choice_length s _ _ hk]
  obtain ⟨⟨tr, htr⟩, te, hte⟩ := view_total hx ht ca1.2.2
  have hbuild : buildView R gen run ds { name := a, preprocess := pre, columns := some { mode := "random", fraction := fraction, seedOffset := offset } } {}
      = .ok ({ d with train := tr, test := te }, ca, n) := by
    unfold buildView
    rw [show prepared run ds { name := a, preprocess := pre, columns := some { mode := "random", fraction := fraction, seedOffset := offset } } = .ok d from hd]
    simp only [bind, Except.bind, hfc, hca, htr, hte]
  have hres2 : ∀ (resolved : List (String × List Nat)) (nf : List (String × Nat)), Assoc.get resolved a = some ca →
      Assoc.get nf a = some n →
      resolveColumns R gen (some { mode := "complement", complementOf := some a }) n b resolved nf
        = if (List.range n).filter (fun j => decide (j ∉ ca)) = [] then .error .validation
          else .ok ((List.range n).filter (fun j => decide (j ∉ ca))) := by
    intro resolved nf h1 h2
    unfold resolveColumns
    rw [if_neg hn]
    simp only [hvb]
    simp [h1, h2]
  have hprepb : prepared run ds { name := b, preprocess := pre, columns := some { mode := "complement", complementOf := some a } } = .ok d := hd
  unfold viewLoop
  rw [hbuild]
  simp only
  unfold viewLoop
  have hsize : (randomSize fraction n < n) ↔ (2 ≤ n ∧ pyRound (fraction * n) < n) := by
    unfold randomSize
    omega
  rw [← hsize]
  constructor
  · rintro ⟨h', res, hr⟩
    by_contra hlt
    have hfull : (List.range n).filter (fun j => decide (j ∉ ca)) = [] := by
      rw [List.filter_eq_nil_iff]
      intro j hj
      have hnd : ca.Nodup := nodup_of_pairwise_lt ca1.2.1
      have hsub : ca ⊆ List.range n := fun j hj => List.mem_range.mpr (ca1.2.2 j hj)
      have hperm : ca.Perm (List.range n) := by
        refine (List.subperm_of_subset hnd hsub).perm_of_length_le ?_
        rw [List.length_range, hlen]
        omega
      simpa using hperm.mem_iff.mpr hj
    have hbad : ∀ acc : Acc V O Y E M, Assoc.get acc.columns a = some ca → Assoc.get acc.nf a = some n →
        buildView R gen run ds { name := b, preprocess := pre, columns := some { mode := "complement", complementOf := some a } } acc
          = .error .validation := by
      intro acc g1 g2
      unfold buildView
      rw [hprepb]
      simp only [bind, Except.bind, hfc]
      rw [hres2 _ _ g1 g2, if_pos hfull]
    rw [hbad _ (by simp [Assoc.get_set]) (by simp [Assoc.get_set])] at hr
    simp at hr
  · intro hlt
    have hne := filterMap_ne_nil_of_lt (by rw [hlen]; exact hlt)
    obtain ⟨⟨tr2, htr2⟩, te2, hte2⟩ := view_total (cols := (List.range n).filter (fun j => decide (j ∉ ca))) hx ht
      (fun j hj => List.mem_range.mp (List.mem_filter.mp hj).1)
    have hgood : ∀ acc : Acc V O Y E M, Assoc.get acc.columns a = some ca → Assoc.get acc.nf a = some n →
        buildView R gen run ds { name := b, preprocess := pre, columns := some { mode := "complement", complementOf := some a } } acc
          = .ok ({ d with train := tr2, test := te2 }, (List.range n).filter (fun j => decide (j ∉ ca)), n) := by
      intro acc g1 g2
      unfold buildView
      rw [hprepb]
      simp only [bind, Except.bind, hfc]
      rw [hres2 _ _ g1 g2, if_neg hne]
      simp only [htr2, hte2]
    rw [hgood _ (by simp [Assoc.get_set]) (by simp [Assoc.get_set])]
    simp only [viewLoop]
    exact ⟨_, _, rfl⟩

/-! ### Metadata -/

theorem viewLoop_heap (R : Rng σ) (gen : String → Int → Except PyErr σ)
    (run : P → Dataset V O Y E M → Except PyErr (Dataset V O Y E M)) (ds : Dataset V O Y E M) (vs : List (ViewSpec P)) :
    ∀ (acc : Acc V O Y E M) (h : Heap), (∀ v ∈ vs, ∀ d, prepared run ds v = .ok d → d.metaViews = none) →
    (∃ l, (viewLoop R gen run ds vs acc h).1 = h ++ l) ∧
    ((vs.map (·.name)).Nodup → ∀ acc', (viewLoop R gen run ds vs acc h).2 = .ok acc' →
      (∀ k d, k ∉ vs.map (·.name) → Assoc.get acc.views k = some d → Assoc.get acc'.views k = some d) ∧
      (∀ k c, k ∉ vs.map (·.name) → Assoc.get acc.columns k = some c → Assoc.get acc'.columns k = some c) ∧
      ∀ v ∈ vs, ∃ out cols, ∃ i : Nat, Assoc.get acc'.views v.name = some out ∧ Assoc.get acc'.columns v.name = some cols ∧
        out.metaViews = some i ∧
        (viewLoop R gen run ds vs acc h).1[i]? = some [(v.name, ⟨cols, modeName v.columns⟩)]) := by
  induction vs with
  | nil =>
    intro acc h _
    refine ⟨⟨[], by simp [viewLoop]⟩, fun _ acc' ha => ?_⟩
    obtain rfl := Except.ok.inj ha
    exact ⟨fun _ _ _ x => x, fun _ _ _ x => x, by simp⟩
  | cons v vs ih =>
    intro acc h hnone
    unfold viewLoop
    cases hb : buildView R gen run ds v acc with
    | error e =>
      refine ⟨⟨[], by simp⟩, fun _ acc' ha => ?_⟩
      simp at ha
    | ok x =>
      obtain ⟨out, cols, n⟩ := x
      have hm : out.metaViews = none := by
        unfold buildView at hb
        obtain ⟨d, hd, hb⟩ := ebind_ok.mp hb
        obtain ⟨n', hn, hb⟩ := ebind_ok.mp hb
        obtain ⟨cols', hcols, hb⟩ := ebind_ok.mp hb
        obtain ⟨train, htr, hb⟩ := ebind_ok.mp hb
        obtain ⟨test, hte, hb⟩ := ebind_ok.mp hb
        obtain ⟨rfl, h6⟩ := Prod.mk.inj (Except.ok.inj hb)
        exact hnone v (by simp) d hd
      simp only
      have hrec : recordMeta out.metaViews v.name ⟨cols, modeName v.columns⟩ h
          = (h ++ [[(v.name, ⟨cols, modeName v.columns⟩)]], h.length) := by
        rw [hm]; rfl
      rw [hrec]
      simp only
      have key := ih { views := Assoc.set acc.views v.name { out with metaViews := some h.length }
                       columns := Assoc.set acc.columns v.name cols
                       nf := Assoc.set acc.nf v.name n } (h ++ [[(v.name, ⟨cols, modeName v.columns⟩)]])
        (fun w hw => hnone w (by simp [hw]))
      obtain ⟨⟨l, hl⟩, k⟩ := key
      refine ⟨⟨[(v.name, ⟨cols, modeName v.columns⟩)] :: l, by rw [hl]; simp⟩, fun hnd acc' ha => ?_⟩
      rw [List.map_cons, List.nodup_cons] at hnd
      obtain ⟨k1, k2, k3⟩ := k hnd.2 acc' ha
      refine ⟨fun kk dd hkk hdd => ?_, fun kk cc hkk hcc => ?_, fun w hw => ?_⟩
      · rw [List.map_cons, List.mem_cons, not_or] at hkk
        refine k1 kk dd hkk.2 ?_
        rw [Assoc.get_set, if_neg hkk.1, hdd]
      · rw [List.map_cons, List.mem_cons, not_or] at hkk
        refine k2 kk cc hkk.2 ?_
        rw [Assoc.get_set, if_neg hkk.1, hcc]
      · rcases List.mem_cons.mp hw with rfl | hw
        · refine ⟨{ out with metaViews := some h.length }, cols, h.length, k1 _ _ hnd.1 (Assoc.get_set_self ..),
            k2 _ _ hnd.1 (Assoc.get_set_self ..), rfl, ?_⟩
          rw [hl]
          simp
        · exact k3 w hw

/-- **C91, partial.**  For a dataset without view metadata: generating views, successful or not, changes no existing
metadata, and the metadata of each view lists that view only, with its columns.  Missing: datasets that already have
view metadata, see `C91_shared_violated`. -/
theorem C91_meta_partial (R : Rng σ) (gen : String → Int → Except PyErr σ) (strip : String → String)
    (run : P → Dataset V O Y E M → Except PyErr (Dataset V O Y E M)) (ds : Dataset V O Y E M) (plan : List (ViewSpec P))
    (hnone : ∀ v ∈ plan, ∀ d, prepared run ds v = .ok d → d.metaViews = none) (h : Heap) :
    (∀ (i : Nat) d, h[i]? = some d → (generateViews R gen strip run ds plan h).1[i]? = some d) ∧
    ∀ res, (generateViews R gen strip run ds plan h).2 = .ok res →
      ∀ v ∈ plan, ∃ out cols, ∃ i : Nat, Assoc.get res.views v.name = some out ∧ Assoc.get res.columns v.name = some cols ∧
        out.metaViews = some i ∧
        (generateViews R gen strip run ds plan h).1[i]? = some [(v.name, ⟨cols, modeName v.columns⟩)] := by
  unfold generateViews
  cases hv : validatePlan strip plan with
  | error e => exact ⟨fun i d hd => hd, fun res hr => by simp at hr⟩
  | ok u =>
    simp only
    obtain ⟨⟨l, hl⟩, k⟩ := viewLoop_heap R gen run ds plan {} h hnone
    refine ⟨fun i d hd => ?_, fun res hr => (k (validatePlan_nodup hv) res hr).2.2⟩
    rw [hl, List.getElem?_append_left (List.getElem?_eq_some_iff.mp hd).1, hd]

/-- A dataset of two rows and three columns. -/
def demo (ref : Option Nat) : Dataset Int Unit (List Int) Unit Unit :=
  ⟨⟨.plain (.mat [[1, 2, 3], [4, 5, 6]] 3), [0, 1], (), ()⟩, some ⟨.dict (.mat [[7, 8, 9]] 3) (), [1], (), ()⟩, ref⟩

/-- **C91 is violated.**  Generating views of a dataset that has view metadata changes the metadata of that dataset,
and both views get the entries of each other. -/
theorem C91_shared_violated :
    let r := generateViews (P := Unit) Rng.demo (fun _ _ => .ok 0) id (fun _ d => .ok d) (demo (some 0))
      (twoViews none (1 / 2) 0 "a" "b") [[("old", ⟨[0], "all"⟩)]]
    r.1[0]? = some [("old", ⟨[0], "all"⟩), ("a", ⟨[0, 1], "random"⟩), ("b", ⟨[2], "complement"⟩)] ∧
    r.2.map (fun res => res.views.map (fun v => (v.1, v.2.metaViews))) = .ok [("a", some 0), ("b", some 0)] := by
  decide +kernel

/-- Non-vacuity: a two-view split of a dataset with three columns, the test features in a mapping. -/
example : (twoViewPlan (P := Unit) id none (1 / 2) 0 "a" "b").isOk = true := by
  decide +kernel

/-- Its result. -/
example : ((generateViews (P := Unit) Rng.demo (fun _ _ => .ok 0) id (fun _ d => .ok d) (demo none)
      (twoViews none (1 / 2) 0 "a" "b") []).2.map (fun r => r.views))
    = .ok
        [("a", ⟨⟨.plain (.mat [[1, 2], [4, 5]] 2), [0, 1], (), ()⟩, some ⟨.dict (.mat [[7, 8]] 2) (), [1], (), ()⟩, some 0⟩),
         ("b", ⟨⟨.plain (.mat [[3], [6]] 1), [0, 1], (), ()⟩, some ⟨.dict (.mat [[9]] 1) (), [1], (), ()⟩, some 1⟩)] := by
  decide +kernel

/-- A fraction that rounds to all columns leaves the second view empty, and the call raises. -/
example : ((generateViews (P := Unit) Rng.demo (fun _ _ => .ok 0) id (fun _ d => .ok d) (demo none)
      (twoViews none (9 / 10) 0 "a" "b") []).2.map (fun r => r.columns)) = .error .validation := by
  decide +kernel

end ModSSC.Views
