import Verif.DataLoader.ProviderModel
import Verif.DataLoader.UriProps
import Verif.ExceptLemmas
import Mathlib.Tactic.Linarith

/-!
# C168: a provider delivers the source's own samples, labels and splits
-/

namespace ModSSC.DataLoader.Provider
open ModSSC ModSSC.DataLoader

/-! ## Specification -/

/-- The (sample, label) pairs of a split. -/
def Part.rows {α : Type} (p : Part α) : List (α × Int) := p.X.zip p.y

/-- As many samples as labels. -/
def Part.Whole {α : Type} (p : Part α) : Prop := p.X.length = p.y.length

/-- The label is among the requested classes. -/
def Allowed (cf : Option (List Int)) (l : Int) : Prop :=
  match cf with
  | none => True
  | some cs => l ∈ cs

instance (cf : Option (List Int)) (l : Int) : Decidable (Allowed cf l) := by
  unfold Allowed; cases cf <;> infer_instance

/-- How many of `n` rows a limit keeps. -/
def kept (n : Nat) : Option Int → Nat
  | none => n
  | some m => min n m.toNat

/-- `out` is what the options ask for of the rows `src`: of the rows with an allowed label, as many as
the limit keeps, each source row at most once, samples with their own labels; without a seed the first
ones, in order. -/
def Drawn {α : Type} (src : List (α × Int)) (cf : Option (List Int)) (m : Option Int) (seeded : Bool)
    (out : List (α × Int)) : Prop :=
  let ok := src.filter (fun r => decide (Allowed cf r.2))
  ∃ idx : List Nat, idx.Nodup ∧ idx.length = kept ok.length m ∧
    out.map some = idx.map (fun i => ok[i]?) ∧
    (seeded = false ∨ m = none → idx = List.range (kept ok.length m))

/-- Consequence of the specification: every delivered row is a source row with an allowed label. -/
theorem Drawn.mem {α : Type} {src out : List (α × Int)} {cf m s} (h : Drawn src cf m s out) :
    ∀ r ∈ out, r ∈ src ∧ Allowed cf r.2 := by
  obtain ⟨idx, _, _, hm, _⟩ := h
  intro r hr
  have : some r ∈ out.map some := List.mem_map_of_mem hr
  rw [hm, List.mem_map] at this
  obtain ⟨i, _, hi⟩ := this
  have := List.mem_of_getElem? hi
  simpa using this

/-- Consequence of the specification: the limit is respected. -/
theorem Drawn.length_le {α : Type} {src out : List (α × Int)} {cf s} {m : Int}
    (h : Drawn src cf (some m) s out) : out.length ≤ m.toNat ∧ out.length ≤ src.length := by
  obtain ⟨idx, _, hl, hm, _⟩ := h
  have := congrArg List.length hm
  simp only [List.length_map] at this
  have hk : kept (src.filter (fun r => decide (Allowed cf r.2))).length (some m) =
    min (src.filter (fun r => decide (Allowed cf r.2))).length m.toNat := rfl
  have := List.length_filter_le (fun r : α × Int => decide (Allowed cf r.2)) src
  omega

/-- Consequence of the specification: without filter, limit and seed every row is delivered, in order. -/
theorem Drawn.all {α : Type} {src out : List (α × Int)} {s} (h : Drawn src none none s out) :
    out = src := by
  obtain ⟨idx, _, _, hm, hr⟩ := h
  have hf : src.filter (fun r => decide (Allowed none r.2)) = src := by
    rw [List.filter_eq_self]; intro a _; exact decide_eq_true trivial
  rw [hf] at hm hr
  rw [hr (Or.inr rfl)] at hm
  apply List.map_injective_iff.mpr (Option.some_injective _)
  rw [hm]
  apply List.ext_getElem?
  intro i
  simp only [kept, List.getElem?_map]
  by_cases hi : i < src.length
  · simp [hi]
  · simp [hi]

/-! ## Limiting -/

theorem shuffledIdx {α : Type} (X : List α) (y : List Int) (idx : List Nat) (X' : List α) (y' : List Int)
    (hX : X'.map some = idx.map (fun i => X[i]?)) (hy : y'.map some = idx.map (fun i => y[i]?)) :
    (X'.zip y').map some = idx.map (fun i => (X.zip y)[i]?) ∧ X'.length = y'.length := by
  induction idx generalizing X' y' with
  | nil =>
    simp only [List.map_nil, List.map_eq_nil_iff] at hX hy
    subst hX; subst hy
    exact ⟨rfl, rfl⟩
  | cons i idx ih =>
    cases X' with
    | nil => simp at hX
    | cons a X' =>
      cases y' with
      | nil => simp at hy
      | cons b y' =>
        simp only [List.map_cons, List.cons.injEq] at hX hy
        obtain ⟨h1, h2⟩ := ih X' y' hX.2 hy.2
        refine ⟨?_, by simp [h2]⟩
        simp only [List.zip_cons_cons, List.map_cons, h1]
        congr 1
        rw [List.zip_eq_zipWith, List.getElem?_zipWith, ← hX.1, ← hy.1]

/-- **C168 (limits).** On a split with as many labels as samples, filter and limit always succeed and
deliver exactly what the options ask for. -/
theorem C168_limits {α : Type} (shuffle : Int → List Nat → List Nat) (hs : ∀ s l, (shuffle s l).Perm l)
    (p : Part α) (hp : p.Whole) (cf : Option (List Int)) (m seed : Option Int) :
    ∃ q, limitPart shuffle p cf m seed = .ok q ∧ q.Whole ∧ Drawn p.rows cf m seed.isSome q.rows := by
  -- the filter
  have hfilter : ∃ X' y', applyClassFilter p.X p.y cf = .ok (X', y') ∧ X'.length = y'.length ∧
      X'.zip y' = p.rows.filter (fun r => decide (Allowed cf r.2)) := by
    cases cf with
    | none =>
      refine ⟨p.X, p.y, rfl, hp, ?_⟩
      symm
      show p.rows.filter _ = p.rows
      rw [List.filter_eq_self]
      intro a _
      exact decide_eq_true trivial
    | some cs =>
      obtain ⟨X', y', h1, h2, h3⟩ := (C31_class_filter p.X p.y cs).2.2 hp
      exact ⟨X', y', h1, h2, h3⟩
  obtain ⟨X', y', hf, hl, hz⟩ := hfilter
  have hlen : (p.rows.filter (fun r => decide (Allowed cf r.2))).length = y'.length := by
    rw [← hz, List.length_zip]; omega
  have hrw : limitPart shuffle p cf m seed =
      (limitSamples shuffle X' y' m seed).map (fun r => { X := r.1, y := r.2 }) := by
    unfold limitPart applyLimits
    rw [hf]
    rfl
  rw [hrw]
  cases m with
  | none =>
    refine ⟨{ X := X', y := y' }, rfl, hl, List.range y'.length, List.nodup_range, ?_, ?_, ?_⟩
    · simp [kept, hlen]
    · show (X'.zip y').map some = _
      rw [← hz]
      apply List.ext_getElem?
      intro i
      simp only [List.getElem?_map]
      by_cases hi : i < y'.length
      · have : i < (X'.zip y').length := by rw [List.length_zip]; omega
        simp [hi, List.getElem?_eq_getElem this]
      · have : ¬ i < (X'.zip y').length := by rw [List.length_zip]; omega
        rw [List.getElem?_eq_none (by omega), List.getElem?_eq_none (by simpa using hi)]
        rfl
    · intro _
      simp [kept, hlen]
  | some m =>
    cases seed with
    | none =>
      refine ⟨{ X := X'.take m.toNat, y := y'.take m.toNat }, ?_, ?_, List.range (min y'.length m.toNat),
        List.nodup_range, ?_, ?_, ?_⟩
      · rw [(C31_limit_prefix shuffle X' y' m hl).2]; rfl
      · simp [Part.Whole, hl]
      · simp [kept, hlen]
      · show ((X'.take m.toNat).zip (y'.take m.toNat)).map some = _
        rw [← hz]
        have : (X'.take m.toNat).zip (y'.take m.toNat) = (X'.zip y').take m.toNat := by
          simp [List.zip_eq_zipWith, List.take_zipWith]
        rw [this]
        apply List.ext_getElem?
        intro i
        simp only [List.getElem?_map, List.getElem?_take]
        have hzl : (X'.zip y').length = y'.length := by rw [List.length_zip]; omega
        by_cases hi : i < min y'.length m.toNat
        · have h1 : i < (X'.zip y').length := by omega
          have h2 : i < m.toNat := by omega
          simp [h2, List.getElem?_eq_getElem h1, List.getElem?_range hi]
        · rw [List.getElem?_eq_none (l := List.range _) (by rw [List.length_range]; omega)]
          by_cases h2 : i < m.toNat
          · rw [if_pos h2, List.getElem?_eq_none (by omega)]
            rfl
          · rw [if_neg h2]; rfl
      · intro _
        simp [kept, hlen]
    | some s =>
      obtain ⟨idx, X'', y'', h1, h2, h3, h4, h5, h6⟩ := C31_limit_shuffled shuffle hs X' y' m s hl
      obtain ⟨g1, g2⟩ := shuffledIdx X' y' idx X'' y'' h5 h6
      refine ⟨{ X := X'', y := y'' }, ?_, g2, idx, h2, ?_, ?_, ?_⟩
      · rw [h1]; rfl
      · simp [kept, hlen, h3]
      · rw [← hz]; exact g1
      · rintro (h | h)
        · exact absurd h (by simp)
        · exact absurd h (by simp)

/-- Both splits limited. -/
theorem limitBoth_ok {α : Type} (shuffle : Int → List Nat → List Nat) (hs : ∀ s l, (shuffle s l).Perm l)
    (l : Limits) (tr : Part α) (te : Option (Part α)) (htr : tr.Whole) (hte : ∀ t ∈ te, t.Whole) :
    ∃ out, limitBoth shuffle l tr te = .ok out ∧
      out.train.Whole ∧ Drawn tr.rows l.classFilter l.maxTrain l.seed.isSome out.train.rows ∧
      (te = none → out.test = none) ∧
      (∀ t, te = some t → ∃ t', out.test = some t' ∧ t'.Whole ∧
        Drawn t.rows l.classFilter l.maxTest l.seed.isSome t'.rows) := by
  obtain ⟨q, hq, hw, hd⟩ := C168_limits shuffle hs tr htr l.classFilter l.maxTrain l.seed
  cases te with
  | none =>
    refine ⟨{ train := q, test := none }, ?_, hw, hd, fun _ => rfl, fun t ht => by simp at ht⟩
    unfold limitBoth
    rw [ebind_of_ok hq]
    rfl
  | some t =>
    obtain ⟨q', hq', hw', hd'⟩ := C168_limits shuffle hs t (hte t rfl) l.classFilter l.maxTest
      (l.seed.map (· + 1))
    refine ⟨{ train := q, test := some q' }, ?_, hw, hd, fun h => by simp at h, ?_⟩
    · unfold limitBoth
      rw [ebind_of_ok hq]
      simp only
      rw [ebind_of_ok hq']
      rfl
    · intro t' ht
      simp only [Option.some.injEq] at ht
      subst ht
      refine ⟨q', rfl, hw', ?_⟩
      simpa using hd'

/-! ## C168 Hugging Face -/

/-- The columns asked for, as a split. -/
def HasCols {α : Type} (s : HfSplit α) (tc lc : String) (p : Part α) : Prop :=
  Assoc.get s.text tc = some p.X ∧ Assoc.get s.label lc = some p.y

/-- The split that serves as the test split: the preferred one if the dataset has it, else the other
one. -/
def TestName {α : Type} (ds : List (String × HfSplit α)) (preferTest : Bool) : Option String :=
  let a := if preferTest then "test" else "validation"
  let b := if preferTest then "validation" else "test"
  if (Assoc.get ds a).isSome then some a else if (Assoc.get ds b).isSome then some b else none

theorem hfExtract_ok {α : Type} {s : HfSplit α} {tc lc : String} {p : Part α} :
    hfExtract s tc lc = .ok p ↔ HasCols s tc lc p := by
  unfold hfExtract HasCols
  cases Assoc.get s.text tc with
  | none => simp
  | some X =>
    cases Assoc.get s.label lc with
    | none => simp
    | some y =>
      simp only [Except.ok.injEq, Option.some.injEq]
      constructor
      · rintro rfl; exact ⟨rfl, rfl⟩
      · rintro ⟨h1, h2⟩
        cases p
        simp_all

theorem hfPick_spec {α : Type} (ds : List (String × HfSplit α)) (pt : Bool) :
    hfPick ds pt = (TestName ds pt).bind (fun n => Assoc.get ds n) := by
  unfold hfPick TestName
  simp only
  cases h : Assoc.get ds (if pt then "test" else "validation") with
  | some s => simp [h]
  | none =>
    simp only [Option.isSome_none, Bool.false_eq_true, if_false]
    cases h' : Assoc.get ds (if pt then "validation" else "test") with
    | some s => simp [h']
    | none => simp

/-- **C168 (Hugging Face).** When the dataset has a `train` split with the requested columns, and its
test split (the preferred of `test` and `validation`, else the other) has them too, loading succeeds:
the training rows are drawn from `train`, the test rows from the test split, and there is no test
split exactly when the dataset has neither. -/
theorem C168_hf {α : Type} (shuffle : Int → List Nat → List Nat) (hs : ∀ s l, (shuffle s l).Perm l)
    (ds : List (String × HfSplit α)) (tc lc : String) (pt : Bool) (l : Limits)
    (s : HfSplit α) (tr : Part α) (h : Assoc.get ds "train" = some s) (hc : HasCols s tc lc tr)
    (hw : tr.Whole)
    (ht : ∀ n t, TestName ds pt = some n → Assoc.get ds n = some t → ∃ p, HasCols t tc lc p ∧ p.Whole) :
    ∃ out, hfLoad shuffle ds tc lc pt l = .ok out ∧
      Drawn tr.rows l.classFilter l.maxTrain l.seed.isSome out.train.rows ∧
      (TestName ds pt = none → out.test = none) ∧
      (∀ n t p, TestName ds pt = some n → Assoc.get ds n = some t → HasCols t tc lc p →
        ∃ t', out.test = some t' ∧ t'.Whole ∧
          Drawn p.rows l.classFilter l.maxTest l.seed.isSome t'.rows) := by
  have htrain : hfTrain ds tc lc = .ok tr := by
    unfold hfTrain
    rw [h]
    exact hfExtract_ok.mpr hc
  cases hn : TestName ds pt with
  | none =>
    obtain ⟨out, ho, _, hd, hno, _⟩ := limitBoth_ok shuffle hs l tr none hw (by simp)
    refine ⟨out, ?_, hd, fun _ => hno rfl, fun n t p h => by simp at h⟩
    unfold hfLoad
    rw [ebind_of_ok htrain]
    have : hfTest ds tc lc pt = .ok none := by
      unfold hfTest
      rw [hfPick_spec, hn]
      rfl
    rw [ebind_of_ok this]
    exact ho
  | some n =>
    have hex : ∃ t, Assoc.get ds n = some t := by
      unfold TestName at hn
      dsimp only at hn
      by_cases h1 : (Assoc.get ds (if pt then "test" else "validation")).isSome = true
      · rw [if_pos h1, Option.some.injEq] at hn
        exact hn ▸ Option.isSome_iff_exists.mp h1
      · rw [if_neg h1] at hn
        by_cases h2 : (Assoc.get ds (if pt then "validation" else "test")).isSome = true
        · rw [if_pos h2, Option.some.injEq] at hn
          exact hn ▸ Option.isSome_iff_exists.mp h2
        · rw [if_neg h2] at hn
          exact absurd hn (by simp)
    obtain ⟨t, hget⟩ := hex
    obtain ⟨p, hp, hpw⟩ := ht n t hn hget
    obtain ⟨out, ho, _, hd, _, hso⟩ := limitBoth_ok shuffle hs l tr (some p) hw (by simpa using hpw)
    refine ⟨out, ?_, hd, fun h => by simp at h, ?_⟩
    · unfold hfLoad
      rw [ebind_of_ok htrain]
      have : hfTest ds tc lc pt = .ok (some p) := by
        unfold hfTest
        rw [hfPick_spec, hn]
        simp only [Option.bind_some, hget, hfExtract_ok.mpr hp]
        rfl
      rw [ebind_of_ok this]
      exact ho
    · intro n' t' p' hn' ht' hp'
      simp only [Option.some.injEq] at hn'
      subst hn'
      rw [hget] at ht'
      simp only [Option.some.injEq] at ht'
      subst ht'
      have : p' = p := by
        have h1 := hp.1.symm.trans hp'.1
        have h2 := hp.2.symm.trans hp'.2
        cases p; cases p'
        simp_all
      subst this
      exact hso p' rfl

/-- **C168 (Hugging Face, missing pieces).** Without a `train` split, or without the requested columns
in it, loading fails with `KeyError` — nothing else is delivered instead. -/
theorem C168_hf_missing {α : Type} (shuffle : Int → List Nat → List Nat)
    (ds : List (String × HfSplit α)) (tc lc : String) (pt : Bool) (l : Limits)
    (h : ∀ s, Assoc.get ds "train" = some s → ∀ p, ¬ HasCols s tc lc p) :
    hfLoad shuffle ds tc lc pt l = .error .keyError := by
  unfold hfLoad hfTrain
  cases hg : Assoc.get ds "train" with
  | none => rfl
  | some s =>
    have hne := h s hg
    have : hfExtract s tc lc = .error .keyError := by
      cases he : hfExtract s tc lc with
      | ok p => exact absurd (hfExtract_ok.mp he) (hne p)
      | error e =>
        unfold hfExtract at he
        split at he
        · simp at he
        · simpa using he.symm
    simp only [this]
    rfl

/-! ## C168 TFDS -/

theorem unpack_pairs {α : Type} (rows : List (α × Int)) :
    tfdsMaterialize (rows.map (fun r => Item.pair r.1 r.2)) =
      .ok (rows.map (fun r => (Cell.value r.1, Cell.label r.2))) := by
  unfold tfdsMaterialize
  induction rows with
  | nil => rfl
  | cons r rows ih =>
    rw [List.map_cons, List.mapM_cons, ih]
    rfl

/-- **C168 (TFDS, supervised).** With (sample, label) pairs, loading delivers every row of the `train`
split, in order; the test rows are those of the `test` split, and no test split is delivered when
loading it fails, for whatever reason. -/
theorem C168_tfds {α : Type} (load : String → Except PyErr (List (Item α))) (l : Limits)
    (tr : List (α × Int)) (h : load "train" = .ok (tr.map (fun r => Item.pair r.1 r.2))) :
    (∀ te : List (α × Int), load "test" = .ok (te.map (fun r => Item.pair r.1 r.2)) →
      tfdsLoad load l = .ok (tr.map (fun r => (Cell.value r.1, Cell.label r.2)),
        some (te.map (fun r => (Cell.value r.1, Cell.label r.2))))) ∧
    (∀ e, load "test" = .error e →
      tfdsLoad load l = .ok (tr.map (fun r => (Cell.value r.1, Cell.label r.2)), none)) := by
  constructor
  · intro te ht
    unfold tfdsLoad
    rw [ebind_of_ok h, ht]
    unfold tfdsBuild
    rw [ebind_of_ok (unpack_pairs tr)]
    simp only [Except.toOption]
    rw [ebind_of_ok (unpack_pairs te)]
    rfl
  · intro e ht
    unfold tfdsLoad
    rw [ebind_of_ok h, ht]
    unfold tfdsBuild
    rw [ebind_of_ok (unpack_pairs tr)]
    rfl

/-- **C168 (violated: TFDS ignores filter and limits).** For every TFDS dataset of pairs the delivered
training rows are all rows of the `train` split whatever filter and limits are requested; so as soon as
the split has more rows than the limit, or a row outside the filter, the delivery is not what was asked
for. -/
theorem C168_tfds_limits_violated {α : Type} (load : String → Except PyErr (List (Item α)))
    (tr : List (α × Int)) (h : load "train" = .ok (tr.map (fun r => Item.pair r.1 r.2)))
    (ht : load "test" = .error .valueError) (l : Limits) :
    ∃ rows te, tfdsLoad load l = .ok (rows, te) ∧ rows.length = tr.length ∧
      (∀ m out, l.maxTrain = some m → m.toNat < tr.length →
        Drawn tr l.classFilter l.maxTrain l.seed.isSome out → out.length ≠ rows.length) ∧
      (∀ r cs, r ∈ tr → l.classFilter = some cs → r.2 ∉ cs → (Cell.value r.1, Cell.label r.2) ∈ rows) := by
  refine ⟨_, _, (C168_tfds load l tr h).2 _ ht, by simp, ?_, ?_⟩
  · intro m out hm hlt hd
    rw [hm] at hd
    have := hd.length_le
    simp only [List.length_map]
    omega
  · intro r cs hr _ _
    exact List.mem_map_of_mem (f := fun r : α × Int => (Cell.value r.1, Cell.label r.2)) hr

/-- **C168 (violated: TFDS feature dictionaries).** With `as_supervised=False` and a dataset of two
features, loading succeeds but delivers the *names* of the features instead of the samples: every
delivered row is the same pair of names, whatever the data; with any other number of features it fails. -/
theorem C168_tfds_dictionaries_violated {α : Type} (a b : String) (vals : List (α × α)) :
    tfdsMaterialize (vals.map (fun v => Item.dict [(a, v.1), (b, v.2)])) =
      .ok (List.replicate vals.length (Cell.key a, Cell.key b)) := by
  unfold tfdsMaterialize
  induction vals with
  | nil => rfl
  | cons v vals ih =>
    rw [List.map_cons, List.mapM_cons, ih]
    rfl

theorem C168_tfds_dictionaries_fail {α : Type} (e : List (String × α)) (h : e.length ≠ 2)
    (rest : List (Item α)) : tfdsMaterialize (Item.dict e :: rest) = .error .valueError := by
  unfold tfdsMaterialize
  rw [List.mapM_cons]
  have : unpack (Item.dict e) = .error .valueError := by
    match e, h with
    | [], _ => rfl
    | [_], _ => rfl
    | [_, _], h => simp at h
    | _ :: _ :: _ :: _, _ => rfl
  rw [this]
  rfl

/-! ## C168 OpenML -/

/-- **C168 (OpenML).** All rows are training rows (filtered, limited by `max_samples`); there is no test
split.  `max_train_samples` and `max_test_samples` have no effect. -/
theorem C168_openml {α : Type} (shuffle : Int → List Nat → List Nat) (hs : ∀ s l, (shuffle s l).Perm l)
    (src : Part α) (hw : src.Whole) (l : Limits) (ms : Option Int) :
    (∃ out, omlLoad shuffle src l ms = .ok out ∧ out.test = none ∧
      Drawn src.rows l.classFilter ms l.seed.isSome out.train.rows) ∧
    ∀ mt mte, omlLoad shuffle src { l with maxTrain := mt, maxTest := mte } ms = omlLoad shuffle src l ms := by
  obtain ⟨q, hq, _, hd⟩ := C168_limits shuffle hs src hw l.classFilter ms l.seed
  refine ⟨⟨{ train := q, test := none }, ?_, rfl, hd⟩, fun _ _ => rfl⟩
  unfold omlLoad
  rw [hq]
  rfl

/-! ## C168 torchvision -/

/-- **C168 (which objects torchvision builds).** Training and test rows come from the pair
`train=True`/`train=False` when the class accepts that; a class that raises `TypeError` is asked for
`split="train"` and `split="test"`; any other error is reported.  The two styles are never mixed. -/
theorem C168_tv_objects {δ : Type} (make : Call → Except PyErr δ) :
    (∀ a b, make (.trainFlag true) = .ok a → make (.trainFlag false) = .ok b → tvMake make = .ok (a, b)) ∧
    ((make (.trainFlag true) = .error .typeError ∨
        (∃ a, make (.trainFlag true) = .ok a ∧ make (.trainFlag false) = .error .typeError)) →
      ∀ r, tvMake make = .ok r ↔
        make (.splitName "train") = .ok r.1 ∧ make (.splitName "test") = .ok r.2) ∧
    (∀ e, e ≠ .typeError → make (.trainFlag true) = .error e → tvMake make = .error e) := by
  refine ⟨?_, ?_, ?_⟩
  · intro a b ha hb
    unfold tvMake
    simp only [ha, hb]
    rfl
  · intro h r
    have : tvMake make = (do
        let a ← make (.splitName "train")
        let b ← make (.splitName "test")
        return (a, b)) := by
      unfold tvMake
      rcases h with h | ⟨a, ha, hb⟩
      · simp only [h]; rfl
      · simp only [ha, hb]; rfl
    rw [this]
    constructor
    · intro hr
      obtain ⟨a, ha, hr⟩ := (ebind_ok).mp hr
      obtain ⟨b, hb, hr⟩ := (ebind_ok).mp hr
      simp only [pure, Except.pure, Except.ok.injEq] at hr
      subst hr
      exact ⟨ha, hb⟩
    · rintro ⟨ha, hb⟩
      rw [ebind_of_ok ha, ebind_of_ok hb]
      rfl
  · intro e he h
    unfold tvMake
    simp only [h]
    show (match (Except.error e : Except PyErr (δ × δ)) with
      | .error .typeError => _
      | r => r) = _
    split
    · rename_i h'
      simp only [Except.error.injEq] at h'
      exact absurd h' he
    · rfl

/-- The rows of a torchvision dataset: its arrays, or else its samples. -/
def TvDataset.Rows {α : Type} (d : TvDataset α) (r : List (α × Int)) : Prop :=
  (∃ X y, d.arrays = some (X, y) ∧ X.length = y.length ∧ r = X.zip y) ∨ (d.arrays = none ∧ r = d.samples)

theorem tvExtract_rows {α : Type} {d : TvDataset α} {r : List (α × Int)} (h : d.Rows r) :
    (tvExtract d).Whole ∧ (tvExtract d).rows = r := by
  unfold tvExtract Part.Whole Part.rows
  rcases h with ⟨X, y, h, hl, rfl⟩ | ⟨h, rfl⟩
  · rw [h]; exact ⟨hl, rfl⟩
  · rw [h]
    refine ⟨by simp, ?_⟩
    generalize d.samples = s
    induction s with
    | nil => rfl
    | cons a s ih => simp [ih]

/-- **C168 (torchvision).** Training rows are drawn from the training object's rows, test rows from the
test object's rows, each sample with its own label; a test split is always delivered. -/
theorem C168_torchvision {α : Type} (shuffle : Int → List Nat → List Nat)
    (hs : ∀ s l, (shuffle s l).Perm l) (make : Call → Except PyErr (TvDataset α)) (l : Limits)
    (a b : TvDataset α) (ra rb : List (α × Int)) (hm : tvMake make = .ok (a, b)) (ha : a.Rows ra)
    (hb : b.Rows rb) :
    ∃ out t, tvLoad shuffle make l = .ok out ∧ out.test = some t ∧
      Drawn ra l.classFilter l.maxTrain l.seed.isSome out.train.rows ∧
      Drawn rb l.classFilter l.maxTest l.seed.isSome t.rows := by
  obtain ⟨wa, ea⟩ := tvExtract_rows ha
  obtain ⟨wb, eb⟩ := tvExtract_rows hb
  obtain ⟨out, ho, _, hd, _, hso⟩ := limitBoth_ok shuffle hs l (tvExtract a) (some (tvExtract b)) wa
    (by simpa using wb)
  obtain ⟨t, ht, _, hdt⟩ := hso _ rfl
  refine ⟨out, t, ?_, ht, ea ▸ hd, eb ▸ hdt⟩
  unfold tvLoad
  rw [ebind_of_ok hm]
  exact ho

/-! ## C168 torchaudio -/

/-- **C168 (which objects torchaudio builds).** The official subsets when the class has them, else the
whole dataset as training data without a test split; only `TypeError` counts as "has no subsets". -/
theorem C168_ta_objects {δ : Type} (make : Call → Except PyErr δ) :
    (∀ a b, make (.subset "training") = .ok a → make (.subset "testing") = .ok b →
      taMake make = .ok (a, some b)) ∧
    ((make (.subset "training") = .error .typeError ∨
        (∃ a, make (.subset "training") = .ok a ∧ make (.subset "testing") = .error .typeError)) →
      ∀ r, taMake make = .ok r ↔ make .plain = .ok r.1 ∧ r.2 = none) ∧
    (∀ e, e ≠ .typeError → make (.subset "training") = .error e → taMake make = .error e) := by
  refine ⟨?_, ?_, ?_⟩
  · intro a b ha hb
    unfold taMake
    simp only [ha, hb]
    rfl
  · intro h r
    have : taMake make = (make .plain).map (fun d => (d, none)) := by
      unfold taMake
      rcases h with h | ⟨a, ha, hb⟩
      · simp only [h]; rfl
      · simp only [ha, hb]; rfl
    rw [this]
    cases make .plain with
    | error e => simp [Except.map]
    | ok d =>
      obtain ⟨r1, r2⟩ := r
      simp only [Except.map, Except.ok.injEq, Prod.mk.injEq]
      exact and_congr_right fun _ => ⟨fun h => h.symm, fun h => h.symm⟩
  · intro e he h
    unfold taMake
    simp only [h]
    show (match (Except.error e : Except PyErr (δ × Option δ)) with
      | .error .typeError => _
      | r => r) = _
    split
    · rename_i h'
      simp only [Except.error.injEq] at h'
      exact absurd h' he
    · rfl

/-- The file a walker entry stands for: the entry itself if it exists, else with `.wav`, else with
`.flac`; the entry itself when none exists. -/
inductive FileOf (exist : FPath → Bool) (p : FPath) : FPath → Prop
  | here : exist p = true → FileOf exist p p
  | wav : exist p = false → exist { p with suffix := ".wav" } = true →
      FileOf exist p { p with suffix := ".wav" }
  | flac : exist p = false → exist { p with suffix := ".wav" } = false →
      exist { p with suffix := ".flac" } = true → FileOf exist p { p with suffix := ".flac" }
  | missing : exist p = false → exist { p with suffix := ".wav" } = false →
      exist { p with suffix := ".flac" } = false → FileOf exist p p

theorem fixPath_spec (exist : FPath → Bool) (p : FPath) : FileOf exist p (fixPath exist p) := by
  unfold fixPath FPath.withSuffix
  by_cases h1 : exist p = true
  · rw [if_pos h1]; exact .here h1
  · rw [if_neg h1]
    have h1 : exist p = false := by simpa using h1
    by_cases h2 : exist { p with suffix := ".wav" } = true
    · rw [if_pos h2]; exact .wav h1 h2
    · rw [if_neg h2]
      have h2 : exist { p with suffix := ".wav" } = false := by simpa using h2
      by_cases h3 : exist { p with suffix := ".flac" } = true
      · rw [if_pos h3]; exact .flac h1 h2 h3
      · rw [if_neg h3]; exact .missing h1 h2 (by simpa using h3)

/-- The label of a file: `yes`/`no` by the first character of its name for YESNO, else the directory it
lies in. -/
def LabelOf (yesno : Bool) (entry : FPath) (l : String) : Prop :=
  if yesno then ((entry.stem.toList.head? = some '1' ∧ l = "yes") ∨ (entry.stem.toList.head? ≠ some '1' ∧ l = "no"))
  else l = (entry.dirs.getLast?).getD ""

/-- `p` is the path of a walker entry: an absolute entry is its own path, a relative one lies in `base`. -/
def EntryIn (base : List String) (e p : FPath) : Prop :=
  (e.abs = true ∧ p = e) ∨
  (e.abs = false ∧ p.abs = true ∧ p.dirs = base ++ e.dirs ∧ p.stem = e.stem ∧ p.suffix = e.suffix)

theorem under_entry (base : List String) (e : FPath) : EntryIn base e (e.under base) := by
  unfold EntryIn FPath.under
  cases h : e.abs <;> simp

/-- **C168 (torchaudio files).** For a dataset with a walker, row `i` is the file of the walker's entry
`i` (relative entries under the base directory, extension repaired) labelled by that entry's own
directory, or by its own name for YESNO. -/
theorem C168_ta_files {α : Type} (exist : FPath → Bool) (yesno : Bool) (d : TaDataset α)
    (base : List String) (w : List FPath) (hb : d.base = some base) (hw : d.walker = some w)
    (hne : w ≠ []) :
    ∃ rows, taExtract exist yesno d = .ok rows ∧
      List.Forall₂ (fun e r => ∃ p q l, r = (Sound.path q, TaLab.text l) ∧ EntryIn base e p ∧
        FileOf exist p q ∧ LabelOf yesno p l) w rows := by
  have hp : taPaths exist d = some (w.map (fun p => fixPath exist (p.under base))) := by
    unfold taPaths; rw [hb, hw]
  obtain ⟨e, w, rfl⟩ := List.exists_cons_of_ne_nil hne
  refine ⟨((e :: w).map (fun p => fixPath exist (p.under base))).map
    (fun q => (Sound.path q, TaLab.text (taLabel yesno q))), ?_, ?_⟩
  · unfold taExtract
    rw [hp]
    rfl
  · rw [List.map_map, List.forall₂_map_right_iff, List.forall₂_same]
    intro p _
    refine ⟨p.under base, fixPath exist (p.under base), _, rfl, under_entry base p, fixPath_spec exist _, ?_⟩
    have hsame : (fixPath exist (p.under base)).stem = (p.under base).stem ∧
        (fixPath exist (p.under base)).dirs = (p.under base).dirs := by
      unfold fixPath FPath.withSuffix
      split_ifs <;> exact ⟨rfl, rfl⟩
    unfold LabelOf taLabel
    rw [hsame.1, hsame.2]
    cases yesno with
    | false => simp
    | true =>
      by_cases h : (p.under base).stem.toList.head? = some '1'
      · simp [h]
      · simp [h]

/-- **C168 (torchaudio waveforms).** Without a walker (or with an empty one) the rows are the samples'
waveforms with their third fields; a sample with fewer than three fields is rejected. -/
theorem C168_ta_waveforms {α : Type} (exist : FPath → Bool) (yesno : Bool) (d : TaDataset α)
    (h : d.base = none ∨ d.walker = none ∨ d.walker = some []) (rows : List (Sound α × TaLab)) :
    taExtract exist yesno d = .ok rows ↔
      List.Forall₂ (fun (s : α × List Int) r => ∃ l, s.2[1]? = some l ∧ r = (Sound.wave s.1, TaLab.field l))
        d.samples rows := by
  have hp : taExtract exist yesno d = taIterate d := by
    unfold taExtract taPaths
    rcases h with h | h | h
    · rw [h]
    · rw [h]; cases d.base <;> rfl
    · rw [h]; cases d.base <;> rfl
  rw [hp]
  unfold taIterate
  rw [mapM_ok]
  constructor <;> intro hh
  · refine hh.imp ?_
    rintro ⟨a, fs⟩ r hr
    match fs, hr with
    | [], hr => simp [taSample] at hr
    | [_], hr => simp [taSample] at hr
    | _ :: l :: _, hr =>
      simp only [taSample, Except.ok.injEq] at hr
      exact ⟨l, rfl, hr.symm⟩
  · refine hh.imp ?_
    rintro ⟨a, fs⟩ r ⟨l, hl, rfl⟩
    match fs, hl with
    | [], hl => simp at hl
    | [_], hl => simp at hl
    | _ :: l' :: _, hl =>
      simp only [List.getElem?_cons_succ, List.getElem?_cons_zero, Option.some.injEq] at hl
      subst hl
      rfl

/-- **C168 (torchaudio).** Training rows are drawn from the rows of the training object; test rows from
those of the testing object, and there is no test split when the class has no subsets. -/
theorem C168_torchaudio {α : Type} (shuffle : Int → List Nat → List Nat)
    (hs : ∀ s l, (shuffle s l).Perm l) (exist : FPath → Bool) (yesno : Bool) (code : TaLab → Int)
    (make : Call → Except PyErr (TaDataset α)) (l : Limits) (a : TaDataset α)
    (b : Option (TaDataset α)) (ra : List (Sound α × TaLab)) (hm : taMake make = .ok (a, b))
    (ha : taExtract exist yesno a = .ok ra)
    (hb : ∀ t ∈ b, ∃ rb, taExtract exist yesno t = .ok rb) :
    ∃ out, taLoad shuffle exist yesno code make l = .ok out ∧
      Drawn (ra.map (fun r => (r.1, code r.2))) l.classFilter l.maxTrain l.seed.isSome out.train.rows ∧
      (b = none → out.test = none) ∧
      (∀ t rb, b = some t → taExtract exist yesno t = .ok rb → ∃ t', out.test = some t' ∧
        Drawn (rb.map (fun r => (r.1, code r.2))) l.classFilter l.maxTest l.seed.isSome t'.rows) := by
  have hrows : ∀ rows : List (Sound α × TaLab), (taPart code rows).Whole ∧
      (taPart code rows).rows = rows.map (fun r => (r.1, code r.2)) := by
    intro rows
    refine ⟨by simp [taPart, Part.Whole], ?_⟩
    unfold taPart Part.rows
    induction rows with
    | nil => rfl
    | cons r rows ih => simpa using ih
  cases b with
  | none =>
    obtain ⟨out, ho, _, hd, hno, _⟩ := limitBoth_ok shuffle hs l (taPart code ra) none (hrows ra).1 (by simp)
    refine ⟨out, ?_, (hrows ra).2 ▸ hd, fun _ => hno rfl, fun t rb h => by simp at h⟩
    unfold taLoad
    rw [ebind_of_ok hm]
    have : taParts exist yesno code (a, none) = .ok (taPart code ra, none) := by
      unfold taParts
      rw [ebind_of_ok ha]
      rfl
    rw [ebind_of_ok this]
    exact ho
  | some t =>
    obtain ⟨rb, hrb⟩ := hb t rfl
    obtain ⟨out, ho, _, hd, _, hso⟩ := limitBoth_ok shuffle hs l (taPart code ra) (some (taPart code rb))
      (hrows ra).1 (by simpa using (hrows rb).1)
    refine ⟨out, ?_, (hrows ra).2 ▸ hd, fun h => by simp at h, ?_⟩
    · unfold taLoad
      rw [ebind_of_ok hm]
      have : taParts exist yesno code (a, some t) = .ok (taPart code ra, some (taPart code rb)) := by
        unfold taParts
        rw [ebind_of_ok ha]
        simp only
        rw [ebind_of_ok hrb]
        rfl
      rw [ebind_of_ok this]
      exact ho
    · intro t' rb' ht' hrb'
      simp only [Option.some.injEq] at ht'
      subst ht'
      rw [hrb] at hrb'
      simp only [Except.ok.injEq] at hrb'
      subst hrb'
      obtain ⟨q, hq, _, hdq⟩ := hso _ rfl
      exact ⟨q, hq, (hrows rb).2 ▸ hdq⟩

/-! ## C168 toy -/

/-- **C168 (toy).** Training rows followed by test rows are exactly the generated rows: none lost, none
shared, labels aligned.  With an official test split of fraction in `[0, 1]` the test part has the
rounded number of rows, and it is absent exactly when that number is zero. -/
theorem C168_toy {α : Type} (rows : List (α × Int)) (hasTest : Bool) (ts : Rat) :
    (toyLoad rows hasTest ts).train.Whole ∧
    (toyLoad rows hasTest ts).train.rows ++ (((toyLoad rows hasTest ts).test.map Part.rows).getD []) = rows ∧
    (hasTest = false → (toyLoad rows hasTest ts).test = none) ∧
    (∀ t, (toyLoad rows hasTest ts).test = some t → t.Whole ∧ t.rows ≠ [] ∧
      ((0 : Int) ≤ pyRound ((rows.length : Rat) * ts) → pyRound ((rows.length : Rat) * ts) ≤ rows.length →
        (t.rows.length : Int) = pyRound ((rows.length : Rat) * ts))) := by
  have hz : ∀ l : List (α × Int), (l.map (·.1)).zip (l.map (·.2)) = l := by
    intro l
    induction l with
    | nil => rfl
    | cons a l ih => simpa using ih
  have hk : toyTest rows.length hasTest ts ≤ rows.length := by
    unfold toyTest
    split
    · omega
    · omega
  refine ⟨by simp [toyLoad, Part.Whole], ?_, ?_, ?_⟩
  · unfold toyLoad Part.rows
    simp only [hz]
    split
    · rename_i h
      simp [h]
    · simp only [Option.map_some, Option.getD_some, hz, List.take_append_drop]
  · intro h
    subst h
    simp [toyLoad, toyTest]
  · intro t ht
    unfold toyLoad at ht
    simp only at ht
    split at ht
    · simp at ht
    · rename_i h0
      simp only [Option.some.injEq] at ht
      subst ht
      refine ⟨by simp [Part.Whole], ?_, ?_⟩
      · unfold Part.rows
        simp only [hz]
        intro h
        have := congrArg List.length h
        simp only [List.length_drop, List.length_nil] at this
        omega
      · intro h1 h2
        unfold Part.rows
        simp only [hz, List.length_drop]
        cases hasTest with
        | false => simp [toyTest] at h0
        | true =>
          simp only [toyTest, if_true] at hk ⊢
          omega

/-! ## Non-vacuity -/

/-- A shuffle that reverses. -/
def rev : Int → List Nat → List Nat := fun _ l => l.reverse

theorem rev_perm : ∀ s l, (rev s l).Perm l := fun _ l => List.reverse_perm l

/-- A dataset with a training and a validation split. -/
def demoHf : List (String × HfSplit String) :=
  [("train", { text := [("text", ["a", "b", "c", "d"])], label := [("label", [0, 1, 2, 1])] }),
   ("validation", { text := [("text", ["e", "f"])], label := [("label", [1, 0])] })]

/-- Two classes, two training rows, shuffled. -/
def demoLimits : Limits := { classFilter := some [0, 1], maxTrain := some 2, seed := some 7 }

example : hfLoad rev demoHf "text" "label" true demoLimits =
    .ok { train := { X := ["d", "b"], y := [1, 1] }, test := some { X := ["e", "f"], y := [1, 0] } } := by
  decide +kernel

example : TestName demoHf true = some "validation" := by decide +kernel

example : HasCols (α := String) { text := [("text", ["a", "b", "c", "d"])], label := [("label", [0, 1, 2, 1])] }
    "text" "label" { X := ["a", "b", "c", "d"], y := [0, 1, 2, 1] } := by
  constructor <;> decide +kernel

example : hfLoad rev demoHf "text" "lbl" true demoLimits = .error .keyError := by decide +kernel

/-- A TFDS dataset of three rows without a test split. -/
def demoTfds : String → Except PyErr (List (Item Int)) := fun s =>
  if s = "train" then .ok [.pair 10 0, .pair 11 1, .pair 12 0] else .error .runtimeError

example : tfdsLoad demoTfds { maxTrain := some 1 } =
    .ok ([(.value 10, .label 0), (.value 11, .label 1), (.value 12, .label 0)], none) := by decide +kernel

/-- A class that only knows `split`. -/
def demoTv : Call → Except PyErr (TvDataset String) := fun c =>
  match c with
  | .splitName "train" => .ok { arrays := none, samples := [("a", 0), ("b", 1)] }
  | .splitName "test" => .ok { arrays := some (["c"], [1]), samples := [] }
  | _ => .error .typeError

example : tvLoad rev demoTv {} =
    .ok { train := { X := ["a", "b"], y := [0, 1] }, test := some { X := ["c"], y := [1] } } := by
  decide +kernel

/-- A YESNO dataset of two files, without subsets. -/
def demoTa : Call → Except PyErr (TaDataset Int) := fun c =>
  match c with
  | .plain => .ok { base := some ["data"],
                    walker := some [⟨false, [], "1_0", ""⟩, ⟨false, [], "0_1", ""⟩], samples := [] }
  | _ => .error .typeError

/-- Labels numbered: `yes` is 1. -/
def demoCode : TaLab → Int
  | .text s => if s = "yes" then 1 else 0
  | .field i => i

example : taLoad rev (fun p => decide (p.suffix = ".wav")) true demoCode demoTa {} =
    .ok { train := { X := [.path ⟨true, ["data"], "1_0", ".wav"⟩, .path ⟨true, ["data"], "0_1", ".wav"⟩],
                     y := [1, 0] }, test := none } := by decide +kernel

example : toyLoad [("a", 0), ("b", 1), ("c", 0), ("d", 1)] true (1/4) =
    { train := { X := ["a", "b", "c"], y := [0, 1, 0] }, test := some { X := ["d"], y := [1] } } := by
  decide +kernel

end ModSSC.DataLoader.Provider
