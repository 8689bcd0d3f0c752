import Verif.DataLoader.ManifestModel
import Verif.ExceptLemmas

/-!
# C206: what a manifest tells about a dataset, and reading it back
-/

namespace ModSSC.DataLoader.Manifest
open ModSSC

variable {C J : Type}

namespace Spec

/-- Two containers look alike: same type name, same readable shape and dtype. -/
def Alike (a b : Thing C) : Prop :=
  a.typ = b.typ ∧ a.shape.join = b.shape.join ∧ a.dtype.join = b.dtype.join

/-- Two optional values are both absent or related. -/
def Both {α : Type} (R : α → α → Prop) : Option α → Option α → Prop
  | none, none => True
  | some a, some b => R a b
  | _, _ => False

/-- Two splits look alike: `X`, `y`, edges and masks, the latter under the same names. -/
def AlikeSplit (s t : Split C) : Prop :=
  Both Alike s.X t.X ∧ Both Alike s.y t.y ∧ Both Alike s.edges t.edges ∧
    Both (List.Forall₂ fun k l => k.1 = l.1 ∧ Alike k.2 l.2) s.masks t.masks

/-- All masks of a split have text names. -/
def TextNames (s : Split C) : Prop := ∀ ms, s.masks = some ms → ∀ kv ∈ ms, ∃ n, kv.1 = .text n

/-- The masks of a split have names of one kind. -/
def OneKind (s : Split C) : Prop :=
  ∀ ms, s.masks = some ms → (∀ kv ∈ ms, ∃ n, kv.1 = .text n) ∨ (∀ kv ∈ ms, ∃ n, kv.1 = .int n)

/-- The entry of a container that a reader expects: "None" for a missing one. -/
def Entry (o : Option (Thing C)) (s : Summ) : Prop :=
  match o with
  | none => s.typ = "None" ∧ s.shape = none ∧ s.dtype = none
  | some t => s.typ = t.typ ∧ (∀ l, s.shape = some l ↔ t.shape = some (some l)) ∧
      (∀ d, s.dtype = some d ↔ t.dtype = some (some d))

end Spec

theorem join_some {α : Type} (o : Option (Option α)) (a : α) : o.join = some a ↔ o = some (some a) := by
  cases o with
  | none => simp
  | some x => simp

theorem entry_shapeDtype (o : Option (Thing C)) : Spec.Entry o (shapeDtype o) := by
  cases o with
  | none => exact ⟨rfl, rfl, rfl⟩
  | some t => exact ⟨rfl, fun l => join_some _ _, fun d => join_some _ _⟩

/-- **C206 (the summary).** The manifest of a dataset has, for every split, the entries of its features
and labels, an entry for the edges exactly if there are edges, and one for every mask under its name and
in order; and an entry for the test split exactly if there is one. -/
theorem C206_summary (schema : Int) (fp now : String) (identity info env : J) (ds : Dataset C) :
    let m := build schema fp now identity info env ds
    let ok := fun (s : Split C) (r : SplitSumm Name) => Spec.Entry s.X r.X ∧ Spec.Entry s.y r.y ∧
      (s.edges = none ↔ r.edges = none) ∧ (∀ e q, s.edges = some e → r.edges = some q →
        Spec.Entry (some e) q) ∧
      (s.masks = none ↔ r.masks = none) ∧ (∀ ms qs, s.masks = some ms → r.masks = some qs →
        List.Forall₂ (fun k q => k.1 = q.1 ∧ Spec.Entry (some k.2) q.2) ms qs)
    ok ds.train m.dataset.train ∧ (ds.test = none ↔ m.dataset.test = none) ∧
      (∀ s r, ds.test = some s → m.dataset.test = some r → ok s r) ∧
      m.schema = schema ∧ m.fingerprint = fp ∧ m.createdAt = now ∧ m.identity = identity ∧
      m.info = info ∧ m.environment = env := by
  intro m ok
  have key : ∀ s : Split C, ok s (splitSummary s) := by
    intro s
    refine ⟨entry_shapeDtype _, entry_shapeDtype _, by simp [splitSummary], ?_, by simp [splitSummary], ?_⟩
    · intro e q he hq
      simp only [splitSummary, he, Option.map_some, Option.some.injEq] at hq
      subst hq
      exact entry_shapeDtype (some e)
    · intro ms qs he hq
      simp only [splitSummary, he, Option.map_some, Option.some.injEq] at hq
      subst hq
      rw [List.forall₂_map_right_iff, List.forall₂_same]
      exact fun k _ => ⟨rfl, entry_shapeDtype (some k.2)⟩
  refine ⟨key _, by simp [m, build, datasetSummary], ?_, rfl, rfl, rfl, rfl, rfl, rfl⟩
  intro s r hs hr
  simp only [m, build, datasetSummary, hs, Option.map_some, Option.some.injEq] at hr
  subst hr
  exact key s

theorem alike_summ {o o' : Option (Thing C)} (h : Spec.Both Spec.Alike o o') :
    shapeDtype o = shapeDtype o' := by
  cases o <;> cases o' <;> simp only [Spec.Both] at h
  · rfl
  · obtain ⟨a, b, c⟩ := h
    simp only [shapeDtype, a, b, c]

theorem alike_split {s t : Split C} (h : Spec.AlikeSplit s t) : splitSummary s = splitSummary t := by
  obtain ⟨h1, h2, h3, h4⟩ := h
  have e3 : s.edges.map (fun e => shapeDtype (some e)) = t.edges.map fun e => shapeDtype (some e) := by
    cases hs : s.edges <;> cases ht : t.edges <;> rw [hs, ht] at h3 <;> simp only [Spec.Both] at h3
    · simp only [Option.map_some]
      rw [alike_summ (o := some _) (o' := some _) h3]
  have e4 : s.masks.map (fun ms => ms.map fun kv => (kv.1, shapeDtype (some kv.2))) =
      t.masks.map fun ms => ms.map fun kv => (kv.1, shapeDtype (some kv.2)) := by
    cases hs : s.masks <;> cases ht : t.masks <;> rw [hs, ht] at h4 <;> simp only [Spec.Both] at h4
    · simp only [Option.map_some, Option.some.injEq]
      clear hs ht
      induction h4 with
      | nil => rfl
      | cons hd _ ih =>
        simp only [List.map_cons]
        rw [hd.1, alike_summ (o := some _) (o' := some _) hd.2, ih]
  simp only [splitSummary, alike_summ h1, alike_summ h2, e3, e4]

/-- **C206 (contents do not show).** Datasets whose splits look alike have the same manifest, whatever
the containers hold. -/
theorem C206_contents_hidden (schema : Int) (fp now : String) (identity info env : J)
    (a b : Dataset C) (h1 : Spec.AlikeSplit a.train b.train)
    (h2 : Spec.Both Spec.AlikeSplit a.test b.test) :
    build schema fp now identity info env a = build schema fp now identity info env b := by
  have e2 : a.test.map splitSummary = b.test.map splitSummary := by
    cases ha : a.test <;> cases hb : b.test <;> rw [ha, hb] at h2 <;> simp only [Spec.Both] at h2
    · simp only [Option.map_some, alike_split h2]
  simp only [build, datasetSummary, alike_split h1, e2]

theorem sortable_iff (ks : List Name) :
    sortable ks = true ↔ (∀ k ∈ ks, ∃ n, k = .text n) ∨ (∀ k ∈ ks, ∃ n, k = .int n) := by
  unfold sortable
  rw [Bool.or_eq_true, List.all_eq_true, List.all_eq_true]
  constructor
  · rintro (h | h)
    · left; intro k hk; have := h k hk; cases k with
      | text s => exact ⟨s, rfl⟩
      | int n => cases this
    · right; intro k hk; have := h k hk; cases k with
      | text s => cases this
      | int n => exact ⟨n, rfl⟩
  · rintro (h | h)
    · left; intro k hk; obtain ⟨n, rfl⟩ := h k hk; rfl
    · right; intro k hk; obtain ⟨n, rfl⟩ := h k hk; rfl

/-- The JSON form of a split summary with names as text. -/
def textSplit (s : SplitSumm Name) : SplitSumm String :=
  ⟨s.X, s.y, s.edges, s.masks.map fun ms => ms.map fun kv => (kv.1.toText, kv.2)⟩

theorem dumpSplit_eq (s : Split C) :
    (Spec.OneKind s → dumpSplit (splitSummary s) = .ok (textSplit (splitSummary s))) ∧
    (¬ Spec.OneKind s → dumpSplit (splitSummary s) = .error .typeError) := by
  cases hm : s.masks with
  | none =>
    refine ⟨fun _ => ?_, fun h => absurd (fun ms hms => by rw [hm] at hms; cases hms) h⟩
    simp [dumpSplit, dumpMasks, textSplit, splitSummary, hm, bind, Except.bind]
  | some ms =>
    have hk : Spec.OneKind s ↔
        sortable ((ms.map fun kv => (kv.1, shapeDtype (some kv.2))).map (·.1)) = true := by
      rw [sortable_iff]
      unfold Spec.OneKind
      rw [hm]
      simp only [Option.some.injEq, forall_eq', List.map_map, List.mem_map, Function.comp]
      constructor
      · rintro (h | h)
        · left; rintro k ⟨kv, hkv, rfl⟩; exact h kv hkv
        · right; rintro k ⟨kv, hkv, rfl⟩; exact h kv hkv
      · rintro (h | h)
        · left; exact fun kv hkv => h _ ⟨kv, hkv, rfl⟩
        · right; exact fun kv hkv => h _ ⟨kv, hkv, rfl⟩
    have hsm : (splitSummary s).masks = some (ms.map fun kv => (kv.1, shapeDtype (some kv.2))) := by
      simp [splitSummary, hm]
    rw [hk]
    refine ⟨fun h => ?_, fun h => ?_⟩
    · simp only [dumpSplit, hsm, dumpMasks, if_pos h, textSplit, Option.map_some, bind, Except.bind]
    · simp only [dumpSplit, hsm, dumpMasks, if_neg h, bind, Except.bind]

/-- **C206 (writing).** A manifest can be written exactly if the masks of each split have names of one
kind, all text or all integers; otherwise a type error is raised. -/
theorem C206_writable (schema : Int) (fp now : String) (identity info env : J) (ds : Dataset C) :
    let one := Spec.OneKind ds.train ∧ ∀ t, ds.test = some t → Spec.OneKind t
    ((∃ o, toJson (build schema fp now identity info env ds) = .ok o) ↔ one) ∧
    (¬ one → toJson (build schema fp now identity info env ds) = .error .typeError) := by
  intro one
  have htest : ((∀ t, ds.test = some t → Spec.OneKind t) →
        ∃ x, dumpTest (ds.test.map splitSummary) = .ok x) ∧
      ((¬ ∀ t, ds.test = some t → Spec.OneKind t) →
        dumpTest (ds.test.map splitSummary) = .error .typeError) := by
    cases ht : ds.test with
    | none => exact ⟨fun _ => ⟨none, rfl⟩, fun h => absurd (fun t e => by cases e) h⟩
    | some t =>
      simp only [Option.some.injEq, forall_eq', Option.map_some, dumpTest]
      refine ⟨fun h => ⟨some (textSplit (splitSummary t)), ?_⟩, fun h => ?_⟩
      · simp only [(dumpSplit_eq t).1 h, bind, Except.bind]
      · simp only [(dumpSplit_eq t).2 h, bind, Except.bind]
  have hno : ¬ one → toJson (build schema fp now identity info env ds) = .error .typeError := by
    intro h
    by_cases h1 : Spec.OneKind ds.train
    · have h2 : ¬ ∀ t, ds.test = some t → Spec.OneKind t := fun hh => h ⟨h1, hh⟩
      simp only [toJson, build, datasetSummary, (dumpSplit_eq _).1 h1, htest.2 h2, bind, Except.bind]
    · simp only [toJson, build, datasetSummary, (dumpSplit_eq _).2 h1, bind, Except.bind]
  refine ⟨⟨?_, ?_⟩, hno⟩
  · rintro ⟨o, ho⟩
    by_contra h
    rw [hno h] at ho
    cases ho
  · rintro ⟨h1, h2⟩
    obtain ⟨x, hx⟩ := htest.1 h2
    simp only [toJson, build, datasetSummary, (dumpSplit_eq _).1 h1, hx, bind, Except.bind]
    exact ⟨_, rfl⟩

/-- A manifest with text names only, as a manifest with names. -/
def Manifest.named (m : Manifest String J) : Manifest Name J :=
  let sp := fun s : SplitSumm String => (⟨s.X, s.y, s.edges,
    s.masks.map fun ms => ms.map fun kv => (Name.text kv.1, kv.2)⟩ : SplitSumm Name)
  ⟨m.schema, m.fingerprint, m.createdAt, m.identity, ⟨sp m.dataset.train, m.dataset.test.map sp⟩,
    m.info, m.environment⟩

theorem text_back (s : Split C) (h : Spec.TextNames s) :
    ((textSplit (splitSummary s)).masks.map fun ms => ms.map fun kv => (Name.text kv.1, kv.2)) =
      (splitSummary s).masks := by
  cases hm : s.masks with
  | none => simp [textSplit, splitSummary, hm]
  | some ms =>
    simp only [textSplit, splitSummary, hm, Option.map_some, List.map_map, Option.some.injEq]
    apply List.map_congr_left
    intro kv hkv
    obtain ⟨n, hn⟩ := h ms hm kv hkv
    simp [hn, Name.toText]

theorem oneKind_of_text {s : Split C} (h : Spec.TextNames s) : Spec.OneKind s :=
  fun ms hm => .inl (h ms hm)

/-- **C206 (round trip, partial).** If all masks have text names, what was written is read back as the
same manifest.  (Partial: integer names are missing, where the claim is false, see
`C206_names_violated`.) -/
theorem C206_round_trip_partial (schema : Int) (fp now : String) (identity info env empty : J)
    (ds : Dataset C) (h1 : Spec.TextNames ds.train) (h2 : ∀ t, ds.test = some t → Spec.TextNames t) :
    ∃ o m, toJson (build schema fp now identity info env ds) = .ok o ∧ fromJson empty o = .ok m ∧
      m.named = build schema fp now identity info env ds := by
  have ht : dumpTest (ds.test.map splitSummary) = .ok (ds.test.map fun t => textSplit (splitSummary t)) := by
    cases ht : ds.test with
    | none => rfl
    | some t =>
      simp only [Option.map_some, dumpTest, (dumpSplit_eq t).1 (oneKind_of_text (h2 t ht)), bind,
        Except.bind]
  refine ⟨[("schema_version", .num schema), ("fingerprint", .str fp),
      ("created_at", .str now), ("identity", .tree identity), ("dataset", .data ⟨textSplit
        (splitSummary ds.train), ds.test.map fun t => textSplit (splitSummary t)⟩),
      ("meta", .tree info), ("environment", .tree env)], ⟨schema, fp, now, identity, ⟨textSplit (splitSummary ds.train),
    ds.test.map fun t => textSplit (splitSummary t)⟩, info, env⟩, ?_, ?_, ?_⟩
  · simp only [toJson, build, datasetSummary, (dumpSplit_eq _).1 (oneKind_of_text h1), ht, bind,
      Except.bind]
  · simp [fromJson, getNum, getStr, getTree, getTreeD, getData, List.lookup, bind, Except.bind]
  · simp only [Manifest.named, build, datasetSummary, Manifest.mk.injEq, DataSumm.mk.injEq, true_and,
      and_true]
    refine ⟨?_, ?_⟩
    · rw [text_back _ h1]; rfl
    · cases hd : ds.test with
      | none => rfl
      | some t =>
        simp only [Option.map_some, Option.some.injEq]
        rw [text_back _ (h2 t hd)]
        rfl

/-- **C206 (older files).** A manifest without `meta` or `environment` is read with `{}` for them; one
without any of the other five keys is refused. -/
theorem C206_older (empty : J) (o : List (String × Field J)) :
    (∀ m, fromJson empty o = .ok m →
      (∀ k ∈ ["schema_version", "fingerprint", "created_at", "identity", "dataset"], o.lookup k ≠ none) ∧
      (o.lookup "meta" = none → m.info = empty) ∧
      (o.lookup "environment" = none → m.environment = empty)) := by
  intro m h
  unfold fromJson at h
  rw [ebind_ok] at h; obtain ⟨a, ha, h⟩ := h
  rw [ebind_ok] at h; obtain ⟨b, hb, h⟩ := h
  rw [ebind_ok] at h; obtain ⟨c, hc, h⟩ := h
  rw [ebind_ok] at h; obtain ⟨d, hd, h⟩ := h
  rw [ebind_ok] at h; obtain ⟨e, he, h⟩ := h
  rw [ebind_ok] at h; obtain ⟨f, hf, h⟩ := h
  rw [ebind_ok] at h; obtain ⟨g, hg, h⟩ := h
  cases h
  refine ⟨?_, ?_, ?_⟩
  · intro k hk hn
    simp only [List.mem_cons, List.not_mem_nil, or_false] at hk
    rcases hk with rfl | rfl | rfl | rfl | rfl
    · simp [getNum, hn] at ha
    · simp [getStr, hn] at hb
    · simp [getStr, hn] at hc
    · simp [getTree, hn] at hd
    · simp [getData, hn] at he
  · intro hn; simp [getTreeD, hn] at hf; exact hf.symm
  · intro hn; simp [getTreeD, hn] at hg; exact hg.symm

/-- **C206 (a lost key).** A written manifest that lost one of the five required keys raises a key
error when read. -/
theorem C206_lost_key (m : Manifest Name J) (empty : J) (o : List (String × Field J)) (k : String)
    (h : toJson m = .ok o)
    (hk : k ∈ ["schema_version", "fingerprint", "created_at", "identity", "dataset"]) :
    fromJson empty (o.filter fun kv => kv.1 ≠ k) = .error .keyError := by
  unfold toJson at h
  rw [ebind_ok] at h; obtain ⟨a, -, h⟩ := h
  rw [ebind_ok] at h; obtain ⟨b, -, h⟩ := h
  cases h
  simp only [List.mem_cons, List.not_mem_nil, or_false] at hk
  rcases hk with rfl | rfl | rfl | rfl | rfl <;>
    simp [fromJson, getNum, getStr, getTree, getData, List.lookup, bind, Except.bind]

/-- A dataset with one mask. -/
def demoSet (c : Nat) (n : Name) : Dataset Nat :=
  ⟨⟨some ⟨"ndarray", some (some [3, 2]), some (some "float32"), c⟩, none, none,
    some [(n, ⟨"ndarray", some (some [3]), some (some "bool"), c⟩)]⟩, none⟩

/-- **C206 (integer names, violated).** "A written manifest is read back unchanged" is false: the mask
`0` comes back as the mask `"0"`. -/
theorem C206_names_violated : ∃ (o : List (String × Field Nat)) (m : Manifest String Nat),
    toJson (build 1 "f" "t" 0 0 0 (demoSet 5 (.int 0))) = .ok o ∧ fromJson 0 o = .ok m ∧
      m.named ≠ build 1 "f" "t" 0 0 0 (demoSet 5 (.int 0)) :=
  ⟨[("schema_version", .num 1), ("fingerprint", .str "f"), ("created_at", .str "t"),
      ("identity", .tree 0),
      ("dataset", .data ⟨⟨⟨"ndarray", some [3, 2], some "float32"⟩, ⟨"None", none, none⟩, none,
        some [("0", ⟨"ndarray", some [3], some "bool"⟩)]⟩, none⟩),
      ("meta", .tree 0), ("environment", .tree 0)],
    ⟨1, "f", "t", 0, ⟨⟨⟨"ndarray", some [3, 2], some "float32"⟩, ⟨"None", none, none⟩, none,
        some [("0", ⟨"ndarray", some [3], some "bool"⟩)]⟩, none⟩, 0, 0⟩, rfl, rfl, by decide +kernel⟩

/-- **C206 (telling data apart, violated).** "Different datasets have different manifests" is false even
under equal fingerprints. -/
theorem C206_distinguish_violated : ∃ a b : Dataset Nat, a ≠ b ∧
    build 1 "f" "t" 0 0 0 a = build 1 "f" "t" 0 0 0 b :=
  ⟨demoSet 5 (.text "train"), demoSet 6 (.text "train"), by simp [demoSet], by decide +kernel⟩

/-- Non-vacuity of `C206_round_trip_partial` and `C206_contents_hidden`. -/
example : Spec.TextNames (demoSet 5 (.text "train")).train ∧
    Spec.AlikeSplit (demoSet 5 (.text "train")).train (demoSet 6 (.text "train")).train := by
  refine ⟨?_, ⟨rfl, rfl, rfl⟩, trivial, trivial, .cons ⟨rfl, rfl, rfl, rfl⟩ .nil⟩
  intro ms hms kv hkv
  cases hms
  simp only [List.mem_singleton] at hkv
  subst hkv
  exact ⟨"train", rfl⟩

/-- Non-vacuity of the error of `C206_writable`. -/
example : ¬ Spec.OneKind (⟨none, none, none, some [(.text "a", ⟨"x", none, none, 0⟩),
    (.int 1, ⟨"x", none, none, 0⟩)]⟩ : Split Nat) := by
  intro h
  rcases h _ rfl with h | h
  · obtain ⟨n, hn⟩ := h (.int 1, ⟨"x", none, none, 0⟩) (by simp)
    cases hn
  · obtain ⟨n, hn⟩ := h (.text "a", ⟨"x", none, none, 0⟩) (by simp)
    cases hn

/-- Non-vacuity of `C206_older`: a file without `meta` and `environment` is read. -/
example : (fromJson 9 [("schema_version", .num 1), ("fingerprint", .str "f"), ("created_at", .str "t"),
    ("identity", .tree 0), ("dataset", .data ⟨⟨⟨"None", none, none⟩, ⟨"None", none, none⟩, none,
      none⟩, none⟩)]).map (fun m => (m.info, m.environment)) = .ok (9, 9) := by
  rfl

end ModSSC.DataLoader.Manifest
