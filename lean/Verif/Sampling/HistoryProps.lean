import Verif.Sampling.HistoryModel
import Verif.Sampling.StorageProps
import Verif.ExceptLemmas

/-!
# C205: what a history of `sample` calls leaves on disk
-/

namespace ModSSC.Sampling.History
open ModSSC ModSSC.Sampling.Storage

variable {B P : Type}

namespace Spec

/-- What a call gives back: a result and, if it was stored, the place; or an exception. -/
abbrev Outcome (P : Type) := Except PyErr (Result (Info P) × Option Place)

/-- The results that the calls of a history reported as stored at one place, oldest first. -/
def storedAt (p : Place) (outs : List (Outcome P)) : List (Result (Info P)) :=
  outs.filterMap fun o => match o with
    | .ok (r, some q) => if q = p then some r else none
    | _ => none

/-- The dataset counts as a graph. -/
def isGraph (d : Data B) : Prop := d.edges = true ∨ d.masks = true

/-- The name of a dataset: a non-empty argument, else `meta["dataset_fingerprint"]`, else
`meta["fingerprint"]`. -/
inductive Named : Option String → Option (List (String × String)) → String → Prop
  | given (s i) (h : s ≠ "") : Named (some s) i s
  | long (o d v) (h : o = none ∨ o = some "") (hv : d.lookup "dataset_fingerprint" = some v) :
      Named o (some d) v
  | short (o d v) (h : o = none ∨ o = some "") (hn : d.lookup "dataset_fingerprint" = none)
      (hv : d.lookup "fingerprint" = some v) : Named o (some d) v

end Spec

theorem fromMeta_named {o : Option String} {i : Option (List (String × String))} {v : String}
    (ho : o = none ∨ o = some "") (h : Report.resolveFingerprint.fromMeta i = .ok v) :
    Spec.Named o i v := by
  cases i with
  | none => simp [Report.resolveFingerprint.fromMeta] at h
  | some d =>
    simp only [Report.resolveFingerprint.fromMeta] at h
    split at h
    · rename_i w hw
      cases h
      exact .long _ _ _ ho hw
    · rename_i hn
      split at h
      · rename_i w hw
        cases h
        exact .short _ _ _ ho hn hw
      · cases h

theorem resolve_named {o : Option String} {i : Option (List (String × String))} {v : String}
    (h : Report.resolveFingerprint o i = .ok v) : Spec.Named o i v := by
  cases o with
  | none => exact fromMeta_named (.inl rfl) h
  | some s =>
    simp only [Report.resolveFingerprint] at h
    by_cases hs : s = ""
    · subst hs
      rw [if_neg (by simp)] at h
      exact fromMeta_named (.inr rfl) h
    · rw [if_pos hs] at h
      cases h
      exact .given _ _ hs

theorem compute_ok {env : Env B P} {c : Call B P} {x : Result (Info P) × Place}
    (h : compute env c = .ok x) :
    ∃ fp a, Report.resolveFingerprint c.provided c.data.info = .ok fp ∧ draw env c = .ok a ∧
      x = (⟨⟨c.now, fp, env.hash fp c.plan c.seed, c.plan⟩, a.indices, a.masks⟩,
        (fp, env.hash fp c.plan c.seed)) := by
  unfold compute at h
  rw [ebind_ok] at h
  obtain ⟨fp, h1, h⟩ := h
  rw [ebind_ok] at h
  obtain ⟨a, h2, h⟩ := h
  cases h
  exact ⟨fp, a, h1, h2, rfl⟩

theorem sample_ok {env : Env B P} {c : Call B P} {st : Store P} {r : Result (Info P)}
    {o : Option Place} (h : (sample env c st).2 = .ok (r, o)) :
    ∃ p, compute env c = .ok (r, p) ∧ o = (if c.save then some p else none) ∧
      (c.save = true → ∃ d, save r c.overwrite (st p) = .ok d ∧ (sample env c st).1 = put st p d) ∧
      (c.save = false → (sample env c st).1 = st) := by
  cases hc : compute env c with
  | error e => simp [sample, hc] at h
  | ok x =>
    obtain ⟨r', p⟩ := x
    cases hs : c.save with
    | false =>
      simp only [sample, hc, hs, Bool.false_eq_true, if_false, Except.ok.injEq, Prod.mk.injEq] at h
      obtain ⟨rfl, rfl⟩ := h
      exact ⟨p, rfl, by simp, by simp, by simp [sample, hc, hs]⟩
    | true =>
      cases hd : save r' c.overwrite (st p) with
      | error e => simp [sample, hc, hs, hd] at h
      | ok d =>
        simp only [sample, hc, hs, if_true, hd, Except.ok.injEq, Prod.mk.injEq] at h
        obtain ⟨rfl, rfl⟩ := h
        exact ⟨p, rfl, by simp, fun _ => ⟨d, hd, by simp [sample, hc, hs, hd]⟩, by simp⟩

/-- **C205 (what is returned).** A call that returns drew its arrays with the graph sampler exactly if
the training data has edges or masks, from the three seeds derived from the call's seed; it names the
dataset by the rule of `Spec.Named`; it reports a place exactly if asked to save, and that place is the
dataset's name and the hash of name, plan and seed.  None of this looks at the stored splits. -/
theorem C205_returned (env : Env B P) (c : Call B P) (st : Store P) (r : Result (Info P))
    (o : Option Place) (h : (sample env c st).2 = .ok (r, o)) :
    (∃ a : Arrays, r.indices = a.indices ∧ r.masks = a.masks ∧
      (Spec.isGraph c.data → env.graph c.data c.plan (env.derive c.seed "split")
        (env.derive c.seed "labeling") (env.derive c.seed "imbalance") = .ok a) ∧
      (¬ Spec.isGraph c.data → env.plain c.data c.plan (env.derive c.seed "split")
        (env.derive c.seed "labeling") (env.derive c.seed "imbalance") = .ok a)) ∧
    Spec.Named c.provided c.data.info r.info.datasetFp ∧
    r.info.splitFp = env.hash r.info.datasetFp c.plan c.seed ∧ r.info.plan = c.plan ∧
    r.info.createdAt = c.now ∧
    (c.save = true → o = some (r.info.datasetFp, r.info.splitFp)) ∧ (c.save = false → o = none) := by
  obtain ⟨p, hc, ho, -, -⟩ := sample_ok h
  obtain ⟨fp, a, h1, h2, hx⟩ := compute_ok hc
  cases hx
  refine ⟨⟨a, rfl, rfl, ?_, ?_⟩, resolve_named h1, rfl, rfl, rfl, ?_, ?_⟩
  · intro hg
    unfold draw at h2
    rwa [if_pos (by simpa [Spec.isGraph] using hg)] at h2
  · intro hg
    unfold draw at h2
    rwa [if_neg (by simpa [Spec.isGraph] using hg)] at h2
  · intro hs; simpa [hs] using ho
  · intro hs; simpa [hs] using ho

/-- **C205 (reproducible).** Two calls with the same data, name, plan and seed that both return, at any
times, on any stored splits and whatever they were asked to save, return the same arrays under the same
fingerprints. -/
theorem C205_reproducible (env : Env B P) (c c' : Call B P) (st st' : Store P)
    (r r' : Result (Info P)) (o o' : Option Place) (hd : c.data = c'.data) (hp : c.plan = c'.plan)
    (hs : c.seed = c'.seed) (hn : c.provided = c'.provided)
    (h : (sample env c st).2 = .ok (r, o)) (h' : (sample env c' st').2 = .ok (r', o')) :
    r.indices = r'.indices ∧ r.masks = r'.masks ∧ r.info.datasetFp = r'.info.datasetFp ∧
      r.info.splitFp = r'.info.splitFp := by
  obtain ⟨p, hc, -⟩ := sample_ok h
  obtain ⟨p', hc', -⟩ := sample_ok h'
  obtain ⟨fp, a, h1, h2, hx⟩ := compute_ok hc
  obtain ⟨fp', a', h1', h2', hx'⟩ := compute_ok hc'
  cases hx
  cases hx'
  have ha : draw env c = draw env c' := by simp only [draw, hd, hp, hs]
  rw [hn, hd, h1'] at h1
  cases h1
  rw [ha, h2'] at h2
  cases h2
  simp [hp, hs]

/-- **C205 (one place for each request).** If the hash does not collide on two requests, their stored splits are at
the same place exactly if their dataset names, plans and seeds are the same. -/
theorem C205_place (env : Env B P) (c c' : Call B P) (st st' : Store P)
    (r r' : Result (Info P)) (p p' : Place)
    (hinj : env.hash r.info.datasetFp c.plan c.seed = env.hash r'.info.datasetFp c'.plan c'.seed →
      r.info.datasetFp = r'.info.datasetFp ∧ c.plan = c'.plan ∧ c.seed = c'.seed)
    (h : (sample env c st).2 = .ok (r, some p)) (h' : (sample env c' st').2 = .ok (r', some p')) :
    p = p' ↔ r.info.datasetFp = r'.info.datasetFp ∧ c.plan = c'.plan ∧ c.seed = c'.seed := by
  obtain ⟨q, hc, ho, -⟩ := sample_ok h
  obtain ⟨q', hc', ho', -⟩ := sample_ok h'
  obtain ⟨fp, a, h1, h2, hx⟩ := compute_ok hc
  obtain ⟨fp', a', h1', h2', hx'⟩ := compute_ok hc'
  cases hx
  cases hx'
  have hp : p = (fp, env.hash fp c.plan c.seed) := by
    cases hs : c.save <;> simp [hs] at ho; exact ho
  have hp' : p' = (fp', env.hash fp' c'.plan c'.seed) := by
    cases hs : c'.save <;> simp [hs] at ho'; exact ho'
  subst hp hp'
  constructor
  · intro e
    exact hinj (Prod.mk.inj e).2
  · rintro ⟨e1, e2, e3⟩
    simp only at e1
    rw [e1, e2, e3]

/-- **C205 (an exception stores nothing).** -/
theorem C205_raised (env : Env B P) (c : Call B P) (st : Store P) (e : PyErr)
    (h : (sample env c st).2 = .error e) : (sample env c st).1 = st := by
  cases hc : compute env c with
  | error e => simp [sample, hc]
  | ok x =>
    obtain ⟨r, p⟩ := x
    cases hs : c.save with
    | false => simp [sample, hc, hs]
    | true =>
      cases hd : save r c.overwrite (st p) with
      | error e => simp [sample, hc, hs, hd]
      | ok d => simp [sample, hc, hs, hd] at h

/-- **C205 (when saving is refused).** If the call without saving returns `r`, then with saving it is
refused with a "file exists" exception exactly if the place is taken and overwriting was not asked for;
otherwise it returns the same `r`. -/
theorem C205_refused (env : Env B P) (c : Call B P) (st : Store P) (r : Result (Info P))
    (h : (sample env { c with save := false } st).2 = .ok (r, none)) (hs : c.save = true) :
    ((sample env c st).2 = .error .fileExists ↔
      (st (r.info.datasetFp, r.info.splitFp)).dirExists = true ∧ c.overwrite = false) ∧
    ((sample env c st).2 ≠ .error .fileExists →
      (sample env c st).2 = .ok (r, some (r.info.datasetFp, r.info.splitFp))) := by
  obtain ⟨p, hc, -⟩ := sample_ok h
  have hc' : compute env c = .ok (r, p) := hc
  obtain ⟨fp, a, h1, h2, hx⟩ := compute_ok hc'
  have hp : p = (r.info.datasetFp, r.info.splitFp) := by cases hx; rfl
  subst hp
  have key := C16_existing_refused r c.overwrite (saveOps r).length
    (st (r.info.datasetFp, r.info.splitFp))
  cases hd : save r c.overwrite (st (r.info.datasetFp, r.info.splitFp)) with
  | error e =>
    have he : e = .fileExists := by
      unfold save saveCrash at hd
      split at hd
      · cases hd; rfl
      · cases hd
    subst he
    have hk := key.1 hd
    have hx : (sample env c st).2 = .error .fileExists := by simp only [sample, hc', hs, if_true, hd]
    exact ⟨⟨fun _ => hk, fun _ => hx⟩, fun hh => absurd hx hh⟩
  | ok d =>
    have hne : ¬ ((st (r.info.datasetFp, r.info.splitFp)).dirExists = true ∧ c.overwrite = false) := by
      intro hh
      have := key.2 hh
      unfold save at hd
      rw [this] at hd
      cases hd
    refine ⟨⟨fun hh => ?_, fun hh => absurd hh hne⟩, fun _ => ?_⟩
    · simp [sample, hc', hs, hd] at hh
    · simp [sample, hc', hs, hd]

theorem sample_store (env : Env B P) (c : Call B P) (st : Store P) (p : Place) :
    (Spec.storedAt p [(sample env c st).2] = [] ∧ (sample env c st).1 p = st p) ∨
    (∃ r, Spec.storedAt p [(sample env c st).2] = [r] ∧ load ((sample env c st).1 p) = .ok r ∧
      ((sample env c st).1 p).dirExists = true ∧
      ((st p).dirExists = true → c.overwrite = true)) := by
  cases hx : (sample env c st).2 with
  | error e => left; exact ⟨by simp [Spec.storedAt], by rw [C205_raised env c st e hx]⟩
  | ok x =>
    obtain ⟨r, o⟩ := x
    obtain ⟨q, hc, ho, h1, h2⟩ := sample_ok hx
    cases hs : c.save with
    | false =>
      left
      simp only [hs, Bool.false_eq_true, if_false] at ho
      subst ho
      exact ⟨by simp [Spec.storedAt], by rw [h2 hs]⟩
    | true =>
      simp only [hs, if_true] at ho
      subst ho
      obtain ⟨d, hd, he⟩ := h1 hs
      by_cases hq : q = p
      · subst hq
        right
        refine ⟨r, by simp [Spec.storedAt], ?_, ?_, ?_⟩
        · rw [he]; simpa [put] using C16_save_load r _ _ _ hd
        · rw [he]
          unfold save saveCrash at hd
          split at hd
          · cases hd
          · obtain rfl := Except.ok.inj hd
            simp [put, saveOps, Op.run]
        · intro hdir
          cases hov : c.overwrite with
          | true => rfl
          | false =>
            exfalso
            have := (C16_existing_refused r c.overwrite (saveOps r).length (st q)).2 ⟨hdir, hov⟩
            unfold save at hd
            rw [this] at hd
            cases hd
      · left
        refine ⟨by simp [Spec.storedAt, hq], ?_⟩
        rw [he]
        have : p ≠ q := fun e => hq e.symm
        simp [put, this]

theorem storedAt_cons (p : Place) (o : Spec.Outcome P) (os : List (Spec.Outcome P)) :
    Spec.storedAt p (o :: os) = Spec.storedAt p [o] ++ Spec.storedAt p os := by
  unfold Spec.storedAt
  rw [← List.filterMap_append]
  rfl

/-- **C205 (the last stored split is what is there).** After any history of calls on any store, a place
holds what it held before if no call reported a split stored there, and otherwise it loads exactly the
split of the last such call: refused, failing and non-saving calls and calls for other places leave no
trace. -/
theorem C205_history (env : Env B P) (cs : List (Call B P)) (st : Store P) (p : Place) :
    (Spec.storedAt p (runAll env cs st).2 = [] → (runAll env cs st).1 p = st p) ∧
    (∀ r, (Spec.storedAt p (runAll env cs st).2).getLast? = some r →
      load ((runAll env cs st).1 p) = .ok r) := by
  induction cs generalizing st with
  | nil => exact ⟨fun _ => rfl, by simp [runAll, Spec.storedAt]⟩
  | cons c cs ih =>
    obtain ⟨i1, i2⟩ := ih (sample env c st).1
    simp only [runAll]
    rw [storedAt_cons]
    rcases sample_store env c st p with ⟨h1, h2⟩ | ⟨r, h1, h2, -⟩
    · rw [h1, List.nil_append]
      exact ⟨fun h => (i1 h).trans h2, i2⟩
    · rw [h1]
      refine ⟨by simp, fun r' hr' => ?_⟩
      by_cases hn : Spec.storedAt p (runAll env cs (sample env c st).1).2 = []
      · rw [hn] at hr'
        simp only [List.append_nil, List.getLast?_singleton, Option.some.injEq] at hr'
        subst hr'
        rw [i1 hn]
        exact h2
      · apply i2
        rw [List.getLast?_append] at hr'
        cases hl : (Spec.storedAt p (runAll env cs (sample env c st).1).2).getLast? with
        | none => exact absurd (List.getLast?_eq_none_iff.1 hl) hn
        | some x => simpa [hl] using hr'

/-- **C205 (the first stored split stays).** In a history without overwriting, at most one call reports
a split stored at a place, and none if the place was taken before; so by `C205_history` a stored split
is never replaced. -/
theorem C205_first_stays (env : Env B P) (cs : List (Call B P)) (st : Store P) (p : Place)
    (hov : ∀ c ∈ cs, c.overwrite = false) :
    (Spec.storedAt p (runAll env cs st).2).length ≤ 1 ∧
    ((st p).dirExists = true → Spec.storedAt p (runAll env cs st).2 = []) := by
  induction cs generalizing st with
  | nil => simp [runAll, Spec.storedAt]
  | cons c cs ih =>
    obtain ⟨i1, i2⟩ := ih (sample env c st).1 (fun c' hc' => hov c' (List.mem_cons_of_mem _ hc'))
    simp only [runAll]
    rw [storedAt_cons]
    rcases sample_store env c st p with ⟨h1, h2⟩ | ⟨r, h1, -, h3, h4⟩
    · rw [h1, List.nil_append]
      refine ⟨i1, fun h => i2 (by rw [h2]; exact h)⟩
    · rw [h1, i2 h3]
      refine ⟨by simp, fun h => ?_⟩
      have := h4 h
      rw [hov c (List.mem_cons_self)] at this
      cases this

theorem sample_taken {env : Env B P} {c : Call B P} {st : Store P} {r : Result (Info P)} {p : Place}
    (hc : compute env c = .ok (r, p)) (hs : c.save = true) (hov : c.overwrite = false)
    (hdir : (st p).dirExists = true) : (sample env c st).2 = .error .fileExists := by
  have hr : save r c.overwrite (st p) = .error .fileExists :=
    (C16_existing_refused r c.overwrite (saveOps r).length (st p)).2 ⟨hdir, hov⟩
  simp only [sample, hc, hs, if_true, hr]

/-- **C205 (asking again, violated).** "Asking again for a stored split gives it back" is false, for
every dataset, plan and seed: a saving call repeated later without overwriting samples again and then
raises "file exists". -/
theorem C205_again_violated (env : Env B P) (c : Call B P) (st : Store P) (later : Nat)
    (r : Result (Info P)) (p : Place) (h : (sample env c st).2 = .ok (r, some p)) :
    (sample env { c with overwrite := false, now := later } (sample env c st).1).2
      = .error .fileExists := by
  obtain ⟨q, hc, ho, h1, -⟩ := sample_ok h
  have hs : c.save = true := by
    cases hs : c.save with
    | true => rfl
    | false => simp [hs] at ho
  obtain ⟨d, hd, he⟩ := h1 hs
  have hdir : d.dirExists = true := by
    unfold save saveCrash at hd
    split at hd
    · cases hd
    · obtain rfl := Except.ok.inj hd
      simp [saveOps, Op.run]
  obtain ⟨fp, a, e1, e2, hx⟩ := compute_ok hc
  have hc' : compute env { c with overwrite := false, now := later } =
      .ok (⟨⟨later, fp, env.hash fp c.plan c.seed, c.plan⟩, a.indices, a.masks⟩, q) := by
    have e2' : draw env { c with overwrite := false, now := later } = .ok a := e2
    unfold compute
    simp only [e1, e2', bind, Except.bind]
    cases hx
    rfl
  have hst : (sample env c st).1 q = d := by rw [he]; simp [put]
  exact sample_taken hc' hs rfl (by rw [hst]; exact hdir)

/-- A small environment: the sampler lists the numbers of the body below the seed. -/
def demo : Env (List Int) Nat where
  hash f p s := f ++ "/" ++ toString p ++ "/" ++ toString s
  derive s _ := s.toNat
  graph d _ _ _ _ := .ok ⟨[], [("train", d.body.map fun x => decide (0 < x))]⟩
  plain d _ _ _ _ := .ok ⟨[("train", d.body)], []⟩

/-- A saving call on a plain dataset. -/
def demoCall (b : List Int) (ov : Bool) : Call (List Int) Nat :=
  ⟨⟨some [("fingerprint", "a")], false, false, b⟩, 3, 7, none, true, ov, 0⟩

/-- Non-vacuity: a first call is stored, a second refused, a third with overwriting replaces it. -/
example :
    (runAll demo [demoCall [1] false, demoCall [2] false, demoCall [3] true] (fun _ => {})).2 =
      [.ok (⟨⟨0, "a", "a/3/7", 3⟩, [("train", [1])], []⟩, some ("a", "a/3/7")),
       .error .fileExists,
       .ok (⟨⟨0, "a", "a/3/7", 3⟩, [("train", [3])], []⟩, some ("a", "a/3/7"))] := by
  decide +kernel

/-- Non-vacuity of `C205_place`: requests with different seeds do not collide and are stored apart. -/
example : ∃ r r' p p', (sample demo (demoCall [1] false) (fun _ => {})).2 = .ok (r, some p) ∧
    (sample demo { demoCall [1] false with seed := 8 } (fun _ => {})).2 = .ok (r', some p') ∧
    demo.hash "a" 3 7 ≠ demo.hash "a" 3 8 ∧ p ≠ p' ∧
    load ((sample demo (demoCall [1] false) (fun _ => {})).1 p) = .ok r :=
  ⟨⟨⟨0, "a", "a/3/7", 3⟩, [("train", [1])], []⟩, ⟨⟨0, "a", "a/3/8", 3⟩, [("train", [1])], []⟩,
    ("a", "a/3/7"), ("a", "a/3/8"), by decide +kernel⟩

/-- Non-vacuity of `C205_refused`: the call without saving returns and the place is taken. -/
example : ∃ r, (sample demo { demoCall [1] false with save := false }
      (sample demo (demoCall [1] false) (fun _ => {})).1).2 = .ok (r, none) ∧
    ((sample demo (demoCall [1] false) (fun _ => {})).1 (r.info.datasetFp, r.info.splitFp)).dirExists
      = true :=
  ⟨⟨⟨0, "a", "a/3/7", 3⟩, [("train", [1])], []⟩, by decide +kernel⟩

/-- **C205 (other data, violated).** "A stored split is only ever replaced by a split of the same data"
is false: two datasets with different contents and the same fingerprint share a place, and saving the
second with overwriting replaces the split of the first, under the same fingerprints. -/
theorem C205_other_data_violated :
    ∃ (env : Env (List Int) Nat) (c c' : Call (List Int) Nat) (r r' : Result (Info Nat)) (p : Place),
      c.data.body ≠ c'.data.body ∧
      (sample env c (fun _ => {})).2 = .ok (r, some p) ∧
      (sample env c' (sample env c (fun _ => {})).1).2 = .ok (r', some p) ∧
      load ((sample env c' (sample env c (fun _ => {})).1).1 p) = .ok r' ∧
      r'.indices ≠ r.indices ∧ r'.info = r.info :=
  ⟨demo, demoCall [1] false, demoCall [2] true, ⟨⟨0, "a", "a/3/7", 3⟩, [("train", [1])], []⟩,
    ⟨⟨0, "a", "a/3/7", 3⟩, [("train", [2])], []⟩, ("a", "a/3/7"), by decide +kernel⟩

end ModSSC.Sampling.History
