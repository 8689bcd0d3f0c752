import Verif.Bench.SchemaProps

/-!
# Search spaces and whole configurations (C129)
-/

namespace ModSSC.Bench
open ModSSC ModSSC.Bench.Spec

theorem requireReal_iff {v : PyVal} {q : Rat} : Hpo.requireReal v = .ok q ↔ Num v q := by
  cases v <;> simp [Hpo.requireReal, Num, eq_comm]

theorem requireInt_iff {v : PyVal} {i : Int} : Hpo.requireInt v = .ok i ↔ v = .int i := by
  cases v <;> simp [Hpo.requireInt]

theorem distValues_none_iff {d : Dict} {k : String} : Hpo.distValues (Assoc.get d k) = .ok none ↔ Unset d k := by
  unfold Unset
  rcases Assoc.get d k with _ | v
  · simp [Hpo.distValues]
  · cases v <;> simp [Hpo.distValues]

theorem distValues_some_iff {d : Dict} {k : String} {l : List PyVal} :
    Hpo.distValues (Assoc.get d k) = .ok (some l) ↔ Assoc.get d k = some (.list l) := by
  rcases Assoc.get d k with _ | v
  · simp [Hpo.distValues]
  · cases v <;> simp [Hpo.distValues]

theorem getD_none_iff {d : Dict} {k : String} : (Assoc.get d k).getD .none = .none ↔ Unset d k := by
  unfold Unset
  rcases Assoc.get d k with _ | v <;> simp

theorem getD_iff {d : Dict} {k : String} {v : PyVal} (hv : v ≠ .none) :
    (Assoc.get d k).getD .none = v ↔ Assoc.get d k = some v := by
  rcases Assoc.get d k with _ | w
  · simp [hv.symm]
  · simp

theorem toStr_iff {d : Dict} {k s : String} (hs : s ≠ "?") :
    ((Assoc.get d k).getD .none).toStr = s ↔ Assoc.get d k = some (.str s) := by
  rcases Assoc.get d k with _ | w
  · simp [PyVal.toStr, hs.symm]
  · cases w <;> simp [PyVal.toStr, hs.symm]

theorem num_ne_none {v : PyVal} {q : Rat} (h : Num v q) : v ≠ .none := by
  rcases h with ⟨i, rfl, -⟩ | rfl <;> simp

theorem refuse_else_iff {P : Prop} [Decidable P] {x : Except PyErr Unit} {u : Unit} :
    (if P then .error .validation else x) = .ok u ↔ ¬ P ∧ x = .ok u := by
  split <;> simp_all

theorem validate_iff (t : String) (lo hi : PyVal) (vs : Option (List PyVal)) :
    Hpo.validateDistribution ⟨t, lo, hi, vs⟩ = .ok () ↔
      (∃ l h, (t = "uniform" ∨ t = "loguniform" ∧ 0 < l) ∧ Num lo l ∧ Num hi h ∧ l < h ∧ vs = none) ∨
      (∃ l h : Int, t = "randint" ∧ lo = .int l ∧ hi = .int h ∧ l < h ∧ vs = none) ∨
      (∃ l, t = "choice" ∧ vs = some l ∧ l ≠ [] ∧ lo = .none ∧ hi = .none) := by
  unfold Hpo.validateDistribution
  simp only
  by_cases h1 : t = "uniform"
  · subst h1
    simp only [if_true, bind_ok_iff, requireReal_iff, refuse_else_iff, and_true, String.reduceEq, false_and, or_false,
      true_and, exists_false, not_le, ge_iff_le, Bool.not_eq_true, Option.isSome_eq_false_iff, Option.isNone_iff_eq_none]
    constructor
    · rintro ⟨l, hl, h, hh, hlt, hv⟩; exact ⟨l, h, hl, hh, hlt, hv⟩
    · rintro ⟨l, h, hl, hh, hlt, hv⟩; exact ⟨l, hl, h, hh, hlt, hv⟩
  rw [if_neg h1]
  by_cases h2 : t = "loguniform"
  · subst h2
    simp only [if_true, bind_ok_iff, requireReal_iff, refuse_else_iff, and_true, String.reduceEq, false_and, or_false,
      false_or, true_and, exists_false, not_le, ge_iff_le, Bool.not_eq_true, Option.isSome_eq_false_iff,
      Option.isNone_iff_eq_none]
    constructor
    · rintro ⟨l, hl, h, hh, h0, hlt, hv⟩; exact ⟨l, h, h0, hl, hh, hlt, hv⟩
    · rintro ⟨l, h, h0, hl, hh, hlt, hv⟩; exact ⟨l, hl, h, hh, h0, hlt, hv⟩
  rw [if_neg h2]
  by_cases h3 : t = "randint"
  · subst h3
    simp only [if_true, bind_ok_iff, requireInt_iff, refuse_else_iff, and_true, String.reduceEq, false_and, or_false,
      false_or, true_and, exists_false, not_le, ge_iff_le, Bool.not_eq_true, Option.isSome_eq_false_iff,
      Option.isNone_iff_eq_none]
    constructor
    · rintro ⟨l, hl, h, hh, hlt, hv⟩; exact ⟨l, h, hl, hh, hlt, hv⟩
    · rintro ⟨l, h, hl, hh, hlt, hv⟩; exact ⟨l, hl, h, hh, hlt, hv⟩
  rw [if_neg h3]
  by_cases h4 : t = "choice"
  · subst h4
    rcases vs with _ | l
    · simp
    · simp only [if_true, refuse_else_iff, and_true, String.reduceEq, false_and, or_false, false_or, true_and,
        exists_false, Option.some.injEq, exists_eq_left', ne_eq, not_or, not_not]
  · simp [h1, h2, h3, h4]

/-- The checks of a distribution, in terms of the mapping. -/
theorem distLeaf_ok_iff {d : Dict} {pre : List String} (hp : pre ≠ []) :
    (∃ leaf, Hpo.distLeaf d pre = .ok leaf) ↔ DistOk d := by
  have hkeys : ((Assoc.keys d).any (fun k => !(["dist", "low", "high", "values"].contains k)) = false) ↔
      OnlyKeys d ["dist", "low", "high", "values"] := by
    simp [OnlyKeys, ← or_iff_not_imp_left]
  unfold Hpo.distLeaf DistOk
  rw [if_neg hp]
  by_cases hk : OnlyKeys d ["dist", "low", "high", "values"]
  swap
  · have : (Assoc.keys d).any (fun k => !(["dist", "low", "high", "values"].contains k)) = true := by
      by_contra h; exact hk (hkeys.mp (by simpa using h))
    rw [if_pos this]
    simp [hk]
  rw [if_neg (by rw [hkeys.mpr hk]; simp)]
  simp only [bind_ok_iff, hk, true_and]
  have hstr : ∀ {s : String}, s ≠ "?" → (((Assoc.get d "dist").getD .none).toStr = s ↔
      Assoc.get d "dist" = some (.str s)) := fun h => toStr_iff h
  constructor
  · rintro ⟨_, vs, hvs, ⟨⟩, hv, -⟩
    rcases (validate_iff _ _ _ _).mp hv with ⟨l, h, ht, hl, hh, hlt, rfl⟩ | ⟨l, h, ht, hl, hh, hlt, rfl⟩ |
      ⟨l, ht, rfl, hne, hlo, hhi⟩
    · refine .inl ⟨_, _, l, h, ?_, (getD_iff (num_ne_none hl)).mp rfl, (getD_iff (num_ne_none hh)).mp rfl, hl, hh, hlt,
        distValues_none_iff.mp hvs⟩
      rcases ht with ht | ⟨ht, h0⟩
      · exact .inl ((hstr (by decide)).mp ht)
      · exact .inr ⟨(hstr (by decide)).mp ht, h0⟩
    · exact .inr (.inl ⟨l, h, (hstr (by decide)).mp ht, (getD_iff (by simp)).mp hl, (getD_iff (by simp)).mp hh, hlt,
        distValues_none_iff.mp hvs⟩)
    · exact .inr (.inr ⟨l, (hstr (by decide)).mp ht, distValues_some_iff.mp hvs, hne, getD_none_iff.mp hlo,
        getD_none_iff.mp hhi⟩)
  · rintro (⟨lo, hi, l, h, ht, hlo, hhi, hl, hh, hlt, hu⟩ | ⟨l, h, ht, hl, hh, hlt, hu⟩ | ⟨l, ht, hl, hne, hlo, hhi⟩)
    · refine ⟨_, none, distValues_none_iff.mpr hu, (), (validate_iff _ _ _ _).mpr (.inl ⟨l, h, ?_, ?_, ?_, hlt, rfl⟩), rfl⟩
      · rcases ht with ht | ⟨ht, h0⟩
        · exact .inl ((hstr (by decide)).mpr ht)
        · exact .inr ⟨(hstr (by decide)).mpr ht, h0⟩
      · rw [hlo]; exact hl
      · rw [hhi]; exact hh
    · exact ⟨_, none, distValues_none_iff.mpr hu, (), (validate_iff _ _ _ _).mpr (.inr (.inl ⟨l, h,
        (hstr (by decide)).mpr ht, by rw [hl]; rfl, by rw [hh]; rfl, hlt, rfl⟩)), rfl⟩
    · exact ⟨_, some l, distValues_some_iff.mpr hl, (), (validate_iff _ _ _ _).mpr (.inr (.inr ⟨l,
        (hstr (by decide)).mpr ht, rfl, hne, getD_none_iff.mpr hlo, getD_none_iff.mpr hhi⟩)), rfl⟩

theorem checkLeaf_iff {path : List String} {u : Unit} : checkLeaf path = .ok u ↔ InParams path := by
  constructor
  · intro h
    unfold checkLeaf at h
    split at h
    · exact ⟨_, _, rfl⟩
    · cases h
  · rintro ⟨k, rest, rfl⟩
    rfl

mutual
theorem space_iff : ∀ (v : PyVal) (path : List String),
    (walkSpace v path = .ok () ∧ ∃ ls, Hpo.walk v path = .ok ls) ↔ SpaceAt path v
  | .none, path => by
    simp only [walkSpace, reduceCtorEq, false_and, false_iff]; rintro ⟨⟩
  | .bool _, path => by
    simp only [walkSpace, reduceCtorEq, false_and, false_iff]; rintro ⟨⟩
  | .int _, path => by
    simp only [walkSpace, reduceCtorEq, false_and, false_iff]; rintro ⟨⟩
  | .flt _, path => by
    simp only [walkSpace, reduceCtorEq, false_and, false_iff]; rintro ⟨⟩
  | .str _, path => by
    simp only [walkSpace, reduceCtorEq, false_and, false_iff]; rintro ⟨⟩
  | .list l, path => by
    simp only [walkSpace, Hpo.walk]
    constructor
    · rintro ⟨h, -⟩
      rw [refuse_else_iff, checkLeaf_iff] at h
      exact .values h.1 h.2
    · rintro ⟨hl, hp⟩
      rw [if_neg hl, checkLeaf_iff]
      exact ⟨hp, _, if_neg hl⟩
  | .dict d, path => by
    simp only [walkSpace, Hpo.walk]
    by_cases hd : d = []
    · subst hd
      simp only [if_true, reduceCtorEq, false_and, false_iff]
      intro h
      cases h with
      | dist h _ _ => simp [Assoc.keys] at h
      | node h _ _ _ => exact h rfl
    rw [if_neg hd, if_neg hd]
    by_cases hk : Assoc.has d "dist"
    · rw [if_pos hk, if_pos hk, checkLeaf_iff]
      have hmem := Assoc.has_iff.mp hk
      constructor
      · rintro ⟨hp, ls, hw⟩
        rw [bind_ok_iff] at hw
        obtain ⟨leaf, hl, -⟩ := hw
        have hne : path ≠ [] := by obtain ⟨k, r, rfl⟩ := hp; simp
        exact .dist hmem ((distLeaf_ok_iff hne).mp ⟨leaf, hl⟩) hp
      · intro h
        cases h with
        | dist _ hok hp =>
          have hne : path ≠ [] := by obtain ⟨k, r, rfl⟩ := hp; simp
          obtain ⟨leaf, hl⟩ := (distLeaf_ok_iff hne).mpr hok
          exact ⟨hp, _, bind_ok_iff.mpr ⟨leaf, hl, rfl⟩⟩
        | node _ hn _ _ => exact absurd hmem hn
    · rw [if_neg hk, if_neg hk]
      have hmem : "dist" ∉ Assoc.keys d := fun h => hk (Assoc.has_iff.mpr h)
      have hex : (∃ ls, (do let rs ← Hpo.walkEntries d path
                            Except.ok ((Hpo.byKey rs).flatMap (·.2))) = Except.ok ls) ↔
          ∃ rs, Hpo.walkEntries d path = .ok rs := by
        simp only [bind_ok_iff]
        constructor
        · rintro ⟨_, rs, h, -⟩; exact ⟨rs, h⟩
        · rintro ⟨rs, h⟩; exact ⟨_, rs, h, rfl⟩
      rw [hex, spaceEntries_iff d path]
      constructor
      · rintro ⟨h1, h2⟩; exact .node hd hmem h1 h2
      · intro h
        cases h with
        | dist h _ _ => exact absurd h hmem
        | node _ _ h1 h2 => exact ⟨h1, h2⟩

theorem spaceEntries_iff : ∀ (d : Dict) (path : List String),
    (walkSpaceEntries d path = .ok () ∧ ∃ rs, Hpo.walkEntries d path = .ok rs) ↔
      (∀ p ∈ d, p.1 ≠ "") ∧ ∀ p ∈ d, SpaceAt (path ++ [p.1]) p.2
  | [], path => by simp [walkSpaceEntries, Hpo.walkEntries]
  | (k, v) :: d, path => by
    have h1 := space_iff v (path ++ [k])
    have h2 := spaceEntries_iff d path
    simp only [walkSpaceEntries, Hpo.walkEntries, List.forall_mem_cons]
    by_cases hk : k = ""
    · simp [hk]
    rw [if_neg hk, if_neg hk]
    rcases hw : walkSpace v (path ++ [k]) with e | ⟨⟩
    · have hno : ¬ SpaceAt (path ++ [k]) v := fun h => by
        have := (h1.mpr h).1
        rw [hw] at this; cases this
      simp [hno]
    · simp only [bind_ok_iff]
      constructor
      · rintro ⟨h3, _, r, hr, rs, hrs, -⟩
        have ha := h1.mp ⟨hw, r, hr⟩
        have hb := h2.mp ⟨h3, rs, hrs⟩
        exact ⟨⟨hk, hb.1⟩, ha, hb.2⟩
      · rintro ⟨⟨-, h3⟩, h4, h5⟩
        obtain ⟨-, r, hr⟩ := h1.mpr h4
        obtain ⟨h6, rs, hrs⟩ := h2.mpr ⟨h3, h5⟩
        exact ⟨h6, _, r, hr, rs, hrs, rfl⟩
end

mutual
theorem walk_ne_nil : ∀ (v : PyVal) (path : List String) (ls : List Hpo.Leaf), Hpo.walk v path = .ok ls → ls ≠ []
  | .none, _, _, h => by simp [Hpo.walk] at h
  | .bool _, _, _, h => by simp [Hpo.walk] at h
  | .int _, _, _, h => by simp [Hpo.walk] at h
  | .flt _, _, _, h => by simp [Hpo.walk] at h
  | .str _, _, _, h => by simp [Hpo.walk] at h
  | .list l, path, ls, h => by
    simp only [Hpo.walk] at h
    split at h
    · cases h
    · injection h with h; subst h; simp
  | .dict d, path, ls, h => by
    simp only [Hpo.walk] at h
    split at h
    · cases h
    · rename_i hd
      split at h
      · rw [bind_ok_iff] at h
        obtain ⟨leaf, -, h⟩ := h
        injection h with h; subst h; simp
      · rw [bind_ok_iff] at h
        obtain ⟨rs, hrs, h⟩ := h
        injection h with h
        subst h
        obtain ⟨hne, hall⟩ := walkEntries_ne_nil d path rs hrs
        have hrs' := hne hd
        obtain ⟨p, hp⟩ := List.exists_mem_of_ne_nil rs hrs'
        have hp' : p ∈ Hpo.byKey rs := (Hpo.byKey_perm rs).mem_iff.mpr hp
        intro hnil
        rw [List.flatMap_eq_nil_iff] at hnil
        exact hall p hp (hnil p hp')

theorem walkEntries_ne_nil : ∀ (d : Dict) (path : List String) (rs : List (String × List Hpo.Leaf)),
    Hpo.walkEntries d path = .ok rs → (d ≠ [] → rs ≠ []) ∧ ∀ p ∈ rs, p.2 ≠ []
  | [], _, rs, h => by
    simp only [Hpo.walkEntries] at h
    injection h with h; subst h
    simp
  | (k, v) :: d, path, rs, h => by
    simp only [Hpo.walkEntries] at h
    split at h
    · cases h
    · simp only [bind_ok_iff] at h
      obtain ⟨r, hr, rs', hrs, h⟩ := h
      injection h with h; subst h
      have h1 := walk_ne_nil v _ r hr
      have h2 := (walkEntries_ne_nil d path rs' hrs).2
      refine ⟨by simp, ?_⟩
      intro p hp
      rcases List.mem_cons.mp hp with rfl | hp
      · exact h1
      · exact h2 p hp
end

theorem fromDict_ok_iff {d : Dict} (hd : d ≠ []) :
    (∃ ls, Hpo.fromDict d = .ok ls) ↔ ∃ ls, Hpo.walk (.dict d) [] = .ok ls := by
  unfold Hpo.fromDict
  rw [if_neg hd]
  simp only [bind_ok_iff]
  constructor
  · rintro ⟨_, ls, h, -⟩; exact ⟨ls, h⟩
  · rintro ⟨ls, h⟩
    exact ⟨ls, ls, h, if_neg (walk_ne_nil _ _ _ h)⟩

theorem spaceAt_ne_nil {d : Dict} (h : SpaceAt [] (.dict d)) : d ≠ [] := by
  cases h with
  | dist h _ hp => obtain ⟨k, r, hp⟩ := hp; cases hp
  | node h _ _ _ => exact h

theorem checkTrials_iff {kind : String} {seed n : Option Int} {u : Unit} : checkTrials kind seed n = .ok u ↔
    (∀ i, n = some i → 0 < i) ∧ (kind = "random" → seed ≠ none ∧ n ≠ none) := by
  unfold checkTrials
  rw [refuse_else_iff, refuse_ok_iff]
  rcases n with _ | n
  · simp
  · simp only [Option.any_some, decide_eq_true_eq, not_le, Option.some.injEq, forall_eq', reduceCtorEq, or_false, ne_eq,
      not_false_eq_true, and_true, not_and]

theorem parseSearch_iff {env : SchemaEnv} (v : PyVal) (c : SearchConfig) :
    parseSearch env v = .ok c ↔ ∃ s, v = .dict s ∧ SearchMeans env s c := by
  unfold parseSearch
  simp only [bind_ok_iff, asMapping_iff, checkUnknown_iff, requireBool_iff, requireStr_iff, check_ok_iff, optionalInt_iff,
    checkTrials_iff, refuse_ok_iff, parseObjective_iff, optionalMapping_iff, nonEmpty_iff, pure, Except.pure,
    Except.ok.injEq]
  constructor
  · rintro ⟨s, hs, -, hk, en, hen, kind, hkind, -, hkinds, sd, hsd, n, hn, -, htr, r, hr, -, hrp, ob, hob, sp, hsp, -,
      hne, ⟨⟩, hw, ls, hls, rfl⟩
    refine ⟨s, hs, hk, hen, hkind, by simpa using hkinds, hsd, ⟨hn, htr.1⟩, htr.2, ?_, by simpa using hrp, hob, hsp, ?_⟩
    · cases r with
      | none => exact .inr ⟨hr, rfl⟩
      | some r => exact .inl hr
    · exact (space_iff _ _).mp ⟨hw, (fromDict_ok_iff hne).mp ⟨ls, hls⟩⟩
  · rintro ⟨s, hs, hk, hen, hkind, hkinds, hsd, ⟨hn, hn'⟩, hrand, hr, hrp, hob, hsp, hspace⟩
    have hne := spaceAt_ne_nil hspace
    obtain ⟨hw, hwalk⟩ := (space_iff _ _).mpr hspace
    obtain ⟨ls, hls⟩ := (fromDict_ok_iff hne).mpr hwalk
    rcases hr with hr | ⟨hr, e⟩
    · exact ⟨s, hs, (), hk, _, hen, _, hkind, (), by simpa using hkinds, _, hsd, _, hn, (), ⟨hn', hrand⟩, some c.repeats,
        hr, (), by simpa using hrp, _, hob, _, hsp, (), hne, (), hw, ls, hls, rfl⟩
    · exact ⟨s, hs, (), hk, _, hen, _, hkind, (), by simpa using hkinds, _, hsd, _, hn, (), ⟨hn', hrand⟩, none,
        hr, (), by simp, _, hob, _, hsp, (), hne, (), hw, ls, hls, by simp [← e]⟩

/-- C129: a configuration is accepted exactly when it has a meaning, and what is run is that meaning. -/
theorem C129_meaning (env : SchemaEnv) (ht : env.blank "torch" = false) (data : Dict) (c : ExperimentConfig) :
    configFromDict env data = .ok c ↔ Means env data c := by
  unfold configFromDict
  simp only [bind_ok_iff, checkUnknown_iff, parseRun_iff, whenPresent_iff parseLimits_iff, parseDataset_iff,
    parseSampling_iff, parsePreprocess_iff, whenPresent_iff parsePlan_iff, whenPresent_iff parseGraph_iff,
    whenPresent_iff parseAugmentation_iff, parseMethod_iff ht, parseEvaluation_iff, whenPresent_iff parseSearch_iff, pure,
    Except.pure, Except.ok.injEq]
  constructor
  · rintro ⟨-, hk, r, hr, l, hl, d, hd, s, hs, p, hp, v, hv, g, hg, a, ha, m, hm, e, he, se, hse, rfl⟩
    exact ⟨hk, hr, hl, hd, hs, hp, hv, hg, ha, hm, he, hse⟩
  · rintro ⟨hk, hr, hl, hd, hs, hp, hv, hg, ha, hm, he, hse⟩
    exact ⟨(), hk, _, hr, _, hl, _, hd, _, hs, _, hp, _, hv, _, hg, _, ha, _, hm, _, he, _, hse, rfl⟩

end ModSSC.Bench
