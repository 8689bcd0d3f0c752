import Verif.Bench.SchemaSpec
import Verif.ExceptLemmas
import Verif.Hpo.SpaceProps

/-!
# Benchmark configurations (C129)
-/

namespace ModSSC.Bench
open ModSSC ModSSC.Bench.Spec

theorem bind_ok_iff {α β : Type} {x : Except PyErr α} {f : α → Except PyErr β} {b : β} :
    (x >>= f) = .ok b ↔ ∃ a, x = .ok a ∧ f a = .ok b := by
  cases x with
  | error e => simp [bind, Except.bind]
  | ok a => simp [bind, Except.bind]

theorem check_ok_iff {P : Prop} [Decidable P] {u : Unit} : (if P then Except.ok () else Except.error PyErr.validation) = .ok u ↔ P := by
  split <;> simp_all

theorem refuse_ok_iff {P : Prop} [Decidable P] {u : Unit} :
    (if P then Except.error PyErr.validation else Except.ok ()) = .ok u ↔ ¬ P := by
  split <;> simp_all

theorem checkUnknown_iff {d : Dict} {ks : List String} {u : Unit} : checkUnknown d ks = .ok u ↔ OnlyKeys d ks := by
  unfold checkUnknown OnlyKeys
  rw [check_ok_iff]
  simp

theorem requireStr_iff {env : SchemaEnv} {d : Dict} {k s : String} : requireStr env d k = .ok s ↔ Text env d k s := by
  unfold requireStr Text getOr
  rcases h : Assoc.get d k with _ | v
  · simp
  · cases v <;> simp
    rename_i t
    constructor
    · intro h; split at h <;> simp_all
    · rintro ⟨rfl, h⟩; simp [h]

theorem requireBool_iff {d : Dict} {k : String} {b : Bool} :
    requireBool d k = .ok b ↔ Assoc.get d k = some (.bool b) := by
  unfold requireBool getOr
  rcases h : Assoc.get d k with _ | v
  · simp
  · cases v <;> simp

theorem optionalStr_iff {env : SchemaEnv} {d : Dict} {k : String} {o : Option String} :
    optionalStr env d k = .ok o ↔ TextOpt env d k o := by
  unfold optionalStr getOr
  rcases h : Assoc.get d k with _ | v
  · cases o <;> simp [TextOpt, Unset, Text, h]
  · cases v <;> cases o <;> simp [TextOpt, Unset, Text, h]
    · rename_i t
      split <;> simp
    · rename_i t u
      constructor
      · intro h; split at h <;> simp_all
      · rintro ⟨rfl, h⟩; simp [h]

theorem optionalInt_iff {d : Dict} {k : String} {o : Option Int} : optionalInt d k = .ok o ↔ WholeOpt d k o := by
  unfold optionalInt getOr
  rcases h : Assoc.get d k with _ | v
  · cases o <;> simp [WholeOpt, Unset, h]
  · cases v <;> cases o <;> simp [WholeOpt, Unset, h, Whole]
    rename_i b i
    cases b <;> simp [eq_comm]

theorem optionalPositiveInt_iff {d : Dict} {k : String} {o : Option Int} :
    optionalPositiveInt d k = .ok o ↔ PositiveOpt d k o := by
  unfold optionalPositiveInt PositiveOpt
  rw [← optionalInt_iff]
  rcases optionalInt d k with e | (_ | i)
  · simp
  · constructor
    · rintro ⟨⟩; simp
    · rintro ⟨h, -⟩; exact h
  · constructor
    · intro h
      by_cases hi : i ≤ 0
      · simp [hi] at h
      · simp only [hi, if_false] at h
        refine ⟨h, ?_⟩
        rintro j rfl
        injection h with h; injection h with h
        omega
    · rintro ⟨h, h'⟩
      injection h with h
      subst h
      have := h' i rfl
      have hi : ¬ i ≤ 0 := by omega
      simp [hi]

theorem optionalBool_iff {d : Dict} {k : String} {dflt b : Bool} : optionalBool d k dflt = .ok b ↔ FlagIs d k dflt b := by
  unfold optionalBool FlagIs getOr
  rcases h : Assoc.get d k with _ | v
  · simp [eq_comm]
  · cases v <;> simp

theorem optionalMapping_iff {d m : Dict} {k : String} : optionalMapping d k = .ok m ↔ MapOpt d k m := by
  unfold optionalMapping MapOpt getOr Unset
  rcases h : Assoc.get d k with _ | v
  · simp [eq_comm]
  · cases v <;> simp [eq_comm]

theorem optionalList_iff {d : Dict} {l : List PyVal} {k : String} : optionalList d k = .ok l ↔ ListOpt d k l := by
  unfold optionalList ListOpt getOr Unset
  rcases h : Assoc.get d k with _ | v
  · simp [eq_comm]
  · cases v <;> simp [eq_comm]

theorem asMapping_iff {v : PyVal} {s : Dict} : asMapping v = .ok s ↔ v = .dict s := by
  cases v <;> simp [asMapping]

theorem sect_iff {d s : Dict} {k : String} : asMapping (getOr d k (.dict [])) = .ok s ↔ Sect d k s := by
  rw [asMapping_iff]
  unfold getOr Sect
  rcases h : Assoc.get d k with _ | v
  · simp [eq_comm]
  · simp

theorem printed_iff {env : SchemaEnv} {d : Dict} {k dflt s : String} :
    pyStr env (getOr d k (.str dflt)) = s ↔ PrintedOr env d k dflt s := by
  unfold getOr PrintedOr
  rcases h : Assoc.get d k with _ | v
  · simp [pyStr, eq_comm]
  · simp [eq_comm]

theorem whenPresent_iff {β : Type} {d : Dict} {k : String} {f : PyVal → Except PyErr β} {R : PyVal → β → Prop}
    (hR : ∀ v c, f v = .ok c ↔ R v c) {o : Option β} : whenPresent d k f = .ok o ↔ Optional d k R o := by
  unfold whenPresent Optional
  rcases h : Assoc.get d k with _ | v
  · cases o <;> simp
  · cases o with
    | none => rcases hf : f v with e | c <;> simp [Except.map, hf]
    | some c =>
      simp only [Option.some.injEq, exists_eq_left', ← hR]
      rcases hf : f v with e | c <;> simp [Except.map, hf]

theorem nonEmpty_iff {β : Type} {l : List β} {u : Unit} : nonEmpty l = .ok u ↔ l ≠ [] := by
  cases l <;> simp [nonEmpty]

theorem pyIntOf_iff {env : SchemaEnv} {d : Dict} {i : Int} :
    pyIntOf env (getOr d "seed" (.int 0)) = .ok i ↔ SeedIs env d i := by
  unfold getOr SeedIs
  rcases h : Assoc.get d "seed" with _ | v
  · simp [pyIntOf, eq_comm]
  · cases v <;> simp [pyIntOf, Whole, eq_comm]
    · rename_i b
      cases b <;> simp [eq_comm]
    · rename_i s
      rcases env.parseInt s with _ | j <;> simp

theorem seedItem_iff {v : PyVal} {i : Int} : seedItem v = some i ↔ Whole v i := by
  cases v <;> simp [seedItem, Whole]
  rename_i b
  cases b <;> simp [eq_comm]

theorem seedLoop_iff : ∀ (vs : List PyVal) (out l : List Int), seedLoop vs out = .ok l ↔
    ∃ l', l = out ++ l' ∧ List.Forall₂ Whole vs l' ∧ l'.Nodup ∧ ∀ x ∈ l', x ∉ out := by
  intro vs
  induction vs with
  | nil =>
    intro out l
    simp only [seedLoop, List.forall₂_nil_left_iff, Except.ok.injEq]
    constructor
    · rintro rfl; exact ⟨[], by simp⟩
    · rintro ⟨l', rfl, rfl, -⟩; simp
  | cons v vs ih =>
    intro out l
    unfold seedLoop
    rcases h : seedItem v with _ | i
    · simp only [reduceCtorEq, false_iff]
      rintro ⟨l', -, hf, -⟩
      cases hf with
      | cons hw _ => rw [← seedItem_iff, h] at hw; exact absurd hw (by simp)
    · simp only
      have hw := seedItem_iff.mp h
      have huniq : ∀ j, Whole v j → j = i := by
        intro j hj
        rw [← seedItem_iff, h] at hj
        injection hj with hj; exact hj.symm
      by_cases hi : i ∈ out
      · simp only [hi, if_true, reduceCtorEq, false_iff]
        rintro ⟨l', -, hf, -, hout⟩
        cases hf with
        | cons hw' _ => exact hout _ (List.mem_cons_self ..) (by rw [huniq _ hw']; exact hi)
      · rw [if_neg hi, ih]
        constructor
        · rintro ⟨l', rfl, hf, hn, ho⟩
          refine ⟨i :: l', by simp, .cons hw hf, ?_, ?_⟩
          · refine List.nodup_cons.mpr ⟨fun hm => ?_, hn⟩
            exact ho i hm (by simp)
          · intro x hx
            rcases List.mem_cons.mp hx with rfl | hx
            · exact hi
            · exact fun hm => ho x hx (List.mem_append_left _ hm)
        · rintro ⟨l', rfl, hf, hn, ho⟩
          cases hf with
          | @cons _ j _ t hw' hf =>
            obtain rfl := huniq _ hw'
            obtain ⟨h1, h2⟩ := List.nodup_cons.mp hn
            refine ⟨t, by simp, hf, h2, ?_⟩
            intro x hx hm
            rcases List.mem_append.mp hm with hm | hm
            · exact ho x (List.mem_cons_of_mem _ hx) hm
            · rw [List.mem_singleton] at hm
              subst hm
              exact h1 hx

theorem optionalSeedList_iff {d : Dict} {o : Option (List Int)} :
    optionalSeedList (Assoc.get d "seeds") = .ok o ↔ SeedsIs d o := by
  unfold optionalSeedList
  rcases h : Assoc.get d "seeds" with _ | v
  · cases o <;> simp [SeedsIs, Unset, h]
  · cases v with
    | none => cases o <;> simp [SeedsIs, Unset, h]
    | list l =>
      cases l with
      | nil =>
        cases o with
        | none => simp [SeedsIs, Unset, h]
        | some o => simp only [SeedsIs, h, reduceCtorEq, false_iff]; rintro ⟨⟨vs, hvs, hf⟩, hne, -⟩; simp at hvs; subst hvs; cases hf; exact hne rfl
      | cons v vs =>
        cases o with
        | none =>
          simp only [SeedsIs, Unset, h, Option.some.injEq, reduceCtorEq, or_self, iff_false]
          rcases seedLoop (v :: vs) [] with e | l <;> simp [Except.map]
        | some o =>
          have := seedLoop_iff (v :: vs) [] o
          simp only [SeedsIs, h, Option.some.injEq, PyVal.list.injEq]
          constructor
          · intro h'
            have h'' : seedLoop (v :: vs) [] = .ok o := by
              rcases hs : seedLoop (v :: vs) [] with e | l
              · rw [hs] at h'; simp [Except.map] at h'
              · rw [hs] at h'; simp [Except.map] at h'; rw [h']
            obtain ⟨l', rfl, hf, hn, -⟩ := this.mp h''
            refine ⟨⟨_, rfl, by simpa using hf⟩, ?_, by simpa using hn⟩
            cases hf; simp
          · rintro ⟨⟨ws, rfl, hf⟩, hne, hn⟩
            rw [this.mpr ⟨o, by simp, hf, hn, by simp⟩]
            rfl
    | _ => cases o <;> simp [SeedsIs, Unset, h]

/-! ### The sections -/

theorem parseRun_iff {env : SchemaEnv} {data : Dict} {c : RunConfig} :
    parseRun env data = .ok c ↔ ∃ s, Sect data "run" s ∧ RunMeans env s c := by
  unfold parseRun
  simp only [bind_ok_iff, sect_iff, checkUnknown_iff, optionalBool_iff, requireStr_iff, pyIntOf_iff,
    optionalSeedList_iff, optionalStr_iff, refuse_ok_iff, pure, Except.pure, Except.ok.injEq]
  constructor
  · rintro ⟨s, hs, -, hk, bm, hbm, ff, hff, -, hst, name, hname, seed, hseed, seeds, hseeds, ll, hll, al, hal, rfl⟩
    exact ⟨s, hs, hk, hname, hseed, printed_iff.mp rfl, hseeds, hff, hll, hbm, hal, by
      intro h; by_contra h'; exact hst (by simp_all)⟩
  · rintro ⟨s, hs, hk, hname, hseed, hout, hseeds, hff, hll, hbm, hal, hst⟩
    refine ⟨s, hs, (), hk, _, hbm, _, hff, (), ?_, _, hname, _, hseed, _, hseeds, _, hll, _, hal, ?_⟩
    · intro h; simp at h; have := hst h.1; simp_all
    · rw [printed_iff.mpr hout]

theorem parseProfile_iff {env : SchemaEnv} {d : Dict} {o : Option String} :
    parseProfile env d = .ok o ↔ ProfileIs env d o := by
  unfold parseProfile
  rcases h : optionalStr env d "profile" with e | (_ | p)
  · cases o with
    | none =>
      simp only [ProfileIs, reduceCtorEq, false_iff]
      intro hu
      have := (optionalStr_iff (env := env) (o := none)).mpr hu
      rw [h] at this; cases this
    | some p =>
      simp only [ProfileIs, reduceCtorEq, false_iff]
      rintro ⟨⟨s, hs, -⟩, -⟩
      have := (optionalStr_iff (env := env) (o := some s)).mpr hs
      rw [h] at this; cases this
  · have hu : Unset d "profile" := optionalStr_iff.mp h
    cases o with
    | none => simp [ProfileIs, hu]
    | some p =>
      simp only [ProfileIs, Except.ok.injEq, reduceCtorEq, false_iff]
      rintro ⟨⟨s, hs, -⟩, -⟩
      have := (optionalStr_iff (env := env) (o := some s)).mpr hs
      rw [h] at this; cases this
  · have ht : Text env d "profile" p := optionalStr_iff.mp h
    cases o with
    | none =>
      simp only [ProfileIs]
      constructor
      · intro h'; split at h' <;> simp at h'
      · intro hu
        have := (optionalStr_iff (env := env) (o := none)).mpr hu
        rw [h] at this; cases this
    | some q =>
      simp only [ProfileIs]
      constructor
      · intro h'
        split at h'
        · rename_i hm
          injection h' with h'; injection h' with h'
          subst h'
          exact ⟨⟨p, ht, rfl⟩, by simpa using hm⟩
        · simp at h'
      · rintro ⟨⟨s, hs, rfl⟩, hm⟩
        have := (optionalStr_iff (env := env) (o := some s)).mpr hs
        rw [h] at this
        injection this with this; injection this with this
        subst this
        rw [if_pos (by simpa using hm)]

theorem parseLimits_iff {env : SchemaEnv} (v : PyVal) (c : LimitsConfig) :
    parseLimitsSome env v = .ok c ↔ ∃ s, limitsSect v s ∧ LimitsMeans env s c := by
  have hs : ∀ s, asMapping (emptyIfNone v) = .ok s ↔ limitsSect v s := by
    intro s
    rw [asMapping_iff]
    cases v <;> simp [limitsSect, emptyIfNone, eq_comm]
  unfold parseLimitsSome
  simp only [bind_ok_iff, hs, checkUnknown_iff, parseProfile_iff, optionalPositiveInt_iff, pure, Except.pure,
    Except.ok.injEq]
  constructor
  · rintro ⟨s, hs, -, hk, p, hp, a, ha, b, hb, c1, hc, d, hd, e, he, f, hf, rfl⟩
    exact ⟨s, hs, hk, hp, ha, hb, hc, hd, he, hf⟩
  · rintro ⟨s, hs, hk, hp, ha, hb, hc, hd, he, hf⟩
    exact ⟨s, hs, (), hk, _, hp, _, ha, _, hb, _, hc, _, hd, _, he, _, hf, rfl⟩

theorem parseDataset_iff {env : SchemaEnv} {data : Dict} {c : DatasetConfig} :
    parseDataset env data = .ok c ↔ ∃ s, Sect data "dataset" s ∧ DatasetMeans env s c := by
  unfold parseDataset
  simp only [bind_ok_iff, sect_iff, checkUnknown_iff, requireStr_iff, optionalMapping_iff, optionalBool_iff,
    optionalStr_iff, pure, Except.pure, Except.ok.injEq]
  constructor
  · rintro ⟨s, hs, -, hk, id, hid, o, ho, dl, hdl, cd, hcd, rfl⟩
    exact ⟨s, hs, hk, hid, ho, hdl, hcd⟩
  · rintro ⟨s, hs, hk, hid, ho, hdl, hcd⟩
    exact ⟨s, hs, (), hk, _, hid, _, ho, _, hdl, _, hcd, rfl⟩

theorem parsePlan_iff (v : PyVal) (c : PlanConfig) :
    parsePlan v = .ok c ↔ ∃ s, v = .dict s ∧ PlanMeans s c := by
  unfold parsePlan
  simp only [bind_ok_iff, asMapping_iff, checkUnknown_iff, optionalMapping_iff, nonEmpty_iff, optionalInt_iff, pure,
    Except.pure, Except.ok.injEq]
  constructor
  · rintro ⟨s, hs, -, hk, p, hp, -, hne, sd, hsd, rfl⟩
    exact ⟨s, hs, hk, hsd, hp, hne⟩
  · rintro ⟨s, hs, hk, hsd, hp, hne⟩
    exact ⟨s, hs, (), hk, _, hp, (), hne, _, hsd, rfl⟩

theorem parseSampling_iff {data : Dict} {c : PlanConfig} :
    parsePlan (getOr data "sampling" (.dict [])) = .ok c ↔ ∃ s, Sect data "sampling" s ∧ PlanMeans s c := by
  rw [parsePlan_iff]
  simp only [← sect_iff, asMapping_iff]

theorem parsePreprocess_iff {env : SchemaEnv} {data : Dict} {c : PreprocessConfig} :
    parsePreprocess env data = .ok c ↔ ∃ s, Sect data "preprocess" s ∧ PreprocessMeans env s c := by
  unfold parsePreprocess
  simp only [bind_ok_iff, sect_iff, checkUnknown_iff, optionalMapping_iff, nonEmpty_iff, optionalInt_iff,
    optionalBool_iff, optionalStr_iff, pure, Except.pure, Except.ok.injEq]
  constructor
  · rintro ⟨s, hs, -, hk, p, hp, -, hne, sd, hsd, f, hf, ch, hch, cd, hcd, rfl⟩
    exact ⟨s, hs, hk, hsd, hf, hch, hp, hne, hcd⟩
  · rintro ⟨s, hs, hk, hsd, hf, hch, hp, hne, hcd⟩
    exact ⟨s, hs, (), hk, _, hp, (), hne, _, hsd, _, hf, _, hch, _, hcd, rfl⟩

theorem parseGraph_iff {env : SchemaEnv} (v : PyVal) (c : GraphConfig) :
    parseGraph env v = .ok c ↔ ∃ s, v = .dict s ∧ GraphMeans env s c := by
  unfold parseGraph
  simp only [bind_ok_iff, asMapping_iff, checkUnknown_iff, optionalMapping_iff, optionalInt_iff,
    optionalBool_iff, optionalStr_iff, pure, Except.pure, Except.ok.injEq]
  constructor
  · rintro ⟨s, hs, -, hk, en, hen, sd, hsd, ch, hch, cd, hcd, sp, hsp, rfl⟩
    exact ⟨s, hs, hk, hen, hsd, hch, hsp, hcd⟩
  · rintro ⟨s, hs, hk, hen, hsd, hch, hsp, hcd⟩
    exact ⟨s, hs, (), hk, _, hen, _, hsd, _, hch, _, hcd, _, hsp, rfl⟩

theorem parseAugmentation_iff {env : SchemaEnv} (v : PyVal) (c : AugmentationConfig) :
    parseAugmentation env v = .ok c ↔ ∃ s, v = .dict s ∧ AugmentationMeans env s c := by
  unfold parseAugmentation
  simp only [bind_ok_iff, asMapping_iff, checkUnknown_iff, optionalMapping_iff, optionalInt_iff,
    optionalBool_iff, optionalStr_iff, pure, Except.pure, Except.ok.injEq]
  constructor
  · rintro ⟨s, hs, -, hk, en, hen, sd, hsd, w, hw, st, hst, m, hm, rfl⟩
    exact ⟨s, hs, hk, hen, hsd, printed_iff.mp rfl, hw, hst, hm⟩
  · rintro ⟨s, hs, hk, hen, hsd, hmo, hw, hst, hm⟩
    refine ⟨s, hs, (), hk, _, hen, _, hsd, _, hw, _, hst, _, hm, ?_⟩
    rw [printed_iff.mpr hmo]

theorem parseDevice_iff {env : SchemaEnv} {m : Dict} {c : DeviceConfig} :
    parseDevice env m = .ok c ↔ ∃ s, Sect m "device" s ∧ DeviceMeans env s c := by
  unfold parseDevice
  simp only [bind_ok_iff, sect_iff, checkUnknown_iff, optionalStr_iff, pure, Except.pure, Except.ok.injEq]
  constructor
  · rintro ⟨s, hs, -, hk, r, hr, rfl⟩
    exact ⟨s, hs, hk, printed_iff.mp rfl, printed_iff.mp rfl, hr⟩
  · rintro ⟨s, hs, hk, hd, ht, hr⟩
    refine ⟨s, hs, (), hk, _, hr, ?_⟩
    rw [printed_iff.mpr hd, printed_iff.mpr ht]

theorem parseBackend_iff {env : SchemaEnv} (ht : env.blank "torch" = false) {m : Dict} {s : String} :
    parseBackend env m = .ok s ↔ TextOr env m "classifier_backend" "torch" s := by
  unfold parseBackend TextOr Text getOr
  rcases h : Assoc.get m "classifier_backend" with _ | v
  · constructor
    · intro h'
      simp [ht] at h'
      exact .inr ⟨rfl, h'.symm⟩
    · rintro (⟨h', -⟩ | ⟨-, rfl⟩)
      · cases h'
      · simp [ht]
  · cases v <;> simp
    rename_i t
    constructor
    · intro h; split at h <;> simp_all
    · rintro ⟨rfl, h⟩; simp [h]

theorem parseEma_iff {m : Dict} {o : Option Bool} : parseEma m = .ok o ↔ FlagOpt m "ema" o := by
  unfold parseEma getOr
  rcases h : Assoc.get m "ema" with _ | v
  · cases o <;> simp [FlagOpt, Unset, h]
  · cases v <;> cases o <;> simp [FlagOpt, Unset, h]

theorem map_some_iff {β : Type} {x : Except PyErr β} {o : Option β} :
    x.map some = .ok o ↔ ∃ c, x = .ok c ∧ o = some c := by
  rcases x with e | c
  · simp [Except.map]
  · simp [Except.map, eq_comm]

theorem parseFactory_iff {env : SchemaEnv} {allow : Bool} {m : Dict} {c : ModelConfig} :
    parseFactory env allow m = .ok c ↔ ∃ name params, c = .factory name params ∧ ModelMeans env allow m c := by
  unfold parseFactory
  simp only [bind_ok_iff, check_ok_iff, checkUnknown_iff, requireStr_iff, optionalMapping_iff, pure, Except.pure,
    Except.ok.injEq]
  constructor
  · rintro ⟨-, ha, -, hk, n, hn, p, hp, rfl⟩
    exact ⟨n, p, rfl, ha, hk, hn, hp⟩
  · rintro ⟨n, p, rfl, ha, hk, hn, hp⟩
    exact ⟨(), ha, (), hk, _, hn, _, hp, rfl⟩

theorem parseClassifier_iff {env : SchemaEnv} (ht : env.blank "torch" = false) {allow : Bool} {m : Dict}
    {c : ModelConfig} : parseClassifier env m = .ok c ↔
      ∃ id backend params ema, c = .classifier id backend params ema ∧ ModelMeans env allow m c := by
  unfold parseClassifier
  simp only [bind_ok_iff, checkUnknown_iff, requireStr_iff, optionalMapping_iff, parseBackend_iff ht, parseEma_iff, pure,
    Except.pure, Except.ok.injEq]
  constructor
  · rintro ⟨-, hk, b, hb, e, he, i, hi, p, hp, rfl⟩
    exact ⟨i, b, p, e, rfl, hk, hi, hb, hp, he⟩
  · rintro ⟨i, b, p, e, rfl, hk, hi, hb, hp, he⟩
    exact ⟨(), hk, _, hb, _, he, _, hi, _, hp, rfl⟩

theorem has_of_text {env : SchemaEnv} {d : Dict} {k s : String} (h : Text env d k s) : Assoc.has d k = true :=
  Assoc.has_iff.mpr (Assoc.mem_keys_iff.mpr ⟨_, h.1⟩)

theorem not_has {d : Dict} {ks : List String} (h : OnlyKeys d ks) {k : String} (hk : k ∉ ks) : Assoc.has d k = false := by
  rw [Bool.eq_false_iff]
  exact fun hh => hk (h k (Assoc.has_iff.mp hh))

theorem parseModel_iff {env : SchemaEnv} (ht : env.blank "torch" = false) {allow : Bool} {m : Dict}
    {o : Option ModelConfig} : parseModel env allow m = .ok o ↔ ModelOpt env allow m o := by
  unfold parseModel getOr
  rcases h : Assoc.get m "model" with _ | v
  · cases o <;> simp [ModelOpt, Unset, h]
  · cases v with
    | none => cases o <;> simp [ModelOpt, Unset, h]
    | dict d =>
      simp only [Option.getD_some]
      cases o with
      | none =>
        simp only [ModelOpt, Unset, h, Option.some.injEq, reduceCtorEq, or_self, iff_false]
        split
        · simp
        · split
          · simp [map_some_iff]
          · split
            · simp [map_some_iff]
            · simp
      | some c =>
        simp only [ModelOpt, h, Option.some.injEq, PyVal.dict.injEq, exists_eq_left']
        cases c with
        | factory n p =>
          have key : ModelMeans env allow d (.factory n p) →
              Assoc.has d "factory" = true ∧ Assoc.has d "classifier_id" = false :=
            fun hm => ⟨has_of_text hm.2.2.1, not_has hm.2.1 (by simp)⟩
          constructor
          · intro h'
            split at h'
            · cases h'
            · split at h'
              · rw [map_some_iff] at h'
                obtain ⟨c, hc, e⟩ := h'
                injection e with e; subst e
                obtain ⟨_, _, -, hm⟩ := parseFactory_iff.mp hc
                exact hm
              · split at h'
                · rw [map_some_iff] at h'
                  obtain ⟨c, hc, e⟩ := h'
                  injection e with e; subst e
                  obtain ⟨_, _, _, _, e, -⟩ := (parseClassifier_iff ht (allow := allow)).mp hc
                  cases e
                · cases h'
          · intro hm
            obtain ⟨h1, h2⟩ := key hm
            rw [if_neg (by simp [h2]), if_pos h1, map_some_iff]
            exact ⟨_, parseFactory_iff.mpr ⟨n, p, rfl, hm⟩, rfl⟩
        | classifier i b p e =>
          have key : ModelMeans env allow d (.classifier i b p e) →
              Assoc.has d "factory" = false ∧ Assoc.has d "classifier_id" = true :=
            fun hm => ⟨not_has hm.1 (by simp), has_of_text hm.2.1⟩
          constructor
          · intro h'
            split at h'
            · cases h'
            · split at h'
              · rw [map_some_iff] at h'
                obtain ⟨c, hc, e⟩ := h'
                injection e with e; subst e
                obtain ⟨_, _, e, -⟩ := parseFactory_iff.mp hc
                cases e
              · split at h'
                · rw [map_some_iff] at h'
                  obtain ⟨c, hc, e⟩ := h'
                  injection e with e; subst e
                  obtain ⟨_, _, _, _, -, hm⟩ := (parseClassifier_iff ht (allow := allow)).mp hc
                  exact hm
                · cases h'
          · intro hm
            obtain ⟨h1, h2⟩ := key hm
            rw [if_neg (by simp [h1]), if_neg (by simp [h1]), if_pos h2, map_some_iff]
            exact ⟨_, (parseClassifier_iff ht (allow := allow)).mpr ⟨i, b, p, e, rfl, hm⟩, rfl⟩
    | _ => cases o <;> simp [ModelOpt, Unset, h]

theorem parseMethod_iff {env : SchemaEnv} (ht : env.blank "torch" = false) {allow : Bool} {data : Dict}
    {c : MethodConfig} :
    parseMethod env allow data = .ok c ↔ ∃ s, Sect data "method" s ∧ MethodMeans env allow s c := by
  unfold parseMethod
  simp only [bind_ok_iff, sect_iff, checkUnknown_iff, requireStr_iff, check_ok_iff, parseDevice_iff, parseModel_iff ht,
    optionalMapping_iff, pure, Except.pure, Except.ok.injEq]
  constructor
  · rintro ⟨s, hs, -, hk, kind, hkind, -, hkinds, dev, hdev, mo, hmo, id, hid, p, hp, rfl⟩
    exact ⟨s, hs, hk, hkind, by simpa using hkinds, hid, hdev, hp, hmo⟩
  · rintro ⟨s, hs, hk, hkind, hkinds, hid, hdev, hp, hmo⟩
    exact ⟨s, hs, (), hk, _, hkind, (), by simpa using hkinds, _, hdev, _, hmo, _, hid, _, hp, rfl⟩

theorem printedList_iff {env : SchemaEnv} {d : Dict} {k : String} {vs : List PyVal} (h : ListOpt d k vs) (hne : vs ≠ []) :
    PrintedList env d k (vs.map (pyStr env)) := by
  rcases h with h | ⟨-, rfl⟩
  · exact ⟨vs, h, rfl, by simpa using hne⟩
  · exact absurd rfl hne

theorem parseEvaluation_iff {env : SchemaEnv} {data : Dict} {c : EvaluationConfig} :
    parseEvaluation env data = .ok c ↔ ∃ s, Sect data "evaluation" s ∧ EvaluationMeans env s c := by
  unfold parseEvaluation
  simp only [bind_ok_iff, sect_iff, checkUnknown_iff, optionalList_iff, nonEmpty_iff, optionalStr_iff, pure, Except.pure,
    Except.ok.injEq]
  constructor
  · rintro ⟨s, hs, -, hk, r, hr, m, hm, -, hrn, -, hmn, sel, hsel, rfl⟩
    exact ⟨s, hs, hk, printedList_iff hr hrn, printedList_iff hm hmn, hsel⟩
  · rintro ⟨s, hs, hk, ⟨r, hr, e1, hrn⟩, ⟨m, hm, e2, hmn⟩, hsel⟩
    refine ⟨s, hs, (), hk, r, .inl hr, m, .inl hm, (), ?_, (), ?_, _, hsel, ?_⟩
    · rintro rfl; exact hrn e1
    · rintro rfl; exact hmn e2
    · rw [← e1, ← e2]

theorem parseObjective_iff {env : SchemaEnv} {d : Dict} {c : ObjectiveConfig} :
    parseObjective env d = .ok c ↔ ∃ s, Sect d "objective" s ∧ ObjectiveMeans env s c := by
  unfold parseObjective
  simp only [bind_ok_iff, sect_iff, checkUnknown_iff, requireStr_iff, check_ok_iff, pure, Except.pure, Except.ok.injEq]
  constructor
  · rintro ⟨s, hs, -, hk, sp, hsp, m, hm, di, hdi, ag, hag, -, h1, -, h2, -, h3, -, h4, rfl⟩
    exact ⟨s, hs, hk, hsp, by simpa using h1, hm, h2, hdi, by simpa using h3, hag, h4⟩
  · rintro ⟨s, hs, hk, hsp, h1, hm, h2, hdi, h3, hag, h4⟩
    exact ⟨s, hs, (), hk, _, hsp, _, hm, _, hdi, _, hag, (), by simpa using h1, (), h2, (), by simpa using h3, (), h4,
      rfl⟩

end ModSSC.Bench
