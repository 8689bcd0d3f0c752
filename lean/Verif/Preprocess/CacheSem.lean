import Verif.Preprocess.StoreProps

/-!
# What a step fingerprint stands for

A fingerprint covers the provenance of the declared inputs, which are fingerprints themselves.
`Val` says which value a provenance string stands for; it is a function because a fingerprint
determines its payload and a step reads only its declared inputs.
-/

namespace ModSSC.Preprocess
open ModSSC Spec

variable {V P S : Type}

/-- What the cache needs of the artifacts a step returns: each key once; nothing beyond an empty
declaration; whatever is not declared can be stored; what is stored is read back unchanged, from its
own file. -/
structure OutsOk (cdc : Codec V) (sp : StepSpec) (outs : Store V) : Prop where
  nodup : (Assoc.keys outs).Nodup
  empty : sp.produces = [] → outs = []
  extra : ∀ p ∈ outs, p.1 ∉ sp.produces → cdc.suffix p.2 ≠ none
  faithful : Faithful cdc outs
  distinct : DistinctFiles cdc outs

/-- The contract under which caching is sound: steps read only what they declare, return artifacts
the cache can handle, and the hashes do not collide. -/
structure CacheOk (E : Env V P S) (cdc : Codec V) (ds : Dataset V) : Prop where
  reads : ∀ id sp, E.spec id = some sp → ReadsOnly E id sp.consumes
  outs : ∀ id sp, E.spec id = some sp → ∀ obj s outs obj',
    E.transform id obj s = .ok (outs, obj') → OutsOk cdc sp outs
  stepFp_inj : Function.Injective E.stepFp
  stepFp_raw : ∀ κ k, E.stepFp κ ≠ datasetFp E ds ++ ":" ++ k
  fitFp_inj : Function.Injective E.fitFp

/-- Every step returns all the artifacts it declares, and all of them can be stored. -/
def Complete (E : Env V P S) (cdc : Codec V) : Prop :=
  ∀ id sp, E.spec id = some sp → ∀ obj s outs obj', E.transform id obj s = .ok (outs, obj') →
    (∀ k ∈ sp.produces, k ∈ Assoc.keys outs) ∧ ∀ p ∈ outs, cdc.suffix p.2 ≠ none

/-- A step whose transform leaves no trace on later transforms of the same object (in particular,
one that draws no random numbers when transforming). -/
def Pure (E : Env V P S) : Prop :=
  ∀ id obj s outs obj', E.transform id obj s = .ok (outs, obj') → ∀ s',
    (E.transform id obj' s').map (·.1) = (E.transform id obj s').map (·.1)

/-- The step object prepared from a payload and the training store. -/
def Prep (E : Env V P S) (κ : StepKey P) (s : Store V) (obj : S) : Prop :=
  ∃ obj0, E.start κ.stepId κ.params κ.seed = .ok obj0 ∧
    ((κ.kind = .fittable ∧ ∃ l, κ.fitFp = some (E.fitFp l) ∧ E.fit κ.stepId obj0 s l = .ok obj) ∨
     (κ.kind ≠ .fittable ∧ obj = obj0))

/-- Provenance and store mention the same keys among `R`. -/
def SameDom (R : List String) (pr : List (String × String)) (s : Store V) : Prop :=
  ∀ k ∈ R, (Assoc.get pr k).isSome = (Assoc.get s k).isSome

/-- The value a provenance string stands for, by split (`false`: train) and key. -/
inductive Val (E : Env V P S) (ds : Dataset V) : Bool → String → String → V → Prop
  | rawTrain {k : String} {v : V} (h : Assoc.get (initialStore ds.train) k = some v) :
      Val E ds false (datasetFp E ds ++ ":" ++ k) k v
  | rawTest {t : Split V} {k : String} {v : V} (ht : ds.test = some t)
      (h : Assoc.get (initialStore t) k = some v) :
      Val E ds true (datasetFp E ds ++ ":" ++ k) k v
  | train {κ : StepKey P} {sp : StepSpec} {s outs : Store V} {pr : List (String × String)}
      {obj obj' : S} {k : String} {v : V}
      (hsp : E.spec κ.stepId = some sp) (hin : κ.inputsTrain = inputsOf pr sp.consumes)
      (hdom : SameDom sp.consumes pr s)
      (hval : ∀ k ∈ sp.consumes, ∀ p v, Assoc.get pr k = some p → Assoc.get s k = some v →
        Val E ds false p k v)
      (hprep : Prep E κ s obj) (ht : E.transform κ.stepId obj s = .ok (outs, obj'))
      (hk : Assoc.get outs k = some v) : Val E ds false (E.stepFp κ) k v
  | test {κ : StepKey P} {sp : StepSpec} {s t outs outsT : Store V} {pr prT : List (String × String)}
      {obj obj' obj'' : S} {k : String} {v : V}
      (hsp : E.spec κ.stepId = some sp) (hin : κ.inputsTrain = inputsOf pr sp.consumes)
      (hdom : SameDom sp.consumes pr s)
      (hval : ∀ k ∈ sp.consumes, ∀ p v, Assoc.get pr k = some p → Assoc.get s k = some v →
        Val E ds false p k v)
      (hinT : κ.inputsTest = inputsOf prT sp.consumes)
      (hdomT : SameDom sp.consumes prT t)
      (hvalT : ∀ k ∈ sp.consumes, ∀ p v, Assoc.get prT k = some p → Assoc.get t k = some v →
        Val E ds true p k v)
      (hprep : Prep E κ s obj) (ht : E.transform κ.stepId obj s = .ok (outs, obj'))
      (htT : E.transform κ.stepId obj' t = .ok (outsT, obj''))
      (hk : Assoc.get outsT k = some v) : Val E ds true (E.stepFp κ) k v

/-! ## Uniqueness -/

theorem inputsOf_get {pr pr' : List (String × String)} {R : List String}
    (h : inputsOf pr R = inputsOf pr' R) : ∀ k ∈ R, Assoc.get pr k = Assoc.get pr' k := by
  have hmem : ∀ (pr : List (String × String)) k p, k ∈ R →
      ((k, p) ∈ inputsOf pr R ↔ Assoc.get pr k = some p) := by
    intro pr k p hk
    unfold inputsOf
    simp only [List.mem_filterMap, Option.map_eq_some_iff, Prod.mk.injEq]
    constructor
    · rintro ⟨k', -, p', h1, rfl, rfl⟩; exact h1
    · intro h1; exact ⟨k, hk, p, h1, rfl, rfl⟩
  intro k hk
  cases h1 : Assoc.get pr k with
  | some p =>
    have := (hmem pr k p hk).mpr h1
    rw [h] at this
    exact ((hmem pr' k p hk).mp this).symm
  | none =>
    cases h2 : Assoc.get pr' k with
    | none => rfl
    | some p =>
      have := (hmem pr' k p hk).mpr h2
      rw [← h] at this
      rw [(hmem pr k p hk).mp this] at h1
      simp at h1

theorem prep_fun {E : Env V P S} {cdc : Codec V} {ds : Dataset V} (H : CacheOk E cdc ds)
    {κ : StepKey P} {sp : StepSpec} (hsp : E.spec κ.stepId = some sp) {s s' : Store V}
    (h : AgreeOn Assoc.get sp.consumes s s') {obj obj' : S} (h1 : Prep E κ s obj)
    (h2 : Prep E κ s' obj') : obj = obj' := by
  obtain ⟨o1, hs1, h1⟩ := h1
  obtain ⟨o2, hs2, h2⟩ := h2
  rw [hs1, Except.ok.injEq] at hs2
  subst hs2
  rcases h1 with ⟨hk, l, hl, hf⟩ | ⟨hk, rfl⟩ <;> rcases h2 with ⟨hk', l', hl', hf'⟩ | ⟨hk', rfl⟩
  · rw [hl, Option.some.injEq] at hl'
    have := H.fitFp_inj hl'
    subst this
    rw [(H.reads _ _ hsp).1 o1 s s' l h, hf', Except.ok.injEq] at hf
    exact hf.symm
  · exact absurd hk hk'
  · exact absurd hk' hk
  · rfl

theorem agree_of {E : Env V P S} {ds : Dataset V} {b : Bool} {R : List String}
    {pr pr' : List (String × String)} {s s' : Store V}
    (hpr : ∀ k ∈ R, Assoc.get pr k = Assoc.get pr' k) (hd : SameDom R pr s) (hd' : SameDom R pr' s')
    (hv : ∀ k ∈ R, ∀ p v, Assoc.get pr k = some p → Assoc.get s k = some v →
      ∀ v', Val E ds b p k v' → v = v')
    (hv' : ∀ k ∈ R, ∀ p v, Assoc.get pr' k = some p → Assoc.get s' k = some v → Val E ds b p k v) :
    AgreeOn Assoc.get R s s' := by
  intro k hk
  have h1 := hd k hk
  have h2 := hd' k hk
  rw [← hpr k hk, h1] at h2
  cases hs : Assoc.get s k with
  | none =>
    rw [hs] at h2
    cases hs' : Assoc.get s' k with
    | none => rfl
    | some v => rw [hs'] at h2; simp at h2
  | some v =>
    rw [hs] at h1 h2
    cases hs' : Assoc.get s' k with
    | none => rw [hs'] at h2; simp at h2
    | some v' =>
      cases hp : Assoc.get pr k with
      | none => rw [hp] at h1; simp at h1
      | some p =>
        have hp' : Assoc.get pr' k = some p := by rw [← hpr k hk, hp]
        rw [hv k hk p v hp hs v' (hv' k hk p v' hp' hs')]

theorem val_fun {E : Env V P S} {cdc : Codec V} {ds : Dataset V} (H : CacheOk E cdc ds)
    {b : Bool} {p k : String} {v : V} (h : Val E ds b p k v) :
    ∀ {v' : V}, Val E ds b p k v' → v = v' := by
  induction h with
  | rawTrain h =>
    intro v' h'
    generalize hp : datasetFp E ds ++ ":" ++ _ = p at h'
    cases h' with
    | rawTrain h' => rw [h, Option.some.injEq] at h'; exact h'
    | train => exact absurd hp.symm (H.stepFp_raw _ _)
  | rawTest ht h =>
    intro v' h'
    generalize hp : datasetFp E ds ++ ":" ++ _ = p at h'
    cases h' with
    | rawTest ht' h' =>
      rw [ht, Option.some.injEq] at ht'
      subst ht'
      rw [h, Option.some.injEq] at h'; exact h'
    | test => exact absurd hp.symm (H.stepFp_raw _ _)
  | @train κ sp s outs pr obj obj' k v hsp hin hdom hval hprep ht hk ih =>
    intro v' h'
    generalize hp : E.stepFp κ = p at h'
    cases h' with
    | rawTrain h' => exact absurd hp (H.stepFp_raw _ _)
    | @train κ' sp' s' outs' pr' o o' _ _ hsp' hin' hdom' hval' hprep' ht' hk' =>
      have := H.stepFp_inj hp
      subst this
      rw [hsp, Option.some.injEq] at hsp'
      subst hsp'
      have hag : AgreeOn Assoc.get sp.consumes s s' :=
        agree_of (inputsOf_get (hin.symm.trans hin')) hdom hdom'
          (fun k hk p v h1 h2 v' h3 => ih k hk p v h1 h2 h3) hval'
      have ho := prep_fun H hsp hag hprep hprep'
      subst ho
      rw [(H.reads _ _ hsp).2 obj s s' hag, ht', Except.ok.injEq, Prod.mk.injEq] at ht
      rw [← ht.1, hk', Option.some.injEq] at hk
      exact hk.symm
  | @test κ sp s t outs outsT pr prT obj obj' obj'' k v hsp hin hdom hval hinT hdomT hvalT hprep ht
      htT hk ih ihT =>
    intro v' h'
    generalize hp : E.stepFp κ = p at h'
    cases h' with
    | rawTest _ h' => exact absurd hp (H.stepFp_raw _ _)
    | @test κ' sp' s' t' outs' outsT' pr' prT' o o' o'' _ _ hsp' hin' hdom' hval' hinT' hdomT' hvalT'
        hprep' ht' htT' hk' =>
      have := H.stepFp_inj hp
      subst this
      rw [hsp, Option.some.injEq] at hsp'
      subst hsp'
      have hag : AgreeOn Assoc.get sp.consumes s s' :=
        agree_of (inputsOf_get (hin.symm.trans hin')) hdom hdom'
          (fun k hk p v h1 h2 v' h3 => ih k hk p v h1 h2 h3) hval'
      have hagT : AgreeOn Assoc.get sp.consumes t t' :=
        agree_of (inputsOf_get (hinT.symm.trans hinT')) hdomT hdomT'
          (fun k hk p v h1 h2 v' h3 => ihT k hk p v h1 h2 h3) hvalT'
      have ho := prep_fun H hsp hag hprep hprep'
      subst ho
      rw [(H.reads _ _ hsp).2 obj s s' hag, ht', Except.ok.injEq, Prod.mk.injEq] at ht
      rw [← ht.2, (H.reads _ _ hsp).2 o' t t' hagT, htT', Except.ok.injEq, Prod.mk.injEq] at htT
      rw [← htT.1, hk', Option.some.injEq] at hk
      exact hk.symm

/-! ## Outputs of a payload -/

/-- A store holds what the recorded provenance of the declared inputs stands for. -/
def Inputs (E : Env V P S) (ds : Dataset V) (b : Bool) (R : List String)
    (inputs : List (String × String)) (s : Store V) : Prop :=
  ∃ pr, inputs = inputsOf pr R ∧ SameDom R pr s ∧
    ∀ k ∈ R, ∀ p v, Assoc.get pr k = some p → Assoc.get s k = some v → Val E ds b p k v

theorem inputs_agree {E : Env V P S} {cdc : Codec V} {ds : Dataset V} (H : CacheOk E cdc ds)
    {b : Bool} {R : List String} {inputs : List (String × String)} {s s' : Store V}
    (h : Inputs E ds b R inputs s) (h' : Inputs E ds b R inputs s') :
    AgreeOn Assoc.get R s s' := by
  obtain ⟨pr, h1, h2, h3⟩ := h
  obtain ⟨pr', h1', h2', h3'⟩ := h'
  exact agree_of (inputsOf_get (h1.symm.trans h1')) h2 h2'
    (fun k hk p v hp hs v' hv' => val_fun H (h3 k hk p v hp hs) hv') h3'

/-- Training outputs of a payload, with the object left behind. -/
def TrainOut (E : Env V P S) (ds : Dataset V) (κ : StepKey P) (outs : Store V) (obj' : S) : Prop :=
  ∃ sp s obj, E.spec κ.stepId = some sp ∧ Inputs E ds false sp.consumes κ.inputsTrain s ∧
    Prep E κ s obj ∧ E.transform κ.stepId obj s = .ok (outs, obj')

/-- Test outputs of a payload. -/
def TestOut (E : Env V P S) (ds : Dataset V) (κ : StepKey P) (outsT : Store V) : Prop :=
  ∃ sp outs obj' t obj'', E.spec κ.stepId = some sp ∧ TrainOut E ds κ outs obj' ∧
    Inputs E ds true sp.consumes κ.inputsTest t ∧ E.transform κ.stepId obj' t = .ok (outsT, obj'')

theorem trainOut_of {E : Env V P S} {cdc : Codec V} {ds : Dataset V} (H : CacheOk E cdc ds)
    {κ : StepKey P} {outs : Store V} {obj obj' : S} {sp : StepSpec} {s : Store V}
    (h : TrainOut E ds κ outs obj') (hsp : E.spec κ.stepId = some sp)
    (hin : Inputs E ds false sp.consumes κ.inputsTrain s) (hp : Prep E κ s obj) :
    E.transform κ.stepId obj s = .ok (outs, obj') := by
  obtain ⟨sp', s', o, hsp', hin', hp', ht'⟩ := h
  rw [hsp, Option.some.injEq] at hsp'
  subst hsp'
  have hag := inputs_agree H hin hin'
  have ho := prep_fun H hsp hag hp hp'
  subst ho
  rw [(H.reads _ _ hsp).2 obj s s' hag, ht']

theorem trainOut_fun {E : Env V P S} {cdc : Codec V} {ds : Dataset V} (H : CacheOk E cdc ds)
    {κ : StepKey P} {outs outs' : Store V} {obj obj' : S} (h : TrainOut E ds κ outs obj)
    (h' : TrainOut E ds κ outs' obj') : outs = outs' ∧ obj = obj' := by
  obtain ⟨sp, s, o, hsp, hin, hp, ht⟩ := h
  have := trainOut_of H h' hsp hin hp
  rw [ht, Except.ok.injEq, Prod.mk.injEq] at this
  exact this

theorem testOut_of {E : Env V P S} {cdc : Codec V} {ds : Dataset V} (H : CacheOk E cdc ds)
    {κ : StepKey P} {outs outsT : Store V} {obj' : S} {sp : StepSpec} {t : Store V}
    (h : TestOut E ds κ outsT) (hsp : E.spec κ.stepId = some sp) (htr : TrainOut E ds κ outs obj')
    (hin : Inputs E ds true sp.consumes κ.inputsTest t) :
    ∃ obj'', E.transform κ.stepId obj' t = .ok (outsT, obj'') := by
  obtain ⟨sp', outs', o', t', o'', hsp', htr', hin', ht'⟩ := h
  rw [hsp, Option.some.injEq] at hsp'
  subst hsp'
  obtain ⟨-, rfl⟩ := trainOut_fun H htr htr'
  exact ⟨o'', by rw [(H.reads _ _ hsp).2 _ t t' (inputs_agree H hin hin'), ht']⟩

theorem testOut_fun {E : Env V P S} {cdc : Codec V} {ds : Dataset V} (H : CacheOk E cdc ds)
    {κ : StepKey P} {outs outs' : Store V} (h : TestOut E ds κ outs)
    (h' : TestOut E ds κ outs') : outs = outs' := by
  obtain ⟨sp, o, obj', t, o'', hsp, htr, hin, ht⟩ := h
  obtain ⟨o3, ht'⟩ := testOut_of H h' hsp htr hin
  rw [ht, Except.ok.injEq, Prod.mk.injEq] at ht'
  exact ht'.1

/-- Outputs of a payload on the split directory of that name. -/
def Out (E : Env V P S) (ds : Dataset V) (κ : StepKey P) (split : String) (outs : Store V) : Prop :=
  (split = "train" ∧ ∃ obj', TrainOut E ds κ outs obj') ∨ (split = "test" ∧ TestOut E ds κ outs)

theorem out_fun {E : Env V P S} {cdc : Codec V} {ds : Dataset V} (H : CacheOk E cdc ds)
    {κ : StepKey P} {split : String} {outs outs' : Store V} (h : Out E ds κ split outs)
    (h' : Out E ds κ split outs') : outs = outs' := by
  rcases h with ⟨rfl, o, h⟩ | ⟨rfl, h⟩ <;> rcases h' with ⟨hs, o', h'⟩ | ⟨hs, h'⟩
  · exact (trainOut_fun H h h').1
  · simp at hs
  · simp at hs
  · exact testOut_fun H h h'

theorem out_transform {E : Env V P S} {ds : Dataset V} {κ : StepKey P} {split : String}
    {outs : Store V} (h : Out E ds κ split outs) :
    ∃ obj s obj', E.transform κ.stepId obj s = .ok (outs, obj') := by
  rcases h with ⟨rfl, o, sp', s, obj, hsp', -, -, ht⟩ | ⟨rfl, sp', o, obj', t, o'', hsp', -, -, ht⟩
  · exact ⟨_, _, _, ht⟩
  · exact ⟨_, _, _, ht⟩

theorem out_props {E : Env V P S} {cdc : Codec V} {ds : Dataset V} (H : CacheOk E cdc ds)
    {κ : StepKey P} {split : String} {outs : Store V} {sp : StepSpec}
    (hsp : E.spec κ.stepId = some sp) (h : Out E ds κ split outs) : OutsOk cdc sp outs := by
  obtain ⟨obj, s, obj', ht⟩ := out_transform h
  exact H.outs _ _ hsp _ _ _ _ ht

theorem out_complete {E : Env V P S} {cdc : Codec V} {ds : Dataset V} (H : Complete E cdc)
    {κ : StepKey P} {split : String} {outs : Store V} {sp : StepSpec}
    (hsp : E.spec κ.stepId = some sp) (h : Out E ds κ split outs) :
    (∀ k ∈ sp.produces, k ∈ Assoc.keys outs) ∧ stored cdc outs = outs := by
  obtain ⟨obj, s, obj', ht⟩ := out_transform h
  obtain ⟨h1, h2⟩ := H _ _ hsp _ _ _ _ ht
  refine ⟨h1, ?_⟩
  unfold stored
  rw [List.filter_eq_self]
  intro p hp
  cases hs : cdc.suffix p.2 with
  | none => exact absurd hs (h2 p hp)
  | some _ => rfl

/-- A training output is what the fingerprint stands for. -/
theorem val_of_trainOut {E : Env V P S} {ds : Dataset V} {κ : StepKey P} {outs : Store V}
    {obj' : S} (h : TrainOut E ds κ outs obj') {k : String} {v : V}
    (hk : Assoc.get outs k = some v) : Val E ds false (E.stepFp κ) k v := by
  obtain ⟨sp, s, obj, hsp, ⟨pr, h1, h2, h3⟩, hp, ht⟩ := h
  exact .train hsp h1 h2 h3 hp ht hk

theorem val_of_testOut {E : Env V P S} {ds : Dataset V} {κ : StepKey P} {outs : Store V}
    (h : TestOut E ds κ outs) {k : String} {v : V}
    (hk : Assoc.get outs k = some v) : Val E ds true (E.stepFp κ) k v := by
  obtain ⟨sp, o, obj', t, o'', hsp, htr, ⟨prT, h1, h2, h3⟩, ht⟩ := h
  obtain ⟨sp', s, obj, hsp', ⟨pr, g1, g2, g3⟩, hp, htt⟩ := htr
  rw [hsp, Option.some.injEq] at hsp'
  subst hsp'
  exact .test hsp g1 g2 g3 h1 h2 h3 hp htt ht hk

end ModSSC.Preprocess
