import Verif.Preprocess.CacheSem

/-!
# The cache invariant

Every directory in the cache stands for outputs that the step really has, and every manifest entry
reads back as those outputs.  Saving keeps this at every crash point.
-/

namespace ModSSC.Preprocess
open ModSSC Spec

variable {V P S : Type}

/-- The invariant that holds at every crash point. -/
structure CInv (E : Env V P S) (cdc : Codec V) (ds : Dataset V) (c : Cache V) : Prop where
  dirs : ∀ fp split, split ∈ (dirOf c fp).dirs → ∃ κ outs, fp = E.stepFp κ ∧ Out E ds κ split outs
  entries : ∀ fp split es, entryOf c fp split = some es → split ∈ (dirOf c fp).dirs ∧
    ∃ κ outs, fp = E.stepFp κ ∧ Out E ds κ split outs ∧ EntryOk cdc (dirOf c fp) split outs es

/-- The invariant between completed runs. -/
structure NInv (E : Env V P S) (cdc : Codec V) (ds : Dataset V) (c : Cache V) : Prop where
  entry : ∀ κ split outs, split ∈ (dirOf c (E.stepFp κ)).dirs → Out E ds κ split outs →
    (entryOf c (E.stepFp κ) split).isSome ∧ AllWhole cdc (dirOf c (E.stepFp κ)) split outs
  both : ds.test.isSome → ∀ fp, "train" ∈ (dirOf c fp).dirs → "test" ∈ (dirOf c fp).dirs

theorem cinv_empty (E : Env V P S) (cdc : Codec V) (ds : Dataset V) : CInv E cdc ds [] where
  dirs := by intro fp split h; simp [dirOf] at h
  entries := by intro fp split es h; simp [entryOf, dirOf] at h

theorem ninv_empty (E : Env V P S) (cdc : Codec V) (ds : Dataset V) : NInv E cdc ds [] where
  entry := by intro κ split outs h; simp [dirOf] at h
  both := by intro _ fp h; simp [dirOf] at h

theorem entryOf_ext {fp split : String} {c c' : Cache V} (h : Ext fp split c c') (fp' s : String) :
    entryOf c' fp' s = entryOf c fp' s := by
  unfold entryOf
  by_cases hf : fp' = fp
  · subst hf; rw [h.manifest]
  · rw [h.other fp' hf]

theorem entryOk_congr {cdc : Codec V} {d d' : StepDir V} {split : String} {outs : Store V}
    {es : List (String × String)}
    (h : ∀ n, Assoc.get d'.files (split, n) = Assoc.get d.files (split, n))
    (he : EntryOk cdc d split outs es) : EntryOk cdc d' split outs es := by
  refine ⟨he.1, ?_⟩
  intro k v sfx h1 h2
  rw [h]
  exact he.2 k v sfx h1 h2

theorem entryOk_torn {cdc : Codec V} {d : StepDir V} {split : String} {outs : Store V}
    {es : List (String × String)} (he : EntryOk cdc d split outs es)
    (hw : ¬ AllWhole cdc d split outs) : cdc.tornError = .cacheError := by
  by_contra ht
  apply hw
  intro k v sfx h1 h2
  rcases he.2 k v sfx h1 h2 with h | ⟨h, -⟩
  · exact h
  · exact absurd h ht

/-- Part of a save keeps the invariant, if the split was not recorded yet or torn files are
recognised. -/
theorem cinv_data {E : Env V P S} {cdc : Codec V} {ds : Dataset V} (H : CacheOk E cdc ds)
    {c : Cache V} (hc : CInv E cdc ds c) {κ : StepKey P} {split : String} {outs : Store V}
    {sp : StepSpec} (hsp : E.spec κ.stepId = some sp) (hout : Out E ds κ split outs)
    (hno : entryOf c (E.stepFp κ) split = none ∨ cdc.tornError = .cacheError) {ops : List (Op V)}
    (hops : ∀ op ∈ ops, op = .mkdir (E.stepFp κ) split ∨ op ∈ fileOps cdc (E.stepFp κ) split outs) :
    CInv E cdc ds (applyOps c ops) := by
  have hdata : ∀ op ∈ ops, IsData (E.stepFp κ) split op := by
    intro op hop
    rcases hops op hop with rfl | h
    · exact ⟨rfl, rfl⟩
    · exact fileOps_data op h
  have h : Ext (E.stepFp κ) split c (applyOps c ops) := ext_ops hdata
  constructor
  · intro fp s hs
    by_cases hf : fp = E.stepFp κ
    · subst hf
      rcases h.dirs s hs with hs | rfl
      · exact hc.dirs _ _ hs
      · exact ⟨κ, outs, rfl, hout⟩
    · rw [h.other fp hf] at hs
      exact hc.dirs _ _ hs
  · intro fp s es he
    rw [entryOf_ext h] at he
    obtain ⟨h1, κ', outs', h2, h3, h4⟩ := hc.entries fp s es he
    by_cases hf : fp = E.stepFp κ
    · subst hf
      refine ⟨h.dirsBack _ h1, κ', outs', h2, h3, ?_⟩
      by_cases hs : s = split
      · subst hs
        rcases hno with hno | ht
        · rw [hno] at he; simp at he
        · have := H.stepFp_inj h2
          subst this
          have := out_fun H h3 hout
          subst this
          refine ⟨h4.1, ?_⟩
          intro k v sfx hm hv
          have hok := out_props H hsp hout
          rcases data_ops_file (c := c) (n := safeName k ++ sfx) (v := v) hdata (by
            intro w hw
            rcases hops _ hw with h | h
            · simp at h
            · obtain ⟨k', sfx', g1, g2, g3⟩ := mem_fileOps_end h
              exact distinct_value hok.nodup hok.distinct g1 hm g2 hv g3.symm) with g | g | g
          · rw [g]; exact h4.2 k v sfx hm hv
          · exact .inr ⟨ht, g⟩
          · exact .inl g
      · exact entryOk_congr (fun n => h.files s n hs) h4
    · rw [h.other fp hf]
      exact ⟨h1, κ', outs', h2, h3, h4⟩

theorem cinv_save {E : Env V P S} {cdc : Codec V} {ds : Dataset V} (H : CacheOk E cdc ds)
    {c : Cache V} (hc : CInv E cdc ds c) {κ : StepKey P} {split : String} {outs : Store V}
    {sp : StepSpec} (hsp : E.spec κ.stepId = some sp) (hout : Out E ds κ split outs) :
    CInv E cdc ds (applyOps c (saveOps cdc (E.stepFp κ) split outs)) := by
  have hok := out_props H hsp hout
  obtain ⟨h1, h2, h3, h4, -, h6, h7⟩ :=
    saved_tree (cdc := cdc) (fp := E.stepFp κ) (split := split) (c := c) hok.distinct
  generalize applyOps c (saveOps cdc (E.stepFp κ) split outs) = c' at *
  constructor
  · intro fp s hs
    by_cases hf : fp = E.stepFp κ
    · subst hf
      rcases (h2 s).mp hs with hs | rfl
      · exact hc.dirs _ _ hs
      · exact ⟨κ, outs, rfl, hout⟩
    · rw [h1 fp hf] at hs
      exact hc.dirs _ _ hs
  · intro fp s es he
    by_cases hf : fp = E.stepFp κ
    · subst hf
      by_cases hs : s = split
      · subst hs
        rw [h6, Option.some.injEq] at he
        subst he
        exact ⟨(h2 s).mpr (.inr rfl), κ, outs, rfl, hout, rfl,
          fun k v sfx g1 g2 => .inl (h7 k v sfx g1 g2)⟩
      · rw [h3 s hs] at he
        obtain ⟨g1, κ', outs', g2, g3, g4⟩ := hc.entries _ s es he
        exact ⟨(h2 s).mpr (.inl g1), κ', outs', g2, g3, entryOk_congr (fun n => h4 s n hs) g4⟩
    · have he' : entryOf c fp s = some es := by
        unfold entryOf at he ⊢
        rw [h1 fp hf] at he
        exact he
      rw [h1 fp hf]
      exact hc.entries fp s es he'

/-- Saving keeps the invariant at every crash point. -/
theorem cinv_crash {E : Env V P S} {cdc : Codec V} {ds : Dataset V} (H : CacheOk E cdc ds)
    {c : Cache V} (hc : CInv E cdc ds c) {κ : StepKey P} {split : String} {outs : Store V}
    {sp : StepSpec} (hsp : E.spec κ.stepId = some sp) (hout : Out E ds κ split outs)
    (hno : entryOf c (E.stepFp κ) split = none ∨ cdc.tornError = .cacheError) (n : Nat) :
    CInv E cdc ds (applyOps c ((saveOps cdc (E.stepFp κ) split outs).take n)) := by
  rcases saveOps_prefix (cdc := cdc) (fp := E.stepFp κ) (split := split) (outs := outs) n
    with h | h
  · rw [h]; exact cinv_save H hc hsp hout
  · exact cinv_data H hc hsp hout hno h

/-! ## What the cache offers -/

/-- Computing the outputs and saving them. -/
def miss (E : Env V P S) (cdc : Codec V) (fp split id : String) (obj : S) (store : Store V) :
    List (Op V) × Except PyErr (Store V × S) :=
  match E.transform id obj store with
  | .error e => ([], .error e)
  | .ok (outs, obj') => (saveOps cdc fp split outs, .ok (outs, obj'))

/-- The cache either returns the true outputs, or the step is computed; the latter happens for a
recorded split only if files are torn or the outputs are not complete. -/
theorem obtain_cases {E : Env V P S} {cdc : Codec V} {ds : Dataset V} (H : CacheOk E cdc ds)
    {c : Cache V} (hc : CInv E cdc ds c) {κ : StepKey P} {step : ResolvedStep P}
    (hid : κ.stepId = step.stepId) (hsp : E.spec step.stepId = some step.spec) (split : String)
    (obj : S) (store : Store V) :
    (split ∈ (dirOf c (E.stepFp κ)).dirs ∧ ∃ outs l, Out E ds κ split outs ∧ Eqv l outs ∧
      obtain E cdc (some c) (E.stepFp κ) split step obj store = ([], .ok (l, obj))) ∨
    ((∀ outs, Out E ds κ split outs → (entryOf c (E.stepFp κ) split).isSome → Complete E cdc →
        ¬ AllWhole cdc (dirOf c (E.stepFp κ)) split outs) ∧
      obtain E cdc (some c) (E.stepFp κ) split step obj store =
        miss E cdc (E.stepFp κ) split step.stepId obj store) := by
  have hspκ : E.spec κ.stepId = some step.spec := by rw [hid]; exact hsp
  have hmiss : fromCache cdc (some c) (E.stepFp κ) split step.spec.produces = .ok none →
      obtain E cdc (some c) (E.stepFp κ) split step obj store =
        miss E cdc (E.stepFp κ) split step.stepId obj store := by
    intro h
    unfold obtain miss
    rw [h]
    cases E.transform step.stepId obj store <;> rfl
  by_cases hin : split ∈ (dirOf c (E.stepFp κ)).dirs
  · obtain ⟨κ', outs, hκ, hout⟩ := hc.dirs _ _ hin
    have := H.stepFp_inj hκ
    subst this
    have hok := out_props H hspκ hout
    cases hm : (dirOf c (E.stepFp κ)).manifest with
    | none =>
      right
      refine ⟨by simp [entryOf, hm], hmiss ?_⟩
      unfold fromCache hasOutputs
      simp [hm]
    | some m =>
      have hho : hasOutputs c (E.stepFp κ) split = true := by simp [hasOutputs, hm, hin]
      cases he : Assoc.get m split with
      | some es =>
        have he' : entryOf c (E.stepFp κ) split = some es := by simp [entryOf, hm, he]
        obtain ⟨-, κ', outs', h2, h3, h4⟩ := hc.entries _ _ _ he'
        have := H.stepFp_inj h2
        subst this
        have := out_fun H h3 hout
        subst this
        rcases loadAll_entry hok.nodup hok.faithful h4 with ⟨l, hl, heq⟩ | ⟨hl, hw⟩
        · have hload : loadOutputs cdc c (E.stepFp κ) split = .ok l := by
            rw [loadOutputs_eq hm, he]; exact hl
          by_cases hcomp : complete l step.spec.produces = true
          · left
            have hst : stored cdc outs' = outs' := by
              unfold stored
              rw [List.filter_eq_self]
              intro p hp
              by_cases hk : p.1 ∈ step.spec.produces
              · unfold complete at hcomp
                rw [List.all_eq_true] at hcomp
                have h6 := hcomp _ hk
                rw [Assoc.has_iff, heq.keys] at h6
                obtain ⟨q, hq, hqk⟩ := List.mem_map.mp h6
                have hq' := List.mem_filter.mp hq
                have e1 := Assoc.get_of_mem hok.nodup hq'.1
                have e2 := Assoc.get_of_mem hok.nodup hp
                rw [hqk, e2, Option.some.injEq] at e1
                rw [e1]
                exact hq'.2
              · have := hok.extra p hp hk
                cases hs : cdc.suffix p.2 with
                | none => exact absurd hs this
                | some _ => rfl
            rw [hst] at heq
            refine ⟨hin, outs', l, h3, heq, ?_⟩
            unfold obtain fromCache
            simp only [hho, if_true, hload, hcomp]
          · right
            constructor
            · intro o ho _ hC _
              obtain ⟨g1, g2⟩ := out_complete hC hspκ h3
              apply hcomp
              unfold complete
              rw [List.all_eq_true]
              intro k hk
              rw [Assoc.has_iff, heq.keys, g2]
              exact g1 k hk
            · apply hmiss
              unfold fromCache
              simp only [hho, if_true, hload]
              rw [if_neg hcomp]
        · right
          have hload : loadOutputs cdc c (E.stepFp κ) split = .error .cacheError := by
            rw [loadOutputs_eq hm, he]; exact hl
          constructor
          · intro o ho _ _
            have := out_fun H ho h3
            subst this
            exact hw
          · apply hmiss
            unfold fromCache
            simp only [hho, if_true, hload]
      | none =>
        have hload : loadOutputs cdc c (E.stepFp κ) split = .ok [] := by
          rw [loadOutputs_eq hm, he]; rfl
        have he' : entryOf c (E.stepFp κ) split = none := by simp [entryOf, hm, he]
        by_cases hp : step.spec.produces = []
        · left
          have := hok.empty hp
          subst this
          refine ⟨hin, [], [], hout, ⟨by simp [Assoc.keys], fun _ => rfl⟩, ?_⟩
          unfold obtain fromCache
          simp only [hho, if_true, hload, hp, complete, List.all_nil]
        · right
          refine ⟨by simp [he'], hmiss ?_⟩
          unfold fromCache
          simp only [hho, if_true, hload]
          rw [if_neg]
          unfold complete
          rw [List.all_eq_true]
          intro hall
          obtain ⟨k, hk⟩ := List.exists_mem_of_ne_nil _ hp
          have := hall k hk
          rw [Assoc.has_iff] at this
          simp [Assoc.keys] at this
  · right
    constructor
    · intro _ _ he
      rw [Option.isSome_iff_exists] at he
      obtain ⟨es, he⟩ := he
      exact absurd (hc.entries _ _ _ he).1 hin
    · apply hmiss
      unfold fromCache hasOutputs
      simp [hin]

/-- A split that has to be computed can be saved without harm at any crash point. -/
theorem miss_safe {E : Env V P S} {cdc : Codec V} {ds : Dataset V} (H : CacheOk E cdc ds)
    {c : Cache V} (hc : CInv E cdc ds c) (hsafe : Complete E cdc ∨ cdc.tornError = .cacheError)
    {κ : StepKey P} {split : String} {outs : Store V} (hout : Out E ds κ split outs)
    (hm : ∀ outs, Out E ds κ split outs → (entryOf c (E.stepFp κ) split).isSome → Complete E cdc →
        ¬ AllWhole cdc (dirOf c (E.stepFp κ)) split outs) :
    entryOf c (E.stepFp κ) split = none ∨ cdc.tornError = .cacheError := by
  rcases hsafe with hC | ht
  · cases he : entryOf c (E.stepFp κ) split with
    | none => exact .inl rfl
    | some es =>
      right
      obtain ⟨-, κ', outs', h2, h3, h4⟩ := hc.entries _ _ _ he
      have := H.stepFp_inj h2
      subst this
      exact entryOk_torn h4 (hm outs' h3 (by simp [he]) hC)
  · exact .inr ht

end ModSSC.Preprocess
