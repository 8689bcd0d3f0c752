import Verif.Augment.RegistryModel
import Verif.Augment.Model
import Mathlib.Data.List.Dedup

/-!
# The augmentation registry (C97) and edge lists (C98)
-/

namespace ModSSC.Augment
open ModSSC

/-- The table of built-in operations has one row per id, and says of each operation what its class says. -/
structure TableOk (B : List Builtin) : Prop where
  nodup : (B.map (·.opId)).Nodup
  modality : ∀ b ∈ B, b.clsModality = b.modality

theorem builtinOps_ok : TableOk builtinOps := ⟨by decide +kernel, by decide +kernel⟩

/-- The class of a built-in operation is registered as the table says. -/
def IsBuiltin (b : Builtin) (c : Cls) : Prop := (∃ n, c.ident = .builtin n b.opId) ∧ c.modality = b.modality ∧ c.fields = b.fields

/-- Invariant: no foreign class under a built-in id, and built-in ids are registered just when their module is imported. -/
def Good (B : List Builtin) (r : OpReg) : Prop :=
  ∀ b ∈ B, (b.module ∈ r.loaded → ∃ c, Assoc.get r.runtime b.opId = some c ∧ IsBuiltin b c) ∧
    (b.module ∉ r.loaded → Assoc.get r.runtime b.opId = none)

theorem good_empty (B : List Builtin) : Good B OpReg.empty := fun b _ => ⟨fun h => by simp [OpReg.empty] at h, fun _ => rfl⟩

theorem registerOp_get (i : String) (c : Cls) (r : OpReg) (k : String) :
    Assoc.get (registerOp i c r).1.runtime k = Assoc.get r.runtime k ∨ (k = i ∧ Assoc.get (registerOp i c r).1.runtime k = some c ∧
      (∀ e, Assoc.get r.runtime i = some e → e.ident = c.ident)) := by
  unfold registerOp
  cases h : Assoc.get r.runtime i with
  | none =>
    simp only [Assoc.get_set]
    by_cases hk : k = i
    · subst hk; right; simp
    · left; simp [hk]
  | some e =>
    simp only
    split
    · rename_i he
      simp only [Assoc.get_set]
      by_cases hk : k = i
      · subst hk; right; simp [he]
      · left; simp [hk]
    · exact .inl rfl

theorem registerOp_loaded (i : String) (c : Cls) (r : OpReg) : (registerOp i c r).1.loaded = r.loaded := by
  unfold registerOp
  split
  · split <;> rfl
  · rfl

/-- Importing a module none of whose ids is taken registers all of them and nothing else. -/
theorem registerAll_ok (n : Nat) (bs : List Builtin) (hnd : (bs.map (·.opId)).Nodup) (r : OpReg)
    (hfree : ∀ b ∈ bs, Assoc.get r.runtime b.opId = none) :
    (registerAll n bs r).2 = .ok () ∧ (registerAll n bs r).1.loaded = r.loaded ∧
    (∀ b ∈ bs, Assoc.get (registerAll n bs r).1.runtime b.opId = some ⟨.builtin n b.opId, b.clsModality, b.fields⟩) ∧
    ∀ k, k ∉ bs.map (·.opId) → Assoc.get (registerAll n bs r).1.runtime k = Assoc.get r.runtime k := by
  induction bs generalizing r with
  | nil => exact ⟨rfl, rfl, fun b hb => by simp at hb, fun k _ => rfl⟩
  | cons b bs ih =>
    have hb := hfree b (by simp)
    simp only [List.map_cons, List.nodup_cons] at hnd
    have hreg : registerOp b.opId ⟨.builtin n b.opId, b.clsModality, b.fields⟩ r
        = ({ r with runtime := Assoc.set r.runtime b.opId ⟨.builtin n b.opId, b.clsModality, b.fields⟩ }, .ok ()) := by
      unfold registerOp; rw [hb]
    simp only [registerAll, hreg]
    obtain ⟨h1, h2, h3, h4⟩ := ih hnd.2 { r with runtime := Assoc.set r.runtime b.opId ⟨.builtin n b.opId, b.clsModality, b.fields⟩ } (by
      intro b' hb'
      simp only [Assoc.get_set]
      rw [if_neg]
      · exact hfree b' (by simp [hb'])
      · intro e
        exact hnd.1 (by rw [← e]; exact List.mem_map_of_mem hb'))
    refine ⟨h1, h2, ?_, ?_⟩
    · intro b' hb'
      rcases List.mem_cons.mp hb' with rfl | hb'
      · rw [h4 _ hnd.1]
        simp [Assoc.get_set]
      · exact h3 b' hb'
    · intro k hk
      simp only [List.map_cons, List.mem_cons, not_or] at hk
      rw [h4 k hk.2]
      simp only [Assoc.get_set]
      rw [if_neg hk.1]

theorem importModule_good {B : List Builtin} (hB : TableOk B) (m : String) (r : OpReg) (hg : Good B r) :
    (importModule B m r).2 = .ok () ∧ Good B (importModule B m r).1 ∧ m ∈ (importModule B m r).1.loaded ∧
    ∀ k, k ∉ B.map (·.opId) → Assoc.get (importModule B m r).1.runtime k = Assoc.get r.runtime k := by
  unfold importModule
  by_cases hm : m ∈ r.loaded
  · rw [if_pos hm]
    exact ⟨rfl, hg, hm, fun k _ => rfl⟩
  · rw [if_neg hm]
    obtain ⟨h1, h2, h3, h4⟩ := registerAll_ok r.imports (B.filter (fun b => b.module = m))
      (hB.nodup.sublist (List.filter_sublist.map _)) { r with imports := r.imports + 1 } (by
        intro b hb
        rw [List.mem_filter, decide_eq_true_eq] at hb
        exact (hg b hb.1).2 (by rw [hb.2]; exact hm))
    generalize registerAll r.imports (B.filter (fun b => b.module = m)) { r with imports := r.imports + 1 } = q at *
    obtain ⟨q1, q2⟩ := q
    simp only at h1 h2 h3 h4
    subst h1
    simp only
    refine ⟨trivial, ?_, by simp, ?_⟩
    · intro b hb
      rw [h2]
      simp only [List.mem_cons, not_or]
      by_cases hbm : b.module = m
      · refine ⟨fun _ => ⟨_, h3 b (by simp [hb, hbm]), ⟨r.imports, rfl⟩, hB.modality b hb, rfl⟩, fun h => absurd hbm h.1⟩
      · have : Assoc.get q1.runtime b.opId = Assoc.get r.runtime b.opId := by
          refine h4 _ ?_
          intro hmem
          obtain ⟨b', hb', e⟩ := List.mem_map.mp hmem
          rw [List.mem_filter, decide_eq_true_eq] at hb'
          have : b' = b := List.inj_on_of_nodup_map hB.nodup hb'.1 hb e
          rw [this] at hb'
          exact hbm hb'.2
        simp only [hbm, false_or, not_false_eq_true, true_and]
        rw [this]
        exact hg b hb
    · intro k hk
      refine h4 k ?_
      intro hmem
      obtain ⟨b', hb', e⟩ := List.mem_map.mp hmem
      exact hk (List.mem_map.mpr ⟨b', (List.mem_filter.mp hb').1, e⟩)

/-- What a request finds: the class registered for the id, the built-in class, or nothing; and the registry keeps the
invariant and the user's classes. -/
theorem getCls_good {B : List Builtin} (hB : TableOk B) (i : String) (r : OpReg) (hg : Good B r) :
    Good B (getCls B i r).1 ∧
    (∀ k, k ∉ B.map (·.opId) → Assoc.get (getCls B i r).1.runtime k = Assoc.get r.runtime k) ∧
    (∀ b ∈ B, b.opId = i → ∃ c, (getCls B i r).2 = .ok c ∧ IsBuiltin b c) ∧
    (i ∉ B.map (·.opId) → ∀ c, Assoc.get r.runtime i = some c → (getCls B i r).2 = .ok c) ∧
    (i ∉ B.map (·.opId) → Assoc.get r.runtime i = none → (getCls B i r).2 = .error .validation) := by
  unfold getCls
  cases hr : Assoc.get r.runtime i with
  | some c =>
    refine ⟨hg, fun k _ => rfl, ?_, ?_, ?_⟩
    · rintro b hb rfl
      by_cases hm : b.module ∈ r.loaded
      · obtain ⟨c', h1, h2⟩ := (hg b hb).1 hm
        rw [hr] at h1
        obtain rfl := Option.some.inj h1
        exact ⟨c, rfl, h2⟩
      · have := (hg b hb).2 hm
        rw [hr] at this
        simp at this
    · intro _ c' hc'
      rw [Option.some.inj hc']
    · intro _ h; simp at h
  | none =>
    simp only
    cases hf : B.find? (fun b => decide (b.opId = i)) with
    | none =>
      simp only
      refine ⟨hg, fun k _ => trivial, ?_, fun _ c h => by simp at h, fun _ _ => trivial⟩
      rintro b hb rfl
      have := List.find?_eq_none.mp hf b hb
      simp at this
    | some b =>
      have hb := List.mem_of_find?_eq_some hf
      have hbi : b.opId = i := by simpa using List.find?_some hf
      simp only
      obtain ⟨h1, h2, h3, h4⟩ := importModule_good hB b.module r hg
      generalize importModule B b.module r = q at *
      obtain ⟨q1, q2⟩ := q
      simp only at h1 h2 h3 h4
      subst h1
      simp only
      obtain ⟨c, hc, hi⟩ := (h2 b hb).1 h3
      rw [hbi] at hc
      rw [hc]
      simp only
      refine ⟨h2, h4, ?_, fun hn => ?_, fun hn => ?_⟩
      · rintro b' hb' e
        have : b' = b := List.inj_on_of_nodup_map hB.nodup hb' hb (e.trans hbi.symm)
        subst this
        exact ⟨c, rfl, hi⟩
      · exact absurd (List.mem_map.mpr ⟨b, hb, hbi⟩) hn
      · exact absurd (List.mem_map.mpr ⟨b, hb, hbi⟩) hn

theorem getOp_fst (B : List Builtin) (i : String) (p : List (String × PyVal)) (r : OpReg) :
    (getOp B i p r).1 = (getCls B i r).1 := by
  unfold getOp
  cases h : getCls B i r with
  | mk r' v =>
    cases v with
    | error e => rfl
    | ok c => simp only; split <;> rfl

theorem buildPipeline_keeps {B : List Builtin} (hB : TableOk B) (m : Option String) (steps : List (String × List (String × PyVal)))
    (r : OpReg) (hg : Good B r) : Good B (buildPipeline B m steps r).1 ∧
    ∀ k, k ∉ B.map (·.opId) → Assoc.get (buildPipeline B m steps r).1.runtime k = Assoc.get r.runtime k := by
  induction steps generalizing r with
  | nil => exact ⟨hg, fun k _ => rfl⟩
  | cons st rest ih =>
    simp only [buildPipeline]
    have h1 := getOp_fst B st.1 st.2 r
    obtain ⟨h2, h3, -⟩ := getCls_good hB st.1 r hg
    rw [← h1] at h2 h3
    cases h : getOp B st.1 st.2 r with
    | mk r' v =>
      rw [h] at h2 h3
      simp only at h2 h3
      cases v with
      | error e => exact ⟨h2, h3⟩
      | ok i =>
        simp only
        split
        · obtain ⟨h4, h5⟩ := ih r' h2
          cases hb : buildPipeline B m rest r' with
          | mk r'' w =>
            rw [hb] at h4 h5
            cases w with
            | error e => exact ⟨h4, fun k hk => (h5 k hk).trans (h3 k hk)⟩
            | ok l => exact ⟨h4, fun k hk => (h5 k hk).trans (h3 k hk)⟩
        · exact ⟨h2, h3⟩

/-- A call registers no user class under a built-in id. -/
def OpCall.Clean (B : List Builtin) : OpCall → Prop
  | .register i _ => i ∉ B.map (·.opId)
  | _ => True

/-- The registry after a program. -/
def runCalls (B : List Builtin) (calls : List OpCall) : OpReg := calls.foldl (OpCall.run B) OpReg.empty

/-- The classes a program offers for an id. -/
def offered (i : String) (calls : List OpCall) : List Cls :=
  calls.filterMap (fun c => match c with
    | .register j cls => if j = i then some cls else none
    | _ => none)

theorem run_good {B : List Builtin} (hB : TableOk B) (c : OpCall) (hc : c.Clean B) (r : OpReg) (hg : Good B r) :
    Good B (OpCall.run B r c) := by
  cases c with
  | register i cls =>
    simp only [OpCall.run]
    intro b hb
    have h := registerOp_get i cls r b.opId
    rw [registerOp_loaded]
    rcases h with h | ⟨h, -⟩
    · rw [h]; exact hg b hb
    · exact absurd (List.mem_map.mpr ⟨b, hb, h⟩) hc
  | get i p =>
    simp only [OpCall.run]
    rw [getOp_fst]
    exact (getCls_good hB i r hg).1
  | build m s => exact (buildPipeline_keeps hB m s r hg).1

theorem foldl_good {B : List Builtin} (hB : TableOk B) (calls : List OpCall) (hc : ∀ c ∈ calls, c.Clean B) (r : OpReg)
    (hg : Good B r) : Good B (calls.foldl (OpCall.run B) r) := by
  induction calls generalizing r with
  | nil => exact hg
  | cons c calls ih => exact ih (fun c' h => hc c' (by simp [h])) _ (run_good hB c (hc c (by simp)) r hg)

/-- What is registered under an id that is not built in. -/
theorem foldl_get {B : List Builtin} (hB : TableOk B) (calls : List OpCall) (hc : ∀ c ∈ calls, c.Clean B) (r : OpReg)
    (hg : Good B r) (i : String) (hi : i ∉ B.map (·.opId)) :
    match Assoc.get r.runtime i with
    | some e => ∃ e', Assoc.get (calls.foldl (OpCall.run B) r).runtime i = some e' ∧ e'.ident = e.ident
    | none => match (offered i calls).head? with
      | some e => ∃ e', Assoc.get (calls.foldl (OpCall.run B) r).runtime i = some e' ∧ e'.ident = e.ident
      | none => Assoc.get (calls.foldl (OpCall.run B) r).runtime i = none := by
  induction calls generalizing r with
  | nil =>
    cases h : Assoc.get r.runtime i with
    | some e => exact ⟨e, h, rfl⟩
    | none => exact h
  | cons c calls ih =>
    have ih' := ih (fun c' h => hc c' (by simp [h])) _ (run_good hB c (hc c (by simp)) r hg)
    simp only [List.foldl_cons]
    have hsame : ∀ hr : Assoc.get (OpCall.run B r c).runtime i = Assoc.get r.runtime i,
        offered i (c :: calls) = offered i calls →
        (match Assoc.get r.runtime i with
        | some e => ∃ e', Assoc.get (calls.foldl (OpCall.run B) (OpCall.run B r c)).runtime i = some e' ∧ e'.ident = e.ident
        | none => match (offered i (c :: calls)).head? with
          | some e => ∃ e', Assoc.get (calls.foldl (OpCall.run B) (OpCall.run B r c)).runtime i = some e' ∧ e'.ident = e.ident
          | none => Assoc.get (calls.foldl (OpCall.run B) (OpCall.run B r c)).runtime i = none) := by
      intro hr ho
      rw [hr] at ih'
      rw [ho]
      exact ih'
    cases c with
    | get j p =>
      refine hsame ?_ rfl
      simp only [OpCall.run]
      rw [getOp_fst]
      exact (getCls_good hB j r hg).2.1 i hi
    | build m s => exact hsame ((buildPipeline_keeps hB m s r hg).2 i hi) rfl
    | register j cls =>
      by_cases hj : j = i
      · subst hj
        have ho : offered j (.register j cls :: calls) = cls :: offered j calls := by simp [offered]
        rw [ho]
        simp only [OpCall.run] at ih' ⊢
        unfold registerOp at ih' ⊢
        cases hr : Assoc.get r.runtime j with
        | none =>
          simp only [hr] at ih' ⊢
          simp only [Assoc.get_set, if_true, List.head?_cons] at ih' ⊢
          exact ih'
        | some e =>
          simp only [hr] at ih' ⊢
          by_cases he : e.ident = cls.ident
          · simp only [he, if_true, Assoc.get_set] at ih' ⊢
            exact ih'
          · simp only [if_neg he, hr] at ih' ⊢
            exact ih'
      · refine hsame ?_ ?_
        · simp only [OpCall.run]
          rcases registerOp_get j cls r i with h | ⟨h, -⟩
          · exact h
          · exact absurd h.symm hj
        · simp [offered, hj]

/-- **C97 (requests).**  In a program that registers no class under a built-in id, whatever it requested, built or
registered before and whatever errors it caught: every built-in id gives the built-in class of the table; any other id
gives the class first registered for it, or an error if none was. -/
theorem C97_requests_partial (calls : List OpCall) (hc : ∀ c ∈ calls, c.Clean builtinOps) (i : String) :
    (∀ b ∈ builtinOps, b.opId = i → ∃ c, (getCls builtinOps i (runCalls builtinOps calls)).2 = .ok c ∧ IsBuiltin b c) ∧
    (i ∉ builtinOps.map (·.opId) → ∀ first, (offered i calls).head? = some first →
      ∃ c, (getCls builtinOps i (runCalls builtinOps calls)).2 = .ok c ∧ c.ident = first.ident) ∧
    (i ∉ builtinOps.map (·.opId) → offered i calls = [] → (getCls builtinOps i (runCalls builtinOps calls)).2 = .error .validation) := by
  have hB := builtinOps_ok
  have hg := foldl_good hB calls hc _ (good_empty _)
  obtain ⟨-, -, h1, h2, h3⟩ := getCls_good hB i (runCalls builtinOps calls) hg
  refine ⟨h1, fun hi first hf => ?_, fun hi ho => ?_⟩
  · have := foldl_get hB calls hc _ (good_empty _) i hi
    simp only [OpReg.empty, Assoc.get_nil, hf] at this
    obtain ⟨e, he, hid⟩ := this
    exact ⟨e, h2 hi e he, hid⟩
  · have := foldl_get hB calls hc _ (good_empty _) i hi
    simp only [OpReg.empty, Assoc.get_nil, ho, List.head?_nil] at this
    exact h3 hi this

theorem mem_allIds (B : List Builtin) (r : OpReg) (i : String) :
    i ∈ allIds B r ↔ i ∈ B.map (·.opId) ∨ ∃ c, Assoc.get r.runtime i = some c := by
  unfold allIds
  rw [List.mem_mergeSort, List.mem_dedup, List.mem_append, Assoc.mem_keys_iff]

/-- **C97 (listing).**  The listing is sorted without repetitions.  In a program as above it lists the built-in ids and
the registered ids, whichever modules were imported, and for a modality those whose class has that modality or
`any`. -/
theorem C97_listing_partial (calls : List OpCall) (hc : ∀ c ∈ calls, c.Clean builtinOps) (modality : Option String) :
    (availableOps builtinOps modality (runCalls builtinOps calls)).Pairwise (· < ·) ∧
    ∀ i, i ∈ availableOps builtinOps modality (runCalls builtinOps calls) ↔
      ∃ c, (getCls builtinOps i (runCalls builtinOps calls)).2 = .ok c ∧
        ∀ m, modality = some m → c.modality = m ∨ c.modality = "any" := by
  have hB := builtinOps_ok
  have hg : Good builtinOps (runCalls builtinOps calls) := foldl_good hB calls hc _ (good_empty _)
  generalize runCalls builtinOps calls = r at *
  have hsorted : (allIds builtinOps r).Pairwise (· < ·) := by
    have h1 : (allIds builtinOps r).Pairwise (· ≤ ·) := by
      have := List.pairwise_mergeSort (le := fun (a b : String) => decide (a ≤ b))
        (fun a b c h1 h2 => by simp only [decide_eq_true_eq] at *; exact le_trans h1 h2)
        (fun a b => by simp only [Bool.or_eq_true, decide_eq_true_eq]; exact le_total a b)
        ((builtinOps.map (·.opId) ++ Assoc.keys r.runtime).dedup)
      exact this.imp (fun h => by simpa using h)
    have h2 : (allIds builtinOps r).Nodup := (List.mergeSort_perm _ _).nodup_iff.mpr (List.nodup_dedup _)
    exact (h1.and h2).imp (fun h => lt_of_le_of_ne h.1 h.2)
  have hids : ∀ i, i ∈ allIds builtinOps r ↔ ∃ c, (getCls builtinOps i r).2 = .ok c ∧ c.modality = listedModality builtinOps r i := by
    intro i
    obtain ⟨-, -, h1, h2, h3⟩ := getCls_good hB i r hg
    rw [mem_allIds]
    by_cases hi : i ∈ builtinOps.map (·.opId)
    · refine ⟨fun _ => ?_, fun _ => .inl hi⟩
      obtain ⟨b, hb, rfl⟩ := List.mem_map.mp hi
      obtain ⟨c, hcl, hib⟩ := h1 b hb rfl
      refine ⟨c, hcl, ?_⟩
      rw [hib.2.1]
      unfold listedModality
      by_cases hm : b.module ∈ r.loaded
      · obtain ⟨c', h4, h5⟩ := (hg b hb).1 hm
        rw [h4]
        exact h5.2.1.symm
      · rw [(hg b hb).2 hm]
        simp only
        cases hf : builtinOps.find? (fun b' => decide (b'.opId = b.opId)) with
        | none =>
          have := List.find?_eq_none.mp hf b hb
          simp at this
        | some b' =>
          have e1 : b'.opId = b.opId := by simpa using List.find?_some hf
          have : b' = b := List.inj_on_of_nodup_map hB.nodup (List.mem_of_find?_eq_some hf) hb e1
          rw [this]
    · cases hr : Assoc.get r.runtime i with
      | none =>
        rw [h3 hi hr]
        simp [hi]
      | some c =>
        rw [h2 hi c hr]
        simp [listedModality, hr]
  cases modality with
  | none =>
    refine ⟨hsorted, fun i => ?_⟩
    simp only [availableOps]
    rw [hids i]
    constructor
    · rintro ⟨c, h, -⟩
      exact ⟨c, h, fun m hm => by simp at hm⟩
    · rintro ⟨c, h, -⟩
      by_contra hno
      have : i ∉ allIds builtinOps r := fun hm => hno ((hids i).mp hm)
      rw [mem_allIds] at this
      push Not at this
      rw [(getCls_good hB i r hg).2.2.2.2 this.1 (by
        cases hq : Assoc.get r.runtime i with
        | none => rfl
        | some c' => exact absurd hq (this.2 c'))] at h
      simp at h
  | some m =>
    refine ⟨hsorted.sublist List.filter_sublist, fun i => ?_⟩
    simp only [availableOps]
    rw [List.mem_filter]
    simp only [Bool.or_eq_true, decide_eq_true_eq]
    constructor
    · rintro ⟨h, hm⟩
      obtain ⟨c, h1, h2⟩ := (hids i).mp h
      refine ⟨c, h1, fun m' e => ?_⟩
      rw [← Option.some.inj e, h2]
      exact hm
    · rintro ⟨c, h1, h2⟩
      have hmem : i ∈ allIds builtinOps r := by
        by_contra hno
        rw [mem_allIds] at hno
        push Not at hno
        rw [(getCls_good hB i r hg).2.2.2.2 hno.1 (by
          cases hq : Assoc.get r.runtime i with
          | none => rfl
          | some c' => exact absurd hq (hno.2 c'))] at h1
        simp at h1
      obtain ⟨c', h3, h4⟩ := (hids i).mp hmem
      rw [h1] at h3
      obtain rfl := Except.ok.inj h3
      refine ⟨hmem, ?_⟩
      rw [← h4]
      exact h2 m rfl

/-- **C97 (plans).**  A pipeline has one operation per step, in order, each of the class requested, with the step's
parameters, all of them known to the class; and if the plan names a modality, each operation's modality is `any` or
that. -/
theorem C97_plan (B : List Builtin) (plan : Option String) (steps : List (String × List (String × PyVal))) (r : OpReg)
    (l : List Inst) (h : (buildPipeline B plan steps r).2 = .ok l) :
    List.Forall₂ (fun st i => (∃ r', (getCls B st.1 r').2 = .ok i.cls) ∧ i.params = st.2 ∧
      (∀ k, k ∈ Assoc.keys st.2 → k ∈ i.cls.fields) ∧
      (∀ m, plan = some m → i.modality = .str "any" ∨ i.modality = .str m) ∧
      ("modality" ∉ Assoc.keys st.2 → i.modality = .str i.cls.modality)) steps l := by
  induction steps generalizing r l with
  | nil =>
    simp only [buildPipeline, Except.ok.injEq] at h
    subst h
    exact List.Forall₂.nil
  | cons st rest ih =>
    simp only [buildPipeline] at h
    cases hgo : getOp B st.1 st.2 r with
    | mk r' v =>
      rw [hgo] at h
      cases v with
      | error e => simp at h
      | ok i =>
        simp only at h
        by_cases hf : fits plan i.modality = true
        · rw [if_pos hf] at h
          cases hb : buildPipeline B plan rest r' with
          | mk r'' w =>
            rw [hb] at h
            cases w with
            | error e => simp at h
            | ok l' =>
              simp only [Except.ok.injEq] at h
              subst h
              refine List.Forall₂.cons ?_ (ih r' l' (by rw [hb]))
              unfold getOp at hgo
              cases hgc : getCls B st.1 r with
              | mk q w =>
                rw [hgc] at hgo
                cases w with
                | error e => simp at hgo
                | ok c =>
                  simp only at hgo
                  by_cases hall : (Assoc.keys st.2).all (fun k => decide (k ∈ c.fields)) = true
                  · rw [if_pos hall] at hgo
                    simp only [Prod.mk.injEq, Except.ok.injEq] at hgo
                    obtain ⟨-, rfl⟩ := hgo
                    refine ⟨⟨r, by rw [hgc]⟩, rfl, fun k hk => by simpa using List.all_eq_true.mp hall k hk, ?_, ?_⟩
                    · rintro m rfl
                      simpa [fits] using hf
                    · intro hno
                      have : Assoc.get st.2 "modality" = none := by
                        by_contra hne
                        exact hno (Assoc.mem_keys_iff.mpr (Option.ne_none_iff_exists'.mp hne))
                      simp only [this, Option.getD_none]
                  · rw [if_neg hall] at hgo
                    simp at hgo
        · rw [if_neg hf] at h
          simp at h

theorem build_accepts {B : List Builtin} (hB : TableOk B) (plan : Option String) (steps : List (String × List (String × PyVal)))
    (r : OpReg) (hg : Good B r)
    (hsteps : ∀ st ∈ steps, ∃ b ∈ B, b.opId = st.1 ∧ (∀ k ∈ Assoc.keys st.2, k ∈ b.fields) ∧ "modality" ∉ Assoc.keys st.2 ∧
      (plan = none ∨ b.modality = "any" ∨ plan = some b.modality)) :
    ∃ l, (buildPipeline B plan steps r).2 = .ok l := by
  induction steps generalizing r with
  | nil => exact ⟨[], rfl⟩
  | cons st rest ih =>
    obtain ⟨b, hb, hid, hk, hm, hp⟩ := hsteps st (by simp)
    obtain ⟨hg', -, hc, -⟩ := getCls_good hB st.1 r hg
    obtain ⟨c, hcl, hib⟩ := hc b hb hid
    have hgo : getOp B st.1 st.2 r = ((getCls B st.1 r).1, .ok ⟨c, .str b.modality, st.2⟩) := by
      unfold getOp
      generalize getCls B st.1 r = q at *
      obtain ⟨q1, q2⟩ := q
      simp only at hcl
      subst hcl
      simp only
      have hno : Assoc.get st.2 "modality" = none := by
        by_contra hne
        exact hm (Assoc.mem_keys_iff.mpr (Option.ne_none_iff_exists'.mp hne))
      rw [if_pos (List.all_eq_true.mpr (fun k h => by simpa [hib.2.2] using hk k h)), hno, Option.getD_none, hib.2.1]
    have hfit : fits plan (.str b.modality) = true := by
      unfold fits
      cases plan with
      | none => rfl
      | some m =>
        rcases hp with h | h | h
        · simp at h
        · simp [h]
        · simp [Option.some.inj h]
    obtain ⟨l, hl⟩ := ih (getCls B st.1 r).1 hg' (fun st' h => hsteps st' (by simp [h]))
    refine ⟨⟨c, .str b.modality, st.2⟩ :: l, ?_⟩
    simp only [buildPipeline, hgo, hfit, if_true]
    generalize buildPipeline B plan rest (getCls B st.1 r).1 = q at *
    obtain ⟨q1, q2⟩ := q
    simp only at hl
    subst hl
    rfl

/-- **C97 (plans are accepted), partial.**  In a program as above, a plan of built-in operations with known parameters
(other than `modality`), each of the plan's modality or `any`, is built. -/
theorem C97_plan_accepted_partial (calls : List OpCall) (hc : ∀ c ∈ calls, c.Clean builtinOps) (plan : Option String)
    (steps : List (String × List (String × PyVal)))
    (hsteps : ∀ st ∈ steps, ∃ b ∈ builtinOps, b.opId = st.1 ∧ (∀ k ∈ Assoc.keys st.2, k ∈ b.fields) ∧
      "modality" ∉ Assoc.keys st.2 ∧ (plan = none ∨ b.modality = "any" ∨ plan = some b.modality)) :
    ∃ l, (buildPipeline builtinOps plan steps (runCalls builtinOps calls)).2 = .ok l :=
  build_accepts builtinOps_ok plan steps _ (foldl_good builtinOps_ok calls hc _ (good_empty _)) hsteps

/-- Non-vacuity: a plan for texts with an operation for texts and one for any modality. -/
example : (buildPipeline builtinOps (some "text") [("text.word_dropout", [("p", .flt (1 / 2))]), ("core.identity", [])] OpReg.empty).2.map
    (fun l => l.map (fun i => i.cls.ident)) = .ok [.builtin 0 "text.word_dropout", .builtin 1 "core.identity"] := by decide +kernel

/-- An operation of another modality is refused. -/
example : (buildPipeline builtinOps (some "text") [("vision.cutout", [])] OpReg.empty).2.map (fun l => l.length)
    = .error .validation := by decide +kernel

/-- **C97 is violated (own class under a built-in id).**  A program registers its own lower-casing operation as
`text.lowercase`, which is accepted as long as no operation for texts was requested; from then on the other operations
for texts, although listed, cannot be requested: importing their module tries to register the built-in class. -/
theorem C97_override_violated :
    let mine : Cls := ⟨.user 0, "text", ["op_id", "modality"]⟩
    let r := registerOp "text.lowercase" mine OpReg.empty
    r.2 = .ok () ∧ "text.word_dropout" ∈ availableOps builtinOps (some "text") r.1 ∧
    (getCls builtinOps "text.word_dropout" r.1).2 = .error .validation ∧
    -- the other way round the registration is refused
    (registerOp "text.lowercase" mine (getCls builtinOps "text.word_dropout" OpReg.empty).1).2 = .error .validation := by
  refine ⟨by decide +kernel, ?_, by decide +kernel, by decide +kernel⟩
  simp only [availableOps]
  rw [List.mem_filter]
  refine ⟨(mem_allIds _ _ _).mpr (.inl (by decide +kernel)), by decide +kernel⟩

/-- **C97 is violated (retries).**  With an own class under the id of the last operation of the module, the first
request for another operation for texts fails and the same request then succeeds: the failed import has registered
it. -/
theorem C97_retry_violated :
    let mine : Cls := ⟨.user 0, "text", ["op_id", "modality"]⟩
    let r := (registerOp "text.token_swap" mine OpReg.empty).1
    (getCls builtinOps "text.lowercase" r).2 = .error .validation ∧
    (getCls builtinOps "text.lowercase" (getCls builtinOps "text.lowercase" r).1).2.map (·.ident) = .ok (.builtin 0 "text.lowercase") := by
  decide +kernel

/-- **C97 is violated (modality of a plan).**  The modality of an operation is one of its parameters: a plan for images
accepts an operation for texts whose step says `modality = "vision"`. -/
theorem C97_modality_violated :
    (buildPipeline builtinOps (some "vision") [("text.lowercase", [("modality", .str "vision")])] OpReg.empty).2.map
      (fun l => l.map (fun i => i.cls.modality)) = .ok ["text"] := by
  decide +kernel

/-! ### C98 -/

/-- Specification: the edges of an array with one row per edge. -/
def edgesOfRows (rows : List (List Int)) (edges : List (Int × Int)) : Prop :=
  List.Forall₂ (fun r (e : Int × Int) => r = [e.1, e.2]) rows edges

/-- **C98, partial.**  Edges given as one row per edge are understood as the same edges as when given as a row of
sources and a row of targets, unless there are exactly two of them (see `C98_two_edges_violated`) or none. -/
theorem C98_rows_partial (rows : List (List Int)) (edges : List (Int × Int)) (h : edgesOfRows rows edges)
    (hne : edges ≠ []) (h2 : edges.length ≠ 2) :
    edgesOf rows = .ok edges ∧ edgesOf [edges.map (·.1), edges.map (·.2)] = .ok edges := by
  have hlen := h.length_eq
  have hrow : ∀ l : List (Int × Int), (l.map (·.1)).zip (l.map (·.2)) = l := by
    intro l
    induction l with
    | nil => rfl
    | cons a l ih => simp [ih]
  refine ⟨?_, by simp only [edgesOf]; rw [hrow]⟩
  have hall : rows.all (fun r => decide (r.length = 2)) = true := by
    rw [List.all_eq_true]
    intro r hr
    obtain ⟨k, hk, rfl⟩ := List.mem_iff_getElem.mp hr
    have he := (List.forall₂_iff_get.mp h).2 k hk (by omega)
    simp only [List.get_eq_getElem] at he
    simp [he]
  have hmap : rows.map (fun r => (r.getD 0 0, r.getD 1 0)) = edges := by
    clear hne h2 hlen hall
    induction h with
    | nil => rfl
    | cons hab _ ih => rw [List.map_cons, ih, hab]; rfl
  have hne' : rows.isEmpty = false := by
    cases rows with
    | nil => cases h; simp at hne
    | cons a l => rfl
  unfold edgesOf
  split
  · simp at hlen; omega
  · rw [hall, hne', hmap]
    rfl

/-- **C98 is violated.**  Two edges `0 → 1` and `2 → 3` given as one row per edge are understood as `0 → 2` and
`1 → 3`: a 2 × 2 array is always read as a row of sources and a row of targets. -/
theorem C98_two_edges_violated :
    edgesOfRows [[0, 1], [2, 3]] [(0, 1), (2, 3)] ∧ edgesOf [[0, 1], [2, 3]] = .ok [(0, 2), (1, 3)] := by
  refine ⟨?_, by decide +kernel⟩
  exact .cons rfl (.cons rfl .nil)

example : edgesOf [[0, 1], [2, 3], [4, 5]] = .ok [(0, 1), (2, 3), (4, 5)] := by decide +kernel

end ModSSC.Augment
