import Verif.Preprocess.Demo
import Mathlib.Data.List.Sort

/-!
# The step cache as a file tree

What saving step outputs does to the tree at every crash point, and the round trip of C35.
-/

namespace ModSSC.Preprocess
open ModSSC Spec

variable {V P S : Type}

/-- Equal as dictionaries; the left one has each key once. -/
def Eqv (l outs : Store V) : Prop := (Assoc.keys l).Nodup ∧ ∀ k, Assoc.get l k = Assoc.get outs k

theorem Eqv.keys {l outs : Store V} (h : Eqv l outs) {k : String} :
    k ∈ Assoc.keys l ↔ k ∈ Assoc.keys outs := by
  rw [Assoc.mem_keys_iff, Assoc.mem_keys_iff, h.2]

theorem Eqv.refl {l : Store V} (h : (Assoc.keys l).Nodup) : Eqv l l := ⟨h, fun _ => rfl⟩

/-! ## Names and entries -/

/-- What is stored is read back unchanged. -/
def Faithful (cdc : Codec V) (outs : Store V) : Prop :=
  ∀ p ∈ outs, cdc.suffix p.2 ≠ none → cdc.reload p.2 = p.2

/-- The artifacts that can be stored. -/
def stored (cdc : Codec V) (outs : Store V) : Store V :=
  outs.filter (fun p => (cdc.suffix p.2).isSome)

/-- The files of the artifacts are different. -/
def DistinctFiles (cdc : Codec V) (outs : Store V) : Prop :=
  ((savedEntries cdc outs).map (·.2)).Nodup

theorem mem_savedEntries {cdc : Codec V} : ∀ {outs : Store V} {k n : String},
    (k, n) ∈ savedEntries cdc outs ↔
      ∃ v sfx, (k, v) ∈ outs ∧ cdc.suffix v = some sfx ∧ n = safeName k ++ sfx := by
  intro outs
  induction outs with
  | nil => simp [savedEntries]
  | cons p outs ih =>
    intro k n
    obtain ⟨k0, v0⟩ := p
    rw [savedEntries]
    cases hs : cdc.suffix v0 with
    | none =>
      simp only
      rw [ih]
      constructor
      · rintro ⟨v, sfx, h1, h2, h3⟩
        exact ⟨v, sfx, List.mem_cons_of_mem _ h1, h2, h3⟩
      · rintro ⟨v, sfx, h1, h2, h3⟩
        rcases List.mem_cons.mp h1 with h1 | h1
        · simp only [Prod.mk.injEq] at h1
          rw [h1.2, hs] at h2
          simp at h2
        · exact ⟨v, sfx, h1, h2, h3⟩
    | some sfx0 =>
      simp only
      rw [List.mem_cons, ih]
      constructor
      · rintro (h | ⟨v, sfx, h1, h2, h3⟩)
        · simp only [Prod.mk.injEq] at h
          exact ⟨v0, sfx0, by simp [h.1], hs, by rw [h.2, h.1]⟩
        · exact ⟨v, sfx, List.mem_cons_of_mem _ h1, h2, h3⟩
      · rintro ⟨v, sfx, h1, h2, h3⟩
        rcases List.mem_cons.mp h1 with h1 | h1
        · simp only [Prod.mk.injEq] at h1
          rw [h1.2, hs] at h2
          simp only [Option.some.injEq] at h2
          left
          rw [h3, ← h2, h1.1]
        · exact .inr ⟨v, sfx, h1, h2, h3⟩

theorem keys_savedEntries {cdc : Codec V} {outs : Store V} :
    Assoc.keys (savedEntries cdc outs) = Assoc.keys (stored cdc outs) := by
  induction outs with
  | nil => rfl
  | cons p outs ih =>
    obtain ⟨k0, v0⟩ := p
    rw [savedEntries]
    unfold stored at ih ⊢
    cases hs : cdc.suffix v0 with
    | none => rw [List.filter_cons_of_neg (by simp [hs]), ← ih]
    | some sfx =>
      rw [List.filter_cons_of_pos (by simp [hs])]
      simp only [Assoc.keys, List.map_cons, List.cons.injEq, true_and] at ih ⊢
      exact ih

theorem nodup_stored {cdc : Codec V} {outs : Store V} (h : (Assoc.keys outs).Nodup) :
    (Assoc.keys (stored cdc outs)).Nodup :=
  List.Nodup.sublist (List.Sublist.map _ (List.filter_sublist)) h

/-- Artifacts in the same file are the same. -/
theorem distinct_value {cdc : Codec V} {outs : Store V} (hnd : (Assoc.keys outs).Nodup)
    (hd : DistinctFiles cdc outs) {k k' sfx sfx' : String} {v v' : V} (h : (k, v) ∈ outs)
    (h' : (k', v') ∈ outs) (hs : cdc.suffix v = some sfx) (hs' : cdc.suffix v' = some sfx')
    (hn : safeName k ++ sfx = safeName k' ++ sfx') : v = v' := by
  have m1 := mem_savedEntries.mpr ⟨v, sfx, h, hs, rfl⟩
  have m2 := mem_savedEntries.mpr ⟨v', sfx', h', hs', rfl⟩
  rw [hn] at m1
  have := List.inj_on_of_nodup_map hd m1 m2 rfl
  simp only [Prod.mk.injEq, and_true] at this
  subst this
  have e1 := Assoc.get_of_mem hnd h
  rw [Assoc.get_of_mem hnd h', Option.some.injEq] at e1
  exact e1.symm

theorem sortEntries_perm (l : List (String × String)) : (sortEntries l).Perm l :=
  List.perm_insertionSort _ l

/-! ## Operations -/

/-- An operation that only writes value files of one split of one step. -/
def IsData (fp split : String) : Op V → Prop
  | .mkdir f s => f = fp ∧ s = split
  | .beginFile f s _ => f = fp ∧ s = split
  | .endFile f s _ _ => f = fp ∧ s = split
  | .manifest _ _ _ => False

theorem dirOf_set (c : Cache V) (fp fp' : String) (d : StepDir V) :
    dirOf (Assoc.set c fp d) fp' = if fp' = fp then d else dirOf c fp' := by
  unfold dirOf
  rw [Assoc.get_set]
  by_cases h : fp' = fp
  · rw [if_pos h, if_pos h]; rfl
  · rw [if_neg h, if_neg h]

/-- `c'` differs from `c` only in the value files (and the directory) of one split of one step. -/
structure Ext (fp split : String) (c c' : Cache V) : Prop where
  other : ∀ fp', fp' ≠ fp → dirOf c' fp' = dirOf c fp'
  manifest : (dirOf c' fp).manifest = (dirOf c fp).manifest
  dirs : ∀ s, s ∈ (dirOf c' fp).dirs → s ∈ (dirOf c fp).dirs ∨ s = split
  dirsBack : ∀ s, s ∈ (dirOf c fp).dirs → s ∈ (dirOf c' fp).dirs
  files : ∀ s n, s ≠ split →
    Assoc.get (dirOf c' fp).files (s, n) = Assoc.get (dirOf c fp).files (s, n)

theorem Ext.refl (fp split : String) (c : Cache V) : Ext fp split c c :=
  ⟨fun _ _ => rfl, rfl, fun _ h => .inl h, fun _ h => h, fun _ _ _ => rfl⟩

theorem Ext.trans {fp split : String} {c c' c'' : Cache V} (h : Ext fp split c c')
    (h' : Ext fp split c' c'') : Ext fp split c c'' where
  other := fun f hf => (h'.other f hf).trans (h.other f hf)
  manifest := h'.manifest.trans h.manifest
  dirs := fun s hs => by
    rcases h'.dirs s hs with hs | hs
    · exact h.dirs s hs
    · exact .inr hs
  dirsBack := fun s hs => h'.dirsBack s (h.dirsBack s hs)
  files := fun s n hs => (h'.files s n hs).trans (h.files s n hs)

theorem ext_op {fp split : String} {c : Cache V} {op : Op V} (h : IsData fp split op) :
    Ext fp split c (applyOp c op) := by
  cases op with
  | mkdir f s =>
    obtain ⟨rfl, rfl⟩ := h
    constructor
    · intro f' hf
      rw [applyOp]
      rw [dirOf_set, if_neg hf]
    · rw [applyOp]
      rw [dirOf_set, if_pos rfl]
    · intro s' hs'
      rw [applyOp] at hs'
      rw [dirOf_set, if_pos rfl] at hs'
      simp only at hs'
      split at hs'
      · exact .inl hs'
      · rcases List.mem_append.mp hs' with h | h
        · exact .inl h
        · exact .inr (by simpa using h)
    · intro s' hs'
      rw [applyOp]
      rw [dirOf_set, if_pos rfl]
      simp only
      split
      · exact hs'
      · exact List.mem_append.mpr (.inl hs')
    · intro s' n _
      rw [applyOp]
      rw [dirOf_set, if_pos rfl]
  | beginFile f s n0 =>
    obtain ⟨rfl, rfl⟩ := h
    constructor
    · intro f' hf
      rw [applyOp]
      rw [dirOf_set, if_neg hf]
    · rw [applyOp]
      rw [dirOf_set, if_pos rfl]
    · intro s' hs'
      rw [applyOp] at hs'
      rw [dirOf_set, if_pos rfl] at hs'
      exact .inl hs'
    · intro s' hs'
      rw [applyOp]
      rw [dirOf_set, if_pos rfl]
      exact hs'
    · intro s' n hs
      rw [applyOp]
      rw [dirOf_set, if_pos rfl]
      simp only
      rw [Assoc.get_set_other]
      intro he
      simp only [Prod.mk.injEq] at he
      exact hs he.1
  | endFile f s n0 v =>
    obtain ⟨rfl, rfl⟩ := h
    constructor
    · intro f' hf
      rw [applyOp]
      rw [dirOf_set, if_neg hf]
    · rw [applyOp]
      rw [dirOf_set, if_pos rfl]
    · intro s' hs'
      rw [applyOp] at hs'
      rw [dirOf_set, if_pos rfl] at hs'
      exact .inl hs'
    · intro s' hs'
      rw [applyOp]
      rw [dirOf_set, if_pos rfl]
      exact hs'
    · intro s' n hs
      rw [applyOp]
      rw [dirOf_set, if_pos rfl]
      simp only
      rw [Assoc.get_set_other]
      intro he
      simp only [Prod.mk.injEq] at he
      exact hs he.1
  | manifest f s saved => exact absurd h id

theorem ext_ops {fp split : String} {ops : List (Op V)} : ∀ {c : Cache V},
    (∀ op ∈ ops, IsData fp split op) → Ext fp split c (applyOps c ops) := by
  induction ops with
  | nil => intro c _; exact Ext.refl _ _ _
  | cons op ops ih =>
    intro c h
    exact (ext_op (h op (by simp))).trans (ih (fun o ho => h o (List.mem_cons_of_mem _ ho)))

theorem fileOps_data {cdc : Codec V} {fp split : String} : ∀ {outs : Store V},
    ∀ op ∈ fileOps cdc fp split outs, IsData fp split op := by
  intro outs
  induction outs with
  | nil => intro op h; simp [fileOps] at h
  | cons p outs ih =>
    intro op h
    obtain ⟨k, v⟩ := p
    rw [fileOps] at h
    split at h
    · simp only [List.mem_cons] at h
      rcases h with rfl | rfl | h
      · exact ⟨rfl, rfl⟩
      · exact ⟨rfl, rfl⟩
      · exact ih op h
    · exact ih op h

theorem mem_fileOps_end {cdc : Codec V} {fp split n : String} {w : V} : ∀ {outs : Store V},
    Op.endFile fp split n w ∈ fileOps cdc fp split outs →
      ∃ k sfx, (k, w) ∈ outs ∧ cdc.suffix w = some sfx ∧ n = safeName k ++ sfx := by
  intro outs
  induction outs with
  | nil => intro h; simp [fileOps] at h
  | cons p outs ih =>
    intro h
    obtain ⟨k, v⟩ := p
    rw [fileOps] at h
    split at h
    · rename_i sfx hs
      simp only [List.mem_cons, reduceCtorEq, Op.endFile.injEq, true_and, false_or] at h
      rcases h with ⟨rfl, rfl⟩ | h
      · exact ⟨k, sfx, by simp, hs, rfl⟩
      · obtain ⟨k', sfx', h1, h2, h3⟩ := ih h
        exact ⟨k', sfx', List.mem_cons_of_mem _ h1, h2, h3⟩
    · obtain ⟨k', sfx', h1, h2, h3⟩ := ih h
      exact ⟨k', sfx', List.mem_cons_of_mem _ h1, h2, h3⟩

/-- At any point of a save, a value file is as before, torn, or complete. -/
theorem data_ops_file {fp split n : String} {v : V} {ops : List (Op V)} : ∀ {c : Cache V},
    (∀ op ∈ ops, IsData fp split op) → (∀ w, Op.endFile fp split n w ∈ ops → w = v) →
    Assoc.get (dirOf (applyOps c ops) fp).files (split, n)
        = Assoc.get (dirOf c fp).files (split, n) ∨
      Assoc.get (dirOf (applyOps c ops) fp).files (split, n) = some .torn ∨
      Assoc.get (dirOf (applyOps c ops) fp).files (split, n) = some (.whole v) := by
  induction ops with
  | nil => intro c _ _; exact .inl rfl
  | cons op ops ih =>
    intro c hd hw
    have := ih (c := applyOp c op) (fun o ho => hd o (List.mem_cons_of_mem _ ho))
      (fun w hm => hw w (List.mem_cons_of_mem _ hm))
    have hstep : Assoc.get (dirOf (applyOp c op) fp).files (split, n)
        = Assoc.get (dirOf c fp).files (split, n) ∨
      Assoc.get (dirOf (applyOp c op) fp).files (split, n) = some .torn ∨
      Assoc.get (dirOf (applyOp c op) fp).files (split, n) = some (.whole v) := by
      have hop := hd op (by simp)
      cases op with
      | mkdir f s =>
        obtain ⟨rfl, rfl⟩ := hop
        left
        rw [applyOp, dirOf_set, if_pos rfl]
      | beginFile f s n' =>
        obtain ⟨rfl, rfl⟩ := hop
        rw [applyOp, dirOf_set, if_pos rfl]
        simp only
        rw [Assoc.get_set]
        split
        · exact .inr (.inl rfl)
        · exact .inl rfl
      | endFile f s n' w =>
        obtain ⟨rfl, rfl⟩ := hop
        rw [applyOp, dirOf_set, if_pos rfl]
        simp only
        rw [Assoc.get_set]
        split
        · rename_i he
          simp only [Prod.mk.injEq, true_and] at he
          subst he
          rw [hw w (by simp)]
          exact .inr (.inr rfl)
        · exact .inl rfl
      | manifest f s saved => exact absurd hop id
    show Assoc.get (dirOf (applyOps (applyOp c op) ops) fp).files (split, n) = _ ∨ _
    rcases this with h | h | h
    · rcases hstep with h' | h' | h'
      · exact .inl (h.trans h')
      · exact .inr (.inl (h.trans h'))
      · exact .inr (.inr (h.trans h'))
    · exact .inr (.inl h)
    · exact .inr (.inr h)

theorem mkdir_mem (c : Cache V) (fp split : String) :
    split ∈ (dirOf (applyOp c (.mkdir fp split)) fp).dirs := by
  rw [applyOp]
  rw [dirOf_set, if_pos rfl]
  simp only
  split
  · assumption
  · simp

/-- Value files after the file loop: those of the artifacts are complete, others unchanged. -/
theorem fileOps_files {cdc : Codec V} {fp split : String} : ∀ {outs : Store V} {c : Cache V},
    DistinctFiles cdc outs →
    (∀ k v sfx, (k, v) ∈ outs → cdc.suffix v = some sfx →
      Assoc.get (dirOf (applyOps c (fileOps cdc fp split outs)) fp).files (split, safeName k ++ sfx)
        = some (.whole v)) ∧
    (∀ n, n ∉ (savedEntries cdc outs).map (·.2) →
      Assoc.get (dirOf (applyOps c (fileOps cdc fp split outs)) fp).files (split, n)
        = Assoc.get (dirOf c fp).files (split, n)) := by
  intro outs
  induction outs with
  | nil => intro c _; exact ⟨by simp, fun n _ => rfl⟩
  | cons p outs ih =>
    intro c hd
    obtain ⟨k0, v0⟩ := p
    unfold DistinctFiles at hd
    rw [savedEntries] at hd
    rw [fileOps, savedEntries]
    cases hs : cdc.suffix v0 with
    | none =>
      rw [hs] at hd
      simp only at hd ⊢
      obtain ⟨h1, h2⟩ := ih (c := c) hd
      refine ⟨?_, h2⟩
      intro k v sfx hm hv
      rcases List.mem_cons.mp hm with hm | hm
      · simp only [Prod.mk.injEq] at hm
        rw [hm.2, hs] at hv
        simp at hv
      · exact h1 k v sfx hm hv
    | some sfx0 =>
      rw [hs] at hd
      simp only [List.map_cons, List.nodup_cons] at hd
      have hstep : ∀ (c : Cache V) (rest : List (Op V)), applyOps c
          (Op.beginFile fp split (safeName k0 ++ sfx0) ::
            Op.endFile fp split (safeName k0 ++ sfx0) v0 :: rest) =
          applyOps (applyOp (applyOp c (.beginFile fp split (safeName k0 ++ sfx0)))
            (.endFile fp split (safeName k0 ++ sfx0) v0)) rest := fun _ _ => rfl
      simp only
      rw [hstep]
      generalize hc1 : applyOp (applyOp c (.beginFile fp split (safeName k0 ++ sfx0)))
            (.endFile fp split (safeName k0 ++ sfx0) v0) = c1
      have hget : ∀ n, Assoc.get (dirOf c1 fp).files (split, n) =
          if n = safeName k0 ++ sfx0 then some (.whole v0)
          else Assoc.get (dirOf c fp).files (split, n) := by
        intro n
        rw [← hc1]
        simp only [applyOp]
        rw [dirOf_set, if_pos rfl]
        simp only
        rw [Assoc.get_set, dirOf_set, if_pos rfl]
        simp only [Prod.mk.injEq, true_and]
        by_cases hn : n = safeName k0 ++ sfx0
        · rw [if_pos hn, if_pos hn]
        · rw [if_neg hn, if_neg hn, Assoc.get_set_other]
          simp [hn]
      obtain ⟨h1, h2⟩ := ih (c := c1) hd.2
      constructor
      · intro k v sfx hm hv
        rcases List.mem_cons.mp hm with hm | hm
        · simp only [Prod.mk.injEq] at hm
          rw [hm.2, hs] at hv
          simp only [Option.some.injEq] at hv
          rw [hm.1, ← hv, h2 _ hd.1, hget, if_pos rfl, hm.2]
        · exact h1 k v sfx hm hv
      · intro n hn
        simp only [List.map_cons, List.mem_cons, not_or] at hn
        rw [h2 n hn.2, hget, if_neg hn.1]

/-- Reading the entries of a split back. -/
def loadAll (cdc : Codec V) (d : StepDir V) (split : String) (es : List (String × String)) :
    Except PyErr (Store V) :=
  es.mapM (fun (p : String × String) => (loadValue cdc d split p.2).map (fun v => (p.1, v)))

theorem loadOutputs_eq {cdc : Codec V} {c : Cache V} {fp split : String}
    {m : List (String × List (String × String))} (h : (dirOf c fp).manifest = some m) :
    loadOutputs cdc c fp split = loadAll cdc (dirOf c fp) split ((Assoc.get m split).getD []) := by
  unfold loadOutputs
  rw [h]
  rfl

theorem loadAll_congr {cdc : Codec V} {d d' : StepDir V} {split : String}
    (h : ∀ n, Assoc.get d'.files (split, n) = Assoc.get d.files (split, n))
    (es : List (String × String)) : loadAll cdc d' split es = loadAll cdc d split es := by
  unfold loadAll
  congr 1
  funext p
  unfold loadValue
  rw [h]

/-- The values read for the entries make up the stored artifacts. -/
theorem loadAll_eqv {cdc : Codec V} {outs : Store V} {es : List (String × String)}
    {f : String × String → Except PyErr (String × V)} {l : Store V}
    (hnd : (Assoc.keys outs).Nodup) (hperm : es.Perm (savedEntries cdc outs))
    (hl : es.mapM f = .ok l)
    (hf : ∀ k n, (k, n) ∈ es → ∀ p, f (k, n) = .ok p → p ∈ stored cdc outs ∧ p.1 = k) :
    Eqv l (stored cdc outs) := by
  have h2 := mapM_ok.mp hl
  have hkeys : Assoc.keys l = Assoc.keys es ∧ ∀ p ∈ l, p ∈ stored cdc outs := by
    clear hl hperm
    induction h2 with
    | nil => exact ⟨rfl, by simp⟩
    | @cons e p es l he _ ih =>
      obtain ⟨ih1, ih2⟩ := ih (fun k n hm => hf k n (List.mem_cons_of_mem _ hm))
      obtain ⟨hp1, hp2⟩ := hf e.1 e.2 (by simp) p he
      refine ⟨?_, ?_⟩
      · simp only [Assoc.keys, List.map_cons] at ih1 ⊢
        rw [ih1, hp2]
      · intro q hq
        rcases List.mem_cons.mp hq with rfl | hq
        · exact hp1
        · exact ih2 q hq
  have hk : (Assoc.keys l).Perm (Assoc.keys (stored cdc outs)) := by
    rw [hkeys.1, ← keys_savedEntries]
    exact hperm.map _
  have hnds := nodup_stored (cdc := cdc) hnd
  have hndl : (Assoc.keys l).Nodup := hk.nodup_iff.mpr hnds
  refine ⟨hndl, ?_⟩
  intro k
  by_cases hkl : k ∈ Assoc.keys l
  · obtain ⟨v, hv⟩ := Assoc.mem_keys_iff.mp hkl
    rw [hv, Assoc.get_of_mem hnds (hkeys.2 _ (Assoc.mem_of_get hv))]
  · rw [Assoc.get_eq_none_iff.mpr hkl,
      Assoc.get_eq_none_iff.mpr (fun h => hkl (hk.mem_iff.mpr h))]

/-- The manifest entry of a split. -/
def entryOf (c : Cache V) (fp split : String) : Option (List (String × String)) :=
  (dirOf c fp).manifest.bind (fun m => Assoc.get m split)

/-- A manifest entry lists the stored artifacts, and their files are complete, or torn in a way that
is recognised as a cache error. -/
def EntryOk (cdc : Codec V) (d : StepDir V) (split : String) (outs : Store V)
    (es : List (String × String)) : Prop :=
  es = sortEntries (savedEntries cdc outs) ∧
  ∀ k v sfx, (k, v) ∈ outs → cdc.suffix v = some sfx →
    Assoc.get d.files (split, safeName k ++ sfx) = some (.whole v) ∨
      (cdc.tornError = .cacheError ∧
        Assoc.get d.files (split, safeName k ++ sfx) = some .torn)

/-- All files of the artifacts are complete. -/
def AllWhole (cdc : Codec V) (d : StepDir V) (split : String) (outs : Store V) : Prop :=
  ∀ k v sfx, (k, v) ∈ outs → cdc.suffix v = some sfx →
    Assoc.get d.files (split, safeName k ++ sfx) = some (.whole v)

theorem mapM_or {α β : Type} {f : α → Except PyErr β} {e0 : PyErr} {l : List α}
    (h : ∀ a ∈ l, (∃ b, f a = .ok b) ∨ f a = .error e0) :
    (∃ r, l.mapM f = .ok r) ∨ l.mapM f = .error e0 := by
  induction l with
  | nil => exact .inl ⟨[], rfl⟩
  | cons a l ih =>
    rw [List.mapM_cons]
    rcases h a (by simp) with ⟨b, hb⟩ | he
    · rw [hb]
      rcases ih (fun x hx => h x (List.mem_cons_of_mem _ hx)) with ⟨r, hr⟩ | he
      · rw [hr]; exact .inl ⟨b :: r, rfl⟩
      · rw [he]; exact .inr rfl
    · rw [he]; exact .inr rfl

/-- Loading an entry returns the stored artifacts or a cache error. -/
theorem loadAll_entry {cdc : Codec V} {d : StepDir V} {split : String} {outs : Store V}
    {es : List (String × String)} (hnd : (Assoc.keys outs).Nodup) (hst : Faithful cdc outs)
    (he : EntryOk cdc d split outs es) :
    (∃ l, loadAll cdc d split es = .ok l ∧ Eqv l (stored cdc outs)) ∨
      (loadAll cdc d split es = .error .cacheError ∧ ¬ AllWhole cdc d split outs) := by
  obtain ⟨rfl, hf⟩ := he
  have hperm := sortEntries_perm (savedEntries cdc outs)
  have hload : ∀ k n, (k, n) ∈ sortEntries (savedEntries cdc outs) →
      (∃ v, (k, v) ∈ stored cdc outs ∧
        (loadValue cdc d split n).map (fun v => (k, v)) = .ok (k, v)) ∨
      ((loadValue cdc d split n).map (fun v => (k, v)) = .error .cacheError ∧
        ¬ AllWhole cdc d split outs) := by
    intro k n hm
    obtain ⟨v, sfx, h1, h2, h3⟩ := mem_savedEntries.mp (hperm.mem_iff.mp hm)
    have h5 := hst (k, v) h1 (by simp [h2])
    unfold loadValue
    rw [h3]
    rcases hf k v sfx h1 h2 with hw | ⟨ht, hw⟩
    · left
      refine ⟨v, List.mem_filter.mpr ⟨h1, by simp [h2]⟩, ?_⟩
      rw [hw]
      simp only [Except.map]
      rw [h5]
    · right
      refine ⟨by rw [hw]; simp [Except.map, ht], ?_⟩
      intro hall
      rw [hall k v sfx h1 h2] at hw
      simp at hw
  by_cases hall : AllWhole cdc d split outs
  swap
  · rcases mapM_or (f := fun (p : String × String) =>
      (loadValue cdc d split p.2).map (fun v => (p.1, v))) (e0 := .cacheError)
      (l := sortEntries (savedEntries cdc outs)) (by
        rintro ⟨k, n⟩ hm
        rcases hload k n hm with ⟨v, -, hv⟩ | ⟨h, -⟩
        · exact .inl ⟨_, hv⟩
        · exact .inr h) with ⟨l, hl⟩ | hl
    · exact .inl ⟨l, hl, loadAll_eqv hnd hperm hl (fun k n hm p hp => by
        rcases hload k n hm with ⟨v, hv1, hv2⟩ | ⟨h, -⟩
        · rw [hv2, Except.ok.injEq] at hp
          rw [← hp]
          exact ⟨hv1, rfl⟩
        · rw [h] at hp; simp at hp)⟩
    · exact .inr ⟨hl, hall⟩
  · left
    obtain ⟨l, hl⟩ := mapM_total (f := fun (p : String × String) =>
        (loadValue cdc d split p.2).map (fun v => (p.1, v)))
      (l := sortEntries (savedEntries cdc outs)) (by
        rintro ⟨k, n⟩ hm
        rcases hload k n hm with ⟨v, -, hv⟩ | ⟨-, h⟩
        · exact ⟨_, hv⟩
        · exact absurd hall h)
    exact ⟨l, hl, loadAll_eqv hnd hperm hl (fun k n hm p hp => by
        rcases hload k n hm with ⟨v, hv1, hv2⟩ | ⟨h, -⟩
        · rw [hv2, Except.ok.injEq] at hp
          rw [← hp]
          exact ⟨hv1, rfl⟩
        · rw [h] at hp; simp at hp)⟩

/-- Everything but the last operation of a save only touches value files. -/
theorem saveOps_prefix {cdc : Codec V} {fp split : String} {outs : Store V} (n : Nat) :
    (saveOps cdc fp split outs).take n = saveOps cdc fp split outs ∨
      ∀ op ∈ (saveOps cdc fp split outs).take n,
        op = .mkdir fp split ∨ op ∈ fileOps cdc fp split outs := by
  by_cases hn : n < (saveOps cdc fp split outs).length
  · right
    intro op hop
    unfold saveOps at hop hn
    have hle : n ≤ (Op.mkdir fp split :: fileOps cdc fp split outs).length := by
      simp only [List.cons_append, List.length_cons, List.length_append, List.length_nil] at hn ⊢
      omega
    rw [List.take_append_of_le_length hle] at hop
    have := List.mem_of_mem_take hop
    exact List.mem_cons.mp this
  · left
    exact List.take_of_length_le (by omega)

/-- The tree after a complete save. -/
theorem saved_tree {cdc : Codec V} {fp split : String} {outs : Store V} {c : Cache V}
    (hdf : DistinctFiles cdc outs) :
    let c' := applyOps c (saveOps cdc fp split outs)
    (∀ fp', fp' ≠ fp → dirOf c' fp' = dirOf c fp') ∧
    (∀ s, s ∈ (dirOf c' fp).dirs ↔ s ∈ (dirOf c fp).dirs ∨ s = split) ∧
    (∀ s, s ≠ split → entryOf c' fp s = entryOf c fp s) ∧
    (∀ s n, s ≠ split →
      Assoc.get (dirOf c' fp).files (s, n) = Assoc.get (dirOf c fp).files (s, n)) ∧
    (dirOf c' fp).manifest.isSome ∧
    entryOf c' fp split = some (sortEntries (savedEntries cdc outs)) ∧
    AllWhole cdc (dirOf c' fp) split outs := by
  intro c'
  have hc' : c' = applyOp (applyOps (applyOp c (.mkdir fp split)) (fileOps cdc fp split outs))
      (.manifest fp split (sortEntries (savedEntries cdc outs))) := by
    show applyOps c (saveOps cdc fp split outs) = _
    unfold saveOps applyOps
    rw [List.foldl_append, List.foldl_cons]
    rfl
  have hext : Ext fp split c (applyOps (applyOp c (.mkdir fp split)) (fileOps cdc fp split outs)) :=
    (ext_op (op := .mkdir fp split) ⟨rfl, rfl⟩).trans (ext_ops fileOps_data)
  have hmem : split ∈
      (dirOf (applyOps (applyOp c (.mkdir fp split)) (fileOps cdc fp split outs)) fp).dirs :=
    (ext_ops (fp := fp) (split := split) fileOps_data).dirsBack _ (mkdir_mem c fp split)
  have hfiles := (fileOps_files (cdc := cdc) (fp := fp) (split := split)
    (c := applyOp c (.mkdir fp split)) hdf).1
  generalize applyOps (applyOp c (.mkdir fp split)) (fileOps cdc fp split outs) = c1 at *
  have hd : dirOf c' fp = { dirOf c1 fp with manifest := some (Assoc.set
      ((dirOf c1 fp).manifest.getD []) split (sortEntries (savedEntries cdc outs))) } := by
    rw [hc', applyOp]
    rw [dirOf_set, if_pos rfl]
  refine ⟨?_, ?_, ?_, ?_, ?_, ?_, ?_⟩
  · intro f hf
    rw [hc', applyOp]
    rw [dirOf_set, if_neg hf]
    exact hext.other f hf
  · intro s
    rw [hd]
    exact ⟨hext.dirs s, fun h => h.elim (hext.dirsBack s) (fun h => h ▸ hmem)⟩
  · intro s hs
    unfold entryOf
    rw [hd]
    simp only [Option.bind_some]
    rw [Assoc.get_set_other _ _ hs, hext.manifest]
    cases (dirOf c fp).manifest with
    | none => rfl
    | some m => rfl
  · intro s n hs
    rw [hd]
    exact hext.files s n hs
  · rw [hd]; rfl
  · unfold entryOf
    rw [hd]
    simp
  · rw [hd]; exact hfiles

end ModSSC.Preprocess
