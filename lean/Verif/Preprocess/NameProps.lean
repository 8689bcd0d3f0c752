import Verif.Preprocess.StoreProps
import Verif.Preprocess.Demo

/-!
# File names of cached artifacts (C35)
-/

namespace ModSSC.Preprocess
open ModSSC Spec

variable {V P S : Type}

/-- A key the naming scheme can tell apart: no `/`, no two dots in a row, and no underscore followed
by an underscore or a dot. -/
def goodChars : List Char → Bool
  | [] => true
  | '/' :: _ => false
  | '.' :: '.' :: _ => false
  | '_' :: '_' :: _ => false
  | '_' :: '.' :: _ => false
  | _ :: cs => goodChars cs

/-- The same for strings. -/
def GoodKey (k : String) : Prop := goodChars k.toList = true

instance (k : String) : Decidable (GoodKey k) := inferInstanceAs (Decidable (_ = true))

/-- The encoding on good keys: a dot becomes two underscores. -/
def encDots (l : List Char) : List Char := replaceChar '.' ['_', '_'] l

theorem goodChars_tail {c : Char} {cs : List Char} (h : goodChars (c :: cs) = true) :
    goodChars cs = true ∧ c ≠ '/' ∧ (c = '.' → cs.head? ≠ some '.') ∧
      (c = '_' → cs.head? ≠ some '_' ∧ cs.head? ≠ some '.') := by
  unfold goodChars at h
  split at h
  · simp_all
  · simp at h
  · simp at h
  · simp at h
  · simp at h
  · rename_i h1 h2 h3 h4 heq
    simp only [List.cons.injEq] at heq
    obtain ⟨rfl, rfl⟩ := heq
    refine ⟨h, ?_, ?_, ?_⟩
    · intro hc; exact h1 hc
    · intro hc hh
      cases cs with
      | nil => simp at hh
      | cons d ds =>
        simp only [List.head?_cons, Option.some.injEq] at hh
        subst hh
        exact h2 ds hc rfl
    · intro hc
      cases cs with
      | nil => simp
      | cons d ds =>
        simp only [List.head?_cons, ne_eq, Option.some.injEq]
        exact ⟨fun hd => h3 ds hc (by rw [hd]), fun hd => h4 ds hc (by rw [hd])⟩

theorem replace_slash {l : List Char} (h : goodChars l = true) : replaceChar '/' ['_'] l = l := by
  induction l with
  | nil => rfl
  | cons c cs ih =>
    obtain ⟨h1, h2, -⟩ := goodChars_tail h
    rw [replaceChar, if_neg h2, ih h1]

theorem collapse_good {l : List Char} (h : goodChars l = true) : collapseDots l = l := by
  induction l with
  | nil => rfl
  | cons c cs ih =>
    obtain ⟨h1, -, h3, -⟩ := goodChars_tail h
    unfold collapseDots
    split
    · rename_i heq
      simp only [List.cons.injEq] at heq
      obtain ⟨rfl, rfl⟩ := heq
      exact absurd rfl (h3 rfl)
    · rename_i heq
      simp only [List.cons.injEq] at heq
      obtain ⟨rfl, rfl⟩ := heq
      rw [ih h1]
    · simp_all

theorem safeName_good {k : String} (h : GoodKey k) :
    safeName k = String.ofList (encDots k.toList) := by
  unfold safeName encDots
  rw [replace_slash h, collapse_good h]

theorem encDots_cons (c : Char) (cs : List Char) :
    encDots (c :: cs) = (if c = '.' then ['_', '_'] else [c]) ++ encDots cs := by
  unfold encDots
  rw [replaceChar]
  by_cases h : c = '.'
  · rw [if_pos h, if_pos h]
  · rw [if_neg h, if_neg h]; rfl

theorem encDots_nil : encDots [] = [] := rfl

/-- After an underscore, the encoding of a good tail does not start with an underscore. -/
theorem encDots_head {cs r : List Char} (h1 : cs.head? ≠ some '_') (h2 : cs.head? ≠ some '.') :
    encDots cs ≠ '_' :: r := by
  cases cs with
  | nil => simp [encDots_nil]
  | cons c cs =>
    rw [encDots_cons]
    simp only [List.head?_cons, ne_eq, Option.some.injEq] at h1 h2
    rw [if_neg h2]
    simp [h1]

theorem encDots_inj : ∀ {l l' : List Char}, goodChars l = true → goodChars l' = true →
    encDots l = encDots l' → l = l' := by
  intro l
  induction l with
  | nil =>
    intro l' _ _ h
    cases l' with
    | nil => rfl
    | cons c cs =>
      rw [encDots_cons, encDots_nil] at h
      split at h <;> simp at h
  | cons a cs ih =>
    intro l' hg hg' h
    cases l' with
    | nil =>
      rw [encDots_cons, encDots_nil] at h
      split at h <;> simp at h
    | cons b cs' =>
      obtain ⟨g1, -, -, g4⟩ := goodChars_tail hg
      obtain ⟨g1', -, -, g4'⟩ := goodChars_tail hg'
      rw [encDots_cons, encDots_cons] at h
      by_cases ha : a = '.' <;> by_cases hb : b = '.'
      · rw [if_pos ha, if_pos hb] at h
        rw [ih g1 g1' (List.append_cancel_left h), ha, hb]
      · rw [if_pos ha, if_neg hb] at h
        simp only [List.cons_append, List.nil_append, List.cons.injEq] at h
        obtain ⟨h1, h2⟩ := h
        have := g4' h1.symm
        exact absurd h2.symm (encDots_head this.1 this.2)
      · rw [if_neg ha, if_pos hb] at h
        simp only [List.cons_append, List.nil_append, List.cons.injEq] at h
        obtain ⟨h1, h2⟩ := h
        have := g4 h1
        exact absurd h2 (encDots_head this.1 this.2)
      · rw [if_neg ha, if_neg hb] at h
        simp only [List.cons_append, List.nil_append, List.cons.injEq] at h
        rw [h.1, ih g1 g1' h.2]

/-- Any file name stem is free of dots, so the suffix can be split off. -/
theorem encDots_nodot (l : List Char) : '.' ∉ encDots l := by
  induction l with
  | nil => simp [encDots_nil]
  | cons c cs ih =>
    rw [encDots_cons]
    by_cases h : c = '.'
    · rw [if_pos h]; simp [ih]
    · rw [if_neg h]; simp [ih, Ne.symm h]

theorem split_dot {a a' r r' : List Char} (h : '.' ∉ a) (h' : '.' ∉ a')
    (e : a ++ '.' :: r = a' ++ '.' :: r') : a = a' := by
  induction a generalizing a' with
  | nil =>
    cases a' with
    | nil => rfl
    | cons c cs =>
      simp only [List.nil_append, List.cons_append, List.cons.injEq] at e
      simp [← e.1] at h'
  | cons c cs ih =>
    cases a' with
    | nil =>
      simp only [List.nil_append, List.cons_append, List.cons.injEq] at e
      simp [e.1] at h
    | cons c' cs' =>
      simp only [List.cons_append, List.cons.injEq] at e
      simp only [List.mem_cons, not_or] at h h'
      rw [e.1, ih h.2 h'.2 e.2]

/-- File suffixes start with a dot, as `.npy`, `.json`, `.npz` and `.pt` do. -/
def DotSuffix (cdc : Codec V) : Prop := ∀ v s, cdc.suffix v = some s → ∃ r, s.toList = '.' :: r

/-- Different good keys get different files, whatever is stored under them. -/
theorem fileName_inj {k k' s s' : String} (hk : GoodKey k) (hk' : GoodKey k')
    (hs : ∃ r, s.toList = '.' :: r) (hs' : ∃ r, s'.toList = '.' :: r)
    (h : safeName k ++ s = safeName k' ++ s') : k = k' := by
  obtain ⟨r, hr⟩ := hs
  obtain ⟨r', hr'⟩ := hs'
  rw [safeName_good hk, safeName_good hk'] at h
  have h := congrArg String.toList h
  rw [String.toList_append, String.toList_append, String.toList_ofList, String.toList_ofList, hr,
    hr'] at h
  exact String.toList_injective
    (encDots_inj hk hk' (split_dot (encDots_nodot _) (encDots_nodot _) h))

theorem distinct_good {cdc : Codec V} (hd : DotSuffix cdc) {outs : Store V}
    (hnd : (Assoc.keys outs).Nodup) (hg : ∀ p ∈ outs, GoodKey p.1) : DistinctFiles cdc outs := by
  unfold DistinctFiles
  induction outs with
  | nil => simp [savedEntries]
  | cons p rest ih =>
    obtain ⟨k, v⟩ := p
    have hnd' : k ∉ Assoc.keys rest ∧ (Assoc.keys rest).Nodup := by
      simpa [Assoc.keys] using hnd
    have ih' := ih hnd'.2 (fun q hq => hg q (List.mem_cons_of_mem _ hq))
    unfold savedEntries
    cases hs : cdc.suffix v with
    | none => exact ih'
    | some sfx =>
      simp only [List.map_cons, List.nodup_cons]
      refine ⟨?_, ih'⟩
      intro hm
      obtain ⟨⟨k', n⟩, hq, hqn⟩ := List.mem_map.mp hm
      obtain ⟨v', sfx', g1, g2, g3⟩ := mem_savedEntries.mp hq
      have : k = k' := fileName_inj (hg (k, v) (by simp))
        (hg (k', v') (List.mem_cons_of_mem _ g1)) (hd _ _ hs) (hd _ _ g2) (by rw [← g3]; exact hqn.symm)
      subst this
      exact hnd'.1 (List.mem_map.mpr ⟨_, g1, rfl⟩)

/-- **C35 (names) -- partial.**  Two different keys of the described shape are stored in different
files, whatever their values are.  False for arbitrary keys (`C35_names_collide_violated`). -/
theorem C35_names_distinct_partial {cdc : Codec V} (hd : DotSuffix cdc) {k k' : String} {v v' : V}
    {s s' : String} (hk : GoodKey k) (hk' : GoodKey k') (hs : cdc.suffix v = some s)
    (hs' : cdc.suffix v' = some s') (hne : k ≠ k') : safeName k ++ s ≠ safeName k' ++ s' :=
  fun h => hne (fileName_inj hk hk' (hd _ _ hs) (hd _ _ hs') h)

/-- **C35 (round trip) -- partial.**  After step outputs were saved, over whatever was in the cache
before, loading returns under every key its own value, and nothing else; keys whose value cannot be
stored are missing.  Needs keys of the described shape and values that survive their file format. -/
theorem C35_save_load_partial {cdc : Codec V} (hd : DotSuffix cdc) {outs : Store V}
    (hnd : (Assoc.keys outs).Nodup) (hg : ∀ p ∈ outs, GoodKey p.1)
    (hf : ∀ k v, Assoc.get outs k = some v → (cdc.suffix v).isSome → cdc.reload v = v)
    (c : Cache V) (fp split : String) :
    ∃ l, loadOutputs cdc (applyOps c (saveOps cdc fp split outs)) fp split = .ok l ∧
      (Assoc.keys l).Nodup ∧
      ∀ k, Assoc.get l k = (Assoc.get outs k).filter (fun v => (cdc.suffix v).isSome) := by
  obtain ⟨-, -, -, -, h5, h6, h7⟩ :=
    saved_tree (fp := fp) (split := split) (c := c) (distinct_good hd hnd hg)
  generalize applyOps c (saveOps cdc fp split outs) = c' at *
  rw [Option.isSome_iff_exists] at h5
  obtain ⟨m, hm⟩ := h5
  have he : Assoc.get m split = some (sortEntries (savedEntries cdc outs)) := by
    unfold entryOf at h6
    rw [hm] at h6
    exact h6
  have hfaith : Faithful cdc outs := by
    intro p hp hs
    refine hf p.1 p.2 (Assoc.get_of_mem hnd hp) ?_
    rw [Option.isSome_iff_ne_none]; exact hs
  rcases loadAll_entry (d := dirOf c' fp) (split := split) hnd hfaith
    ⟨rfl, fun k v sfx g1 g2 => .inl (h7 k v sfx g1 g2)⟩ with ⟨l, hl, heq⟩ | ⟨-, hw⟩
  · refine ⟨l, ?_, heq.1, ?_⟩
    · rw [loadOutputs_eq hm, he]; exact hl
    · intro k
      rw [heq.2]
      clear heq hl hfaith hf he h6 h7 hg
      unfold stored
      induction outs with
      | nil => rfl
      | cons p rest ih =>
        have hnd' : p.1 ∉ Assoc.keys rest ∧ (Assoc.keys rest).Nodup := by
          simpa [Assoc.keys] using hnd
        have ih' := ih hnd'.2
        rw [List.filter_cons]
        by_cases hk : p.1 = k
        · subst hk
          cases hs : (cdc.suffix p.2).isSome with
          | true =>
            rw [if_pos rfl, Assoc.get_cons, if_pos rfl, Assoc.get_cons, if_pos rfl]
            simp only [Option.filter]
            exact (if_pos hs).symm
          | false =>
            have h0 : Assoc.get rest p.1 = none := Assoc.get_eq_none_iff.mpr hnd'.1
            rw [h0] at ih'
            simp only [Bool.false_eq_true, if_false]
            rw [ih', Assoc.get_cons, if_pos rfl]
            simp only [Option.filter]
            exact (if_neg (by rw [hs]; simp)).symm
        · rw [Assoc.get_cons, if_neg hk, ← ih']
          split
          · rw [Assoc.get_cons, if_neg hk]
          · rfl
  · exact absurd h7 hw

/-- **C35 (manifest) -- partial.**  After a save the manifest lists for the split exactly the artifacts that can be stored, each once with
its file, in the order of their keys, whatever order they were produced in.  Needs keys of the described shape. -/
theorem C35_manifest_partial {cdc : Codec V} (hd : DotSuffix cdc) {outs : Store V} (hnd : (Assoc.keys outs).Nodup)
    (hg : ∀ p ∈ outs, GoodKey p.1) (c : Cache V) (fp split : String) :
    ∃ m es, (dirOf (applyOps c (saveOps cdc fp split outs)) fp).manifest = some m ∧ Assoc.get m split = some es ∧
      es.Pairwise (fun a b => a.1 < b.1) ∧
      ∀ k n, (k, n) ∈ es ↔ ∃ v sfx, (k, v) ∈ outs ∧ cdc.suffix v = some sfx ∧ n = safeName k ++ sfx := by
  obtain ⟨-, -, -, -, h5, h6, -⟩ :=
    saved_tree (fp := fp) (split := split) (c := c) (distinct_good hd hnd hg)
  rw [Option.isSome_iff_exists] at h5
  obtain ⟨m, hm⟩ := h5
  unfold entryOf at h6
  rw [hm] at h6
  have hperm := sortEntries_perm (savedEntries cdc outs)
  refine ⟨m, _, hm, h6, ?_, fun k n => ?_⟩
  · have hsort : (sortEntries (savedEntries cdc outs)).Pairwise (fun a b => a.1 ≤ b.1) :=
      haveI : Std.Total (fun a b : String × String => a.1 ≤ b.1) := ⟨fun a b => String.le_total a.1 b.1⟩
      haveI : IsTrans (String × String) (fun a b => a.1 ≤ b.1) := ⟨fun _ _ _ h h' => String.le_trans h h'⟩
      List.pairwise_insertionSort _ _
    have hkeys : ((sortEntries (savedEntries cdc outs)).map (·.1)).Nodup := by
      rw [(hperm.map _).nodup_iff]
      have := keys_savedEntries (cdc := cdc) (outs := outs)
      unfold Assoc.keys at this
      rw [this]
      unfold stored
      exact hnd.sublist (List.filter_sublist.map _)
    rw [List.nodup_iff_pairwise_ne, List.pairwise_map] at hkeys
    exact (hsort.and hkeys).imp fun {a b} h => String.not_le.mp fun h' => h.2 (String.le_antisymm h.1 h')
  · rw [hperm.mem_iff, mem_savedEntries]

/-- The artifact keys of the built-in steps (`catalog.py`, `steps/`). -/
def builtinKeys : List String :=
  ["raw.X", "raw.y", "features.X", "tokens.input_ids", "tokens.attention_mask", "graph.edge_index",
   "graph.edge_weight", "labels.y", "labels.classes", "labels.y_onehot", "labels.is_labeled",
   "metadata.vocab_size"]

-- All of them have the described shape.
example : ∀ k ∈ builtinKeys, GoodKey k := by decide +kernel

example : DotSuffix demoCodec := by
  intro v s h
  simp only [demoCodec, Option.some.injEq] at h
  subst h
  exact ⟨"npy".toList, by decide⟩

/-- **C35 is violated for other keys**: `a/b` and `a_b` share a file, and so do `a.b` and `a__b`.
The artifact stored first comes back with the value of the second. -/
theorem C35_names_collide_violated :
    safeName "a/b" = safeName "a_b" ∧ safeName "a.b" = safeName "a__b" ∧
    (loadOutputs demoCodec (applyOps [] (saveOps demoCodec "fp" "train" [("a/b", 1), ("a_b", 2)]))
      "fp" "train").toOption = some [("a/b", 2), ("a_b", 2)] := by
  decide +kernel

end ModSSC.Preprocess
