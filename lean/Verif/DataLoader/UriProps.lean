import Verif.DataLoader.UriModel
import Verif.ExceptLemmas

/-!
# C30 (URIs), C31 (filters and limits), C66 (bulk download), C67 (rebased paths)
-/

namespace ModSSC.DataLoader
open ModSSC

/-! ## C30 -/

/-- Specification: not empty and no white space at either end. -/
def Trimmed (ws : Char → Bool) (s : List Char) : Prop :=
  (∃ c, s.head? = some c ∧ ws c = false) ∧ (∃ c, s.getLast? = some c ∧ ws c = false)

/-- Specification: contains a character that is not white space. -/
def NotBlank (ws : Char → Bool) (s : List Char) : Prop := ∃ c ∈ s, ws c = false

theorem splitColon_append (p r : List Char) (hp : ':' ∉ p) : splitColon (p ++ ':' :: r) = some (p, r) := by
  induction p with
  | nil => simp [splitColon]
  | cons c p ih =>
    simp only [List.mem_cons, not_or] at hp
    have hc : ¬ c = ':' := fun e => hp.1 e.symm
    simp [splitColon, ih hp.2, hc]

theorem splitColon_some {s p r : List Char} (h : splitColon s = some (p, r)) :
    s = p ++ ':' :: r ∧ ':' ∉ p := by
  induction s generalizing p with
  | nil => simp [splitColon] at h
  | cons c s ih =>
    simp only [splitColon] at h
    split at h
    · rename_i hc
      simp only [Option.some.injEq, Prod.mk.injEq] at h
      obtain ⟨rfl, rfl⟩ := h
      simp [hc]
    · rename_i hc
      obtain ⟨⟨a, b⟩, hab, e⟩ := Option.map_eq_some_iff.mp h
      simp only [Prod.mk.injEq] at e
      obtain ⟨rfl, rfl⟩ := e
      obtain ⟨rfl, hb⟩ := ih hab
      exact ⟨rfl, by simp only [List.mem_cons, not_or]; exact ⟨fun e => hc e.symm, hb⟩⟩

theorem splitColon_none {s : List Char} : splitColon s = none ↔ ':' ∉ s := by
  induction s with
  | nil => simp [splitColon]
  | cons c s ih =>
    simp only [splitColon]
    split
    · rename_i h; simp [h]
    · rename_i h
      rw [Option.map_eq_none_iff, ih]
      have hc : ¬ ':' = c := fun e => h e.symm
      simp [hc]

theorem dropWhile_head {α : Type} (p : α → Bool) (s : List α) (c : α) (h : s.head? = some c)
    (hc : p c = false) : s.dropWhile p = s := by
  cases s with
  | nil => simp at h
  | cons a s => simp only [List.head?_cons, Option.some.injEq] at h; subst h; simp [hc]

theorem dropWhile_ne_nil {α : Type} (p : α → Bool) (s : List α) :
    s.dropWhile p ≠ [] ↔ ∃ c ∈ s, p c = false := by
  induction s with
  | nil => simp
  | cons a s ih =>
    by_cases ha : p a
    · simp [List.dropWhile_cons, ha, ih]
    · simp [List.dropWhile_cons, ha]

theorem dropWhile_head_false {α : Type} (p : α → Bool) (s : List α) (h : s.dropWhile p ≠ []) :
    ∃ c, (s.dropWhile p).head? = some c ∧ p c = false := by
  induction s with
  | nil => simp at h
  | cons a s ih =>
    by_cases ha : p a
    · simp only [List.dropWhile_cons, ha, if_true] at h ⊢; exact ih h
    · refine ⟨a, by simp [List.dropWhile_cons, ha], by simpa using ha⟩

theorem strip_trimmed (ws : Char → Bool) {s : List Char} (h : Trimmed ws s) : strip ws s = s := by
  obtain ⟨⟨c, hc, hw⟩, ⟨d, hd, hw'⟩⟩ := h
  unfold strip
  rw [dropWhile_head ws s c hc hw, dropWhile_head ws s.reverse d (by simpa using hd) hw',
    List.reverse_reverse]

theorem strip_ne_nil (ws : Char → Bool) (s : List Char) : strip ws s ≠ [] ↔ NotBlank ws s := by
  unfold strip NotBlank
  rw [ne_eq, List.reverse_eq_nil_iff, ← ne_eq, dropWhile_ne_nil]
  constructor
  · rintro ⟨c, hc, hw⟩
    rw [List.mem_reverse] at hc
    exact ⟨c, (List.dropWhile_sublist ws).subset hc, hw⟩
  · intro h
    have := (dropWhile_ne_nil ws s).mpr h
    obtain ⟨c, hc, hw⟩ := dropWhile_head_false ws s this
    exact ⟨c, by rw [List.mem_reverse]; exact List.mem_of_mem_head? hc, hw⟩

theorem strip_is_trimmed (ws : Char → Bool) {s : List Char} (h : NotBlank ws s) :
    Trimmed ws (strip ws s) := by
  have hne := (strip_ne_nil ws s).mpr h
  unfold strip at hne ⊢
  rw [ne_eq, List.reverse_eq_nil_iff, ← ne_eq] at hne
  obtain ⟨c, hc, hw⟩ := dropWhile_head_false ws _ hne
  refine ⟨?_, ⟨c, by simpa using hc, hw⟩⟩
  -- the first character is that of the left-stripped string
  have hl := (dropWhile_ne_nil ws s).mpr h
  obtain ⟨d, hd, hwd⟩ := dropWhile_head_false ws s hl
  refine ⟨d, ?_, hwd⟩
  generalize s.dropWhile ws = t at *
  cases t with
  | nil => simp at hd
  | cons a t =>
    simp only [List.head?_cons, Option.some.injEq] at hd
    subst hd
    rw [List.reverse_cons, List.dropWhile_append]
    split
    · simp [hwd]
    · simp

/-- **C30 (round trip).** For every provider without a colon and every reference (colons allowed), both
non-empty and without surrounding white space, parsing `provider:reference` gives them back. -/
theorem C30_format_parse (ws : Char → Bool) (p r : List Char) (hc : ':' ∉ p) (hp : Trimmed ws p)
    (hr : Trimmed ws r) : parseUri ws (formatUri (p, r)) = .ok (p, r) := by
  unfold parseUri formatUri
  rw [splitColon_append p r hc]
  simp only [strip_trimmed ws hp, strip_trimmed ws hr]
  obtain ⟨⟨c, hc1, _⟩, _⟩ := hp
  obtain ⟨⟨d, hd1, _⟩, _⟩ := hr
  have h1 : p ≠ [] := by rintro rfl; simp at hc1
  have h2 : r ≠ [] := by rintro rfl; simp at hd1
  simp [h1, h2]

/-- **C30 (accepted strings).** A string is accepted exactly when it has a colon with something that is
not white space on both sides of the first one; otherwise it is rejected with an error, and `is_uri`
gives the same answer. -/
theorem C30_accepts_iff (ws : Char → Bool) (s : List Char) :
    ((∃ q, parseUri ws s = .ok q) ↔
      ∃ p r, s = p ++ ':' :: r ∧ ':' ∉ p ∧ NotBlank ws p ∧ NotBlank ws r) ∧
    (isUri ws s = true ↔ ∃ q, parseUri ws s = .ok q) := by
  unfold isUri parseUri
  cases h : splitColon s with
  | none =>
    refine ⟨?_, by simp⟩
    constructor
    · rintro ⟨q, hq⟩; simp at hq
    · rintro ⟨p, r, rfl, _⟩
      rw [splitColon_none] at h
      simp at h
  | some pr =>
    obtain ⟨p, r⟩ := pr
    obtain ⟨rfl, hc⟩ := splitColon_some h
    have hb : ((strip ws p).isEmpty = true ∨ (strip ws r).isEmpty = true) ↔
        ¬ (NotBlank ws p ∧ NotBlank ws r) := by
      rw [← strip_ne_nil, ← strip_ne_nil]
      simp only [List.isEmpty_iff]
      tauto
    refine ⟨?_, ?_⟩
    · simp only
      split
      · rename_i he
        constructor
        · rintro ⟨q, hq⟩; simp at hq
        · rintro ⟨p', r', e, hc', h1, h2⟩
          have := splitColon_append p' r' hc'
          rw [← e, h] at this
          simp only [Option.some.injEq, Prod.mk.injEq] at this
          obtain ⟨rfl, rfl⟩ := this
          exact absurd ⟨h1, h2⟩ (hb.mp he)
      · rename_i he
        constructor
        · intro _
          have := not_not.mp (fun hn => he (hb.mpr hn))
          exact ⟨p, r, rfl, hc, this.1, this.2⟩
        · intro _; exact ⟨_, rfl⟩
    · simp only
      split
      · rename_i he
        constructor
        · intro hh
          simp only [Bool.and_eq_true, Bool.not_eq_true'] at hh
          rcases he with he | he
          · rw [he] at hh; simp at hh
          · rw [he] at hh; simp at hh
        · rintro ⟨q, hq⟩; simp at hq
      · rename_i he
        simp only [not_or, Bool.not_eq_true] at he
        simp [he]

/-- **C30 (result is canonical).** What is parsed has no colon in the provider, is trimmed, and
formatting and parsing it again changes nothing. -/
theorem C30_canonical (ws : Char → Bool) (hws : ws ':' = false) (s : List Char)
    (q : List Char × List Char) (h : parseUri ws s = .ok q) :
    ':' ∉ q.1 ∧ Trimmed ws q.1 ∧ Trimmed ws q.2 ∧ parseUri ws (formatUri q) = .ok q := by
  unfold parseUri at h
  cases hs : splitColon s with
  | none => rw [hs] at h; simp at h
  | some pr =>
    obtain ⟨p, r⟩ := pr
    rw [hs] at h
    simp only at h
    split at h
    · simp at h
    · rename_i he
      obtain rfl := Except.ok.inj h
      obtain ⟨rfl, hc⟩ := splitColon_some hs
      rw [not_or, List.isEmpty_iff, List.isEmpty_iff] at he
      have h1 := strip_is_trimmed ws ((strip_ne_nil ws p).mp he.1)
      have h2 := strip_is_trimmed ws ((strip_ne_nil ws r).mp he.2)
      have h3 : ':' ∉ strip ws p := by
        intro hm
        apply hc
        unfold strip at hm
        rw [List.mem_reverse] at hm
        have := (List.dropWhile_sublist ws).subset hm
        rw [List.mem_reverse] at this
        exact (List.dropWhile_sublist ws).subset this
      exact ⟨h3, h1, h2, C30_format_parse ws _ _ h3 h1 h2⟩

/-- White space in the examples. -/
def demoWs (c : Char) : Bool := c == ' '

example : Trimmed demoWs "openml".toList ∧ Trimmed demoWs "a:b c".toList ∧ ':' ∉ "openml".toList :=
  ⟨⟨⟨'o', by decide, by decide⟩, ⟨'l', by decide, by decide⟩⟩,
   ⟨⟨'a', by decide, by decide⟩, ⟨'c', by decide, by decide⟩⟩, by decide⟩
example : parseUri demoWs " hf : ag:news ".toList = .ok ("hf".toList, "ag:news".toList) := by decide +kernel
example : parseUri demoWs " : x".toList = .error .runtimeError := by decide +kernel

/-! ## C31 -/

theorem boolIndex_zip {α β : Type} (X : List α) (y : List β) (f : β → Bool) (h : X.length = y.length) :
    (X.zip (y.map f)).filterMap (fun p => if p.2 then some p.1 else none)
      = ((X.zip y).filter (fun p => f p.2)).map (·.1) := by
  induction X generalizing y with
  | nil => simp
  | cons a X ih =>
    cases y with
    | nil => simp at h
    | cons b y =>
      simp only [List.length_cons, Nat.add_right_cancel_iff] at h
      simp only [List.map_cons, List.zip_cons_cons, List.filterMap_cons, List.filter_cons]
      by_cases hb : f b
      · simp [hb, ih y h]
      · simp [hb, ih y h]

theorem boolIndex_self {β : Type} (y : List β) (f : β → Bool) :
    (y.zip (y.map f)).filterMap (fun p => if p.2 then some p.1 else none) = y.filter f := by
  induction y with
  | nil => simp
  | cons b y ih =>
    simp only [List.map_cons, List.zip_cons_cons, List.filterMap_cons, List.filter_cons]
    by_cases hb : f b <;> simp [hb, ih]

theorem filter_zip_snd {α : Type} (X : List α) (y : List Int) (f : Int → Bool) (h : X.length = y.length) :
    ((X.zip y).filter (fun p => f p.2)).map (·.2) = y.filter f := by
  induction X generalizing y with
  | nil => cases y with
    | nil => rfl
    | cons b y => simp at h
  | cons a X ih =>
    cases y with
    | nil => simp at h
    | cons b y =>
      simp only [List.length_cons, Nat.add_right_cancel_iff] at h
      simp only [List.zip_cons_cons, List.filter_cons]
      by_cases hb : f b <;> simp [hb, ih y h]

/-- **C31 (class filter).** On a dataset with as many labels as rows the filter returns exactly the
(row, label) pairs whose label is allowed, in the original order, and never fails; with differing
lengths it fails; without a filter nothing changes. -/
theorem C31_class_filter {α : Type} (X : List α) (y cs : List Int) :
    applyClassFilter X y none = .ok (X, y) ∧
    (X.length ≠ y.length → applyClassFilter X y (some cs) = .error .indexError) ∧
    (X.length = y.length →
      ∃ X' y', applyClassFilter X y (some cs) = .ok (X', y') ∧ X'.length = y'.length ∧
        X'.zip y' = (X.zip y).filter (fun p => decide (p.2 ∈ cs))) := by
  refine ⟨rfl, ?_, ?_⟩
  · intro h
    simp only [applyClassFilter, boolIndex, List.length_map, if_neg h]
    rfl
  · intro h
    refine ⟨((X.zip y).filter (fun p => decide (p.2 ∈ cs))).map (·.1),
      ((X.zip y).filter (fun p => decide (p.2 ∈ cs))).map (·.2), ?_, by simp, ?_⟩
    · simp only [applyClassFilter, boolIndex, List.length_map, if_pos h, if_true]
      rw [boolIndex_zip X y _ h, boolIndex_self,
        filter_zip_snd X y (fun c => decide (c ∈ cs)) h]
      rfl
    · generalize (X.zip y).filter (fun p => decide (p.2 ∈ cs)) = l
      induction l with
      | nil => rfl
      | cons p l ih => simp [ih]

theorem takeIdx_ok {α : Type} (X : List α) (idx : List Nat) (h : ∀ i ∈ idx, i < X.length) :
    ∃ r, takeIdx X idx = .ok r ∧ r.map some = idx.map (fun i => X[i]?) := by
  induction idx with
  | nil => exact ⟨[], rfl, rfl⟩
  | cons i idx ih =>
    obtain ⟨r, hr, e⟩ := ih (fun j hj => h j (by simp [hj]))
    have hi := h i (by simp)
    refine ⟨X[i] :: r, ?_, by simp [e, hi]⟩
    unfold takeIdx at hr ⊢
    rw [List.mapM_cons, hr]
    simp [List.getElem?_eq_getElem hi, bind, Except.bind, pure, Except.pure]

theorem map_some_inj {α : Type} {a b : List α} (h : a.map some = b.map some) : a = b :=
  List.map_injective_iff.mpr (Option.some_injective α) h

theorem range_take_get {α : Type} (X : List α) (k : Nat) (h : k ≤ X.length) :
    (List.range k).map (fun i => X[i]?) = (X.take k).map some := by
  apply List.ext_getElem?
  intro i
  simp only [List.getElem?_map, List.getElem?_take]
  by_cases hi : i < k
  · have hx : i < X.length := by omega
    simp [hi, hx]
  · simp [hi]

/-- **C31 (limit without a seed).** At most `max_samples` pairs remain, namely the first ones, in
order, features and labels aligned; a non-positive limit leaves none. -/
theorem C31_limit_prefix {α : Type} (shuffle : Int → List Nat → List Nat) (X : List α) (y : List Int)
    (m : Int) (h : X.length = y.length) :
    limitSamples shuffle X y none none = .ok (X, y) ∧
    limitSamples shuffle X y (some m) none = .ok (X.take m.toNat, y.take m.toNat) := by
  refine ⟨rfl, ?_⟩
  unfold limitSamples
  simp only
  split
  · rename_i hm
    rcases hm with hm | hm
    · rw [show m.toNat = 0 from by omega]; rfl
    · rw [List.length_eq_zero_iff] at hm
      subst hm
      simp only [List.length_nil, List.length_eq_zero_iff] at h
      subst h
      simp
  · rename_i hm
    have ht : (List.range y.length).take (min y.length m.toNat) = List.range (min y.length m.toNat) := by
      rw [List.take_range]; congr 1; omega
    rw [ht]
    obtain ⟨a, ha, ea⟩ := takeIdx_ok X (List.range (min y.length m.toNat))
      (fun i hi => by rw [List.mem_range] at hi; omega)
    obtain ⟨b, hb, eb⟩ := takeIdx_ok y (List.range (min y.length m.toNat))
      (fun i hi => by rw [List.mem_range] at hi; omega)
    rw [range_take_get X _ (by omega)] at ea
    rw [range_take_get y _ (by omega)] at eb
    rw [ha, hb, map_some_inj ea, map_some_inj eb]
    have hy : y.take (min y.length m.toNat) = y.take m.toNat := by
      rw [List.take_eq_take_iff]; omega
    have hX : X.take (min y.length m.toNat) = X.take m.toNat := by
      rw [List.take_eq_take_iff]; omega
    rw [hX, hy]
    rfl

/-- **C31 (limit with a seed).** With a seed the kept pairs are those at `min n max_samples` distinct
positions of the original data, features and labels taken at the same positions (their order is the
shuffled one).  In particular the result never exceeds the limit and no pair is invented or
duplicated. -/
theorem C31_limit_shuffled {α : Type} (shuffle : Int → List Nat → List Nat)
    (hs : ∀ s l, (shuffle s l).Perm l) (X : List α) (y : List Int) (m s : Int)
    (h : X.length = y.length) :
    ∃ (idx : List Nat) (X' : List α) (y' : List Int),
      limitSamples shuffle X y (some m) (some s) = .ok (X', y') ∧ idx.Nodup ∧
      idx.length = min y.length m.toNat ∧ (∀ i ∈ idx, i < y.length) ∧
      X'.map some = idx.map (fun i => X[i]?) ∧ y'.map some = idx.map (fun i => y[i]?) := by
  unfold limitSamples
  simp only
  split
  · rename_i hm
    refine ⟨[], [], [], rfl, by simp, ?_, by simp, rfl, rfl⟩
    rcases hm with hm | hm
    · simp; omega
    · simp [hm]
  · rename_i hm
    have hp := hs s (List.range y.length)
    have hb : ∀ i ∈ (shuffle s (List.range y.length)).take (min y.length m.toNat), i < y.length := by
      intro i hi
      have := hp.mem_iff.mp (List.mem_of_mem_take hi)
      simpa using this
    obtain ⟨a, ha, ea⟩ := takeIdx_ok X _ (fun i hi => h ▸ hb i hi)
    obtain ⟨b, hbb, eb⟩ := takeIdx_ok y _ hb
    refine ⟨_, a, b, ?_, ?_, ?_, hb, ea, eb⟩
    · rw [ha, hbb]; rfl
    · exact (hp.nodup_iff.mpr List.nodup_range).sublist (List.take_sublist _ _)
    · rw [List.length_take, hp.length_eq, List.length_range]
      omega

/-- **C31 (both, no seed).** Filter and limit together: the first `max_samples` allowed pairs in
order. -/
theorem C31_filter_then_limit {α : Type} (shuffle : Int → List Nat → List Nat) (X : List α)
    (y cs : List Int) (m : Int) (h : X.length = y.length) :
    ∃ X' y', applyLimits shuffle X y (some cs) (some m) none = .ok (X', y') ∧ X'.length = y'.length ∧
      X'.zip y' = ((X.zip y).filter (fun p => decide (p.2 ∈ cs))).take m.toNat := by
  obtain ⟨_, _, h3⟩ := C31_class_filter X y cs
  obtain ⟨X', y', e, hl, hz⟩ := h3 h
  obtain ⟨_, e2⟩ := C31_limit_prefix shuffle X' y' m hl
  refine ⟨X'.take m.toNat, y'.take m.toNat, ?_, by simp [hl], ?_⟩
  · unfold applyLimits
    rw [e]
    exact e2
  · rw [← hz]
    simp [List.zip_eq_zipWith, List.take_zipWith]

example : applyLimits (fun _ l => l) ["a", "b", "c", "d"] [1, 2, 1, 1] (some [1]) (some 2) none
    = .ok (["a", "c"], [1, 1]) := by decide +kernel

/-! ## C66 -/

/-- **C66 (every selected dataset is accounted for).** A bulk download that returns lists every
selected key in exactly one of: downloaded, already cached, skipped for a missing extra, failed. -/
theorem C66_report_partition {σ : Type} (attempt : σ → String → Outcome × σ) (ignoreMissing : Bool)
    (keys : List String) (hk : keys.Nodup) (s s' : σ) (r : Report)
    (h : downloadAll attempt ignoreMissing keys s {} = some (r, s')) :
    (r.downloaded ++ r.cached ++ r.missing ++ r.failed.map (·.1)).Perm keys := by
  have gen : ∀ (ks : List String) (s : σ) (r0 : Report), ks.Nodup → (∀ k ∈ ks, k ∉ Assoc.keys r0.failed) →
      downloadAll attempt ignoreMissing ks s r0 = some (r, s') →
      (r.downloaded ++ r.cached ++ r.missing ++ r.failed.map (·.1)).Perm
        (r0.downloaded ++ r0.cached ++ r0.missing ++ r0.failed.map (·.1) ++ ks) := by
    intro ks
    induction ks with
    | nil =>
      intro s r0 _ _ h
      simp only [downloadAll, Option.some.injEq, Prod.mk.injEq] at h
      obtain ⟨rfl, _⟩ := h
      simp
    | cons k ks ih =>
      intro s r0 hn hf h
      rw [List.nodup_cons] at hn
      have hf' : ∀ x ∈ ks, x ∉ Assoc.keys r0.failed := fun x hx => hf x (by simp [hx])
      simp only [downloadAll] at h
      cases ha : attempt s k with
      | mk o s1 =>
        rw [ha] at h
        cases o with
        | cached =>
          simp only at h
          refine (ih s1 _ hn.2 (by exact hf') h).trans ?_
          rw [List.perm_iff_count]; intro a
          simp [List.count_cons]; omega
        | done =>
          simp only at h
          refine (ih s1 _ hn.2 (by exact hf') h).trans ?_
          rw [List.perm_iff_count]; intro a
          simp [List.count_cons]; omega
        | missingExtra e =>
          simp only at h
          split at h
          · refine (ih s1 _ hn.2 (by exact hf') h).trans ?_
            rw [List.perm_iff_count]; intro a
            simp [List.count_cons]; omega
          · simp at h
        | failed m =>
          simp only at h
          have hkf : k ∉ Assoc.keys r0.failed := hf k (by simp)
          have hset : (Assoc.set r0.failed k m).map (·.1) = r0.failed.map (·.1) ++ [k] := by
            have := Assoc.keys_set r0.failed k m
            rw [if_neg hkf] at this
            exact this
          refine (ih s1 _ hn.2 ?_ h).trans ?_
          · intro x hx
            rw [Assoc.keys_set, if_neg hkf]
            simp only [List.mem_append, List.mem_singleton, not_or]
            exact ⟨hf' x hx, fun e => hn.1 (e ▸ hx)⟩
          · simp only [hset]
            rw [List.perm_iff_count]; intro a
            simp [List.count_cons]
  simpa using gen keys s {} hk (by simp [Assoc.keys]) h

/-- **C66 (one failure does not stop the others).** When missing extras are ignored the bulk download
always returns a report, and every key is attempted, in order, in the state its predecessors left. -/
theorem C66_always_returns {σ : Type} (attempt : σ → String → Outcome × σ) (keys : List String)
    (s : σ) (r0 : Report) :
    ∃ r, downloadAll attempt true keys s r0 = some (r, keys.foldl (fun s k => (attempt s k).2) s) := by
  induction keys generalizing s r0 with
  | nil => exact ⟨r0, rfl⟩
  | cons k ks ih =>
    simp only [downloadAll, List.foldl_cons]
    cases ha : attempt s k with
    | mk o s1 => cases o <;> simp only [if_true] <;> exact ih s1 _

/-- **C66 (missing extras are grouped).** The per-extra lists contain exactly the skipped keys, each in
exactly one of the lists. -/
theorem C66_extras_grouped {σ : Type} (attempt : σ → String → Outcome × σ) (ignoreMissing : Bool)
    (keys : List String) (s s' : σ) (r : Report)
    (h : downloadAll attempt ignoreMissing keys s {} = some (r, s')) :
    (r.missingExtras.flatMap (·.2)).Perm r.missing ∧ (r.missingExtras.map (·.1)).Nodup := by
  have hset : ∀ (d : List (String × List String)) (e k : String), (Assoc.keys d).Nodup →
      ((Assoc.set d e ((Assoc.get d e).getD [] ++ [k])).flatMap (·.2)).Perm (d.flatMap (·.2) ++ [k]) := by
    intro d e k hd
    unfold Assoc.set
    split
    · rename_i hh
      have hmem := Assoc.has_iff.mp hh
      clear hh
      induction d with
      | nil => simp [Assoc.keys] at hmem
      | cons p d ih =>
        unfold Assoc.keys at hd hmem
        rw [List.map_cons, List.nodup_cons] at hd
        rw [List.map_cons, List.mem_cons] at hmem
        rw [Assoc.get_cons]
        by_cases hp : p.1 = e
        · have hd' : d.map (fun q => if q.1 = e then (e, (if p.1 = e then some p.2 else Assoc.get d e).getD [] ++ [k]) else q) = d := by
            conv_rhs => rw [← List.map_id d]
            apply List.map_congr_left
            intro q hq
            rw [if_neg]
            · rfl
            · intro hqe
              exact hd.1 (List.mem_map.mpr ⟨q, hq, hqe.trans hp.symm⟩)
          rw [List.map_cons, hd']
          simp only [hp, if_true, Option.getD_some, List.flatMap_cons]
          rw [List.perm_iff_count]; intro a
          simp [List.count_cons]
        · rcases hmem with hmem | hmem
          · exact absurd hmem.symm hp
          · have := ih hd.2 hmem
            simp only [List.map_cons, hp, if_false, List.flatMap_cons]
            rw [List.append_assoc]
            exact List.Perm.append_left _ this
    · rename_i hh
      have : Assoc.get d e = none := Assoc.get_eq_none_iff.mpr (fun hm => hh (Assoc.has_iff.mpr hm))
      simp [this]
  have gen : ∀ (ks : List String) (s : σ) (r0 : Report),
      (r0.missingExtras.flatMap (·.2)).Perm r0.missing → (Assoc.keys r0.missingExtras).Nodup →
      downloadAll attempt ignoreMissing ks s r0 = some (r, s') →
      (r.missingExtras.flatMap (·.2)).Perm r.missing ∧ (Assoc.keys r.missingExtras).Nodup := by
    intro ks
    induction ks with
    | nil =>
      intro s r0 h1 h2 h
      simp only [downloadAll, Option.some.injEq, Prod.mk.injEq] at h
      obtain ⟨rfl, _⟩ := h
      exact ⟨h1, h2⟩
    | cons k ks ih =>
      intro s r0 h1 h2 h
      simp only [downloadAll] at h
      cases ha : attempt s k with
      | mk o s1 =>
        rw [ha] at h
        cases o with
        | cached => exact ih s1 _ (by exact h1) (by exact h2) h
        | done => exact ih s1 _ (by exact h1) (by exact h2) h
        | failed m => exact ih s1 _ (by exact h1) (by exact h2) h
        | missingExtra e =>
          simp only at h
          split at h
          · exact ih s1 _ ((hset _ e k h2).trans (h1.append_right _)) (Assoc.nodup_keys_set h2 _ _) h
          · simp at h
  exact gen keys s {} (by simp) (by simp [Assoc.keys]) h

theorem mem_sortedSet (l : List String) (k : String) : k ∈ sortedSet l ↔ k ∈ l := by
  unfold sortedSet
  rw [List.mem_dedup, (List.perm_insertionSort (· ≤ ·) l).mem_iff]

theorem sortedSet_sorted (l : List String) : (sortedSet l).Pairwise (· < ·) := by
  unfold sortedSet
  have h1 : (l.insertionSort (· ≤ ·)).dedup.Pairwise (· ≤ ·) :=
    (List.pairwise_insertionSort _ l).sublist (List.dedup_sublist _)
  have h2 : (l.insertionSort (· ≤ ·)).dedup.Nodup := List.nodup_dedup _
  exact (h1.and h2).imp (fun ⟨a, b⟩ => lt_of_le_of_ne a b)

/-- **C66 (selection).** The keys processed are, in strictly increasing order (so without
repetition), exactly the requested ones (or the whole catalogue) that are not excluded and, if
modalities are given, have one of them. -/
theorem C66_selection (catalog : List (String × String)) (incl excl modalities : Option (List String))
    (ks : List String) (h : selectKeys catalog incl excl modalities = .ok ks) :
    ks.Pairwise (· < ·) ∧
    ∀ k, k ∈ ks ↔ (match incl with | none => k ∈ catalog.map (·.1) | some l => k ∈ l) ∧
      (∀ ex, excl = some ex → k ∉ ex) ∧
      (∀ ms, modalities = some ms → ms ≠ [] → ∃ m, Assoc.get catalog k = some m ∧ m ∈ ms) := by
  unfold selectKeys at h
  have hsel : ∀ k, k ∈ baseKeys catalog incl excl ↔
      (match incl with | none => k ∈ catalog.map (·.1) | some l => k ∈ l) ∧
        (∀ ex, excl = some ex → k ∉ ex) := by
    intro k
    unfold baseKeys
    cases excl <;> cases incl <;> simp [Assoc.keys]
  cases modalities with
  | none =>
    obtain rfl := Except.ok.inj h
    refine ⟨sortedSet_sorted _, fun k => ?_⟩
    rw [mem_sortedSet, hsel]
    exact ⟨fun hh => ⟨hh.1, hh.2, fun ms e => by simp at e⟩, fun hh => ⟨hh.1, hh.2.1⟩⟩
  | some ms =>
    cases ms with
    | nil =>
      obtain rfl := Except.ok.inj h
      refine ⟨sortedSet_sorted _, fun k => ?_⟩
      rw [mem_sortedSet, hsel]
      exact ⟨fun hh => ⟨hh.1, hh.2, fun ms e hne => absurd (Option.some.inj e).symm hne⟩,
        fun hh => ⟨hh.1, hh.2.1⟩⟩
    | cons m ms =>
      simp only at h
      split at h
      · rename_i hall
        obtain rfl := Except.ok.inj h
        refine ⟨sortedSet_sorted _, fun k => ?_⟩
        rw [mem_sortedSet, List.mem_filter, hsel]
        constructor
        · rintro ⟨⟨h1, h2⟩, h3⟩
          refine ⟨h1, h2, ?_⟩
          intro ms' e _
          obtain rfl := Option.some.inj e
          have hk := List.all_eq_true.mp hall k ((hsel k).mpr ⟨h1, h2⟩)
          obtain ⟨v, hv⟩ := Assoc.mem_keys_iff.mp (Assoc.has_iff.mp hk)
          rw [hv] at h3
          exact ⟨v, hv, by simpa using h3⟩
        · rintro ⟨h1, h2, h3⟩
          obtain ⟨v, hv, hm⟩ := h3 _ rfl (by simp)
          exact ⟨⟨h1, h2⟩, by rw [hv]; simpa using hm⟩
      · cases h

example : selectKeys [("b", "text"), ("a", "vision"), ("c", "text")] none (some ["c"]) (some ["text"])
    = .ok ["b"] := by decide +kernel
example : (downloadAll (fun (s : Nat) k => (if k = "x" then Outcome.missingExtra "hf" else .done, s + 1)) true
    ["a", "x", "b"] 0 {}).map (·.1.downloaded) = some ["a", "b"] := by decide +kernel

/-! ## C67 -/

theorem takeWhile_all {α : Type} (p : α → Bool) : ∀ (l : List α), (∀ x ∈ l, p x = true) → l.takeWhile p = l
  | [], _ => rfl
  | a :: l, h => by
    rw [List.takeWhile_cons, if_pos (h a (by simp)), takeWhile_all p l (fun x hx => h x (by simp [hx]))]

/-- **C67 (rebased paths).** A cached path is either left as it is, or becomes the current source
directory followed by everything after the last `source` component of the old path; relative paths,
paths already inside the current source directory and paths without a `source` component are left
alone. -/
theorem C67_rebase (absolute : Bool) (parts root : List String) :
    (rebase absolute parts root = (absolute, parts) ∨
      ∃ pre tail, parts = pre ++ "source" :: tail ∧ "source" ∉ tail ∧ tail ≠ [] ∧ absolute = true ∧
        ¬ root <+: parts ∧ rebase absolute parts root = (true, root ++ tail)) ∧
    ((absolute = false ∨ root <+: parts ∨ "source" ∉ parts) →
      rebase absolute parts root = (absolute, parts)) ∧
    (∀ pre tail, absolute = true → parts = pre ++ "source" :: tail → "source" ∉ tail → tail ≠ [] →
      ¬ root <+: parts → rebase absolute parts root = (true, root ++ tail)) := by
  have htail : ∀ pre tail : List String, "source" ∉ tail →
      (((pre ++ "source" :: tail).reverse.takeWhile (fun p => decide (p ≠ "source"))).reverse) = tail := by
    intro pre tail ht
    rw [List.reverse_append, List.reverse_cons, List.append_assoc, List.takeWhile_append]
    have h1 : tail.reverse.takeWhile (fun p => decide (p ≠ "source")) = tail.reverse := by
      apply takeWhile_all
      intro x hx
      rw [List.mem_reverse] at hx
      simp only [decide_eq_true_eq]
      rintro rfl
      exact ht hx
    rw [h1]
    simp
  have hlast : ∀ l : List String, "source" ∈ l → ∃ pre tail, l = pre ++ "source" :: tail ∧ "source" ∉ tail := by
    intro l
    induction l with
    | nil => simp
    | cons a l ih =>
      intro h
      by_cases hl : "source" ∈ l
      · obtain ⟨pre, tail, rfl, ht⟩ := ih hl
        exact ⟨a :: pre, tail, rfl, ht⟩
      · rcases List.mem_cons.mp h with rfl | h
        · exact ⟨[], l, rfl, hl⟩
        · exact absurd h hl
  refine ⟨?_, ?_, ?_⟩
  · unfold rebase
    split
    · exact Or.inl rfl
    · rename_i ha
      split
      · exact Or.inl rfl
      · rename_i hr
        split
        · exact Or.inl rfl
        · rename_i hs
          obtain ⟨pre, tail, rfl, ht⟩ := hlast parts (not_not.mp hs)
          rw [htail pre tail ht]
          simp only
          split
          · exact Or.inl rfl
          · rename_i hne
            right
            refine ⟨pre, tail, rfl, ht, hne, by simpa using ha, ?_, rfl⟩
            simpa using hr
  · rintro (h | h | h)
    · unfold rebase; rw [if_pos h]
    · unfold rebase
      rw [if_pos (show root.isPrefixOf parts = true from by simpa using h)]
      simp
    · unfold rebase
      simp only [if_pos h]
      simp
  · rintro pre tail rfl rfl ht hne hr
    unfold rebase
    rw [if_neg (by simp), if_neg (by simpa using hr), if_neg (by simp), htail pre tail ht]
    simp [hne]

/-- **C67 (idempotent).** Rebasing twice against the same directory changes nothing more. -/
theorem C67_rebase_idempotent (absolute : Bool) (parts root : List String) :
    rebase (rebase absolute parts root).1 (rebase absolute parts root).2 root = rebase absolute parts root := by
  rcases (C67_rebase absolute parts root).1 with h | ⟨pre, tail, _, _, _, _, _, h⟩
  · rw [h, h]
  · rw [h]
    exact (C67_rebase true (root ++ tail) root).2.1 (Or.inr (Or.inl (List.prefix_append _ _)))

example : rebase true ["old", "raw", "source", "yes", "1.wav"] ["new", "source"]
    = (true, ["new", "source", "yes", "1.wav"]) := by decide +kernel

end ModSSC.DataLoader
