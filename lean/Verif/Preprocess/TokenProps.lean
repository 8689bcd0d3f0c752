import Verif.Preprocess.TokenModel
import Verif.ExceptLemmas

/-!
# Tokenized ids (C37)
-/

namespace ModSSC.Preprocess.Tokens
open ModSSC

/-- A row of length `L` for the token ids `ids`: the mask is one exactly on the first
`min L ids.length` positions, which hold the ids; the rest is padding `0`. -/
structure Padded (L : Nat) (ids : List Int) (row : Row) : Prop where
  lenIds : row.1.length = L
  lenMask : row.2.length = L
  tok : ∀ j, j < L → ∀ (h : j < ids.length), row.1[j]? = some ids[j] ∧ row.2[j]? = some 1
  pad : ∀ j, j < L → ids.length ≤ j → row.1[j]? = some 0 ∧ row.2[j]? = some 0

theorem fillRow_padded (L : Nat) (ids : List Int) : Padded L ids (fillRow L ids) where
  lenIds := by simp only [fillRow, List.length_append, List.length_replicate, List.length_take]; omega
  lenMask := by simp only [fillRow, List.length_append, List.length_replicate, List.length_take]; omega
  tok := by
    intro j hj h
    constructor
    · simp only [fillRow]
      rw [List.getElem?_append_left (by simp; omega), List.getElem?_take, if_pos hj,
        List.getElem?_eq_getElem h]
    · simp only [fillRow]
      rw [List.getElem?_append_left (by simp; omega), List.getElem?_replicate, if_pos (by simp; omega)]
  pad := by
    intro j hj h
    constructor
    · simp only [fillRow]
      rw [List.getElem?_append_right (by simp; omega), List.getElem?_replicate,
        if_pos (by simp; omega)]
    · simp only [fillRow]
      rw [List.getElem?_append_right (by simp; omega), List.getElem?_replicate,
        if_pos (by simp; omega)]

theorem padded_forall {L : Nat} {ids : List Int} {row : Row} (h : Padded L ids row) {P : Int → Prop}
    (h0 : P 0) (hi : ∀ x ∈ ids, P x) : ∀ x ∈ row.1, P x := by
  intro x hx
  obtain ⟨j, hj, rfl⟩ := List.mem_iff_getElem.mp hx
  have hjL : j < L := by rw [← h.lenIds]; exact hj
  by_cases hl : j < ids.length
  · have := (h.tok j hjL hl).1
    rw [List.getElem?_eq_getElem hj, Option.some.injEq] at this
    rw [this]; exact hi _ (List.getElem_mem hl)
  · have := (h.pad j hjL (by omega)).1
    rw [List.getElem?_eq_getElem hj, Option.some.injEq] at this
    rw [this]; exact h0

/-! ## Hashing -/

theorem hashToken_range (digest : String → Nat) (v : Int) (t : String) :
    2 ≤ hashToken digest v t ∧ hashToken digest v t < max 3 v := by
  unfold hashToken
  have h1 : (0 : Int) < max 1 (v - 2) := by omega
  have h2 := Int.emod_nonneg (digest t : Int) (ne_of_gt h1)
  have h3 := Int.emod_lt_of_pos (digest t : Int) h1
  omega

/-- **C37 (hash tokenizer) -- partial.**  For every hash, every list of texts and every
`max_length ≥ 0`, each text gives a row of exactly that length: one id per kept token, in order,
equal tokens getting equal ids, then padding only; token ids are at least 2 and, for a vocabulary of
at least three, all ids are below the vocabulary size.  False for smaller vocabularies
(`C37_hash_small_violated`). -/
theorem C37_hash_partial {digest : String → Nat} {v maxLen : Int} (hv : 3 ≤ v) (hL : 0 ≤ maxLen)
    (texts : List (List String)) : ∃ rows, hashTransform digest v maxLen texts = .ok rows ∧
    ∃ id : String → Int, (∀ t, 2 ≤ id t ∧ id t < v) ∧
      List.Forall₂ (fun toks row =>
        Padded maxLen.toNat ((toks.filter (· ≠ "")).map id) row ∧ ∀ x ∈ row.1, 0 ≤ x ∧ x < v)
        texts rows := by
  unfold hashTransform
  rw [if_neg (by omega)]
  refine ⟨_, rfl, hashToken digest v, ?_, ?_⟩
  · intro t
    have := hashToken_range digest v t
    omega
  · rw [List.forall₂_map_right_iff, List.forall₂_same]
    intro toks _
    have hfil : (toks.filter (fun t => !t.isEmpty)) = toks.filter (· ≠ "") := by
      apply List.filter_congr
      intro t _
      by_cases h : t = ""
      · subst h; decide
      · have : t.isEmpty = false := by
          rw [Bool.eq_false_iff]
          intro hc
          exact h (by simpa using hc)
        simp [this, h]
    rw [hfil]
    refine ⟨fillRow_padded _ _, padded_forall (fillRow_padded _ _) (by omega) ?_⟩
    intro x hx
    obtain ⟨t, -, rfl⟩ := List.mem_map.mp hx
    have := hashToken_range digest v t
    omega

example : hashTransform (fun t => t.length) 10 3 [["a", "bcd"], []] =
    .ok [([3, 5, 0], [1, 1, 0]), ([0, 0, 0], [0, 0, 0])] := by decide +kernel

/-- **C37 is violated for a hash vocabulary of two or less**: token ids start at 2, whatever the
hash. -/
theorem C37_hash_small_violated (digest : String → Nat) {v : Int} (hv : v ≤ 2) (t : String)
    (ht : t ≠ "") : hashTransform digest v 1 [[t]] = .ok [([2], [1])] ∧ v ≤ 2 := by
  refine ⟨?_, hv⟩
  have he : t.isEmpty = false := by
    rw [Bool.eq_false_iff]
    intro hc
    exact ht (by simpa using hc)
  have : hashToken digest v t = 2 := by
    unfold hashToken
    rw [show max 1 (v - 2) = 1 by omega, Int.emod_one]; rfl
  unfold hashTransform
  simp [he, this, fillRow]

/-! ## Vocabulary -/

theorem get_countTokens (counts : List (String × Nat)) (toks : List String) (t : String) :
    (Assoc.get (countTokens counts toks) t).getD 0 = (Assoc.get counts t).getD 0 + toks.count t ∧
    (t ∈ Assoc.keys (countTokens counts toks) ↔ t ∈ Assoc.keys counts ∨ t ∈ toks) := by
  induction toks generalizing counts with
  | nil => simp [countTokens]
  | cons a toks ih =>
    have := ih (Assoc.set counts a ((Assoc.get counts a).getD 0 + 1))
    unfold countTokens at this ⊢
    rw [List.foldl_cons]
    obtain ⟨h1, h2⟩ := this
    constructor
    · rw [h1]
      by_cases h : a = t
      · subst h; rw [Assoc.get_set_self]; simp; omega
      · rw [Assoc.get_set_other _ _ (Ne.symm h), List.count_cons_of_ne h]
    · rw [h2, Assoc.mem_keys_iff, Assoc.mem_keys_iff (d := counts)]
      by_cases h : a = t
      · subst h; rw [Assoc.get_set_self]; simp
      · rw [Assoc.get_set_other _ _ (Ne.symm h)]
        simp [Ne.symm h]

theorem nodup_countTokens {counts : List (String × Nat)} (h : (Assoc.keys counts).Nodup)
    (toks : List String) : (Assoc.keys (countTokens counts toks)).Nodup := by
  induction toks generalizing counts with
  | nil => exact h
  | cons a toks ih =>
    unfold countTokens at ih ⊢
    rw [List.foldl_cons]
    exact ih (Assoc.nodup_keys_set h _ _)

/-- The counter of a list of texts counts the tokens of all of them. -/
theorem counter_spec (texts : List (List String)) :
    (Assoc.keys (texts.foldl countTokens [])).Nodup ∧ ∀ t,
      (Assoc.get (texts.foldl countTokens []) t).getD 0 = texts.flatten.count t ∧
      (t ∈ Assoc.keys (texts.foldl countTokens []) ↔ t ∈ texts.flatten) := by
  have : ∀ counts : List (String × Nat), (Assoc.keys counts).Nodup →
      (Assoc.keys (texts.foldl countTokens counts)).Nodup ∧ ∀ t,
      (Assoc.get (texts.foldl countTokens counts) t).getD 0
        = (Assoc.get counts t).getD 0 + texts.flatten.count t ∧
      (t ∈ Assoc.keys (texts.foldl countTokens counts) ↔
        t ∈ Assoc.keys counts ∨ t ∈ texts.flatten) := by
    induction texts with
    | nil => intro counts h; exact ⟨h, fun t => by simp⟩
    | cons toks texts ih =>
      intro counts h
      obtain ⟨h1, h2⟩ := ih _ (nodup_countTokens h toks)
      refine ⟨h1, fun t => ?_⟩
      obtain ⟨g1, g2⟩ := h2 t
      obtain ⟨k1, k2⟩ := get_countTokens counts toks t
      rw [List.foldl_cons]
      constructor
      · rw [g1, k1, List.flatten_cons, List.count_append]; omega
      · rw [g2, k2, List.flatten_cons, List.mem_append, or_assoc]
  obtain ⟨h1, h2⟩ := this [] (by simp [Assoc.keys])
  refine ⟨h1, fun t => ?_⟩
  obtain ⟨g1, g2⟩ := h2 t
  exact ⟨by simpa using g1, by simpa [Assoc.keys] using g2⟩

/-- `most_common`: a selection of `min n size` entries, by decreasing count, with nothing left out
that is more frequent. -/
theorem mostCommon_spec (counts : List (String × Nat)) (n : Int) :
    ∃ rest, (mostCommon counts n ++ rest).Perm counts ∧
      (mostCommon counts n).length = min n.toNat counts.length ∧
      (mostCommon counts n).Pairwise (fun a b => b.2 ≤ a.2) ∧
      ∀ a ∈ mostCommon counts n, ∀ b ∈ rest, b.2 ≤ a.2 := by
  have hp := List.perm_insertionSort (fun a b : String × Nat => b.2 ≤ a.2) counts
  have hs : (counts.insertionSort (fun a b : String × Nat => b.2 ≤ a.2)).Pairwise
      (fun a b => b.2 ≤ a.2) := by
    have : Std.Total (fun a b : String × Nat => b.2 ≤ a.2) := ⟨fun a b => by omega⟩
    have : IsTrans (String × Nat) (fun a b => b.2 ≤ a.2) := ⟨fun a b c h1 h2 => by omega⟩
    exact List.pairwise_insertionSort _ _
  unfold mostCommon
  generalize counts.insertionSort (fun a b : String × Nat => b.2 ≤ a.2) = l at hp hs
  refine ⟨l.drop n.toNat, by rw [List.take_append_drop]; exact hp, by
    rw [List.length_take, hp.length_eq], hs.sublist (List.take_sublist _ _), ?_⟩
  rw [← List.take_append_drop n.toNat l, List.pairwise_append] at hs
  intro a ha b hb
  exact hs.2.2 a ha b hb

/-- Tokens numbered in order from `k` on. -/
def enumFrom (k : Nat) : List String → List (String × Nat)
  | [] => []
  | t :: ts => (t, k) :: enumFrom (k + 1) ts

theorem set_fresh {v : List (String × Nat)} {t : String} (h : t ∉ Assoc.keys v) (n : Nat) :
    Assoc.set v t n = v ++ [(t, n)] := by
  unfold Assoc.set
  rw [if_neg (by rw [Assoc.has_iff]; exact h)]

theorem addTokens_eq {m : Int} {cands v : List (String × Nat)}
    (hnd : (Assoc.keys cands).Nodup) (hdis : ∀ t ∈ Assoc.keys cands, t ∉ Assoc.keys v) :
    addTokens m v cands = v ++ enumFrom v.length
      ((cands.filter (fun p => decide (m ≤ (p.2 : Int)))).map (·.1)) := by
  induction cands generalizing v with
  | nil => simp [addTokens, enumFrom]
  | cons p cands ih =>
    obtain ⟨t, c⟩ := p
    have hnd' : t ∉ Assoc.keys cands ∧ (Assoc.keys cands).Nodup := by
      simpa [Assoc.keys] using hnd
    unfold addTokens
    by_cases hm : m ≤ (c : Int)
    · rw [if_pos hm, set_fresh (hdis t (by simp [Assoc.keys])), ih hnd'.2]
      · rw [List.filter_cons_of_pos (by simpa using hm)]
        simp [enumFrom]
      · intro x hx
        have h1 := hdis x (by
          unfold Assoc.keys at hx ⊢
          exact List.mem_cons_of_mem _ hx)
        unfold Assoc.keys at h1 ⊢
        rw [List.map_append, List.mem_append, not_or]
        refine ⟨h1, ?_⟩
        simp only [List.map_cons, List.map_nil, List.mem_singleton]
        rintro rfl
        exact hnd'.1 hx
    · rw [if_neg hm, ih hnd'.2, List.filter_cons_of_neg (by simpa using hm)]
      intro x hx
      exact hdis x (by
        unfold Assoc.keys at hx ⊢
        exact List.mem_cons_of_mem _ hx)

theorem enumFrom_append (k : Nat) (a b : List String) :
    enumFrom k (a ++ b) = enumFrom k a ++ enumFrom (k + a.length) b := by
  induction a generalizing k with
  | nil => simp [enumFrom]
  | cons t a ih =>
    rw [List.cons_append, enumFrom, enumFrom, ih, List.cons_append, List.length_cons,
      show k + 1 + a.length = k + (a.length + 1) by omega]

theorem enumFrom_get {k : Nat} {l : List String} (hnd : l.Nodup) {t : String} {n : Nat} :
    Assoc.get (enumFrom k l) t = some n ↔ k ≤ n ∧ l[n - k]? = some t := by
  induction l generalizing k with
  | nil => simp [enumFrom]
  | cons a l ih =>
    rw [List.nodup_cons] at hnd
    rw [enumFrom, Assoc.get_cons]
    by_cases h : a = t
    · subst h
      rw [if_pos rfl]
      simp only [Option.some.injEq]
      constructor
      · rintro rfl; simp
      · rintro ⟨h1, h2⟩
        by_contra hne
        rw [show n - k = (n - k - 1) + 1 by omega, List.getElem?_cons_succ] at h2
        exact hnd.1 (List.mem_of_getElem? h2)
    · rw [if_neg h, ih hnd.2]
      constructor
      · rintro ⟨h1, h2⟩
        refine ⟨by omega, ?_⟩
        rw [show n - k = (n - (k + 1)) + 1 by omega, List.getElem?_cons_succ]; exact h2
      · rintro ⟨h1, h2⟩
        by_cases hk : n = k
        · subst hk
          simp at h2
          exact absurd h2 h
        · refine ⟨by omega, ?_⟩
          rw [show n - k = (n - (k + 1)) + 1 by omega, List.getElem?_cons_succ] at h2
          exact h2

theorem enumFrom_length (k : Nat) (l : List String) : (enumFrom k l).length = l.length := by
  induction l generalizing k with
  | nil => rfl
  | cons a l ih => simp [enumFrom, ih]

/-- The vocabulary the property asks for: the words are `pad`, `unk`, and the frequent tokens among
the `vocab_size - 2` most frequent ones, by decreasing frequency; ids are the positions. -/
structure IsVocab (cfg : VocabCfg) (toks : List String) (words : List String) : Prop where
  head : ∃ rest, words = cfg.padToken :: cfg.unkToken :: rest ∧
    rest.Pairwise (fun a b => toks.count b ≤ toks.count a) ∧
    (∀ t ∈ rest, t ∈ toks ∧ cfg.minFreq ≤ (toks.count t : Int)) ∧
    (∀ t ∈ toks, t ∉ rest → cfg.minFreq ≤ (toks.count t : Int) →
      cfg.vocabSize ≤ 2 ∨ (∀ s ∈ rest, toks.count t ≤ toks.count s) ∧
        (rest.length : Int) = cfg.vocabSize - 2)
  nodup : words.Nodup
  size : (words.length : Int) ≤ max 2 cfg.vocabSize

theorem buildVocab_spec {cfg : VocabCfg} (hpu : cfg.padToken ≠ cfg.unkToken)
    {texts : List (List String)} (hp : cfg.padToken ∉ texts.flatten)
    (hu : cfg.unkToken ∉ texts.flatten) :
    ∃ words, IsVocab cfg texts.flatten words ∧
      buildVocab cfg (texts.foldl countTokens []) = enumFrom 0 words := by
  obtain ⟨hnd, hcount⟩ := counter_spec texts
  generalize texts.foldl countTokens [] = counts at hnd hcount
  generalize texts.flatten = toks at *
  obtain ⟨rest, hperm, hlen, hsorted, hrest⟩ := mostCommon_spec counts (cfg.vocabSize - 2)
  unfold buildVocab
  generalize mostCommon counts (cfg.vocabSize - 2) = mc at *
  have hmem : ∀ t c, (t, c) ∈ mc ++ rest → c = toks.count t ∧ t ∈ toks := by
    intro t c h
    have h1 := Assoc.get_of_mem hnd (hperm.mem_iff.mp h)
    obtain ⟨g1, g2⟩ := hcount t
    rw [h1] at g1
    exact ⟨by simpa using g1, g2.mp (Assoc.mem_keys_iff.mpr ⟨c, h1⟩)⟩
  have hndall : (Assoc.keys (mc ++ rest)).Nodup := by
    unfold Assoc.keys at hnd ⊢
    exact (hperm.map _).nodup_iff.mpr hnd
  have hndmc : (Assoc.keys mc).Nodup := by
    unfold Assoc.keys at hndall ⊢
    rw [List.map_append] at hndall
    exact (List.nodup_append.mp hndall).1
  have hstart : Assoc.set (Assoc.set [] cfg.padToken 0) cfg.unkToken 1
      = [(cfg.padToken, 0), (cfg.unkToken, 1)] := by
    have h1 : Assoc.set ([] : List (String × Nat)) cfg.padToken 0 = [(cfg.padToken, 0)] := rfl
    rw [h1, set_fresh (by simp [Assoc.keys, Ne.symm hpu])]; rfl
  have hdis : ∀ t ∈ Assoc.keys mc, t ∉ Assoc.keys [(cfg.padToken, 0), (cfg.unkToken, 1)] := by
    intro t ht
    obtain ⟨⟨t', c⟩, hm, rfl⟩ := List.mem_map.mp ht
    have := (hmem t' c (List.mem_append_left _ hm)).2
    simp only [Assoc.keys, List.map_cons, List.map_nil, List.mem_cons, List.not_mem_nil, or_false,
      not_or]
    exact ⟨fun h => hp (h ▸ this), fun h => hu (h ▸ this)⟩
  rw [hstart, addTokens_eq hndmc hdis]
  refine ⟨cfg.padToken :: cfg.unkToken ::
    (mc.filter (fun p => decide (cfg.minFreq ≤ (p.2 : Int)))).map (·.1), ?_, rfl⟩
  constructor
  · refine ⟨_, rfl, ?_, ?_, ?_⟩
    · rw [List.pairwise_map]
      have h1 := hsorted.sublist (List.filter_sublist
        (p := fun p : String × Nat => decide (cfg.minFreq ≤ (p.2 : Int))))
      refine h1.imp_of_mem ?_
      rintro ⟨a, ca⟩ ⟨b, cb⟩ ha hb hab
      have e1 := (hmem a ca (List.mem_append_left _ (List.mem_filter.mp ha).1)).1
      have e2 := (hmem b cb (List.mem_append_left _ (List.mem_filter.mp hb).1)).1
      simp only at hab ⊢
      rw [← e1, ← e2]; exact hab
    · intro t ht
      obtain ⟨⟨t', c⟩, hm, rfl⟩ := List.mem_map.mp ht
      obtain ⟨h1, h2⟩ := List.mem_filter.mp hm
      obtain ⟨e1, e2⟩ := hmem t' c (List.mem_append_left _ h1)
      simp only [decide_eq_true_eq] at h2
      exact ⟨e2, by rw [← e1]; exact h2⟩
    · intro t ht hnot hfreq
      obtain ⟨c, hc⟩ := Assoc.mem_keys_iff.mp ((hcount t).2.mpr ht)
      have hmc := hperm.mem_iff.mpr (Assoc.mem_of_get hc)
      have hct := (hmem t c hmc).1
      have hr : (t, c) ∈ rest := by
        rcases List.mem_append.mp hmc with h | h
        · exfalso
          apply hnot
          refine List.mem_map.mpr ⟨(t, c), List.mem_filter.mpr ⟨h, ?_⟩, rfl⟩
          simp only [decide_eq_true_eq]
          rw [hct]; exact hfreq
        · exact h
      by_cases hv : cfg.vocabSize ≤ 2
      · exact .inl hv
      · right
        have hall : mc.filter (fun p => decide (cfg.minFreq ≤ (p.2 : Int))) = mc := by
          rw [List.filter_eq_self]
          intro a ha
          have := hrest a ha _ hr
          simp only [decide_eq_true_eq]
          simp only at this
          rw [← hct] at hfreq
          omega
        rw [hall]
        constructor
        · intro s hs
          obtain ⟨⟨s', cs⟩, hm, rfl⟩ := List.mem_map.mp hs
          have e := (hmem s' cs (List.mem_append_left _ hm)).1
          have := hrest _ hm _ hr
          simp only at this ⊢
          rw [← e, ← hct]; exact this
        · have hl : mc.length + rest.length = counts.length := by
            rw [← hperm.length_eq, List.length_append]
          have hpos : 0 < rest.length := List.length_pos_of_mem hr
          rw [List.length_map]
          omega
  · rw [List.nodup_cons, List.nodup_cons]
    have hn : ∀ x, x ∉ toks → x ∉ (mc.filter (fun p => decide (cfg.minFreq ≤ (p.2 : Int)))).map (·.1) := by
      intro x hx hm
      obtain ⟨⟨t', c⟩, hm', rfl⟩ := List.mem_map.mp hm
      exact hx (hmem t' c (List.mem_append_left _ (List.mem_filter.mp hm').1)).2
    refine ⟨?_, hn _ hu, ?_⟩
    · rw [List.mem_cons, not_or]; exact ⟨hpu, hn _ hp⟩
    · unfold Assoc.keys at hndmc
      exact hndmc.sublist (List.Sublist.map _ List.filter_sublist)
  · have := List.length_filter_le (fun p : String × Nat => decide (cfg.minFreq ≤ (p.2 : Int))) mc
    simp only [List.length_cons, List.length_map]
    omega

/-- The id of a token for a list of words: its position, or `1`. -/
def idOf (words : List String) (t : String) : Int :=
  if t ∈ words then (words.idxOf t : Int) else 1

theorem getElem_idxOf? {words : List String} {t : String} (h : t ∈ words) :
    words[words.idxOf t]? = some t := by
  have hl := List.idxOf_lt_length_of_mem h
  rw [List.getElem?_eq_getElem hl, List.getElem_idxOf]

/-- **C37 (vocabulary tokenizer) -- partial.**  After fitting on any texts, every text gives a row of
exactly `max_length`: the positions of its tokens in a vocabulary of the most frequent words (1 for
unknown ones), then padding only; the reported vocabulary size is the number of words, at most
`max 2 vocab_size`, and every id is below it.  Needs pad and unknown tokens that are different and do
not occur as tokens; otherwise false (`C37_vocab_pad_violated`). -/
theorem C37_vocab_partial {cfg : VocabCfg} (hpu : cfg.padToken ≠ cfg.unkToken)
    (hL : 0 ≤ cfg.maxLength) {fitTexts : List (List String)} {idx : List Nat}
    (hidx : ∀ i ∈ idx, i < fitTexts.length) (hp : ∀ toks ∈ fitTexts, cfg.padToken ∉ toks)
    (hu : ∀ toks ∈ fitTexts, cfg.unkToken ∉ toks) :
    ∃ sel words vocab, DataLoader.takeIdx fitTexts idx = .ok sel ∧
      vocabFit cfg fitTexts idx = .ok vocab ∧ IsVocab cfg sel.flatten words ∧
      ∀ texts, ∃ rows, vocabTransform cfg vocab texts = .ok (rows, words.length) ∧
        List.Forall₂ (fun toks row => Padded cfg.maxLength.toNat (toks.map (idOf words)) row ∧
          ∀ x ∈ row.1, 0 ≤ x ∧ x < (words.length : Int)) texts rows := by
  obtain ⟨sel, hsel⟩ : ∃ sel, DataLoader.takeIdx fitTexts idx = .ok sel := by
    unfold DataLoader.takeIdx
    apply mapM_total
    intro i hi
    exact ⟨fitTexts[i]'(hidx i hi), by rw [List.getElem?_eq_getElem (hidx i hi)]⟩
  have hin : ∀ toks ∈ sel, toks ∈ fitTexts := by
    intro toks ht
    unfold DataLoader.takeIdx at hsel
    rw [mapM_ok] at hsel
    obtain ⟨k, hk, rfl⟩ := List.mem_iff_getElem.mp ht
    have hk' : k < idx.length := by rw [hsel.length_eq]; exact hk
    have := List.Forall₂.get hsel hk' hk
    simp only [List.get_eq_getElem] at this
    split at this
    · rename_i x hx
      rw [Except.ok.injEq] at this
      rw [← this]
      exact List.mem_of_getElem? hx
    · simp at this
  obtain ⟨words, hw, hb⟩ := buildVocab_spec hpu (texts := sel)
    (by rw [List.mem_flatten]; rintro ⟨l, h1, h2⟩; exact hp l (hin l h1) h2)
    (by rw [List.mem_flatten]; rintro ⟨l, h1, h2⟩; exact hu l (hin l h1) h2)
  refine ⟨sel, words, enumFrom 0 words, hsel, ?_, hw, ?_⟩
  · unfold vocabFit
    rw [hsel, ebind_of_ok rfl, hb]; rfl
  · intro texts
    obtain ⟨rest, hwords, -, -, -⟩ := hw.head
    have hget : ∀ t, ((((Assoc.get (enumFrom 0 words) t).getD 1 : Nat)) : Int) = idOf words t := by
      intro t
      unfold idOf
      by_cases h : t ∈ words
      · rw [if_pos h]
        have : Assoc.get (enumFrom 0 words) t = some (words.idxOf t) :=
          (enumFrom_get hw.nodup).mpr ⟨by omega, by simpa using getElem_idxOf? h⟩
        rw [this]; rfl
      · rw [if_neg h]
        have : Assoc.get (enumFrom 0 words) t = none := by
          cases hg : Assoc.get (enumFrom 0 words) t with
          | none => rfl
          | some n => exact absurd (List.mem_of_getElem? ((enumFrom_get hw.nodup).mp hg).2) h
        rw [this]; rfl
    have hunk : Assoc.get (enumFrom 0 words) cfg.unkToken = some 1 :=
      (enumFrom_get hw.nodup).mpr ⟨by omega, by rw [hwords]; rfl⟩
    unfold vocabTransform
    rw [if_neg (by omega), hunk]
    simp only [enumFrom_length]
    refine ⟨_, rfl, ?_⟩
    rw [List.forall₂_map_right_iff, List.forall₂_same]
    intro toks _
    simp only [hget]
    have h2 : 2 ≤ words.length := by rw [hwords]; simp
    refine ⟨fillRow_padded _ _, padded_forall (fillRow_padded _ _) (by omega) ?_⟩
    intro x hx
    obtain ⟨t, -, rfl⟩ := List.mem_map.mp hx
    unfold idOf
    split
    · rename_i h
      have := List.idxOf_lt_length_of_mem h
      omega
    · omega

/-- A small configuration for the examples. -/
def demoCfg : VocabCfg := ⟨4, 3, 2, "<PAD>", "<UNK>"⟩

example : (vocabFit demoCfg [["a", "b", "a"], ["b", "c"], ["z"]] [0, 1]).toOption
    = some [("<PAD>", 0), ("<UNK>", 1), ("a", 2), ("b", 3)] := by decide +kernel

/-- **C37 is violated when the pad token occurs as a token** (possible for a lower-case pad token):
its id is the vocabulary size itself, out of range for an embedding of that size; and two different
words can share an id. -/
theorem C37_vocab_pad_violated :
    ((vocabFit { demoCfg with padToken := "pad" } [["pad", "pad"]] [0]).bind
      (fun v => vocabTransform { demoCfg with padToken := "pad" } v [["pad"]])).toOption
      = some ([([2, 0, 0], [1, 0, 0])], 2) ∧
    (vocabFit { demoCfg with padToken := "pad" } [["pad", "pad", "a", "a"]] [0]).toOption
      = some [("pad", 2), ("<UNK>", 1), ("a", 2)] := by
  decide +kernel

end ModSSC.Preprocess.Tokens
