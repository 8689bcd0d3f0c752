import Verif.Utils.JsonLemmas

/-!
# C17: fingerprints depend on content, not on key order
-/

namespace ModSSC.Json
open ModSSC Spec

variable {f : Rat → List Char} {ascii : Bool}

theorem members_eq (d : List (String × PyVal)) :
    members f ascii d = d.map (fun p => (p.1, text f ascii p.2)) := by
  induction d with
  | nil => rfl
  | cons p d ih => rw [members, ih]; rfl

theorem validList_iff {l : List PyVal} : ValidList l ↔ ∀ v ∈ l, Valid v := by
  induction l with
  | nil => simp [ValidList]
  | cons v l ih => simp [ValidList, ih]

theorem validDict_iff {d : List (String × PyVal)} : ValidDict d ↔ ∀ p ∈ d, Valid p.2 := by
  induction d with
  | nil => simp [ValidDict]
  | cons v l ih => simp [ValidDict, ih]

theorem sameIn_iff {d e : List (String × PyVal)} :
    SameIn d e ↔ ∀ p ∈ d, ∃ w, PyVal.lookup e p.1 = some w ∧ Same p.2 w := by
  induction d with
  | nil => simp [SameIn]
  | cons v l ih => rw [SameIn, List.forall_mem_cons, ih]

theorem text_of_same : ∀ v w : PyVal, Valid v → Valid w → Same v w → text f ascii v = text f ascii w := by
  intro v
  induction v using PyVal.induct with
  | none => intro w _ _ h; rw [Same] at h; rw [h]
  | bool b => intro w _ _ h; rw [Same] at h; rw [h]
  | int b => intro w _ _ h; rw [Same] at h; rw [h]
  | flt b => intro w _ _ h; rw [Same] at h; rw [h]
  | str b => intro w _ _ h; rw [Same] at h; rw [h]
  | list l ih =>
    intro w hv hw h
    rw [Same] at h
    obtain ⟨m, rfl, h⟩ := h
    rw [Valid, validList_iff] at hv hw
    have key : ∀ (l m : List PyVal), (∀ v ∈ l, ∀ w, Valid v → Valid w → Same v w →
        text f ascii v = text f ascii w) → (∀ v ∈ l, Valid v) → (∀ v ∈ m, Valid v) →
        SameList l m → listTail f ascii l = listTail f ascii m ∧ listText f ascii l = listText f ascii m := by
      intro l
      induction l with
      | nil => intro m _ _ _ h; rw [SameList] at h; rw [h]; exact ⟨rfl, rfl⟩
      | cons v l ih2 =>
        intro m ih hv hw h
        rw [SameList] at h
        obtain ⟨w, m', rfl, h1, h2⟩ := h
        have e1 := ih v (by simp) w (hv v (by simp)) (hw w (by simp)) h1
        obtain ⟨e2, -⟩ := ih2 m' (fun v hv' => ih v (by simp [hv'])) (fun v hv' => hv v (by simp [hv']))
          (fun v hv' => hw v (by simp [hv'])) h2
        simp only [listTail, listText, e1, e2, and_self]
    rw [text, text, (key l m ih hv hw h).2]
  | dict d ih =>
    intro w hv hw h
    rw [Same] at h
    obtain ⟨e, rfl, hlen, h⟩ := h
    rw [Valid, validDict_iff] at hv hw
    rw [sameIn_iff] at h
    rw [text, text]
    congr 1
    have hk : ((members f ascii d).map (·.1)).Nodup := by
      rw [members_eq, List.map_map]; exact hv.1
    apply keySort_congr _ hk
    have hsub : (members f ascii d).Subperm (members f ascii e) := by
      apply (List.Nodup.of_map _ hk).subperm
      intro p hp
      rw [members_eq, List.mem_map] at hp
      obtain ⟨q, hq, rfl⟩ := hp
      obtain ⟨w, hl, hs⟩ := h q hq
      have hmem := PyVal.lookup_mem hl
      rw [ih q hq w (hv.2 q hq) (hw.2 _ hmem) hs, members_eq, List.mem_map]
      exact ⟨_, hmem, rfl⟩
    apply hsub.perm_of_length_le
    rw [members_eq, members_eq, List.length_map, List.length_map, hlen]

/-- First character class of a text. -/
def kindOf (c : Char) : Nat :=
  if c = 'n' then 0 else if c = 't' then 1 else if c = 'f' then 2
  else if c ∈ ['0','1','2','3','4','5','6','7','8','9','-'] then 3
  else if c = '"' then 4 else if c = '[' then 5 else 6

/-- Class of a value. -/
def tag : PyVal → Nat
  | .none => 0
  | .bool true => 1
  | .bool false => 2
  | .int _ => 3
  | .flt _ => 3
  | .str _ => 4
  | .list _ => 5
  | .dict _ => 6

theorem kindOf_num : ∀ c ∈ ['0','1','2','3','4','5','6','7','8','9','-'], kindOf c = 3 := by decide

theorem text_head (hf : FloatRepr f) (v : PyVal) : ∃ c r, text f ascii v = c :: r ∧ kindOf c = tag v := by
  cases v with
  | none => exact ⟨_, _, by rw [text], by decide⟩
  | bool b => cases b <;> exact ⟨_, _, by rw [text], by decide⟩
  | int i =>
    have hne := intText_ne_nil i
    obtain ⟨c, r, h⟩ := List.exists_cons_of_ne_nil hne
    refine ⟨c, r, by rw [text, h], ?_⟩
    exact kindOf_num c (intText_chars i c (by rw [h]; simp))
  | flt q =>
    obtain ⟨c, r, h, hc⟩ := hf.start q
    exact ⟨c, r, by rw [text, h], kindOf_num c hc⟩
  | str s => exact ⟨_, _, by rw [text, strText], by rw [tag]; decide⟩
  | list l => exact ⟨_, _, by rw [text], by rw [tag]; decide⟩
  | dict d =>
    rw [text]
    cases keySort (members f ascii d) with
    | nil => exact ⟨_, _, rfl, by rw [tag]; decide⟩
    | cons p l => exact ⟨_, _, rfl, by rw [tag]; decide⟩

theorem tag_eq (hf : FloatRepr f) {v w : PyVal} {x y : List Char}
    (h : text f ascii v ++ x = text f ascii w ++ y) : tag v = tag w := by
  obtain ⟨c, r, e, hc⟩ := text_head (ascii := ascii) hf v
  obtain ⟨c', r', e', hc'⟩ := text_head (ascii := ascii) hf w
  rw [e, e'] at h
  obtain ⟨rfl, -⟩ := List.cons.inj h
  rw [← hc, ← hc']

theorem isNum_int (i : Int) : ∀ c ∈ intText i, IsNumChar c := by
  intro c hc
  have := intText_chars i c hc
  unfold IsNumChar
  simp only [List.mem_cons, List.not_mem_nil, or_false] at this ⊢
  tauto

theorem term_listTail (l : List PyVal) (x : List Char) : Term (listTail f ascii l ++ x) := by
  cases l with
  | nil => exact Or.inr ⟨']', x, rfl, by decide⟩
  | cons v l => exact Or.inr ⟨',', _, rfl, by decide⟩

theorem term_objTail (l : List (String × List Char)) (x : List Char) : Term (objTail ascii l ++ x) := by
  cases l with
  | nil => exact Or.inr ⟨'}', x, rfl, by decide⟩
  | cons v l => exact Or.inr ⟨',', _, rfl, by decide⟩

/-- Statement proved by induction: texts decode uniquely in any context. -/
def Decodes (f : Rat → List Char) (ascii : Bool) (v : PyVal) : Prop :=
  ∀ w x y, Valid v → Valid w → Term x → Term y → text f ascii v ++ x = text f ascii w ++ y →
    Same v w ∧ x = y

theorem decodes_listTail : ∀ (l m : List PyVal) (x y : List Char),
    (∀ v ∈ l, Decodes f ascii v) → (∀ v ∈ l, Valid v) → (∀ v ∈ m, Valid v) →
    listTail f ascii l ++ x = listTail f ascii m ++ y → SameList l m ∧ x = y := by
  intro l
  induction l with
  | nil =>
    intro m x y _ _ _ h
    cases m with
    | nil =>
      simp only [listTail, List.cons_append, List.nil_append, List.cons.injEq, true_and] at h
      exact ⟨by rw [SameList], h⟩
    | cons w m => simp [listTail] at h
  | cons v l ih =>
    intro m x y hd hv hw h
    cases m with
    | nil => simp [listTail] at h
    | cons w m =>
      simp only [listTail, List.cons_append, List.append_assoc, List.cons.injEq, true_and] at h
      obtain ⟨e1, h'⟩ := hd v (by simp) w _ _ (hv v (by simp)) (hw w (by simp)) (term_listTail _ _)
        (term_listTail _ _) h
      obtain ⟨e2, e3⟩ := ih m x y (fun v h => hd v (by simp [h])) (fun v h => hv v (by simp [h]))
        (fun v h => hw v (by simp [h])) h'
      exact ⟨by rw [SameList]; exact ⟨w, m, rfl, e1, e2⟩, e3⟩

/-- Two lists of entries agree entry by entry. -/
def SameEntries (d e : List (String × PyVal)) : Prop :=
  List.Forall₂ (fun p q => p.1 = q.1 ∧ Same p.2 q.2) d e

/-- Rendered members of a list of entries. -/
def rend (f : Rat → List Char) (ascii : Bool) (d : List (String × PyVal)) : List (String × List Char) :=
  d.map (fun p => (p.1, text f ascii p.2))

theorem decodes_objTail : ∀ (d e : List (String × PyVal)) (x y : List Char),
    (∀ p ∈ d, Decodes f ascii p.2) → (∀ p ∈ d, Valid p.2) → (∀ p ∈ e, Valid p.2) →
    objTail ascii (rend f ascii d) ++ x = objTail ascii (rend f ascii e) ++ y → SameEntries d e ∧ x = y := by
  intro d
  induction d with
  | nil =>
    intro e x y _ _ _ h
    cases e with
    | nil =>
      simp only [rend, List.map_nil, objTail, List.cons_append, List.nil_append, List.cons.injEq, true_and] at h
      exact ⟨List.Forall₂.nil, h⟩
    | cons w m => simp [rend, objTail] at h
  | cons p d ih =>
    intro e x y hd hv hw h
    cases e with
    | nil => simp [rend, objTail] at h
    | cons q e =>
      simp only [rend, List.map_cons, objTail, List.cons_append, List.append_assoc, List.cons.injEq,
        true_and] at h
      obtain ⟨e1, h⟩ := strText_inj h
      simp only [List.cons.injEq, true_and] at h
      obtain ⟨e2, h'⟩ := hd p (by simp) q.2 _ _ (hv p (by simp)) (hw q (by simp)) (term_objTail _ _)
        (term_objTail _ _) h
      obtain ⟨e3, e4⟩ := ih e x y (fun v h => hd v (by simp [h])) (fun v h => hv v (by simp [h]))
        (fun v h => hw v (by simp [h])) h'
      exact ⟨List.Forall₂.cons ⟨e1, e2⟩ e3, e4⟩

theorem decodes_obj (d e : List (String × PyVal)) (x y : List Char)
    (hd : ∀ p ∈ d, Decodes f ascii p.2) (hv : ∀ p ∈ d, Valid p.2) (hw : ∀ p ∈ e, Valid p.2)
    (h : objText ascii (rend f ascii d) ++ x = objText ascii (rend f ascii e) ++ y) :
    SameEntries d e ∧ x = y := by
  cases d with
  | nil =>
    cases e with
    | nil => exact ⟨List.Forall₂.nil, by simpa [rend, objText] using h⟩
    | cons q e => simp [rend, objText, strText] at h
  | cons p d =>
    cases e with
    | nil => simp [rend, objText, strText] at h
    | cons q e =>
      simp only [rend, List.map_cons, objText, List.cons_append, List.append_assoc, List.cons.injEq,
        true_and] at h
      obtain ⟨e1, h⟩ := strText_inj h
      simp only [List.cons.injEq, true_and] at h
      obtain ⟨e2, h'⟩ := hd p (by simp) q.2 _ _ (hv p (by simp)) (hw q (by simp)) (term_objTail _ _)
        (term_objTail _ _) h
      obtain ⟨e3, e4⟩ := decodes_objTail d e x y (fun v h => hd v (by simp [h]))
        (fun v h => hv v (by simp [h])) (fun v h => hw v (by simp [h])) h'
      exact ⟨List.Forall₂.cons ⟨e1, e2⟩ e3, e4⟩

/-- Sorting the rendered members is rendering some reordering of the members. -/
theorem keySort_members (d : List (String × PyVal)) :
    ∃ d', d'.Perm d ∧ keySort (members f ascii d) = rend f ascii d' := by
  have hp := keySort_perm (members f ascii d)
  rw [members_eq] at hp ⊢
  have key : ∀ (s : List (String × List Char)) (d : List (String × PyVal)),
      s.Perm (d.map (fun p => (p.1, text f ascii p.2))) → ∃ d', d'.Perm d ∧ s = rend f ascii d' := by
    intro s
    induction s with
    | nil =>
      intro d h
      have := h.symm.eq_nil
      rw [List.map_eq_nil_iff] at this
      exact ⟨[], by rw [this], rfl⟩
    | cons a s ih =>
      intro d h
      have ha : a ∈ d.map (fun p => (p.1, text f ascii p.2)) := h.mem_iff.mp (by simp)
      rw [List.mem_map] at ha
      obtain ⟨p, hp, rfl⟩ := ha
      obtain ⟨d1, d2, rfl⟩ := List.append_of_mem hp
      have h2 : s.Perm ((d1 ++ d2).map (fun p => (p.1, text f ascii p.2))) := by
        rw [List.map_append, List.map_cons] at h
        rw [List.map_append]
        exact (List.perm_cons _).mp (h.trans List.perm_middle)
      obtain ⟨d', h3, rfl⟩ := ih _ h2
      exact ⟨p :: d', (h3.cons p).trans List.perm_middle.symm, rfl⟩
  exact key _ d hp

theorem sameEntries_length {d e : List (String × PyVal)} (h : SameEntries d e) : d.length = e.length :=
  List.Forall₂.length_eq h

theorem sameEntries_mem {d e : List (String × PyVal)} (h : SameEntries d e) :
    ∀ p ∈ d, ∃ q ∈ e, p.1 = q.1 ∧ Same p.2 q.2 := by
  induction h with
  | nil => simp
  | cons hpq _ ih =>
    rename_i a b l₁ l₂ _
    intro p hp
    rcases List.mem_cons.mp hp with rfl | hp
    · exact ⟨b, by simp, hpq⟩
    · obtain ⟨q, hq, h⟩ := ih p hp
      exact ⟨q, by simp [hq], h⟩

theorem decodes (hf : FloatRepr f) (v : PyVal) : Decodes f ascii v := by
  induction v using PyVal.induct with
  | none =>
    intro w x y _ _ _ _ h
    have ht := tag_eq hf h
    cases w with
    | none => exact ⟨by rw [Same], List.append_cancel_left h⟩
    | bool b => cases b <;> simp [tag] at ht
    | _ => simp [tag] at ht
  | bool b =>
    intro w x y _ _ _ _ h
    have ht := tag_eq hf h
    cases w with
    | bool c =>
      have : b = c := by cases b <;> cases c <;> simp [tag] at ht ⊢
      subst this
      exact ⟨by rw [Same], List.append_cancel_left h⟩
    | _ => cases b <;> simp [tag] at ht
  | int i =>
    intro w x y _ _ hx hy h
    have ht := tag_eq hf h
    cases w with
    | int j =>
      rw [text, text] at h
      obtain ⟨e, e'⟩ := num_split _ _ _ _ (isNum_int i) (isNum_int j) hx hy h
      rw [intText_inj e]
      exact ⟨by rw [Same], e'⟩
    | flt q =>
      exfalso
      rw [text, text] at h
      obtain ⟨e, e'⟩ := num_split _ _ _ _ (isNum_int i) (hf.chars q) hx hy h
      rcases hf.marked q with hm | hm
      · rw [← e] at hm
        have := intText_chars i _ hm
        revert this; decide
      · rw [← e] at hm
        have := intText_chars i _ hm
        revert this; decide
    | bool b => cases b <;> simp [tag] at ht
    | _ => simp [tag] at ht
  | flt q =>
    intro w x y _ _ hx hy h
    have ht := tag_eq hf h
    cases w with
    | int j =>
      exfalso
      rw [text, text] at h
      obtain ⟨e, e'⟩ := num_split _ _ _ _ (hf.chars q) (isNum_int j) hx hy h
      rcases hf.marked q with hm | hm
      · rw [e] at hm
        have := intText_chars j _ hm
        revert this; decide
      · rw [e] at hm
        have := intText_chars j _ hm
        revert this; decide
    | flt r =>
      rw [text, text] at h
      obtain ⟨e, e'⟩ := num_split _ _ _ _ (hf.chars q) (hf.chars r) hx hy h
      rw [hf.injective _ _ e]
      exact ⟨by rw [Same], e'⟩
    | bool b => cases b <;> simp [tag] at ht
    | _ => simp [tag] at ht
  | str s =>
    intro w x y _ _ hx hy h
    have ht := tag_eq hf h
    cases w with
    | str t =>
      rw [text, text] at h
      obtain ⟨rfl, e'⟩ := strText_inj h
      exact ⟨by rw [Same], e'⟩
    | bool b => cases b <;> simp [tag] at ht
    | _ => simp [tag] at ht
  | list l ih =>
    intro w x y hv hw hx hy h
    have ht := tag_eq hf h
    cases w with
    | list m =>
      rw [Valid, validList_iff] at hv hw
      rw [text, text] at h
      simp only [List.cons_append, List.cons.injEq, true_and] at h
      have : SameList l m ∧ x = y := by
        cases l with
        | nil =>
          cases m with
          | nil => exact ⟨by rw [SameList], by simpa [listText] using h⟩
          | cons w m =>
            exfalso
            obtain ⟨c, r, e, hc⟩ := text_head (ascii := ascii) hf w
            simp only [listText, e, List.cons_append, List.cons.injEq] at h
            obtain ⟨rfl, -⟩ := h
            have : tag w = 6 := by rw [← hc]; decide
            obtain ⟨e', he'⟩ : ∃ e', w = .dict e' := by
              cases w with
              | bool b => cases b <;> simp [tag] at this
              | dict e' => exact ⟨e', rfl⟩
              | _ => simp [tag] at this
            subst he'
            rw [text] at e
            cases hks : keySort (members f ascii e') <;> rw [hks] at e <;> simp [objText] at e
        | cons v l =>
          cases m with
          | nil =>
            exfalso
            obtain ⟨c, r, e, hc⟩ := text_head (ascii := ascii) hf v
            simp only [listText, e, List.cons_append, List.cons.injEq] at h
            obtain ⟨rfl, -⟩ := h
            have : tag v = 6 := by rw [← hc]; decide
            obtain ⟨e', he'⟩ : ∃ e', v = .dict e' := by
              cases v with
              | bool b => cases b <;> simp [tag] at this
              | dict e' => exact ⟨e', rfl⟩
              | _ => simp [tag] at this
            subst he'
            rw [text] at e
            cases hks : keySort (members f ascii e') <;> rw [hks] at e <;> simp [objText] at e
          | cons w m =>
            simp only [listText, List.append_assoc] at h
            obtain ⟨e1, h'⟩ := ih v (by simp) w _ _ (hv v (by simp)) (hw w (by simp)) (term_listTail _ _)
              (term_listTail _ _) h
            obtain ⟨e2, e3⟩ := decodes_listTail l m x y (fun v h => ih v (by simp [h]))
              (fun v h => hv v (by simp [h])) (fun v h => hw v (by simp [h])) h'
            exact ⟨by rw [SameList]; exact ⟨w, m, rfl, e1, e2⟩, e3⟩
      exact ⟨by rw [Same]; exact ⟨m, rfl, this.1⟩, this.2⟩
    | bool b => cases b <;> simp [tag] at ht
    | _ => simp [tag] at ht
  | dict d ih =>
    intro w x y hv hw hx hy h
    have ht := tag_eq hf h
    cases w with
    | dict e =>
      rw [Valid, validDict_iff] at hv hw
      rw [text, text] at h
      obtain ⟨d', hd', ed⟩ := keySort_members (f := f) (ascii := ascii) d
      obtain ⟨e', he', ee⟩ := keySort_members (f := f) (ascii := ascii) e
      rw [ed, ee] at h
      obtain ⟨hs, hxy⟩ := decodes_obj d' e' x y (fun p hp => ih p (hd'.mem_iff.mp hp))
        (fun p hp => hv.2 p (hd'.mem_iff.mp hp)) (fun p hp => hw.2 p (he'.mem_iff.mp hp)) h
      refine ⟨?_, hxy⟩
      rw [Same]
      refine ⟨e, rfl, ?_, ?_⟩
      · rw [← hd'.length_eq, ← he'.length_eq]; exact sameEntries_length hs
      · rw [sameIn_iff]
        intro p hp
        obtain ⟨q, hq, hk, hsame⟩ := sameEntries_mem hs p (hd'.mem_iff.mpr hp)
        refine ⟨q.2, ?_, hsame⟩
        rw [hk]
        exact PyVal.lookup_eq_some hw.1 (he'.mem_iff.mp hq)
    | bool b => cases b <;> simp [tag] at ht
    | _ => simp [tag] at ht

/-- **C17 (canonical text).** For all JSON-like values, the canonical texts agree exactly when the values
carry the same data up to dictionary order (both with and without `ensure_ascii`). -/
theorem C17_text_iff_same (hf : FloatRepr f) (v w : PyVal) (hv : Valid v) (hw : Valid w) :
    text f ascii v = text f ascii w ↔ Same v w := by
  refine ⟨fun h => ?_, text_of_same v w hv hw⟩
  exact (decodes (ascii := ascii) hf v w [] [] hv hw term_nil term_nil (by simp [h])).1

/-- **C17 (fingerprints).** Values with the same data have equal fingerprints, for every hash function;
for a hash function without collisions on the texts in question, equal fingerprints imply the same
data. -/
theorem C17_fingerprint {H : Type} (hash : List Char → H) (hf : FloatRepr f) (v w : PyVal) (hv : Valid v)
    (hw : Valid w) :
    (Same v w → fingerprint hash f ascii v = fingerprint hash f ascii w) ∧
    (Function.Injective hash → fingerprint hash f ascii v = fingerprint hash f ascii w → Same v w) := by
  refine ⟨fun h => ?_, fun hi h => ?_⟩
  · unfold fingerprint; rw [text_of_same v w hv hw h]
  · exact (C17_text_iff_same hf v w hv hw).mp (hi h)

theorem intText_no_sep (i : Int) (c : Char) (hc : c ∉ ['0','1','2','3','4','5','6','7','8','9','-']) :
    c ∉ intText i := fun h => hc (intText_chars i c h)

theorem append_sep_inj {a b x y : List Char} {c : Char} (ha : c ∉ a) (hb : c ∉ b)
    (h : a ++ c :: x = b ++ c :: y) : a = b ∧ x = y := by
  induction a generalizing b with
  | nil =>
    cases b with
    | nil => exact ⟨rfl, (List.cons.inj h).2⟩
    | cons d b =>
      obtain ⟨rfl, -⟩ := List.cons.inj h
      simp at hb
  | cons e a ih =>
    cases b with
    | nil =>
      obtain ⟨rfl, -⟩ := List.cons.inj h
      simp at ha
    | cons d b =>
      obtain ⟨rfl, h'⟩ := List.cons.inj h
      obtain ⟨rfl, rfl⟩ := ih (by simp_all) (by simp_all) h'
      exact ⟨rfl, rfl⟩

/-- **C17 (escapes).**  A character outside ASCII is written with the hexadecimal digits Python uses, in lower case. -/
theorem C17_escape_digits : ∀ n, n < 16 → hexDigit n = "0123456789abcdef".toList.getD n ' ' := by decide

/-- **C17 (seed derivation).** The texts hashed to derive seeds determine their ingredients: different
(seed, label) pairs, and different (seed, step index, step id) triples, never share a hash input. -/
theorem C17_seed_text_injective :
    (∀ s s' l l', samplingSeedText s l = samplingSeedText s' l' → s = s' ∧ l = l') ∧
    (∀ s s' i i' t t', stepSeedText s i t = stepSeedText s' i' t' → s = s' ∧ i = i' ∧ t = t') := by
  constructor
  · intro s s' l l' h
    obtain ⟨e1, e2⟩ := append_sep_inj (intText_no_sep s ':' (by decide)) (intText_no_sep s' ':' (by decide)) h
    exact ⟨intText_inj e1, String.toList_inj.mp e2⟩
  · intro s s' i i' t t' h
    obtain ⟨e1, e2⟩ := append_sep_inj (intText_no_sep s '|' (by decide)) (intText_no_sep s' '|' (by decide)) h
    obtain ⟨e3, e4⟩ := append_sep_inj (intText_no_sep i '|' (by decide)) (intText_no_sep i' '|' (by decide)) e2
    exact ⟨intText_inj e1, intText_inj e3, String.toList_inj.mp e4⟩

/-! ### non-vacuity -/

/-- A float text satisfying the assumptions exists: numerator and denominator with a `.` between. -/
def demoFloat (q : Rat) : List Char := intText q.num ++ '.' :: natText q.den

theorem demoFloat_ok : FloatRepr demoFloat where
  injective a b h := by
    obtain ⟨e1, e2⟩ := append_sep_inj (intText_no_sep _ '.' (by decide)) (intText_no_sep _ '.' (by decide)) h
    exact Rat.ext (intText_inj e1) (natText_inj e2)
  chars a c hc := by
    unfold demoFloat at hc
    rw [List.mem_append, List.mem_cons] at hc
    rcases hc with hc | rfl | hc
    · exact isNum_int _ c hc
    · decide
    · have := natText_chars _ c hc
      unfold IsNumChar
      simp only [List.mem_cons, List.not_mem_nil, or_false] at this ⊢
      tauto
  start a := by
    obtain ⟨c, r, h⟩ := List.exists_cons_of_ne_nil (intText_ne_nil a.num)
    exact ⟨c, r ++ '.' :: natText a.den, by unfold demoFloat; rw [h]; rfl, intText_chars a.num c (by rw [h]; simp)⟩
  marked a := Or.inl (by simp [demoFloat])

example : String.ofList (text demoFloat true (.dict [("b", .list [.int (-12), .none]), ("a", .str "x\"é")]))
    = "{\"a\":\"x\\\"\\u00e9\",\"b\":[-12,null]}" := by decide +kernel

example : text demoFloat true (.dict [("b", .int 1), ("a", .dict [])])
    = text demoFloat true (.dict [("a", .dict []), ("b", .int 1)]) := by decide +kernel

end ModSSC.Json
