import Verif.Inductive.GroupModel
import Verif.ExceptLemmas

/-!
# C194 — Self-training uses the group ids it is given
-/

namespace ModSSC.Inductive.Group
open ModSSC ModSSC.Inductive

namespace Spec

/-- The entry is one id for each of `n` samples; with torch it has to be an integer tensor. -/
def Valid (torch : Bool) (n : Nat) (e : Entry) (g : List Int) : Prop :=
  ∃ tensor ints, e = .ids tensor ints g ∧ g.length = n ∧ (torch = true → tensor = true ∧ ints = true)

end Spec

open Spec

theorem normalize_iff {torch : Bool} {n : Nat} {e : Entry} {g : List Int} : normalizeIds torch n e = .ok g ↔ Valid torch n e g := by
  cases e with
  | other => exact ⟨fun h => (by cases h), fun ⟨_, _, h, _⟩ => (by cases h)⟩
  | ids tensor ints l =>
    unfold normalizeIds
    dsimp only
    by_cases h1 : torch = true ∧ ¬ tensor = true
    · rw [if_pos h1]
      refine ⟨fun h => (by cases h), ?_⟩
      rintro ⟨t, i, h, -, ht⟩
      injection h with ha
      exact absurd (ha ▸ (ht h1.1).1) h1.2
    · rw [if_neg h1]
      by_cases h2 : l.length ≠ n
      · rw [if_pos h2]
        refine ⟨fun h => (by cases h), ?_⟩
        rintro ⟨t, i, h, hl, -⟩
        injection h with _ _ hg
        exact absurd (hg ▸ hl) h2
      · rw [if_neg h2]
        by_cases h3 : torch = true ∧ ¬ ints = true
        · rw [if_pos h3]
          refine ⟨fun h => (by cases h), ?_⟩
          rintro ⟨t, i, h, -, ht⟩
          injection h with _ hb
          exact absurd (hb ▸ (ht h3.1).2) h3.2
        · rw [if_neg h3]
          constructor
          · intro h
            injection h with h
            subst h
            exact ⟨tensor, ints, rfl, not_not.mp h2, fun ht => ⟨by_contra fun hc => h1 ⟨ht, hc⟩, by_contra fun hc => h3 ⟨ht, hc⟩⟩⟩
          · rintro ⟨t, i, h, -, -⟩
            injection h with _ _ hg
            rw [hg]

theorem normalize_error {torch : Bool} {n : Nat} {e : Entry} {x : PyErr} (h : normalizeIds torch n e = .error x) : x = .validation := by
  cases e with
  | other => injection h with h; exact h.symm
  | ids tensor ints l =>
    unfold normalizeIds at h
    dsimp only at h
    repeat' split at h
    all_goals first
      | (cases h; rfl)
      | cases h

/-- **C194 (named entry).**  If the entry is named, it has to be there and valid, and then it is used; everything else is refused. -/
theorem C194_named (torch : Bool) (n : Nat) (keys : List String) (k : String) (l : List (String × Entry)) (g : Option (List Int)) :
    (resolveIds torch n keys (some k) (.entries l) = .ok g ↔ ∃ e ids, l.lookup k = some e ∧ Valid torch n e ids ∧ g = some ids) ∧
    (∀ x, resolveIds torch n keys (some k) (.entries l) = .error x → x = .validation) := by
  unfold resolveIds
  dsimp only
  cases hk : l.lookup k with
  | none =>
    refine ⟨⟨fun h => (by cases h), ?_⟩, fun x h => ?_⟩
    · rintro ⟨e, ids, h, -⟩
      cases h
    · injection h with h
      exact h.symm
  | some v =>
    dsimp only
    cases hv : normalizeIds torch n v with
    | error x =>
      refine ⟨⟨fun h => (by cases h), ?_⟩, fun y h => ?_⟩
      · rintro ⟨e, ids, h, hval, -⟩
        injection h with h
        rw [h, normalize_iff.mpr hval] at hv
        cases hv
      · injection h with h
        rw [← h]
        exact normalize_error hv
    | ok ids =>
      refine ⟨⟨fun h => ?_, ?_⟩, fun x h => (by cases h)⟩
      · injection h with h
        exact ⟨v, ids, rfl, normalize_iff.mp hv, h.symm⟩
      · rintro ⟨e, ids', h, hval, rfl⟩
        injection h with h
        rw [h, normalize_iff.mpr hval] at hv
        injection hv with hv
        rw [hv]
        rfl

/-- **C194 (found entry).**  Without a name the first of the known names with a valid entry is used, and none if there is none. -/
theorem C194_found (torch : Bool) (n : Nat) (l : List (String × Entry)) (keys : List String) (g : Option (List Int)) :
    resolveIds torch n keys none (.entries l) = .ok g ↔
      (∃ a k b ids e, keys = a ++ k :: b ∧ g = some ids ∧ l.lookup k = some e ∧ Valid torch n e ids ∧
        ∀ k' ∈ a, ∀ e', l.lookup k' = some e' → ¬ ∃ ids', Valid torch n e' ids') ∨
      (g = none ∧ ∀ k' ∈ keys, ∀ e', l.lookup k' = some e' → ¬ ∃ ids', Valid torch n e' ids') := by
  unfold resolveIds
  dsimp only
  rw [Except.ok.injEq]
  induction keys with
  | nil =>
    unfold firstValid
    constructor
    · rintro rfl
      exact .inr ⟨rfl, fun k h => absurd h List.not_mem_nil⟩
    · rintro (⟨a, k, b, ids, e, h, -⟩ | ⟨rfl, -⟩)
      · cases a <;> cases h
      · rfl
  | cons k ks ih =>
    by_cases hv : ∃ e ids, l.lookup k = some e ∧ Valid torch n e ids
    · obtain ⟨e, ids, he, hval⟩ := hv
      unfold firstValid
      rw [he]
      dsimp only
      rw [normalize_iff.mpr hval]
      dsimp only
      constructor
      · rintro rfl
        exact .inl ⟨[], k, ks, ids, e, rfl, rfl, he, hval, fun k h => absurd h List.not_mem_nil⟩
      · rintro (⟨a, k', b, ids', e', h, rfl, he', hval', hn⟩ | ⟨-, hn⟩)
        · cases a with
          | nil =>
            injection h with h1 h2
            subst h1
            rw [he] at he'
            injection he' with he'
            subst he'
            have := (normalize_iff.mpr hval).symm.trans (normalize_iff.mpr hval')
            injection this with this
            rw [this]
          | cons x a =>
            injection h with h1 h2
            subst h1
            exact absurd ⟨ids, hval⟩ (hn k List.mem_cons_self e he)
        · exact absurd ⟨ids, hval⟩ (hn k List.mem_cons_self e he)
    · have hf : firstValid torch n l (k :: ks) = firstValid torch n l ks := by
        conv_lhs => unfold firstValid
        cases he : l.lookup k with
        | none => rfl
        | some v =>
          dsimp only
          cases hz : normalizeIds torch n v with
          | error x => rfl
          | ok ids => exact absurd ⟨v, ids, he, normalize_iff.mp hz⟩ hv
      have hk : ∀ e', l.lookup k = some e' → ¬ ∃ ids', Valid torch n e' ids' := fun e' he ⟨ids, h⟩ => hv ⟨e', ids, he, h⟩
      rw [hf, ih]
      constructor
      · rintro (⟨a, k', b, ids, e, h, hg, he, hval, hn⟩ | ⟨hg, hn⟩)
        · refine .inl ⟨k :: a, k', b, ids, e, by rw [h]; rfl, hg, he, hval, fun k'' hm => ?_⟩
          rcases List.mem_cons.mp hm with rfl | hm
          · exact hk
          · exact hn k'' hm
        · refine .inr ⟨hg, fun k'' hm => ?_⟩
          rcases List.mem_cons.mp hm with rfl | hm
          · exact hk
          · exact hn k'' hm
      · rintro (⟨a, k', b, ids, e, h, hg, he, hval, hn⟩ | ⟨hg, hn⟩)
        · cases a with
          | nil =>
            injection h with h1 h2
            subst h1
            exact absurd ⟨ids, hval⟩ (hk e he)
          | cons x a =>
            injection h with h1 h2
            exact .inl ⟨a, k', b, ids, e, h2, hg, he, hval, fun k'' hm => hn k'' (List.mem_cons_of_mem _ hm)⟩
        · exact .inr ⟨hg, fun k'' hm => hn k'' (List.mem_cons_of_mem _ hm)⟩

/-- **C194 (use).**  Labels are propagated in groups if that is asked for, or if nothing is said and ids of the unlabeled samples were found.  Asked
for without ids it is refused.  The ids used have one entry for each sample. -/
theorem C194_use (torch : Bool) (nl nu : Nat) (use : Option Bool) (key : Option String) (m : MetaArg) (g : Groups)
    (h : fitGroups torch nl nu use key m = .ok g) :
    resolveIds torch nu keysU key m = .ok g.u ∧ resolveIds torch nl keysL none m = .ok g.l ∧
    (g.use = true ↔ use = some true ∨ (use = none ∧ g.u ≠ none)) ∧ (g.use = true → g.u ≠ none) ∧
    (∀ ids, g.u = some ids → ids.length = nu) ∧ (∀ ids, g.l = some ids → ids.length = nl) := by
  have hlen : ∀ {n : Nat} {keys : List String} {key : Option String} {ids : List Int},
      resolveIds torch n keys key m = .ok (some ids) → ids.length = n := by
    intro n keys key ids h
    cases m with
    | missing => cases h
    | notMapping => cases h
    | entries l =>
      cases key with
      | some k =>
        obtain ⟨e, ids', -, ⟨_, _, _, hl, -⟩, hg⟩ := (C194_named torch n keys k l _).1.mp h
        injection hg with hg
        rw [hg]
        exact hl
      | none =>
        rcases (C194_found torch n l keys _).mp h with ⟨_, _, _, ids', _, _, hg, _, ⟨_, _, _, hl, -⟩, _⟩ | ⟨hg, -⟩
        · injection hg with hg
          rw [hg]
          exact hl
        · cases hg
  unfold fitGroups at h
  obtain ⟨u, hu, h⟩ := ebind_ok.mp h
  obtain ⟨l, hl, h⟩ := ebind_ok.mp h
  dsimp only at h
  split at h
  · cases h
  · rename_i hc
    injection h with h
    subst h
    dsimp only
    refine ⟨hu, hl, ?_, fun hon hn => hc ⟨hon, hn⟩, fun ids hids => hlen (hids ▸ hu), fun ids hids => hlen (hids ▸ hl)⟩
    cases use with
    | none => cases u <;> simp
    | some b => cases b <;> simp

/-- Asked for without ids the fit is refused. -/
theorem C194_refused (torch : Bool) (nl nu : Nat) (key : Option String) (m : MetaArg)
    (h : ¬ ∃ ids, resolveIds torch nu keysU key m = .ok (some ids)) : ∀ g, fitGroups torch nl nu (some true) key m ≠ .ok g := by
  intro g hg
  obtain ⟨hu, -, -, hne, -, -⟩ := C194_use torch nl nu (some true) key m g hg
  have hon : g.use = true := (C194_use torch nl nu (some true) key m g hg).2.2.1.mpr (.inl rfl)
  cases hgu : g.u with
  | none => exact hne hon hgu
  | some ids => exact h ⟨ids, hgu ▸ hu⟩

/-- Violation: ids given under a known name but for too few samples are passed over without a word, and labels are not propagated; the same entry
given by name is refused. -/
theorem C194_ignored_violated :
    fitGroups false 2 3 none none (.entries [("group_u", .ids false true [4, 4])]) = .ok ⟨false, none, none⟩ ∧
    fitGroups false 2 3 none (some "group_u") (.entries [("group_u", .ids false true [4, 4])]) = .error .validation := by
  decide +kernel

example : fitGroups false 2 3 none none (.entries [("groups", .ids false true [1, 1, 2]), ("group_u", .other), ("l_groups", .ids false true [1, 3])]) =
    .ok ⟨true, some [1, 1, 2], some [1, 3]⟩ := by decide +kernel
example : fitGroups true 1 1 (some true) none (.entries [("groups", .ids false true [1])]) = .error .validation := by decide +kernel

end ModSSC.Inductive.Group
