import Verif.Sampling.ValidateModel
import Verif.Sampling.Model
import Mathlib.Data.List.Basic
import Mathlib.Data.List.Perm.Basic
import Mathlib.Data.List.Nodup

/-!
# C184 — what a validated split guarantees
-/

namespace ModSSC.Sampling.Validate
open ModSSC

namespace Spec

/-- An index array: distinct integers below `n`. -/
def IndexSet (n : Nat) (l : List Int) : Prop := l.Nodup ∧ ∀ i ∈ l, 0 ≤ i ∧ i < (n : Int)

/-- No common element. -/
def Apart (a b : List Int) : Prop := ∀ i ∈ a, i ∉ b

/-- The split the name refers to. -/
def Base (r : Result) (name : String) : String := (r.refs.lookup name).getD "train"

/-- An entry of `indices` is an index array of the split it refers to; an empty one needs no split. -/
def EntryOk (nTrain : Nat) (nTest : Option Nat) (r : Result) (name : String) (a : Arr) : Prop :=
  ∃ l, a = .ints l ∧ (l ≠ [] → (Base r name = "train" → IndexSet nTrain l) ∧
    (Base r name ≠ "train" → ∃ n, nTest = some n ∧ IndexSet n l))

/-- The array of the name, if there is one. -/
def Has (r : Result) (name : String) (l : List Int) : Prop := r.indices.lookup name = some (.ints l)

/-- A sound split without masks. -/
structure Inductive (nTrain : Nat) (nTest : Option Nat) (r : Result) (train val test labeled unlabeled : List Int) : Prop where
  entries : ∀ p ∈ r.indices, EntryOk nTrain nTest r p.1 p.2
  present : Has r "train" train ∧ Has r "val" val ∧ Has r "test" test ∧ Has r "train_labeled" labeled ∧
    Has r "train_unlabeled" unlabeled
  bases : Base r "train" = "train" ∧ Base r "val" = "train"
  apart : Apart train val ∧ (Base r "test" = "train" → Apart train test ∧ Apart val test)
  cover : Apart labeled unlabeled ∧ (labeled ++ unlabeled).Perm train

/-- Position `i` is on. -/
def On (m : List Bool) (i : Nat) : Prop := m[i]? = some true

/-- A sound split of `n` nodes. -/
structure Graph (n : Nat) (r : Result) (train val test labeled unlabeled : List Bool) : Prop where
  keys : ∀ k, k ∈ r.masks.map (·.1) ↔ k ∈ ["train", "val", "test", "labeled", "unlabeled"]
  types : ∀ p ∈ r.masks, ∃ l, p.2 = .bools l ∧ l.length = n
  present : r.masks.lookup "train" = some (.bools train) ∧ r.masks.lookup "val" = some (.bools val) ∧
    r.masks.lookup "test" = some (.bools test) ∧ r.masks.lookup "labeled" = some (.bools labeled) ∧
    r.masks.lookup "unlabeled" = some (.bools unlabeled)
  cover : ∀ i, (On train i ↔ On labeled i ∨ On unlabeled i) ∧ ¬ (On labeled i ∧ On unlabeled i)
  apart : ∀ i, ¬ (On train i ∧ On val i) ∧ ¬ (On train i ∧ On test i) ∧ ¬ (On val i ∧ On test i)

end Spec

open Spec

theorem sort_eq {a b : List Int} : npSortInt a = npSortInt b ↔ a.Perm b := by
  constructor
  · intro h
    exact (npSortInt_perm a).symm.trans (h ▸ npSortInt_perm b)
  · intro h
    exact ((npSortInt_perm a).trans (h.trans (npSortInt_perm b).symm)).eq_of_pairwise
      (fun x y _ _ h1 h2 => le_antisymm h1 h2) (npSortInt_sorted a) (npSortInt_sorted b)

theorem meets_false {a b : List Int} : meets a b = false ↔ Apart a b := by
  unfold meets Apart
  simp only [List.any_eq_false, decide_eq_true_eq]

theorem checkIdx_iff {nTrain : Nat} {nTest : Option Nat} {r : Result} {name : String} {a : Arr} :
    checkIdx nTrain nTest (r.ref name) a = .ok () ↔ EntryOk nTrain nTest r name a := by
  have hb : r.ref name = Base r name := rfl
  rw [hb]
  cases a with
  | bools l =>
    simp only [checkIdx, reduceCtorEq, false_iff]
    rintro ⟨l', h, -⟩
    cases h
  | other =>
    simp only [checkIdx, reduceCtorEq, false_iff]
    rintro ⟨l', h, -⟩
    cases h
  | ints l =>
    have hE : EntryOk nTrain nTest r name (.ints l) ↔ (l ≠ [] → (Base r name = "train" → IndexSet nTrain l) ∧
        (Base r name ≠ "train" → ∃ n, nTest = some n ∧ IndexSet n l)) := by
      constructor
      · rintro ⟨l', h, h'⟩
        cases h
        exact h'
      · exact fun h => ⟨l, rfl, h⟩
    rw [hE]
    unfold checkIdx
    dsimp only
    by_cases h0 : l = []
    · rw [if_pos h0]; simp [h0]
    rw [if_neg h0]
    have hset : ∀ n : Nat, (if l.any (fun i => decide (i < 0) || decide ((n : Int) ≤ i)) then Except.error PyErr.validation
        else if ¬ l.Nodup then Except.error PyErr.validation else Except.ok ()) = Except.ok () ↔ IndexSet n l := by
      intro n
      unfold IndexSet
      by_cases ha : l.any (fun i => decide (i < 0) || decide ((n : Int) ≤ i)) = true
      · rw [if_pos ha]
        simp only [reduceCtorEq, false_iff]
        rintro ⟨-, h⟩
        obtain ⟨i, hi, hi'⟩ := List.any_eq_true.mp ha
        rw [Bool.or_eq_true, decide_eq_true_eq, decide_eq_true_eq] at hi'
        have := h i hi
        omega
      · rw [if_neg ha]
        have hr : ∀ i ∈ l, 0 ≤ i ∧ i < (n : Int) := by
          intro i hi
          by_contra hc
          refine ha (List.any_eq_true.mpr ⟨i, hi, ?_⟩)
          rw [Bool.or_eq_true, decide_eq_true_eq, decide_eq_true_eq]
          omega
        by_cases hn : l.Nodup
        · rw [if_neg (not_not.mpr hn)]; exact ⟨fun _ => ⟨hn, hr⟩, fun _ => rfl⟩
        · rw [if_pos hn]
          simp [hn]
    by_cases hbase : Base r name = "train"
    · simp only [hbase, if_true, ne_eq, not_true_eq_false, false_implies, and_true, true_implies]
      rw [hset]
      simp [h0]
    · simp only [hbase, if_false, ne_eq, not_false_eq_true, true_implies, false_implies, true_and]
      cases nTest with
      | none => simp [h0]
      | some n =>
        simp only [Option.some.injEq, exists_eq_left']
        rw [hset]
        simp [h0]

theorem checkIdx_error {nTrain : Nat} {nTest : Option Nat} {b : String} {a : Arr} {e : PyErr}
    (h : checkIdx nTrain nTest b a = .error e) : e = .validation := by
  cases a with
  | bools l => cases h; rfl
  | other => cases h; rfl
  | ints l =>
    unfold checkIdx at h
    dsimp only at h
    split at h
    · cases h
    · split at h
      · cases h; rfl
      · split at h
        · cases h; rfl
        · split at h <;> cases h
          rfl

theorem checkAll_iff {nTrain : Nat} {nTest : Option Nat} {r : Result} : ∀ l : List (String × Arr),
    (checkAll nTrain nTest r l = .ok () ↔ ∀ p ∈ l, EntryOk nTrain nTest r p.1 p.2) ∧
    ∀ e, checkAll nTrain nTest r l = .error e → e = .validation
  | [] => by simp [checkAll]
  | (name, a) :: rest => by
    obtain ⟨h1, h2⟩ := checkAll_iff (nTrain := nTrain) (nTest := nTest) (r := r) rest
    unfold checkAll
    cases hc : checkIdx nTrain nTest (r.ref name) a with
    | error e =>
      refine ⟨?_, fun e' h => by cases h; exact checkIdx_error hc⟩
      simp only [reduceCtorEq, false_iff]
      intro h
      have := checkIdx_iff.mpr (h (name, a) (by simp))
      rw [hc] at this
      cases this
    | ok u =>
      refine ⟨?_, h2⟩
      dsimp only
      rw [h1]
      simp only [List.mem_cons, forall_eq_or_imp]
      exact ⟨fun h => ⟨checkIdx_iff.mp hc, h⟩, fun h => h.2⟩

theorem get_some {r : Result} {name : String} {l : List Int} : r.get name = some l ↔ Has r name l := by
  unfold Result.get Has
  cases r.indices.lookup name with
  | none => simp
  | some a => cases a <;> simp

/-- **C184 (index arrays).**  A result without masks is accepted exactly if it is a sound split; else the error is a validation error. -/
theorem C184_inductive (nTrain : Nat) (nTest nNodes : Option Nat) (r : Result) (hm : r.masks = []) :
    (validate nTrain nTest nNodes r = .ok () ↔ ∃ train val test labeled unlabeled,
      Inductive nTrain nTest r train val test labeled unlabeled) ∧
    ∀ e, validate nTrain nTest nNodes r = .error e → e = .validation := by
  have hg : r.isGraph = false := by unfold Result.isGraph; rw [hm]; rfl
  unfold validate
  rw [hg]
  simp only [Bool.false_eq_true, if_false]
  unfold validateInductive
  obtain ⟨a1, a2⟩ := checkAll_iff (nTrain := nTrain) (nTest := nTest) (r := r) r.indices
  cases hc : checkAll nTrain nTest r r.indices with
  | error e =>
    refine ⟨?_, fun e' h => by cases h; exact a2 e hc⟩
    simp only [reduceCtorEq, false_iff]
    rintro ⟨_, _, _, _, _, h⟩
    have := a1.mpr h.entries
    rw [hc] at this
    cases this
  | ok u =>
    have hent := a1.mp hc
    dsimp only
    have hno : ∀ {P : Prop}, (P → False) → ((Except.error PyErr.validation = Except.ok ()) ↔ P) ∧
        ∀ e, (Except.error PyErr.validation : Except PyErr Unit) = .error e → e = .validation := by
      intro P hP
      exact ⟨⟨fun h => (by cases h), fun h => (hP h).elim⟩, fun e h => (by cases h; rfl)⟩
    have huniq : ∀ {name : String} {l l' : List Int}, r.get name = some l → Has r name l' → l' = l := by
      intro name l l' h h'
      rw [← get_some, h] at h'
      cases h'
      rfl
    cases ht : r.get "train" with
    | none => exact hno (by rintro ⟨_, _, _, _, _, h⟩; have := get_some.mpr h.present.1; rw [ht] at this; cases this)
    | some train =>
    cases hv : r.get "val" with
    | none => exact hno (by rintro ⟨_, _, _, _, _, h⟩; have := get_some.mpr h.present.2.1; rw [hv] at this; cases this)
    | some val =>
    cases hte : r.get "test" with
    | none => exact hno (by rintro ⟨_, _, _, _, _, h⟩; have := get_some.mpr h.present.2.2.1; rw [hte] at this; cases this)
    | some test =>
    dsimp only
    by_cases h1 : r.ref "train" ≠ "train" ∨ r.ref "val" ≠ "train"
    · rw [if_pos h1]
      refine hno ?_
      rintro ⟨_, _, _, _, _, h⟩
      rcases h1 with h1 | h1
      · exact h1 h.bases.1
      · exact h1 h.bases.2
    rw [if_neg h1]
    rw [not_or, not_not, not_not] at h1
    by_cases h2 : meets train val = true
    · rw [if_pos h2]
      refine hno ?_
      rintro ⟨_, _, _, _, _, h⟩
      have := huniq ht h.present.1
      have := huniq hv h.present.2.1
      subst_vars
      rw [meets_false.mpr h.apart.1] at h2
      cases h2
    rw [if_neg h2]
    rw [Bool.not_eq_true, meets_false] at h2
    by_cases h3 : r.ref "test" = "train" ∧ (meets train test = true ∨ meets val test = true)
    · rw [if_pos h3]
      refine hno ?_
      rintro ⟨_, _, _, _, _, h⟩
      have := huniq ht h.present.1
      have := huniq hv h.present.2.1
      have := huniq hte h.present.2.2.1
      subst_vars
      obtain ⟨q1, q2⟩ := h.apart.2 h3.1
      rcases h3.2 with h3 | h3
      · rw [meets_false.mpr q1] at h3; cases h3
      · rw [meets_false.mpr q2] at h3; cases h3
    rw [if_neg h3]
    cases hl : r.get "train_labeled" with
    | none => exact hno (by rintro ⟨_, _, _, _, _, h⟩; have := get_some.mpr h.present.2.2.2.1; rw [hl] at this; cases this)
    | some labeled =>
    cases hu : r.get "train_unlabeled" with
    | none => exact hno (by rintro ⟨_, _, _, _, _, h⟩; have := get_some.mpr h.present.2.2.2.2; rw [hu] at this; cases this)
    | some unlabeled =>
    dsimp only
    by_cases h4 : meets labeled unlabeled = true
    · rw [if_pos h4]
      refine hno ?_
      rintro ⟨_, _, _, _, _, h⟩
      have := huniq hl h.present.2.2.2.1
      have := huniq hu h.present.2.2.2.2
      subst_vars
      rw [meets_false.mpr h.cover.1] at h4
      cases h4
    rw [if_neg h4]
    rw [Bool.not_eq_true, meets_false] at h4
    by_cases h5 : npSortInt (labeled ++ unlabeled) ≠ npSortInt train
    · rw [if_pos h5]
      refine hno ?_
      rintro ⟨_, _, _, _, _, h⟩
      have := huniq ht h.present.1
      have := huniq hl h.present.2.2.2.1
      have := huniq hu h.present.2.2.2.2
      subst_vars
      exact h5 (sort_eq.mpr h.cover.2)
    rw [if_neg h5]
    rw [not_not, sort_eq] at h5
    refine ⟨⟨fun _ => ⟨train, val, test, labeled, unlabeled, hent, ⟨get_some.mp ht, get_some.mp hv, get_some.mp hte, get_some.mp hl,
      get_some.mp hu⟩, h1, ⟨h2, ?_⟩, h4, h5⟩, fun _ => rfl⟩, fun e h => by cases h⟩
    intro hb
    rw [not_and, not_or, Bool.not_eq_true, Bool.not_eq_true, meets_false, meets_false] at h3
    exact h3 hb

/-! ### Masks -/

theorem both_iff {a b : List Bool} : both a b = true ↔ ∃ i, On a i ∧ On b i := by
  unfold both On
  rw [List.any_eq_true]
  constructor
  · rintro ⟨x, hx, hx'⟩
    obtain ⟨i, hi, rfl⟩ := List.mem_iff_getElem.mp hx
    simp only [id_eq, List.getElem_zipWith, Bool.and_eq_true] at hx'
    rw [List.length_zipWith] at hi
    exact ⟨i, by rw [List.getElem?_eq_getElem (by omega), hx'.1], by rw [List.getElem?_eq_getElem (by omega), hx'.2]⟩
  · rintro ⟨i, h1, h2⟩
    obtain ⟨g1, e1⟩ := List.getElem?_eq_some_iff.mp h1
    obtain ⟨g2, e2⟩ := List.getElem?_eq_some_iff.mp h2
    have hi : i < (List.zipWith (· && ·) a b).length := by rw [List.length_zipWith]; omega
    exact ⟨_, List.getElem_mem hi, by simp [e1, e2]⟩

theorem on_not {a : List Bool} {i : Nat} : On (a.map (!·)) i ↔ i < a.length ∧ ¬ On a i := by
  unfold On
  rw [List.getElem?_map]
  by_cases h : i < a.length
  · rw [List.getElem?_eq_getElem h]; simp [h]
  · rw [List.getElem?_eq_none (by omega)]; simp [h]

theorem minus_iff {n : Nat} {t l u : List Bool} (ht : t.length = n) (hl : l.length = n) (hu : u.length = n) :
    u = List.zipWith (fun t l => t && !l) t l ↔ ∀ i, On u i ↔ On t i ∧ ¬ On l i := by
  constructor
  · rintro rfl i
    unfold On
    rw [List.getElem?_zipWith]
    by_cases h : i < n
    · rw [List.getElem?_eq_getElem (by omega), List.getElem?_eq_getElem (by omega)]
      simp
    · rw [List.getElem?_eq_none (by omega), List.getElem?_eq_none (by omega)]
      simp
  · intro h
    apply List.ext_getElem
    · rw [List.length_zipWith]; omega
    · intro i h1 h2
      have := h i
      unfold On at this
      rw [List.getElem?_eq_getElem (by omega), List.getElem?_eq_getElem (by omega), List.getElem?_eq_getElem (by omega)] at this
      simp only [Option.some.injEq] at this
      rw [List.getElem_zipWith]
      cases hu : u[i] <;> cases ht : t[i] <;> cases hl : l[i] <;> simp_all

theorem lookup_isSome {α : Type} {l : List (String × α)} {k : String} (h : k ∈ l.map (·.1)) : ∃ a, l.lookup k = some a ∧ (k, a) ∈ l := by
  induction l with
  | nil => simp at h
  | cons p l ih =>
    obtain ⟨k', a⟩ := p
    by_cases hk : k = k'
    · subst hk
      exact ⟨a, by simp, by simp⟩
    · have : k ∈ l.map (·.1) := by simpa [hk] using h
      obtain ⟨b, hb, hb'⟩ := ih this
      exact ⟨b, by rw [List.lookup_cons, beq_false_of_ne hk]; exact hb, by simp [hb']⟩

/-- **C184 (masks).**  A result with masks is accepted exactly if it is a sound split of the nodes; else the error is a validation
error. -/
theorem C184_graph (nTrain : Nat) (nTest nNodes : Option Nat) (r : Result) (hm : r.masks ≠ []) :
    (validate nTrain nTest nNodes r = .ok () ↔ ∃ n train val test labeled unlabeled,
      nNodes = some n ∧ Graph n r train val test labeled unlabeled) ∧
    ∀ e, validate nTrain nTest nNodes r = .error e → e = .validation := by
  have hg : r.isGraph = true := by
    unfold Result.isGraph
    cases hmm : r.masks with
    | nil => exact absurd hmm hm
    | cons a b => rfl
  unfold validate
  rw [hg]
  simp only [if_true]
  unfold validateGraph
  have hno : ∀ {P : Prop}, (P → False) → ((Except.error PyErr.validation = Except.ok ()) ↔ P) ∧
      ∀ e, (Except.error PyErr.validation : Except PyErr Unit) = .error e → e = .validation := by
    intro P hP
    exact ⟨⟨fun h => (by cases h), fun h => (hP h).elim⟩, fun e h => (by cases h; rfl)⟩
  cases nNodes with
  | none => exact hno (by rintro ⟨_, _, _, _, _, _, h, -⟩; cases h)
  | some n =>
  dsimp only
  have hkeys : (r.masks.all (fun p => decide (p.1 ∈ required)) = true ∧
      required.all (fun k => decide (k ∈ r.masks.map (·.1))) = true) ↔
      ∀ k, k ∈ r.masks.map (·.1) ↔ k ∈ ["train", "val", "test", "labeled", "unlabeled"] := by
    rw [List.all_eq_true, List.all_eq_true]
    simp only [decide_eq_true_eq]
    constructor
    · rintro ⟨h1, h2⟩ k
      constructor
      · intro hk
        obtain ⟨p, hp, rfl⟩ := List.mem_map.mp hk
        exact h1 p hp
      · exact h2 k
    · intro h
      exact ⟨fun p hp => (h p.1).mp (List.mem_map_of_mem hp), fun k hk => (h k).mpr hk⟩
  by_cases h1 : ¬ (r.masks.all (fun p => decide (p.1 ∈ required)) = true ∧
      required.all (fun k => decide (k ∈ r.masks.map (·.1))) = true)
  · rw [if_pos h1]
    refine hno ?_
    rintro ⟨_, _, _, _, _, _, -, h⟩
    exact h1 (hkeys.mpr h.keys)
  rw [if_neg h1]
  rw [not_not] at h1
  have hk := hkeys.mp h1
  have htypes : r.masks.all (fun p => maskOk n p.2) = true ↔ ∀ p ∈ r.masks, ∃ l, p.2 = .bools l ∧ l.length = n := by
    rw [List.all_eq_true]
    refine forall_congr' fun p => forall_congr' fun _ => ?_
    cases p.2 <;> simp [maskOk]
  by_cases h2 : ¬ r.masks.all (fun p => maskOk n p.2) = true
  · rw [if_pos h2]
    refine hno ?_
    rintro ⟨_, _, _, _, _, _, hn, h⟩
    cases hn
    exact h2 (htypes.mpr h.types)
  rw [if_neg h2]
  rw [not_not] at h2
  have hty := htypes.mp h2
  have hmask : ∀ k ∈ ["train", "val", "test", "labeled", "unlabeled"],
      r.masks.lookup k = some (.bools (r.mask k)) ∧ (r.mask k).length = n := by
    intro k hk'
    obtain ⟨a, ha, ha'⟩ := lookup_isSome ((hk k).mpr hk')
    obtain ⟨l, hl, hl'⟩ := hty _ ha'
    have hl : a = .bools l := hl
    subst hl
    unfold Result.mask
    rw [ha]
    exact ⟨rfl, hl'⟩
  obtain ⟨t1, t2⟩ := hmask "train" (by simp)
  obtain ⟨v1, v2⟩ := hmask "val" (by simp)
  obtain ⟨e1, e2⟩ := hmask "test" (by simp)
  obtain ⟨l1, l2⟩ := hmask "labeled" (by simp)
  obtain ⟨u1, u2⟩ := hmask "unlabeled" (by simp)
  have hsame : ∀ {train val test labeled unlabeled}, Graph n r train val test labeled unlabeled →
      train = r.mask "train" ∧ val = r.mask "val" ∧ test = r.mask "test" ∧ labeled = r.mask "labeled" ∧
        unlabeled = r.mask "unlabeled" := by
    intro a b c d e h
    obtain ⟨p1, p2, p3, p4, p5⟩ := h.present
    rw [t1] at p1; rw [v1] at p2; rw [e1] at p3; rw [l1] at p4; rw [u1] at p5
    cases p1; cases p2; cases p3; cases p4; cases p5
    exact ⟨rfl, rfl, rfl, rfl, rfl⟩
  by_cases h3 : both (r.mask "labeled") ((r.mask "train").map (!·)) = true
  · rw [if_pos h3]
    refine hno ?_
    rintro ⟨_, _, _, _, _, _, hn, h⟩
    cases hn
    obtain ⟨rfl, rfl, rfl, rfl, rfl⟩ := hsame h
    obtain ⟨i, hi, hi'⟩ := both_iff.mp h3
    exact (on_not.mp hi').2 ((h.cover i).1.mpr (.inl hi))
  rw [if_neg h3]
  have hsub : ∀ i, On (r.mask "labeled") i → On (r.mask "train") i := by
    intro i hi
    by_contra hc
    refine h3 (both_iff.mpr ⟨i, hi, on_not.mpr ⟨?_, hc⟩⟩)
    have := (List.getElem?_eq_some_iff.mp hi).1
    omega
  by_cases h4 : r.mask "unlabeled" ≠ List.zipWith (fun t l => t && !l) (r.mask "train") (r.mask "labeled")
  · rw [if_pos h4]
    refine hno ?_
    rintro ⟨_, _, _, _, _, _, hn, h⟩
    cases hn
    obtain ⟨rfl, rfl, rfl, rfl, rfl⟩ := hsame h
    refine h4 ((minus_iff t2 l2 u2).mpr fun i => ?_)
    have := h.cover i
    tauto
  rw [if_neg h4]
  rw [not_not, minus_iff t2 l2 u2] at h4
  by_cases h5 : both (r.mask "train") (r.mask "val") = true ∨ both (r.mask "train") (r.mask "test") = true ∨
      both (r.mask "val") (r.mask "test") = true
  · rw [if_pos h5]
    refine hno ?_
    rintro ⟨_, _, _, _, _, _, hn, h⟩
    cases hn
    obtain ⟨rfl, rfl, rfl, rfl, rfl⟩ := hsame h
    rcases h5 with h5 | h5 | h5 <;> obtain ⟨i, hi, hi'⟩ := both_iff.mp h5 <;> have := h.apart i <;> tauto
  rw [if_neg h5]
  refine ⟨⟨fun _ => ⟨n, _, _, _, _, _, rfl, hk, hty, ⟨t1, v1, e1, l1, u1⟩, ?_, ?_⟩, fun _ => rfl⟩, fun e h => by cases h⟩
  · intro i
    have a1 := hsub i
    have a2 := h4 i
    tauto
  · intro i
    rw [both_iff, both_iff, both_iff] at h5
    refine ⟨fun h => h5 (.inl ⟨i, h⟩), fun h => h5 (.inr (.inl ⟨i, h⟩)), fun h => h5 (.inr (.inr ⟨i, h⟩))⟩

/-! ### What a user gets -/

theorem mem_positions {m : List Bool} {i : Int} : i ∈ positions m ↔ ∃ j : Nat, i = j ∧ On m j := by
  unfold positions On
  simp only [List.mem_map, List.mem_filter, List.mem_range, beq_iff_eq, Int.ofNat_eq_natCast]
  constructor
  · rintro ⟨j, ⟨-, h⟩, rfl⟩
    exact ⟨j, rfl, h⟩
  · rintro ⟨j, rfl, h⟩
    exact ⟨j, ⟨(List.getElem?_eq_some_iff.mp h).1, h⟩, rfl⟩

theorem nodup_positions (m : List Bool) : (positions m).Nodup :=
  (List.nodup_range.filter _).map fun a b h => (by simpa using h)

/-- **C184 (accessors).**  Of every accepted result, of either kind, the labeled and the unlabeled indices are the training indices,
each once; training and validation have nothing in common; and the test indices neither, if they refer to the same split.  With masks
the indices are the nodes whose mask is set. -/
theorem C184_accessors (nTrain : Nat) (nTest nNodes : Option Nat) (r : Result) (h : validate nTrain nTest nNodes r = .ok ()) :
    let train := r.idx "train" "train"
    let val := r.idx "val" "val"
    let test := r.idx "test" "test"
    let labeled := r.idx "labeled" "train_labeled"
    let unlabeled := r.idx "unlabeled" "train_unlabeled"
    train.Nodup ∧ (labeled ++ unlabeled).Perm train ∧ Apart labeled unlabeled ∧ Apart train val ∧
      (r.masks ≠ [] ∨ Base r "test" = "train" → Apart train test ∧ Apart val test) ∧
      (r.masks ≠ [] → ∀ (i : Nat) (k : String) (m : List Bool), k ∈ ["train", "val", "test", "labeled", "unlabeled"] →
        r.masks.lookup k = some (.bools m) → ((i : Int) ∈ r.idx k (if k = "labeled" ∨ k = "unlabeled" then "train_" ++ k else k) ↔
          On m i)) := by
  intro train val test labeled unlabeled
  by_cases hm : r.masks = []
  · have hg : r.isGraph = false := by unfold Result.isGraph; rw [hm]; rfl
    obtain ⟨t, v, e, l, u, hI⟩ := (C184_inductive nTrain nTest nNodes r hm).1.mp h
    obtain ⟨p1, p2, p3, p4, p5⟩ := hI.present
    have hidx : ∀ a {b : String} {x : List Int}, Has r b x → r.idx a b = x := by
      intro a b x hx
      unfold Result.idx
      rw [hg, get_some.mpr hx]
      rfl
    have e1 : train = t := hidx _ p1
    have e2 : val = v := hidx _ p2
    have e3 : test = e := hidx _ p3
    have e4 : labeled = l := hidx _ p4
    have e5 : unlabeled = u := hidx _ p5
    rw [e1, e2, e3, e4, e5]
    refine ⟨?_, hI.cover.2, hI.cover.1, hI.apart.1, ?_, fun hn => absurd hm hn⟩
    · by_cases h0 : t = []
      · rw [h0]; exact List.nodup_nil
      · have hmem : ("train", Arr.ints t) ∈ r.indices := by
          have p1' : r.indices.lookup "train" = some (.ints t) := p1
          obtain ⟨a, b, hab, -⟩ := List.lookup_eq_some_iff.mp p1'
          rw [hab]; simp
        obtain ⟨l', hl', hset⟩ := hI.entries _ hmem
        cases hl'
        exact ((hset h0).1 hI.bases.1).1
    · rintro (hn | hb)
      · exact absurd hm hn
      · exact hI.apart.2 hb
  · have hg : r.isGraph = true := by
      unfold Result.isGraph
      cases hmm : r.masks with
      | nil => exact absurd hmm hm
      | cons a b => rfl
    obtain ⟨n, t, v, e, l, u, -, hG⟩ := (C184_graph nTrain nTest nNodes r hm).1.mp h
    obtain ⟨p1, p2, p3, p4, p5⟩ := hG.present
    have hidx : ∀ {a b : String} {x : List Bool}, r.masks.lookup a = some (.bools x) → r.idx a b = positions x := by
      intro a b x hx
      unfold Result.idx Result.mask
      rw [hg, hx]
      rfl
    have e1 : train = positions t := hidx p1
    have e2 : val = positions v := hidx p2
    have e3 : test = positions e := hidx p3
    have e4 : labeled = positions l := hidx p4
    have e5 : unlabeled = positions u := hidx p5
    rw [e1, e2, e3, e4, e5]
    have hap : ∀ {a b : List Bool}, (∀ i, ¬ (On a i ∧ On b i)) → Apart (positions a) (positions b) := by
      intro a b hab i hi hi'
      obtain ⟨j, rfl, hj⟩ := mem_positions.mp hi
      obtain ⟨j', hjj, hj'⟩ := mem_positions.mp hi'
      have : j = j' := by exact_mod_cast hjj
      subst this
      exact hab j ⟨hj, hj'⟩
    have hlu : Apart (positions l) (positions u) := hap fun i => (hG.cover i).2
    refine ⟨nodup_positions t, ?_, hlu, hap fun i => (hG.apart i).1,
      fun _ => ⟨hap fun i => (hG.apart i).2.1, hap fun i => (hG.apart i).2.2⟩, ?_⟩
    · refine (List.perm_ext_iff_of_nodup ?_ (nodup_positions t)).mpr fun i => ?_
      · exact List.nodup_append.mpr ⟨nodup_positions l, nodup_positions u, fun a ha b hb hab => hlu a ha (hab ▸ hb)⟩
      · rw [List.mem_append, mem_positions, mem_positions, mem_positions, ← exists_or]
        refine exists_congr fun j => ?_
        have := (hG.cover j).1
        tauto
    · intro _ i k m _ hkm
      rw [hidx hkm, mem_positions]
      constructor
      · rintro ⟨j, hj, hon⟩
        have : i = j := by exact_mod_cast hj
        subst this
        exact hon
      · exact fun hon => ⟨i, rfl, hon⟩

/-- A split of four training and two test samples. -/
def demo : Result :=
  ⟨[("train", .ints [0, 1, 2]), ("val", .ints [3]), ("test", .ints [0, 1]), ("train_labeled", .ints [1]), ("train_unlabeled", .ints [0, 2])],
    [("test", "test")], []⟩

example : validate 4 (some 2) none demo = .ok () := by decide +kernel
example : ∃ t v e l u, Inductive 4 (some 2) demo t v e l u := (C184_inductive 4 (some 2) none demo rfl).1.mp (by decide +kernel)

/-- A split of four nodes. -/
def demoGraph : Result :=
  ⟨[], [], [("train", .bools [true, true, false, false]), ("val", .bools [false, false, true, false]),
    ("test", .bools [false, false, false, true]), ("labeled", .bools [true, false, false, false]),
    ("unlabeled", .bools [false, true, false, false])]⟩

example : validate 0 none (some 4) demoGraph = .ok () := by decide +kernel
example : demoGraph.idx "unlabeled" "train_unlabeled" = [1] := by decide +kernel

/-- **C184 violated (which split).**  A result is accepted although its labeled samples refer to the test split: labels of test samples
are used in training. -/
theorem C184_refs_violated : ¬ ∀ (nTrain nTest : Nat) (r : Result) (l : List Int), validate nTrain (some nTest) none r = .ok () →
    Has r "train_labeled" l → l ≠ [] → Base r "train_labeled" = "train" := by
  intro h
  have := h 4 2 ⟨demo.indices, [("test", "test"), ("train_labeled", "test")], []⟩ [1] (by decide +kernel) rfl (by simp)
  revert this
  decide +kernel

/-- **C184 violated (masks hide indices).**  With masks, index arrays are not looked at: a result is accepted although its index arrays
leak. -/
theorem C184_both_violated : ¬ ∀ (n : Nat) (r : Result) (train val : List Int), validate n none (some n) r = .ok () →
    Has r "train" train → Has r "val" val → Apart train val := by
  intro h
  have := h 4 ⟨[("train", .ints [0]), ("val", .ints [0])], [], demoGraph.masks⟩ [0] [0] (by decide +kernel) rfl rfl
  exact this 0 (by simp) (by simp)

/-- **C184 (which split), what holds.**  If the labeled and unlabeled arrays of an accepted result without masks refer to the training
split, no sample is in two of labeled, unlabeled, validation and test, whichever split the test indices refer to. -/
theorem C184_leakfree_partial (nTrain : Nat) (nTest nNodes : Option Nat) (r : Result) (hm : r.masks = [])
    (h : validate nTrain nTest nNodes r = .ok ()) (hl : Base r "train_labeled" = "train") (hu : Base r "train_unlabeled" = "train") :
    ∀ (a b : String), a ∈ ["train_labeled", "train_unlabeled", "val", "test"] → b ∈ ["train_labeled", "train_unlabeled", "val", "test"] →
      a ≠ b → ∀ la lb i, Has r a la → Has r b lb → i ∈ la → i ∈ lb → (Base r a = "train" ↔ Base r b = "train") → False := by
  obtain ⟨t, v, e, l, u, hI⟩ := (C184_inductive nTrain nTest nNodes r hm).1.mp h
  obtain ⟨p1, p2, p3, p4, p5⟩ := hI.present
  have hlt : ∀ i ∈ l, i ∈ t := fun i hi => hI.cover.2.subset (List.mem_append_left _ hi)
  have hut : ∀ i ∈ u, i ∈ t := fun i hi => hI.cover.2.subset (List.mem_append_right _ hi)
  have hsame : ∀ {k : String} {x y : List Int}, Has r k x → Has r k y → x = y := by
    intro k x y hx hy
    unfold Has at hx hy
    rw [hx] at hy
    cases hy
    rfl
  intro a b ha hb hab la lb i hla hlb hia hib hbase
  have key : ∀ (a b : String), (a, b) ∈ [("train_labeled", "train_unlabeled"), ("train_labeled", "val"), ("train_labeled", "test"),
      ("train_unlabeled", "val"), ("train_unlabeled", "test"), ("val", "test")] → ∀ la lb, Has r a la → Has r b lb → i ∈ la → i ∈ lb →
      (Base r a = "train" ↔ Base r b = "train") → False := by
    intro a b hp la lb hla hlb hia hib hbase
    simp only [List.mem_cons, Prod.mk.injEq, List.not_mem_nil, or_false] at hp
    rcases hp with ⟨rfl, rfl⟩ | ⟨rfl, rfl⟩ | ⟨rfl, rfl⟩ | ⟨rfl, rfl⟩ | ⟨rfl, rfl⟩ | ⟨rfl, rfl⟩
    · rw [hsame hla p4] at hia; rw [hsame hlb p5] at hib
      exact hI.cover.1 i hia hib
    · rw [hsame hla p4] at hia; rw [hsame hlb p2] at hib
      exact hI.apart.1 i (hlt i hia) hib
    · rw [hsame hla p4] at hia; rw [hsame hlb p3] at hib
      exact (hI.apart.2 (hbase.mp hl)).1 i (hlt i hia) hib
    · rw [hsame hla p5] at hia; rw [hsame hlb p2] at hib
      exact hI.apart.1 i (hut i hia) hib
    · rw [hsame hla p5] at hia; rw [hsame hlb p3] at hib
      exact (hI.apart.2 (hbase.mp hu)).1 i (hut i hia) hib
    · rw [hsame hla p2] at hia; rw [hsame hlb p3] at hib
      exact (hI.apart.2 (hbase.mp hI.bases.2)).2 i hia hib
  simp only [List.mem_cons, List.not_mem_nil, or_false] at ha hb
  rcases ha with rfl | rfl | rfl | rfl <;> rcases hb with rfl | rfl | rfl | rfl <;>
    first
    | exact absurd rfl hab
    | exact key _ _ (by decide) _ _ hla hlb hia hib hbase
    | exact key _ _ (by decide) _ _ hlb hla hib hia hbase.symm

/-! ### The check at the end of sampling -/

/-- The result the sampler makes: the test indices refer to the test split if the data has one that is used. -/
def ofSplit (s : IndResult) : Result :=
  ⟨[("train", .ints (s.train.map Int.ofNat)), ("val", .ints (s.val.map Int.ofNat)), ("test", .ints (s.test.map Int.ofNat)),
    ("train_labeled", .ints (s.labeled.map Int.ofNat)), ("train_unlabeled", .ints (s.unlabeled.map Int.ofNat))],
    [("train", "train"), ("val", "train"), ("test", if s.testRef = .train then "train" else "test"), ("train_labeled", "train"),
      ("train_unlabeled", "train")], []⟩

theorem ofNat_inj : Function.Injective Int.ofNat := fun a b h => by simpa using h

theorem nodup_cast {l : List Nat} : (l.map Int.ofNat).Nodup ↔ l.Nodup := List.nodup_map_iff ofNat_inj

theorem indexSet_cast {n : Nat} {l : List Nat} : IndexSet n (l.map Int.ofNat) ↔ l.Nodup ∧ ∀ i ∈ l, i < n := by
  unfold IndexSet
  rw [nodup_cast]
  refine and_congr_right fun _ => ?_
  simp only [List.mem_map, Int.ofNat_eq_natCast, forall_exists_index, and_imp, forall_apply_eq_imp_iff₂]
  refine forall_congr' fun i => forall_congr' fun _ => ?_
  omega

theorem apart_cast {a b : List Nat} : Apart (a.map Int.ofNat) (b.map Int.ofNat) ↔ ∀ i ∈ a, i ∉ b := by
  unfold Apart
  simp only [List.mem_map, Int.ofNat_eq_natCast, forall_exists_index, and_imp, forall_apply_eq_imp_iff₂, Nat.cast_inj, not_exists, not_and]
  refine forall_congr' fun i => forall_congr' fun _ => ?_
  constructor
  · intro h hb
    exact h i hb rfl
  · rintro h j hj rfl
    exact h hj

theorem natCheck_iff {m : Option Nat} {l : List Nat} : Sampling.checkIdx m l = .ok () ↔
    (l ≠ [] → ∃ n, m = some n ∧ l.Nodup ∧ ∀ i ∈ l, i < n) := by
  unfold Sampling.checkIdx
  by_cases h0 : l = []
  · rw [if_pos h0]; simp [h0]
  rw [if_neg h0]
  cases m with
  | none => simp [h0]
  | some n =>
    dsimp only
    simp only [Option.some.injEq, exists_eq_left', ne_eq, h0, not_false_eq_true, true_implies]
    by_cases ha : l.any (fun i => decide (n ≤ i)) = true
    · rw [if_pos ha]
      simp only [reduceCtorEq, false_iff]
      rintro ⟨-, h⟩
      obtain ⟨i, hi, hi'⟩ := List.any_eq_true.mp ha
      have := h i hi
      rw [decide_eq_true_eq] at hi'
      omega
    · rw [if_neg ha]
      have hr : ∀ i ∈ l, i < n := by
        intro i hi
        by_contra hc
        exact ha (List.any_eq_true.mpr ⟨i, hi, by rw [decide_eq_true_eq]; omega⟩)
      by_cases hn : l.Nodup
      · rw [if_neg (not_not.mpr hn)]; exact ⟨fun _ => ⟨hn, hr⟩, fun _ => rfl⟩
      · rw [if_pos hn]
        simp [hn]

theorem overlaps_false {a b : List Nat} : overlaps a b = false ↔ ∀ i ∈ a, i ∉ b := by
  unfold overlaps
  simp only [List.any_eq_false, decide_eq_true_eq]

theorem natSort_eq {a b : List Nat} : npSort a = npSort b ↔ a.Perm b := by
  constructor
  · intro h
    exact (npSort_perm a).symm.trans (h ▸ npSort_perm b)
  · intro h
    exact ((npSort_perm a).trans (h.trans (npSort_perm b).symm)).eq_of_pairwise
      (fun x y _ _ h1 h2 => le_antisymm h1 h2) (npSort_sorted a) (npSort_sorted b)

theorem seq_ok {a : Except PyErr Unit} {b : Except PyErr Unit} : (a >>= fun _ => b) = .ok () ↔ a = .ok () ∧ b = .ok () := by
  cases a with
  | error e => simp [bind, Except.bind]
  | ok u => simp [bind, Except.bind]

/-- **C184 (the sampler's check).**  The check the sampler makes on its own split accepts a split exactly if `validate` accepts the
result built from it. -/
theorem C184_sampler (nTrain : Nat) (nTest : Option Nat) (s : IndResult) :
    Sampling.validateInductive nTrain nTest s = .ok () ↔ validate nTrain nTest none (ofSplit s) = .ok () := by
  rw [(C184_inductive nTrain nTest none (ofSplit s) rfl).1]
  have hspec : Sampling.validateInductive nTrain nTest s = .ok () ↔
      ((s.train ≠ [] → s.train.Nodup ∧ ∀ i ∈ s.train, i < nTrain) ∧ (s.val ≠ [] → s.val.Nodup ∧ ∀ i ∈ s.val, i < nTrain) ∧
        (s.test ≠ [] → ∃ n, (if s.testRef = .train then some nTrain else nTest) = some n ∧ s.test.Nodup ∧ ∀ i ∈ s.test, i < n) ∧
        (s.labeled ≠ [] → s.labeled.Nodup ∧ ∀ i ∈ s.labeled, i < nTrain) ∧
        (s.unlabeled ≠ [] → s.unlabeled.Nodup ∧ ∀ i ∈ s.unlabeled, i < nTrain)) ∧
      (∀ i ∈ s.train, i ∉ s.val) ∧ (s.testRef = .train → (∀ i ∈ s.train, i ∉ s.test) ∧ ∀ i ∈ s.val, i ∉ s.test) ∧
      (∀ i ∈ s.labeled, i ∉ s.unlabeled) ∧ (s.labeled ++ s.unlabeled).Perm s.train := by
    unfold Sampling.validateInductive
    rw [seq_ok, seq_ok, seq_ok, seq_ok, seq_ok, natCheck_iff, natCheck_iff, natCheck_iff, natCheck_iff, natCheck_iff]
    simp only [Option.some.injEq, exists_eq_left']
    rw [← overlaps_false, ← overlaps_false, ← overlaps_false, ← overlaps_false, ← natSort_eq]
    have : ∀ A B C D E F F' : Prop, (F ↔ F') → (A ∧ B ∧ C ∧ D ∧ E ∧ F ↔ (A ∧ B ∧ C ∧ D ∧ E) ∧ F') := by tauto
    apply this
    cases overlaps s.train s.val <;> cases overlaps s.train s.test <;> cases overlaps s.val s.test <;>
      cases overlaps s.labeled s.unlabeled <;> by_cases h1 : s.testRef = .train <;>
      by_cases h2 : npSort (s.labeled ++ s.unlabeled) = npSort s.train <;> simp [h1, h2]
  rw [hspec]
  have hent : ∀ (name : String) (l : List Nat), Base (ofSplit s) name = "train" →
      (EntryOk nTrain nTest (ofSplit s) name (.ints (l.map Int.ofNat)) ↔ (l ≠ [] → l.Nodup ∧ ∀ i ∈ l, i < nTrain)) := by
    intro name l hb
    constructor
    · rintro ⟨l', hl', h⟩ h0
      cases hl'
      exact indexSet_cast.mp ((h (by simpa using h0)).1 hb)
    · intro h
      exact ⟨_, rfl, fun h0 => ⟨fun _ => indexSet_cast.mpr (h (by simpa using h0)), fun hn => absurd hb hn⟩⟩
  have htest : EntryOk nTrain nTest (ofSplit s) "test" (.ints (s.test.map Int.ofNat)) ↔
      (s.test ≠ [] → ∃ n, (if s.testRef = .train then some nTrain else nTest) = some n ∧ s.test.Nodup ∧ ∀ i ∈ s.test, i < n) := by
    have hb : Base (ofSplit s) "test" = if s.testRef = .train then "train" else "test" := rfl
    by_cases ht : s.testRef = .train
    · rw [if_pos ht] at hb
      rw [hent "test" s.test hb]
      simp [ht]
    · rw [if_neg ht] at hb
      simp only [ht, if_false]
      constructor
      · rintro ⟨l', hl', h⟩ h0
        cases hl'
        obtain ⟨n, hn, hset⟩ := (h (by simpa using h0)).2 (by rw [hb]; decide)
        exact ⟨n, hn, indexSet_cast.mp hset⟩
      · intro h
        refine ⟨_, rfl, fun h0 => ⟨fun hn => absurd (hb.symm.trans hn) (by decide), fun _ => ?_⟩⟩
        obtain ⟨n, hn, hset⟩ := h (by simpa using h0)
        exact ⟨n, hn, indexSet_cast.mpr hset⟩
  have hbt : Base (ofSplit s) "test" = "train" ↔ s.testRef = .train := by
    have hb : Base (ofSplit s) "test" = if s.testRef = .train then "train" else "test" := rfl
    rw [hb]
    by_cases ht : s.testRef = .train
    · simp [ht]
    · simp [ht]
  constructor
  · rintro ⟨⟨c1, c2, c3, c4, c5⟩, d1, d2, d3, d4⟩
    refine ⟨_, _, _, _, _, ?_, ⟨rfl, rfl, rfl, rfl, rfl⟩, ⟨rfl, rfl⟩, ⟨apart_cast.mpr d1, fun h => ?_⟩, apart_cast.mpr d3, ?_⟩
    · intro p hp
      simp only [ofSplit, List.mem_cons, List.not_mem_nil, or_false] at hp
      rcases hp with rfl | rfl | rfl | rfl | rfl
      · exact (hent _ _ rfl).mpr c1
      · exact (hent _ _ rfl).mpr c2
      · exact htest.mpr c3
      · exact (hent _ _ rfl).mpr c4
      · exact (hent _ _ rfl).mpr c5
    · exact ⟨apart_cast.mpr (d2 (hbt.mp h)).1, apart_cast.mpr (d2 (hbt.mp h)).2⟩
    · rw [← List.map_append]
      exact d4.map _
  · rintro ⟨t, v, e, l, u, h⟩
    obtain ⟨p1, p2, p3, p4, p5⟩ := h.present
    cases p1; cases p2; cases p3; cases p4; cases p5
    have hmem : ∀ p ∈ (ofSplit s).indices, EntryOk nTrain nTest (ofSplit s) p.1 p.2 := h.entries
    refine ⟨⟨(hent "train" _ rfl).mp (hmem ("train", _) (by simp [ofSplit])), (hent "val" _ rfl).mp (hmem ("val", _) (by simp [ofSplit])),
      htest.mp (hmem ("test", _) (by simp [ofSplit])), (hent "train_labeled" _ rfl).mp (hmem ("train_labeled", _) (by simp [ofSplit])),
      (hent "train_unlabeled" _ rfl).mp (hmem ("train_unlabeled", _) (by simp [ofSplit]))⟩, apart_cast.mp h.apart.1,
      fun ht => ⟨apart_cast.mp (h.apart.2 (hbt.mpr ht)).1, apart_cast.mp (h.apart.2 (hbt.mpr ht)).2⟩, apart_cast.mp h.cover.1, ?_⟩
    have := h.cover.2
    rw [← List.map_append] at this
    exact (List.map_perm_map_iff ofNat_inj).mp this

example : Sampling.validateInductive 4 (some 2) ⟨[0, 1, 2], [3], [0, 1], [1], [0, 2], .test⟩ = .ok () := by decide +kernel
example : Sampling.validateInductive 4 (some 2) ⟨[0, 1, 2], [3], [0, 4], [1], [0, 2], .test⟩ = .error .validation := by decide +kernel

end ModSSC.Sampling.Validate
