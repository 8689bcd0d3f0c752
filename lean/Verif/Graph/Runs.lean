import Verif.Graph.OpsModel
import Mathlib.Data.List.Sort

/-! # Grouping by sorting -/

namespace ModSSC.Graph

theorem lexLe_total (p q : Edge) : lexLe p q ∨ lexLe q p := by
  unfold lexLe; omega

theorem lexLe_trans {p q r : Edge} (h : lexLe p q) (h' : lexLe q r) : lexLe p r := by
  unfold lexLe at *; omega

theorem lexLe_antisymm {p q : Edge} (h : lexLe p q) (h' : lexLe q p) : p = q := by
  unfold lexLe at *
  exact Prod.ext (by omega) (by omega)

theorem lexsort_perm {β : Type} (l : List (Edge × β)) : (lexsort l).Perm l :=
  List.perm_insertionSort _ _

theorem lexsort_sorted {β : Type} (l : List (Edge × β)) :
    (lexsort l).Pairwise (fun a b => lexLe a.1 b.1) := by
  have : Std.Total (fun a b : Edge × β => lexLe a.1 b.1) := ⟨fun a b => lexLe_total _ _⟩
  have : IsTrans (Edge × β) (fun a b => lexLe a.1 b.1) := ⟨fun a b c h h' => lexLe_trans h h'⟩
  exact List.pairwise_insertionSort _ _

theorem runs_flat {κ β : Type} [DecidableEq κ] (l : List (κ × β)) :
    (runs l).flatMap (fun g => g.2.map (fun b => (g.1, b))) = l := by
  induction l with
  | nil => rfl
  | cons p l ih =>
    obtain ⟨k, b⟩ := p
    rw [runs]
    cases hr : runs l with
    | nil => rw [hr] at ih; simpa using ih
    | cons g more =>
      obtain ⟨k', bs⟩ := g
      rw [hr] at ih
      by_cases hk : k = k'
      · subst hk
        simp only [if_true, List.flatMap_cons, List.map_cons, List.cons_append] at ih ⊢
        rw [ih]
      · simp only [if_neg hk, List.flatMap_cons, List.map_cons, List.cons_append] at ih ⊢
        rw [ih]
        rfl

theorem runs_ne {κ β : Type} [DecidableEq κ] (l : List (κ × β)) :
    ∀ g ∈ runs l, g.2 ≠ [] := by
  induction l with
  | nil => simp [runs]
  | cons p l ih =>
    obtain ⟨k, b⟩ := p
    rw [runs]
    cases hr : runs l with
    | nil => simp
    | cons g more =>
      obtain ⟨k', bs⟩ := g
      rw [hr] at ih
      by_cases hk : k = k'
      · simp only [if_pos hk]
        intro g hg
        rcases List.mem_cons.mp hg with rfl | hg
        · simp
        · exact ih g (List.mem_cons_of_mem _ hg)
      · simp only [if_neg hk]
        intro g hg
        rcases List.mem_cons.mp hg with rfl | hg
        · simp
        · exact ih g hg

theorem runs_key {κ β : Type} [DecidableEq κ] {l : List (κ × β)} {g : κ × List β}
    (hg : g ∈ runs l) : ∃ b, (g.1, b) ∈ l := by
  obtain ⟨b, hb⟩ := List.exists_mem_of_ne_nil _ (runs_ne l g hg)
  refine ⟨b, ?_⟩
  rw [← runs_flat l]
  exact List.mem_flatMap.mpr ⟨g, hg, List.mem_map.mpr ⟨b, hb, rfl⟩⟩

/-- The keys of the runs of a sorted list do not repeat. -/
theorem runs_nodup {β : Type} {l : List (Edge × β)}
    (h : l.Pairwise (fun a b => lexLe a.1 b.1)) : ((runs l).map (·.1)).Nodup := by
  induction l with
  | nil => simp [runs]
  | cons p l ih =>
    obtain ⟨k, b⟩ := p
    rw [List.pairwise_cons] at h
    have ih := ih h.2
    rw [runs]
    cases hr : runs l with
    | nil => simp
    | cons g more =>
      obtain ⟨k', bs⟩ := g
      rw [hr] at ih
      by_cases hk : k = k'
      · subst hk
        simpa using ih
      · simp only [if_neg hk]
        rw [List.map_cons, List.nodup_cons]
        refine ⟨?_, ih⟩
        intro hmem
        obtain ⟨g, hg, hgk⟩ := List.mem_map.mp hmem
        -- the first key of the rest is between `k` and `k`
        obtain ⟨b1, hb1⟩ := runs_key (l := l) (g := (k', bs)) (by rw [hr]; simp)
        obtain ⟨b2, hb2⟩ := runs_key (l := l) (g := g) (by rw [hr]; exact hg)
        simp only at hgk
        rw [hgk] at hb2
        have hfirst : ∃ b0 rest, l = (k', b0) :: rest := by
          cases l with
          | nil => simp at hb1
          | cons q l =>
            obtain ⟨kq, bq⟩ := q
            rw [runs] at hr
            refine ⟨bq, l, ?_⟩
            cases hr' : runs l with
            | nil => rw [hr'] at hr; simp at hr; rw [hr.1.1]
            | cons g' more' =>
              obtain ⟨k2, bs2⟩ := g'
              rw [hr'] at hr
              by_cases hk2 : kq = k2
              · simp only [if_pos hk2] at hr; simp at hr; rw [hr.1.1]
              · simp only [if_neg hk2] at hr; simp at hr; rw [hr.1.1]
        obtain ⟨b0, rest, rfl⟩ := hfirst
        have h1 : lexLe k k' := h.1 (k', b0) (by simp)
        have h2 : lexLe k' k := by
          rcases List.mem_cons.mp hb2 with he | hm
          · exact absurd (congrArg Prod.fst he) hk
          · exact (List.pairwise_cons.mp h.2).1 _ hm
        exact hk (lexLe_antisymm h1 h2)

/-- The groups of a list: keys without repetition, every key that occurs, and exactly the values of
the key. -/
theorem groups_spec {β : Type} (l : List (Edge × β)) :
    ((runs (lexsort l)).map (·.1)).Nodup ∧
    (∀ g ∈ runs (lexsort l), g.2 ≠ [] ∧ ∀ b, b ∈ g.2 ↔ (g.1, b) ∈ l) ∧
    ∀ k b, (k, b) ∈ l → ∃ g ∈ runs (lexsort l), g.1 = k := by
  have hn := runs_nodup (lexsort_sorted l)
  have hflat : ∀ k b, (k, b) ∈ l ↔ ∃ g ∈ runs (lexsort l), g.1 = k ∧ b ∈ g.2 := by
    intro k b
    rw [← (lexsort_perm l).mem_iff]
    conv_lhs => rw [← runs_flat (lexsort l)]
    rw [List.mem_flatMap]
    constructor
    · rintro ⟨g, hg, hm⟩
      obtain ⟨b', hb', he⟩ := List.mem_map.mp hm
      obtain ⟨h1, h2⟩ := Prod.mk.injEq _ _ _ _ ▸ he
      exact ⟨g, hg, h1, h2 ▸ hb'⟩
    · rintro ⟨g, hg, rfl, hb⟩
      exact ⟨g, hg, List.mem_map.mpr ⟨b, hb, rfl⟩⟩
  refine ⟨hn, fun g hg => ⟨runs_ne _ g hg, fun b => ?_⟩, fun k b h => ?_⟩
  · constructor
    · intro hb; exact (hflat _ _).mpr ⟨g, hg, rfl, hb⟩
    · intro hb
      obtain ⟨g', hg', hk, hb'⟩ := (hflat _ _).mp hb
      have := List.inj_on_of_nodup_map hn hg' hg hk
      rw [← this]; exact hb'
  · obtain ⟨g, hg, hk, -⟩ := (hflat _ _).mp h
    exact ⟨g, hg, hk⟩

theorem maxOf_spec {l : List Rat} (h : l ≠ []) : maxOf l ∈ l ∧ ∀ x ∈ l, x ≤ maxOf l := by
  induction l with
  | nil => exact absurd rfl h
  | cons a l ih =>
    cases l with
    | nil => simp [maxOf]
    | cons b l =>
      obtain ⟨h1, h2⟩ := ih (by simp)
      rw [maxOf]
      · constructor
        · rcases max_choice a (maxOf (b :: l)) with h | h
          · rw [h]; simp
          · rw [h]; exact List.mem_cons_of_mem _ h1
        · intro x hx
          rcases List.mem_cons.mp hx with rfl | hx
          · exact le_max_left _ _
          · exact le_trans (h2 x hx) (le_max_right _ _)
      · simp

end ModSSC.Graph
