import Verif.Base

/-! # General list lemmas used by several areas (helpers, not claims) -/

namespace ModSSC

theorem flatMap_filter_perm {ι : Type} {κ : Type} [DecidableEq κ] (f : ι → κ) :
    ∀ (classes : List κ) (l : List ι), classes.Nodup → (∀ i ∈ l, f i ∈ classes) →
      (classes.flatMap (fun c => l.filter (fun i => decide (f i = c)))).Perm l := by
  intro classes
  induction classes with
  | nil =>
    intro l _ h
    cases l with
    | nil => simp
    | cons a t => exact absurd (h a (by simp)) (by simp)
  | cons c cs ih =>
    intro l hnd hmem
    rw [List.flatMap_cons]
    have hc : c ∉ cs := (List.nodup_cons.mp hnd).1
    have hcs : cs.Nodup := (List.nodup_cons.mp hnd).2
    have hp := List.filter_append_perm (fun i => decide (f i = c)) l
    refine List.Perm.trans (List.Perm.append_left _ ?_) hp
    have key : cs.flatMap (fun c' => l.filter (fun i => decide (f i = c')))
        = cs.flatMap (fun c' => (l.filter (fun i => !decide (f i = c))).filter
            (fun i => decide (f i = c'))) := by
      apply List.flatMap_congr
      intro c' hc'
      rw [List.filter_filter]
      apply List.filter_congr
      intro i _
      have hne : c' ≠ c := fun h => hc (h ▸ hc')
      by_cases h1 : f i = c'
      · have h2 : f i ≠ c := by rw [h1]; exact hne
        simp [h1, hne]
      · simp [h1]
    rw [key]
    apply ih _ hcs
    intro i hi
    simp only [List.mem_filter, Bool.not_eq_true', decide_eq_false_iff_not] at hi
    have := hmem i hi.1
    simp only [List.mem_cons] at this
    rcases this with h | h
    · exact absurd h hi.2
    · exact h

theorem pairwise_lt_of_le_nodup {l : List Nat} (h : l.Pairwise (· ≤ ·)) (hn : l.Nodup) :
    l.Pairwise (· < ·) := by
  have := List.Pairwise.and h hn
  exact this.imp (by intro a b h; omega)

theorem nodup_of_pairwise_lt {l : List Nat} (h : l.Pairwise (· < ·)) : l.Nodup :=
  h.imp (by intro a b h; omega)

theorem npSort_strict {l : List Nat} (hn : l.Nodup) : (npSort l).Pairwise (· < ·) :=
  pairwise_lt_of_le_nodup (npSort_sorted l) ((npSort_perm l).nodup_iff.mpr hn)

theorem mem_npSort {l : List Nat} {a : Nat} : a ∈ npSort l ↔ a ∈ l := (npSort_perm l).mem_iff

theorem length_npSort (l : List Nat) : (npSort l).length = l.length := (npSort_perm l).length_eq

theorem npSort_eq_self {l : List Nat} (h : l.Pairwise (· ≤ ·)) : npSort l = l := by
  unfold npSort
  exact h.insertionSort_eq

theorem npSort_congr {a b : List Nat} (h : a.Perm b) : npSort a = npSort b := by
  have hp : (npSort a).Perm (npSort b) := (npSort_perm a).trans (h.trans (npSort_perm b).symm)
  exact hp.eq_of_pairwise (by intro x y _ _ h1 h2; omega) (npSort_sorted a) (npSort_sorted b)

theorem range_strict (n : Nat) : (List.range n).Pairwise (· < ·) := List.pairwise_lt_range

/-! ### sums -/

theorem sum_map_mul_div (counts : List Nat) (h t : Nat) :
    (counts.map (fun c => c * h / t)).sum * t + (counts.map (fun c => c * h % t)).sum
      = counts.sum * h := by
  induction counts with
  | nil => simp
  | cons c cs ih =>
    simp only [List.map_cons, List.sum_cons]
    have := Nat.div_add_mod (c * h) t
    have e1 : (c * h / t + (cs.map (fun c => c * h / t)).sum) * t
        = t * (c * h / t) + (cs.map (fun c => c * h / t)).sum * t := by
      rw [Nat.add_mul, Nat.mul_comm t]
    rw [e1, Nat.add_mul]
    omega

theorem sum_mod_lt (counts : List Nat) (h t : Nat) (ht : 0 < t) (hne : counts ≠ []) :
    (counts.map (fun c => c * h % t)).sum < counts.length * t := by
  induction counts with
  | nil => exact absurd rfl hne
  | cons c cs ih =>
    simp only [List.map_cons, List.sum_cons, List.length_cons]
    have := Nat.mod_lt (c * h) ht
    rw [Nat.add_mul]
    by_cases hcs : cs = []
    · subst hcs; simp; omega
    · have := ih hcs; omega

theorem sum_map_natCast (l : List Nat) : ((l.map (fun n : Nat => (n : Int))).sum) = (l.sum : Int) := by
  induction l with
  | nil => simp
  | cons a t ih => simp [ih]

theorem sum_modify (l : List Int) (i : Nat) (d : Int) (h : i < l.length) :
    (l.modify i (· + d)).sum = l.sum + d := by
  induction l generalizing i with
  | nil => simp at h
  | cons a t ih =>
    cases i with
    | zero => simp [List.modify]; omega
    | succ i =>
      simp only [List.modify_succ_cons, List.sum_cons]
      rw [ih i (by simpa using h)]; omega

theorem getD_modify (l : List Int) (i j : Nat) (d : Int) (h : i < l.length) :
    (l.modify i (· + d)).getD j 0 = l.getD j 0 + (if i = j then d else 0) := by
  simp only [List.getD_eq_getElem?_getD, List.getElem?_modify]
  by_cases hij : i = j
  · subst hij
    simp [h]
  · simp [hij]

end ModSSC
