import Mathlib.Data.List.Nodup
import Mathlib.Data.List.Perm.Basic

/-!
# Python dictionaries as association lists in insertion order
-/

namespace ModSSC.Assoc

variable {α β : Type} [DecidableEq α]

/-- `d.get(k)`. -/
def get (d : List (α × β)) (k : α) : Option β := (d.find? (fun p => decide (p.1 = k))).map (·.2)

/-- `k in d`. -/
def has (d : List (α × β)) (k : α) : Bool := d.any (fun p => decide (p.1 = k))

/-- `d[k] = v`: replace in place or append. -/
def set (d : List (α × β)) (k : α) (v : β) : List (α × β) :=
  if has d k then d.map (fun p => if p.1 = k then (k, v) else p) else d ++ [(k, v)]

/-- `d.pop(k, None)` / `del d[k]`. -/
def erase (d : List (α × β)) (k : α) : List (α × β) := d.filter (fun p => decide (p.1 ≠ k))

/-- `d.keys()`. -/
def keys (d : List (α × β)) : List α := d.map (·.1)

@[simp] theorem get_nil (k : α) : get ([] : List (α × β)) k = none := rfl

theorem get_cons (p : α × β) (d : List (α × β)) (k : α) :
    get (p :: d) k = if p.1 = k then some p.2 else get d k := by
  unfold get
  by_cases h : p.1 = k
  · rw [List.find?_cons_of_pos (by simpa using h), if_pos h]; rfl
  · rw [List.find?_cons_of_neg (by simpa using h), if_neg h]

theorem has_iff {d : List (α × β)} {k : α} : has d k = true ↔ k ∈ keys d := by
  unfold has keys
  rw [List.any_eq_true, List.mem_map]
  constructor
  · rintro ⟨p, hp, h⟩; exact ⟨p, hp, by simpa using h⟩
  · rintro ⟨p, hp, h⟩; exact ⟨p, hp, by simpa using h⟩

theorem get_eq_none_iff {d : List (α × β)} {k : α} : get d k = none ↔ k ∉ keys d := by
  induction d with
  | nil => simp [keys]
  | cons p d ih =>
    rw [get_cons]
    unfold keys at ih ⊢
    by_cases h : p.1 = k
    · simp [h]
    · rw [if_neg h, ih, List.map_cons, List.mem_cons, not_or]
      exact ⟨fun h' => ⟨fun e => h e.symm, h'⟩, fun h' => h'.2⟩

theorem mem_keys_iff {d : List (α × β)} {k : α} : k ∈ keys d ↔ ∃ v, get d k = some v := by
  rw [← not_iff_not, ← get_eq_none_iff]
  cases get d k <;> simp

theorem mem_of_get {d : List (α × β)} {k : α} {v : β} (h : get d k = some v) : (k, v) ∈ d := by
  induction d with
  | nil => simp at h
  | cons p d ih =>
    rw [get_cons] at h
    split at h
    · rename_i hk
      obtain rfl := Option.some.inj h
      rw [← hk]; simp
    · exact List.mem_cons_of_mem _ (ih h)

theorem get_of_mem {d : List (α × β)} (hd : (keys d).Nodup) {k : α} {v : β} (h : (k, v) ∈ d) :
    get d k = some v := by
  induction d with
  | nil => simp at h
  | cons p d ih =>
    unfold keys at hd
    rw [List.map_cons, List.nodup_cons] at hd
    rw [get_cons]
    rcases List.mem_cons.mp h with rfl | h
    · simp
    · rw [if_neg, ih hd.2 h]
      intro e
      exact hd.1 (List.mem_map.mpr ⟨_, h, e.symm⟩)

theorem get_map_replace_self {d : List (α × β)} {k : α} {v : β} (h : k ∈ keys d) :
    get (d.map (fun p => if p.1 = k then (k, v) else p)) k = some v := by
  induction d with
  | nil => simp [keys] at h
  | cons p d ih =>
    rw [List.map_cons, get_cons]
    by_cases hk : p.1 = k
    · rw [if_pos hk, if_pos rfl]
    · rw [if_neg hk, if_neg hk]
      unfold keys at h ih
      rw [List.map_cons, List.mem_cons] at h
      rcases h with h | h
      · exact absurd h.symm hk
      · exact ih h

theorem get_map_replace_other {d : List (α × β)} {k k' : α} {v : β} (h : k' ≠ k) :
    get (d.map (fun p => if p.1 = k then (k, v) else p)) k' = get d k' := by
  induction d with
  | nil => rfl
  | cons p d ih =>
    rw [List.map_cons, get_cons, get_cons, ih]
    by_cases hk : p.1 = k
    · rw [if_pos hk, if_neg h.symm, if_neg (by rw [hk]; exact h.symm)]
    · rw [if_neg hk]

theorem get_append {d e : List (α × β)} {k : α} : get (d ++ e) k = (get d k).or (get e k) := by
  induction d with
  | nil => simp
  | cons p d ih =>
    rw [List.cons_append, get_cons, get_cons, ih]
    split <;> rfl

@[simp] theorem get_set_self (d : List (α × β)) (k : α) (v : β) : get (set d k v) k = some v := by
  unfold set
  split
  · rename_i h; exact get_map_replace_self (has_iff.mp h)
  · rename_i h
    have : get d k = none := get_eq_none_iff.mpr (fun hk => h (has_iff.mpr hk))
    rw [get_append, this, get_cons, if_pos rfl]; rfl

theorem get_set_other (d : List (α × β)) {k k' : α} (v : β) (h : k' ≠ k) :
    get (set d k v) k' = get d k' := by
  unfold set
  split
  · exact get_map_replace_other h
  · rw [get_append, get_cons, if_neg h.symm]
    simp

theorem get_set (d : List (α × β)) (k k' : α) (v : β) :
    get (set d k v) k' = if k' = k then some v else get d k' := by
  by_cases h : k' = k
  · subst h; simp
  · rw [if_neg h, get_set_other _ _ h]

theorem keys_set (d : List (α × β)) (k : α) (v : β) :
    keys (set d k v) = if k ∈ keys d then keys d else keys d ++ [k] := by
  unfold set
  by_cases h : k ∈ keys d
  · rw [if_pos (has_iff.mpr h), if_pos h]
    unfold keys
    rw [List.map_map]
    apply List.map_congr_left
    intro p _
    simp only [Function.comp]
    split
    · rename_i hk; exact hk.symm
    · rfl
  · rw [if_neg (fun hc => h (has_iff.mp hc)), if_neg h]
    simp [keys]

theorem nodup_keys_set {d : List (α × β)} (hd : (keys d).Nodup) (k : α) (v : β) :
    (keys (set d k v)).Nodup := by
  rw [keys_set]
  split
  · exact hd
  · rename_i h
    rw [List.nodup_append]
    exact ⟨hd, by simp, by rintro a ha b hb rfl; simp at hb; exact h (hb ▸ ha)⟩

theorem get_erase (d : List (α × β)) (k k' : α) :
    get (erase d k) k' = if k' = k then none else get d k' := by
  unfold erase
  induction d with
  | nil => simp
  | cons p d ih =>
    rw [List.filter_cons]
    by_cases hp : p.1 = k
    · rw [if_neg (by simpa using hp), ih, get_cons]
      by_cases h : k' = k
      · simp [h]
      · rw [if_neg h, if_neg h, if_neg (by rw [hp]; exact fun e => h e.symm)]
    · rw [if_pos (by simpa using hp), get_cons, get_cons, ih]
      by_cases h : k' = k
      · subst h; simp [hp]
      · simp [h]

theorem nodup_keys_erase {d : List (α × β)} (hd : (keys d).Nodup) (k : α) : (keys (erase d k)).Nodup :=
  hd.sublist (List.Sublist.map _ List.filter_sublist)

end ModSSC.Assoc
