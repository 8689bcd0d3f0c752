import Verif.Deep.BankSpec
import Verif.Deep.AlignProps
import Mathlib.Algebra.Order.BigOperators.Ring.Finset

/-!
# Proofs about ring buffers (C119)
-/

set_option linter.unusedSectionVars false

namespace ModSSC.Deep
open ModSSC ModSSC.Deep.Spec

variable {α : Type}

theorem bankPut_length (slots : List α) (ptr : Nat) (rows : List α) (hp : ptr < slots.length)
    (hr : rows.length ≤ slots.length) : (bankPut slots ptr rows).length = slots.length := by
  unfold bankPut
  split
  · simp; omega
  · simp; omega

/-- Position `(ptr + j) % size` receives row `j`. -/
theorem bankPut_new (slots : List α) (ptr : Nat) (rows : List α) (hp : ptr < slots.length)
    (hr : rows.length ≤ slots.length) (j : Nat) (hj : j < rows.length) :
    (bankPut slots ptr rows)[(ptr + j) % slots.length]? = rows[j]? := by
  unfold bankPut
  split
  · rename_i h
    rw [Nat.mod_eq_of_lt (by omega), List.append_assoc, List.getElem?_append_right (by simp),
      List.getElem?_append_left (by simp; omega)]
    congr 1
    simp; omega
  · rename_i h
    by_cases hw : ptr + j < slots.length
    · rw [Nat.mod_eq_of_lt hw, List.getElem?_append_right (by simp; omega), List.getElem?_drop]
      rw [List.getElem?_append_right (by simp; omega), List.getElem?_take_of_lt (by simp; omega)]
      congr 1
      simp; omega
    · have : (ptr + j) % slots.length = ptr + j - slots.length := by
        rw [Nat.mod_eq_sub_mod (by omega), Nat.mod_eq_of_lt (by omega)]
      rw [this, List.getElem?_append_left (by simp; omega), List.getElem?_drop]
      congr 1
      omega

/-- The other positions keep their rows. -/
theorem bankPut_old (slots : List α) (ptr : Nat) (rows : List α) (hp : ptr < slots.length)
    (hr : rows.length ≤ slots.length) (k : Nat) (hk : k < slots.length)
    (hfree : ∀ j < rows.length, k ≠ (ptr + j) % slots.length) : (bankPut slots ptr rows)[k]? = slots[k]? := by
  unfold bankPut
  split
  · rename_i h
    by_cases hlt : k < ptr
    · rw [List.append_assoc, List.getElem?_append_left (by simp; omega), List.getElem?_take_of_lt hlt]
    · have : ptr + rows.length ≤ k := by
        by_contra hc
        have := hfree (k - ptr) (by omega)
        rw [Nat.mod_eq_of_lt (by omega)] at this
        omega
      rw [List.getElem?_append_right (by simp; omega), List.getElem?_drop]
      congr 1
      simp; omega
  · rename_i h
    have h1 : k < ptr := by
      by_contra hc
      have := hfree (k - ptr) (by omega)
      rw [Nat.mod_eq_of_lt (by omega)] at this
      omega
    have h2 : rows.length - (slots.length - ptr) ≤ k := by
      by_contra hc
      have := hfree (slots.length - ptr + k) (by omega)
      rw [show ptr + (slots.length - ptr + k) = slots.length + k by omega, Nat.add_mod_left,
        Nat.mod_eq_of_lt hk] at this
      omega
    rw [List.getElem?_append_right (by simp; omega), List.getElem?_drop,
      List.getElem?_append_left (by simp; omega), List.getElem?_take_of_lt (by simp; omega)]
    congr 1
    simp; omega

/-- The state of a buffer of the given size after the rows `log` were written, in this order. -/
structure BankInv (size : Nat) (log : List α) (b : Bank α) : Prop where
  size_eq : b.slots.length = size
  ptr_eq : b.ptr = log.length % size
  count_eq : b.count = min size log.length
  rows : ∀ i < log.length, log.length ≤ i + size → b.slots[i % size]? = log[i]?

theorem bankInit_inv (size : Nat) (fill : α) : BankInv size [] (bankInit size fill) :=
  ⟨by simp [bankInit], by simp [bankInit], by simp [bankInit], by simp⟩

/-- Writing rows that fit. -/
theorem bankWrite_inv' (size : Nat) (hs : 0 < size) (log : List α) (b : Bank α) (h : BankInv size log b) (rows : List α) :
    BankInv size (log ++ rows.take size) (bankWrite b rows) := by
  obtain ⟨h1, h2, h3, h4⟩ := h
  unfold bankWrite
  rw [if_neg (by omega)]
  by_cases h0 : rows.length = 0
  · rw [if_pos h0, List.length_eq_zero_iff.mp h0]
    simpa using ⟨h1, h2, h3, h4⟩
  · rw [if_neg h0]
    have hr : (if rows.length > b.slots.length then rows.take b.slots.length else rows) = rows.take size := by
      rw [h1]
      split
      · rfl
      · rw [List.take_of_length_le (by omega)]
    simp only [hr]
    generalize hw : rows.take size = w
    have hwl : w.length ≤ size := by rw [← hw, List.length_take]; omega
    have hp : b.ptr < b.slots.length := by rw [h2, h1]; exact Nat.mod_lt _ hs
    refine ⟨?_, ?_, ?_, ?_⟩
    · rw [bankPut_length _ _ _ hp (by omega), h1]
    · simp only [h1, h2, List.length_append, Nat.mod_add_mod]
    · simp only [h1, h3, List.length_append]; omega
    · intro i hi hrec
      simp only at *
      rw [List.length_append] at hi hrec
      by_cases hnew : log.length ≤ i
      · have hidx : i % size = (b.ptr + (i - log.length)) % b.slots.length := by
          rw [h1, h2, Nat.mod_add_mod]
          congr 1
          omega
        rw [hidx, bankPut_new _ _ _ hp (by omega) _ (by omega), List.getElem?_append_right hnew]
      · rw [List.getElem?_append_left (by omega), ← h4 i (by omega) (by omega)]
        refine bankPut_old _ _ _ hp (by omega) _ (by rw [h1]; exact Nat.mod_lt _ hs) ?_
        intro j hj he
        rw [h1, h2, Nat.mod_add_mod] at he
        have := (Nat.modEq_iff_dvd' (n := size) (a := i) (b := log.length + j) (by omega)).mp he
        obtain ⟨k, hk⟩ := this
        rcases Nat.eq_zero_or_pos k with rfl | hkp
        · omega
        · have : size * 1 ≤ size * k := Nat.mul_le_mul_left _ hkp
          omega

theorem bankWrite_zero (b : Bank α) (h : b.slots = []) (rows : List α) : bankWrite b rows = b := by
  unfold bankWrite; rw [if_pos (by simp [h])]

theorem bankWrite_inv (size : Nat) (log : List α) (b : Bank α) (h : BankInv size log b) (rows : List α) :
    BankInv size (log ++ rows.take size) (bankWrite b rows) := by
  rcases Nat.eq_zero_or_pos size with rfl | hs
  · rw [bankWrite_zero b (List.length_eq_zero_iff.mp h.size_eq), List.take_zero, List.append_nil]; exact h
  · exact bankWrite_inv' size hs log b h rows

/-- The rows of the buffer, read from the write position on, are the last ones written. -/
theorem bankRead_rotate (size : Nat) (log : List α) (b : Bank α) (h : BankInv size log b) :
    (bankRead b).rotate b.ptr = lastN size log := by
  obtain ⟨h1, h2, h3, h4⟩ := h
  unfold bankRead lastN
  rcases Nat.eq_zero_or_pos size with rfl | hs
  · simp [h3]
  by_cases hlt : log.length < size
  · have hptr : b.ptr = log.length := by rw [h2, Nat.mod_eq_of_lt hlt]
    have hread : b.slots.take b.count = log := by
      refine List.ext_getElem? fun i => ?_
      by_cases hi : i < log.length
      · rw [List.getElem?_take_of_lt (by omega), ← h4 i hi (by omega), Nat.mod_eq_of_lt (by omega)]
      · rw [List.getElem?_eq_none (by simp; omega), List.getElem?_eq_none (by omega)]
    rw [hread, hptr, List.rotate_length, Nat.sub_eq_zero_of_le hlt.le, List.drop_zero]
  · have hread : b.slots.take b.count = b.slots := by rw [List.take_of_length_le (by omega)]
    rw [hread]
    have hp : b.ptr < size := by rw [h2]; exact Nat.mod_lt _ hs
    refine List.ext_getElem? fun i => ?_
    by_cases hi : i < size
    · rw [List.getElem?_rotate (by omega), List.getElem?_drop, ← h4 _ (by omega) (by omega), h1, h2]
      congr 1
      rw [Nat.add_mod_mod, show log.length - size + i = i + (log.length - size) by omega]
      conv_lhs => rw [show i + log.length = (i + (log.length - size)) + size by omega, Nat.add_mod_right]
    · rw [List.getElem?_eq_none (by simp; omega), List.getElem?_eq_none (by simp; omega)]

/-- Writing one batch after the other. -/
theorem bankWrites_inv (size : Nat) : ∀ (batches : List (List α)) (log : List α) (b : Bank α),
    BankInv size log b →
      BankInv size (log ++ (batches.map (List.take size)).flatten) (batches.foldl bankWrite b)
  | [], log, b, h => by simpa using h
  | r :: rest, log, b, h => by
    have := bankWrites_inv size rest _ _ (bankWrite_inv size log b h r)
    simpa [List.append_assoc] using this

/-- **C119 (memory, what it holds).**  After any sequence of batches, the memory read from its write position on consists
of the last `size` rows written, in order, where of each batch only the first `size` rows are written. -/
theorem C119_memory_partial (size : Nat) (fill : α) (batches : List (List α)) :
    let b := batches.foldl bankWrite (bankInit size fill)
    (bankRead b).rotate b.ptr = lastN size (batches.map (List.take size)).flatten ∧
      (bankRead b).length = min size (batches.map (List.take size)).flatten.length := by
  intro b
  have h := bankWrites_inv size batches [] _ (bankInit_inv size fill)
  rw [List.nil_append] at h
  refine ⟨bankRead_rotate size _ _ h, ?_⟩
  unfold bankRead
  rw [List.length_take, h.size_eq, h.count_eq]
  omega

/-- **C119 (memory, small batches).**  If no batch has more rows than the memory, it holds exactly the most recent `size`
rows of all batches. -/
theorem C119_recent (size : Nat) (fill : α) (batches : List (List α)) (hb : ∀ r ∈ batches, r.length ≤ size) :
    (bankRead (batches.foldl bankWrite (bankInit size fill))).Perm (lastN size batches.flatten) := by
  have h := (C119_memory_partial size fill batches).1
  have he : batches.map (List.take size) = batches := by
    conv_rhs => rw [← List.map_id batches]
    exact List.map_congr_left fun r hr => List.take_of_length_le (hb r hr)
  rw [he] at h
  rw [← h]
  exact (List.rotate_perm _ _).symm

/-- **C119 (labeled samples never stored).**  If every batch has at least `size` unlabeled rows, no labeled row is ever in
the memory: the rows that do not fit are the last ones of the batch, and these are the labeled ones.  So the
memory does not hold the most recent rows. -/
theorem C119_labeled_violated (size : Nat) (fill : α) (batches : List (List α × List α))
    (hb : ∀ r ∈ batches, size ≤ r.1.length) :
    (∀ x ∈ bankRead ((batches.map fun r => r.1 ++ r.2).foldl bankWrite (bankInit size fill)),
      ∃ r ∈ batches, x ∈ r.1.take size) ∧
    ∃ batch : List Nat, ¬ (bankRead ([batch].foldl bankWrite (bankInit 2 0))).Perm (lastN 2 batch) := by
  refine ⟨fun x hx => ?_, [1, 2, 3], by decide +kernel⟩
  have h := (C119_memory_partial size fill (batches.map fun r => r.1 ++ r.2)).1
  have hx' := (List.rotate_perm (bankRead ((batches.map fun r => r.1 ++ r.2).foldl bankWrite (bankInit size fill)))
    ((batches.map fun r => r.1 ++ r.2).foldl bankWrite (bankInit size fill)).ptr).mem_iff.mpr hx
  rw [h] at hx'
  have hx'' := List.mem_of_mem_drop hx'
  rw [List.mem_flatten] at hx''
  obtain ⟨l, hl, hxl⟩ := hx''
  rw [List.map_map, List.mem_map] at hl
  obtain ⟨r, hr, rfl⟩ := hl
  refine ⟨r, hr, ?_⟩
  simp only [Function.comp_def] at hxl
  rwa [List.take_append_of_le_length (hb r hr)] at hxl

example : bankRead ([[1, 2], [3], [4, 5]].foldl bankWrite (bankInit 4 0)) = [5, 2, 3, 4] := by decide +kernel
example : (bankRead ([[1, 2], [3], [4, 5]].foldl bankWrite (bankInit 4 0))).rotate 1 = [2, 3, 4, 5] := by decide +kernel

theorem windowPut_eq (b : Bank α) (hp : b.ptr < b.slots.length) (x : α) : windowPut b x = bankWrite b [x] := by
  unfold bankWrite
  rw [if_neg (by omega), if_neg (by simp)]
  simp only [List.length_singleton, gt_iff_lt]
  rw [if_neg (by omega)]
  unfold windowPut bankPut
  rw [List.length_singleton, if_pos (by omega), List.set_eq_take_append_cons_drop, if_pos hp]
  simp

end ModSSC.Deep
