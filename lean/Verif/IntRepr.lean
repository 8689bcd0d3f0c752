import Mathlib.Data.Nat.Digits.Defs

/-!
# Decimal texts of integers are distinct
-/

namespace ModSSC

theorem digitChar_inj : ∀ a < 10, ∀ b < 10, Nat.digitChar a = Nat.digitChar b → a = b := by decide +kernel

theorem toDigits_inj (m n : Nat) (h : Nat.toDigits 10 m = Nat.toDigits 10 n) : m = n := by
  induction m using Nat.strong_induction_on generalizing n with
  | _ m ih =>
    by_cases hm : m < 10
    · rw [Nat.toDigits_of_lt_base hm] at h
      by_cases hn : n < 10
      · rw [Nat.toDigits_of_lt_base hn] at h
        exact digitChar_inj m hm n hn (by simpa using h)
      · rw [Nat.toDigits_of_base_le (by omega) (by omega)] at h
        have h2 := congrArg List.length h
        simp at h2
    · rw [Nat.toDigits_of_base_le (n := m) (by omega) (by omega)] at h
      by_cases hn : n < 10
      · rw [Nat.toDigits_of_lt_base hn] at h
        have h2 := congrArg List.length h
        simp at h2
      · rw [Nat.toDigits_of_base_le (n := n) (by omega) (by omega)] at h
        obtain ⟨h1, h2⟩ := List.append_inj' h rfl
        have h3 := ih (m / 10) (by omega) _ h1
        have h4 := digitChar_inj (m % 10) (Nat.mod_lt _ (by omega)) (n % 10) (Nat.mod_lt _ (by omega)) (by simpa using h2)
        omega

theorem natRepr_inj (m n : Nat) (h : m.repr = n.repr) : m = n := by
  rw [Nat.repr_eq_ofList_toDigits, Nat.repr_eq_ofList_toDigits] at h
  exact toDigits_inj m n (String.ofList_injective h)

theorem toDigits_no_minus (n : Nat) : '-' ∉ Nat.toDigits 10 n := by
  induction n using Nat.strong_induction_on with
  | _ n ih =>
    have hd : ∀ a < 10, Nat.digitChar a ≠ '-' := by decide +kernel
    by_cases hn : n < 10
    · rw [Nat.toDigits_of_lt_base hn]
      simp only [List.mem_singleton]
      exact fun h => hd n hn h.symm
    · rw [Nat.toDigits_of_base_le (by omega) (by omega)]
      simp only [List.mem_append, List.mem_singleton, not_or]
      exact ⟨ih _ (by omega), fun h => hd _ (Nat.mod_lt _ (by omega)) h.symm⟩

theorem intRepr_inj (m n : Int) (h : m.repr = n.repr) : m = n := by
  cases m with
  | ofNat m =>
    cases n with
    | ofNat n => simp only [Int.repr] at h; rw [natRepr_inj m n h]
    | negSucc n =>
      exfalso
      simp only [Int.repr] at h
      have h1 := congrArg String.toList h
      rw [Nat.repr_eq_ofList_toDigits (n := m)] at h1
      simp at h1
      have := toDigits_no_minus m
      rw [h1] at this
      simp at this
  | negSucc m =>
    cases n with
    | ofNat n =>
      exfalso
      simp only [Int.repr] at h
      have h1 := congrArg String.toList h
      rw [Nat.repr_eq_ofList_toDigits (n := n)] at h1
      simp at h1
      have := toDigits_no_minus n
      rw [← h1] at this
      simp at this
    | negSucc n =>
      simp only [Int.repr] at h
      have h1 := natRepr_inj _ _ (by simpa using h)
      congr 1
      omega

end ModSSC
