import Verif.Augment.Props

/-!
# What one token swap and Gaussian noise do (C63)
-/

namespace ModSSC.Augment
open ModSSC

variable {σ W : Type} (E : Env σ W)

/-- **C63 (one token swap).**  If a text has two tokens that are not padding, `n_swaps=1` exchanges two of them and changes nothing
else. -/
theorem C63_token_swap_once (hG : E.gen.Lawful) (pad : Int) (a : NArr) (len : Nat) (hs : a.shape = [len]) (s : σ) (p q : Nat) (hpq : p ≠ q)
    (hp : p < len) (hq : q < len) (hpa : a.get [p] ≠ (pad : Rat)) (hqa : a.get [q] ≠ (pad : Rat)) :
    ∃ b s' i j, tokenSwap E 1 pad a s = .ok (b, s') ∧ b.shape = [len] ∧ i ≠ j ∧ i < len ∧ j < len ∧ a.get [i] ≠ (pad : Rat) ∧
      a.get [j] ≠ (pad : Rat) ∧ b.get [i] = a.get [j] ∧ b.get [j] = a.get [i] ∧ ∀ k, k ≠ i → k ≠ j → b.get [k] = a.get [k] := by
  have hnd : (validPositions (fun k => a.get [k]) len pad).Nodup := List.nodup_range.filter _
  have hmem : ∀ k, k ∈ validPositions (fun k => a.get [k]) len pad ↔ k < len ∧ a.get [k] ≠ (pad : Rat) := by
    intro k
    simp [validPositions, List.mem_filter, List.mem_range]
  have h2 : 2 ≤ (validPositions (fun k => a.get [k]) len pad).length := by
    have hsub : [p, q].Subperm (validPositions (fun k => a.get [k]) len pad) := by
      refine List.subperm_of_subset (by simp [hpq]) ?_
      intro k hk
      simp only [List.mem_cons, List.not_mem_nil, or_false] at hk
      rcases hk with rfl | rfl
      · exact (hmem _).mpr ⟨hp, hpa⟩
      · exact (hmem _).mpr ⟨hq, hqa⟩
    exact hsub.length_le
  obtain ⟨m1, m2, hne⟩ := hG.choice2_mem s _ hnd h2
  set c := E.gen.choice2 s (validPositions (fun k => a.get [k]) len pad) with hc
  have hrow : swapRow E 1 pad len (fun k => a.get [k]) s = (fun k => if k = c.1.1 then a.get [c.1.2] else if k = c.1.2 then a.get [c.1.1]
      else a.get [k], c.2) := by
    unfold swapRow
    simp only
    rw [if_neg (by omega)]
    rfl
  refine ⟨⟨[len], fun idx => match idx with
        | [k] => (swapRow E 1 pad len (fun k => a.get [k]) s).1 k
        | _ => a.get idx⟩, (swapRow E 1 pad len (fun k => a.get [k]) s).2, c.1.1, c.1.2, ?_, rfl, hne, ((hmem _).mp m1).1, ((hmem _).mp m2).1,
        ((hmem _).mp m1).2, ((hmem _).mp m2).2, ?_, ?_, ?_⟩
  · unfold tokenSwap
    rw [if_neg (by decide), hs]
    rfl
  · simp only [hrow, if_true]
  · simp only [hrow, if_true, if_neg hne.symm]
  · intro k h1 h3
    simp only [hrow, if_neg h1, if_neg h3]

/-- **C63 (texts with fewer than two tokens).**  They are returned as they are and nothing is drawn. -/
theorem C63_token_swap_short (n pad : Int) (a : NArr) (len : Nat) (hs : a.shape = [len]) (s : σ)
    (h : ∀ p q, p < len → q < len → a.get [p] ≠ (pad : Rat) → a.get [q] ≠ (pad : Rat) → p = q) :
    ∃ b, tokenSwap E n pad a s = .ok (b, s) ∧ b.shape = [len] ∧ ∀ k, b.get [k] = a.get [k] := by
  unfold tokenSwap
  by_cases hn : n ≤ 0
  · rw [if_pos hn]
    exact ⟨a, rfl, hs, fun _ => rfl⟩
  rw [if_neg hn, hs]
  have hlt : (validPositions (fun k => a.get [k]) len pad).length < 2 := by
    by_contra hc
    have hnd : (validPositions (fun k => a.get [k]) len pad).Nodup := List.nodup_range.filter _
    have hm : ∀ k ∈ validPositions (fun k => a.get [k]) len pad, k < len ∧ a.get [k] ≠ (pad : Rat) := by
      intro k hk
      simpa [validPositions, List.mem_filter, List.mem_range] using hk
    have m0 := hm _ (List.getElem_mem (show 0 < _ by omega))
    have m1 := hm _ (List.getElem_mem (show 1 < (validPositions (fun k => a.get [k]) len pad).length by omega))
    have := h _ _ m0.1 m1.1 m0.2 m1.2
    rw [hnd.getElem_inj_iff] at this
    omega
  have hrow : swapRow E n.toNat pad len (fun k => a.get [k]) s = (fun k => a.get [k], s) := by
    unfold swapRow
    simp only
    rw [if_pos hlt]
  simp only [hrow]
  exact ⟨_, rfl, rfl, fun _ => rfl⟩

/-- **C63 (Gaussian noise).**  A negative deviation raises; zero returns the array and draws nothing; otherwise every entry gets its own
standard normal number times the deviation, an array of the generator's for numpy, of a generator seeded by it for torch. -/
theorem C63_gaussian_noise (torch : Bool) (std : Rat) (a : NArr) (s : σ) :
    (std < 0 → gaussianNoise E torch std a s = .error .valueError) ∧ (std = 0 → gaussianNoise E torch std a s = .ok (a, s)) ∧
    (0 < std → ∃ b s', gaussianNoise E torch std a s = .ok (b, s') ∧ b.shape = a.shape ∧ ∀ idx, b.get idx = a.get idx +
      (if torch then E.torchSeeded (E.gen.integers s 0 (2 ^ 31)).1 a.shape idx else (E.gen.normalArr s a.shape).1 idx) * std) := by
  refine ⟨fun h => ?_, fun h => ?_, fun h => ?_⟩
  · unfold gaussianNoise
    rw [if_pos h]
  · unfold gaussianNoise
    rw [if_neg (by rw [h]; exact lt_irrefl _), if_pos h]
  · unfold gaussianNoise
    rw [if_neg (not_lt.mpr h.le), if_neg h.ne']
    cases torch
    · exact ⟨_, _, rfl, rfl, fun _ => rfl⟩
    · exact ⟨_, _, rfl, rfl, fun _ => rfl⟩

example : ∃ a : NArr, a.shape = [3] ∧ a.get [0] ≠ ((0 : Int) : Rat) ∧ a.get [2] ≠ ((0 : Int) : Rat) ∧ a.get [1] = ((0 : Int) : Rat) :=
  ⟨⟨[3], fun idx => if idx = [1] then 0 else 7⟩, rfl, by norm_num, by norm_num, by norm_num⟩

end ModSSC.Augment
