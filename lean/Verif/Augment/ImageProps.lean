import Verif.Augment.Props

/-!
# Image augmentations (C95) and image layouts (C96)
-/

namespace ModSSC.Augment
open ModSSC

variable {σ W : Type} (E : Env σ W)

/-- Specification: the height and width axes of an image of a layout. -/
def axes : Layout → Nat × Nat
  | .hw => (0, 1)
  | .hwc => (0, 1)
  | .chw => (1, 2)

theorem axes_row (l : Layout) : l.rowAxis = (axes l).1 := by cases l <;> rfl
theorem axes_col (l : Layout) : l.colAxis = (axes l).2 := by cases l <;> rfl

theorem getD_modify_self (idx : List Nat) (n : Nat) (f : Nat → Nat) (h : n < idx.length) :
    (idx.modify n f).getD n 0 = f (idx.getD n 0) := by
  rw [List.getD_eq_getElem _ _ (by simpa using h), List.getD_eq_getElem _ _ h]
  simp

theorem modify_congr (idx : List Nat) (n : Nat) (f g : Nat → Nat) (h : f (idx.getD n 0) = g (idx.getD n 0)) :
    idx.modify n f = idx.modify n g := by
  refine List.ext_getElem (by simp) (fun i h1 h2 => ?_)
  simp only [List.getElem_modify]
  have hi : i < idx.length := by simpa using h1
  split
  · rename_i e
    subst e
    rwa [List.getD_eq_getElem _ _ hi] at h
  · rfl

/-- **C95 (flip).**  The shape is kept; the image is unchanged, or every pixel is the one in the mirrored column of the
same row and channel; with probability 0 it is unchanged, with probability 1 mirrored. -/
theorem C95_flip (hG : E.gen.Lawful) (torch : Bool) (p : Rat) (a b : NArr) (s s' : σ) (h : hflip E torch p a s = .ok (b, s')) :
    b.shape = a.shape ∧ (p = 0 → b = a) ∧
    (b = a ∨ ∃ l, layoutOf torch a.shape = .ok l ∧
      ∀ idx, b.get idx = a.get (idx.modify (axes l).2 (fun j => a.shape.getD (axes l).2 0 - 1 - j))) ∧
    (p = 1 → ∃ l, layoutOf torch a.shape = .ok l ∧
      ∀ idx, b.get idx = a.get (idx.modify (axes l).2 (fun j => a.shape.getD (axes l).2 0 - 1 - j))) := by
  unfold hflip at h
  split at h
  · simp only at h
    split at h
    · rename_i hlt
      cases hl : layoutOf torch a.shape with
      | error e => rw [hl] at h; simp at h
      | ok l =>
        rw [hl] at h
        simp only [Except.ok.injEq, Prod.mk.injEq] at h
        obtain ⟨rfl, -⟩ := h
        refine ⟨rfl, ?_, .inr ⟨l, rfl, fun idx => by rw [axes_col]⟩, fun _ => ⟨l, rfl, fun idx => by rw [axes_col]⟩⟩
        rintro rfl
        exact absurd hlt (not_lt.mpr (hG.random_range s).1)
    · rename_i hlt
      simp only [Except.ok.injEq, Prod.mk.injEq] at h
      obtain ⟨rfl, -⟩ := h
      refine ⟨rfl, fun _ => rfl, .inl rfl, ?_⟩
      rintro rfl
      exact absurd (hG.random_range s).2 hlt
  · simp at h

/-- Pixel `idx` of an image lies in the square of side `len` with the upper left corner `hole`. -/
def InSquare (l : Layout) (len : Int) (hole : Int × Int) (idx : List Nat) : Prop :=
  (hole.1 ≤ (idx.getD (axes l).1 0 : Nat) ∧ ((idx.getD (axes l).1 0 : Nat) : Int) < hole.1 + len) ∧
  (hole.2 ≤ (idx.getD (axes l).2 0 : Nat) ∧ ((idx.getD (axes l).2 0 : Nat) : Int) < hole.2 + len)

theorem holes_spec (hG : E.gen.Lawful) (l : Layout) (H Wd : Nat) (len : Int) (hlen : 0 < len) (fill : Rat) (n : Nat)
    (f : List Nat → Rat) (s : σ) :
    ∃ hs : List (Int × Int), hs.length = n ∧
      (∀ q ∈ hs, 0 ≤ q.1 ∧ 0 ≤ q.2 ∧ q.1 ≤ max 0 ((H : Int) - len) ∧ q.2 ≤ max 0 ((Wd : Int) - len)) ∧
      ∀ idx, ((∃ q ∈ hs, InSquare l len q idx) → (holes E l H Wd len fill n f s).1 idx = fill) ∧
        ((¬ ∃ q ∈ hs, InSquare l len q idx) → (holes E l H Wd len fill n f s).1 idx = f idx) := by
  induction n generalizing f s with
  | zero => exact ⟨[], rfl, fun q hq => by simp at hq, fun idx => ⟨fun ⟨q, hq, _⟩ => by simp at hq, fun _ => rfl⟩⟩
  | succ n ih =>
    simp only [holes]
    have hr1 := hG.integers_range s 0 (max 1 ((H : Int) - len + 1)) (by omega)
    have hr2 := hG.integers_range (E.gen.integers s 0 (max 1 ((H : Int) - len + 1))).2 0 (max 1 ((Wd : Int) - len + 1)) (by omega)
    generalize E.gen.integers s 0 (max 1 ((H : Int) - len + 1)) = t at *
    generalize E.gen.integers t.2 0 (max 1 ((Wd : Int) - len + 1)) = c at *
    obtain ⟨hs, h1, h2, h3⟩ := ih (fun idx =>
      if t.1 ≤ (idx.getD l.rowAxis 0 : Nat) ∧ ((idx.getD l.rowAxis 0 : Nat) : Int) < t.1 + len ∧
         c.1 ≤ (idx.getD l.colAxis 0 : Nat) ∧ ((idx.getD l.colAxis 0 : Nat) : Int) < c.1 + len then fill else f idx) c.2
    refine ⟨(t.1, c.1) :: hs, by simp [h1], ?_, ?_⟩
    · intro q hq
      rcases List.mem_cons.mp hq with rfl | hq
      · simp only
        omega
      · exact h2 q hq
    · intro idx
      have hsq : InSquare l len (t.1, c.1) idx ↔ (t.1 ≤ (idx.getD l.rowAxis 0 : Nat) ∧ ((idx.getD l.rowAxis 0 : Nat) : Int) < t.1 + len ∧
         c.1 ≤ (idx.getD l.colAxis 0 : Nat) ∧ ((idx.getD l.colAxis 0 : Nat) : Int) < c.1 + len) := by
        unfold InSquare
        rw [axes_row, axes_col, and_assoc]
      constructor
      · rintro ⟨q, hq, hin⟩
        by_cases hex : ∃ q ∈ hs, InSquare l len q idx
        · exact (h3 idx).1 hex
        · rw [(h3 idx).2 hex]
          rcases List.mem_cons.mp hq with rfl | hq
          · exact if_pos (hsq.mp hin)
          · exact absurd ⟨q, hq, hin⟩ hex
      · intro hno
        rw [(h3 idx).2 (fun ⟨q, hq, hin⟩ => hno ⟨q, by simp [hq], hin⟩)]
        exact if_neg (fun hc => hno ⟨(t.1, c.1), by simp, hsq.mpr hc⟩)

/-- **C95 (cutout).**  The shape is kept, and there are squares, as many as requested, of the requested side, so that
the pixels in them have the fill value and all other pixels are unchanged.  The squares lie in the image whenever they
fit.  Given as a fraction, the side is the fraction of the shorter edge, rounded, but at least 1. -/
theorem C95_cutout (hG : E.gen.Lawful) (torch : Bool) (frac : Option Rat) (n len : Int) (fill : Rat) (a b : NArr) (s s' : σ)
    (h : cutout E torch frac n len fill a s = .ok (b, s')) :
    b.shape = a.shape ∧
    ((frac = none ∧ (n ≤ 0 ∨ len ≤ 0) ∨ frac = some 0) → b = a) ∧
    (¬ (frac = none ∧ (n ≤ 0 ∨ len ≤ 0) ∨ frac = some 0) → ∃ l side, ∃ hs : List (Int × Int),
      layoutOf torch a.shape = .ok l ∧ (hs.length : Int) = n ∧
      (frac = none → side = len) ∧
      (∀ q, frac = some q → ∃ k, Sampling.Spec.IsNearestEven (q * ((min (a.shape.getD (axes l).1 0) (a.shape.getD (axes l).2 0) : Nat) : Rat)) k ∧
        side = max 1 k) ∧
      (∀ q ∈ hs, 0 ≤ q.1 ∧ 0 ≤ q.2 ∧ q.1 ≤ max 0 ((a.shape.getD (axes l).1 0 : Int) - side) ∧
        q.2 ≤ max 0 ((a.shape.getD (axes l).2 0 : Int) - side)) ∧
      ∀ idx, ((∃ q ∈ hs, InSquare l side q idx) → b.get idx = fill) ∧
        ((¬ ∃ q ∈ hs, InSquare l side q idx) → b.get idx = a.get idx)) := by
  unfold cutout at h
  cases frac with
  | none =>
    simp only at h
    split at h
    · rename_i hc
      simp only [Except.ok.injEq, Prod.mk.injEq] at h
      obtain ⟨rfl, -⟩ := h
      exact ⟨rfl, fun _ => rfl, fun hn => absurd (.inl ⟨rfl, hc.symm⟩) hn⟩
    · rename_i hc
      cases hl : layoutOf torch a.shape with
      | error e => rw [hl] at h; simp at h
      | ok l =>
        rw [hl] at h
        simp only [Except.ok.injEq, Prod.mk.injEq] at h
        obtain ⟨rfl, -⟩ := h
        refine ⟨rfl, fun hn => ?_, fun _ => ?_⟩
        · rcases hn with ⟨-, hn⟩ | hn
          · exact absurd hn.symm hc
          · simp at hn
        · obtain ⟨hs, h1, h2, h3⟩ := holes_spec E hG l (a.shape.getD l.rowAxis 0) (a.shape.getD l.colAxis 0) len (by omega) fill
            n.toNat a.get s
          refine ⟨l, len, hs, rfl, by omega, fun _ => rfl, fun q hq => by simp at hq, ?_, h3⟩
          rw [← axes_row, ← axes_col]
          exact h2
  | some q =>
    simp only at h
    split at h
    · simp at h
    · rename_i hc
      push Not at hc
      split at h
      · split at h
        · rename_i h0
          subst h0
          simp only [Except.ok.injEq, Prod.mk.injEq] at h
          obtain ⟨rfl, -⟩ := h
          exact ⟨rfl, fun _ => rfl, fun hn => absurd (.inr rfl) hn⟩
        · rename_i h0
          cases hl : layoutOf torch a.shape with
          | error e => rw [hl] at h; simp at h
          | ok l =>
            rw [hl] at h
            simp only [Except.ok.injEq, Prod.mk.injEq] at h
            obtain ⟨rfl, -⟩ := h
            refine ⟨rfl, fun hn => ?_, fun _ => ?_⟩
            · rcases hn with ⟨hn, -⟩ | hn
              · simp at hn
              · exact absurd (Option.some.inj hn) h0
            · obtain ⟨hs, h1, h2, h3⟩ := holes_spec E hG l (a.shape.getD l.rowAxis 0) (a.shape.getD l.colAxis 0)
                (max 1 (pyRound (q * ((min (a.shape.getD l.rowAxis 0) (a.shape.getD l.colAxis 0) : Nat) : Rat)))) (by omega) fill
                n.toNat a.get s
              refine ⟨l, max 1 (pyRound (q * ((min (a.shape.getD l.rowAxis 0) (a.shape.getD l.colAxis 0) : Nat) : Rat))), hs, rfl,
                by omega, fun hn => by simp at hn, ?_, ?_, h3⟩
              · intro q' hq'
                obtain rfl := Option.some.inj hq'
                rw [← axes_row, ← axes_col]
                exact ⟨_, Sampling.pyRound_nearest _, rfl⟩
              · rw [← axes_row, ← axes_col]
                exact h2
      · simp at h

/-- Specification: `j` is a position of an axis of length `n`, and `k` is mirrored onto it at the ends of the axis (the
end positions are not repeated). -/
def IsMirror (n : Nat) (k : Int) (j : Nat) : Prop :=
  j < n ∧ ∃ t : Int, k = (j : Int) + t * (2 * ((n : Int) - 1)) ∨ k = -(j : Int) + t * (2 * ((n : Int) - 1))

theorem reflect_spec (n : Nat) (k : Int) (hn : 2 ≤ n) : IsMirror n k (reflect n k) := by
  unfold reflect
  rw [if_neg (by omega)]
  have hpos : (0 : Int) < 2 * ((n : Int) - 1) := by omega
  have h1 : 0 ≤ k % (2 * ((n : Int) - 1)) := Int.emod_nonneg _ (by omega)
  have h2 : k % (2 * ((n : Int) - 1)) < 2 * ((n : Int) - 1) := Int.emod_lt_of_pos _ hpos
  have h3 := Int.mul_ediv_add_emod k (2 * ((n : Int) - 1))
  change 0 ≤ k.emod (2 * ((n : Int) - 1)) at h1
  change k.emod (2 * ((n : Int) - 1)) < 2 * ((n : Int) - 1) at h2
  change 2 * ((n : Int) - 1) * (k / (2 * ((n : Int) - 1))) + k.emod (2 * ((n : Int) - 1)) = k at h3
  simp only
  split
  · rename_i hm
    refine ⟨by omega, k / (2 * ((n : Int) - 1)), .inl ?_⟩
    rw [Int.toNat_of_nonneg h1]
    have : k / (2 * ((n : Int) - 1)) * (2 * ((n : Int) - 1)) = 2 * ((n : Int) - 1) * (k / (2 * ((n : Int) - 1))) := by ring
    rw [this]
    omega
  · rename_i hm
    refine ⟨by omega, k / (2 * ((n : Int) - 1)) + 1, .inr ?_⟩
    rw [Int.toNat_of_nonneg (by omega)]
    have : (k / (2 * ((n : Int) - 1)) + 1) * (2 * ((n : Int) - 1)) = 2 * ((n : Int) - 1) * (k / (2 * ((n : Int) - 1))) + 2 * ((n : Int) - 1) := by ring
    rw [this]
    omega

theorem reflect_inside (n : Nat) (k : Int) (h0 : 0 ≤ k) (h1 : k < n) : (reflect n k : Int) = k := by
  unfold reflect
  split
  · omega
  · have : k.emod (2 * ((n : Int) - 1)) = k := Int.emod_eq_of_lt h0 (by omega)
    simp only [this]
    rw [if_pos h1]
    omega

/-- **C95 (crop with padding).**  The shape is kept and the image is moved by an offset of at most the padding in each
direction: every pixel comes from the same channel of the image, from the position moved by the offset where that is in
the image and from its mirror image at the edges otherwise. -/
theorem C95_crop (hG : E.gen.Lawful) (torch : Bool) (pad : Option Int) (padding : Int) (a b : NArr) (s s' : σ)
    (h : cropPad E torch pad padding a s = .ok (b, s')) :
    b.shape = a.shape ∧ 0 ≤ pad.getD padding ∧ (pad.getD padding = 0 → b = a) ∧
    (pad.getD padding ≠ 0 → ∃ l dy dx,
      layoutOf torch a.shape = .ok l ∧ |dy| ≤ pad.getD padding ∧ |dx| ≤ pad.getD padding ∧
      ∃ src : Nat → Nat, ∃ srcCol : Nat → Nat,
        (∀ (i : Nat), (2 ≤ a.shape.getD (axes l).1 0 → IsMirror (a.shape.getD (axes l).1 0) (i + dy) (src i)) ∧
          (0 ≤ i + dy → (i : Int) + dy < a.shape.getD (axes l).1 0 → (src i : Int) = i + dy)) ∧
        (∀ (j : Nat), (2 ≤ a.shape.getD (axes l).2 0 → IsMirror (a.shape.getD (axes l).2 0) (j + dx) (srcCol j)) ∧
          (0 ≤ j + dx → (j : Int) + dx < a.shape.getD (axes l).2 0 → (srcCol j : Int) = j + dx)) ∧
        ∀ idx, b.get idx = a.get ((idx.modify (axes l).1 src).modify (axes l).2 srcCol)) := by
  have key : ∀ p : Int, (if p < 0 then (.error .valueError : Except PyErr (NArr × σ))
      else if p = 0 then .ok (a, s)
      else
        match layoutOf torch a.shape with
        | .error e => .error e
        | .ok l =>
          if torch = true ∧ ((a.shape.getD l.rowAxis 0 : Int) ≤ p ∨ (a.shape.getD l.colAxis 0 : Int) ≤ p) then .error .runtimeError
          else if a.shape.getD l.rowAxis 0 = 0 ∨ a.shape.getD l.colAxis 0 = 0 then .error .valueError
          else .ok (⟨a.shape, fun idx => a.get ((idx.modify l.rowAxis (fun i => reflect (a.shape.getD l.rowAxis 0)
              ((E.gen.integers s 0 (2 * p + 1)).1 + (i : Nat) - p))).modify l.colAxis
              (fun j => reflect (a.shape.getD l.colAxis 0) ((E.gen.integers (E.gen.integers s 0 (2 * p + 1)).2 0 (2 * p + 1)).1 + (j : Nat) - p)))⟩,
              (E.gen.integers (E.gen.integers s 0 (2 * p + 1)).2 0 (2 * p + 1)).2)) = .ok (b, s') →
      b.shape = a.shape ∧ 0 ≤ p ∧ (p = 0 → b = a) ∧
      (p ≠ 0 → ∃ l dy dx,
        layoutOf torch a.shape = .ok l ∧ |dy| ≤ p ∧ |dx| ≤ p ∧
        ∃ src : Nat → Nat, ∃ srcCol : Nat → Nat,
          (∀ (i : Nat), (2 ≤ a.shape.getD (axes l).1 0 → IsMirror (a.shape.getD (axes l).1 0) (i + dy) (src i)) ∧
            (0 ≤ i + dy → (i : Int) + dy < a.shape.getD (axes l).1 0 → (src i : Int) = i + dy)) ∧
          (∀ (j : Nat), (2 ≤ a.shape.getD (axes l).2 0 → IsMirror (a.shape.getD (axes l).2 0) (j + dx) (srcCol j)) ∧
            (0 ≤ j + dx → (j : Int) + dx < a.shape.getD (axes l).2 0 → (srcCol j : Int) = j + dx)) ∧
          ∀ idx, b.get idx = a.get ((idx.modify (axes l).1 src).modify (axes l).2 srcCol)) := by
    intro p h
    split at h
    · simp at h
    · rename_i hneg
      split at h
      · rename_i h0
        simp only [Except.ok.injEq, Prod.mk.injEq] at h
        obtain ⟨rfl, -⟩ := h
        exact ⟨rfl, by omega, fun _ => rfl, fun hn => absurd h0 hn⟩
      · rename_i h0
        cases hl : layoutOf torch a.shape with
        | error e => rw [hl] at h; simp at h
        | ok l =>
          rw [hl] at h
          simp only at h
          split at h
          · simp at h
          · split at h
            · simp at h
            · simp only [Except.ok.injEq, Prod.mk.injEq] at h
              obtain ⟨rfl, -⟩ := h
              have hr1 := hG.integers_range s 0 (2 * p + 1) (by omega)
              have hr2 := hG.integers_range (E.gen.integers s 0 (2 * p + 1)).2 0 (2 * p + 1) (by omega)
              generalize E.gen.integers s 0 (2 * p + 1) = t at *
              generalize E.gen.integers t.2 0 (2 * p + 1) = c at *
              refine ⟨rfl, by omega, fun e => absurd e h0, fun _ => ⟨l, t.1 - p, c.1 - p, rfl, abs_le.mpr ⟨by omega, by omega⟩,
                abs_le.mpr ⟨by omega, by omega⟩, (fun i => reflect (a.shape.getD l.rowAxis 0) (t.1 + (i : Nat) - p)),
                (fun j => reflect (a.shape.getD l.colAxis 0) (c.1 + (j : Nat) - p)), ?_, ?_, ?_⟩⟩
              · intro i
                have e : t.1 + (i : Int) - p = (i : Int) + (t.1 - p) := by ring
                rw [← axes_row]
                simp only [e]
                exact ⟨fun h2 => reflect_spec _ _ h2, fun ha hb => reflect_inside _ _ ha hb⟩
              · intro j
                have e : c.1 + (j : Int) - p = (j : Int) + (c.1 - p) := by ring
                rw [← axes_col]
                simp only [e]
                exact ⟨fun h2 => reflect_spec _ _ h2, fun ha hb => reflect_inside _ _ ha hb⟩
              · intro idx
                rw [axes_row, axes_col]
  unfold cropPad at h
  cases pad with
  | none => exact key padding h
  | some p =>
    simp only at h
    split at h
    · simp at h
    · exact key p h

/-- Non-vacuity: a 1 × 3 image is mirrored, cut and moved. -/
def demoImage : NArr := ⟨[1, 3], fun idx => ((idx.getD 1 0 : Nat) : Rat)⟩

example : (hflip demoEnv false 1 demoImage 0).map (fun r => [r.1.get [0, 0], r.1.get [0, 2]]) = .ok [2, 0] := by decide +kernel

example : (cutout demoEnv false none 1 1 9 demoImage 0).map (fun r => [r.1.get [0, 0], r.1.get [0, 1], r.1.get [0, 2]])
    = .ok [9, 1, 2] := by decide +kernel

example : (cropPad demoEnv false none 1 demoImage 0).map (fun r => [r.1.get [0, 0], r.1.get [0, 1], r.1.get [0, 2]])
    = .ok [1, 0, 1] := by decide +kernel

/-! ### C96 -/

/-- **C96, partial.**  For images with 1, 3 or 4 channels and more rows and columns than channels (or without a channel
axis), numpy arrays and torch tensors are read with the same, correct layout.  Missing: small images and other channel
counts, see `C96_layout_violated`. -/
theorem C96_layout_partial (h w c : Nat) (hc : c = 1 ∨ c = 3 ∨ c = 4) (hh : 4 < h) (hw : 4 < w) :
    (∀ torch, layoutOf torch [h, w, c] = .ok .hwc) ∧ (∀ torch, layoutOf torch [c, h, w] = .ok .chw) ∧
    (∀ torch, layoutOf torch [h, w] = .ok .hw) := by
  refine ⟨?_, ?_, ?_⟩
  · intro torch
    cases torch with
    | true => simp only [layoutOf, torchLayout, if_true]; rw [if_pos (by omega)]
    | false =>
      simp only [layoutOf, numpyLayout, Bool.false_eq_true, if_false]
      rw [if_neg (by simp only [List.mem_cons, List.not_mem_nil, or_false]; omega)]
  · intro torch
    cases torch with
    | true => simp only [layoutOf, torchLayout, if_true]; rw [if_neg (by omega)]
    | false =>
      simp only [layoutOf, numpyLayout, Bool.false_eq_true, if_false]
      rw [if_pos (by simp only [List.mem_cons, List.not_mem_nil, or_false]; omega)]
  · intro torch
    cases torch <;> rfl

/-- **C96 is violated.**  A two-channel image with its channels first (2 × 8 × 8) is read as channels first when it is a
tensor and as channels last when it is a numpy array: the same flip mirrors different axes. -/
theorem C96_layout_violated :
    layoutOf true [2, 8, 8] = .ok .chw ∧ layoutOf false [2, 8, 8] = .ok .hwc ∧
    (let a : NArr := ⟨[2, 8, 8], fun idx => ((100 * idx.getD 0 0 + 10 * idx.getD 1 0 + idx.getD 2 0 : Nat) : Rat)⟩
     (hflip demoEnv true 1 a 0).map (fun r => r.1.get [1, 2, 3]) = .ok 124 ∧
     (hflip demoEnv false 1 a 0).map (fun r => r.1.get [1, 2, 3]) = .ok 153) := by
  decide +kernel

example : layoutOf false [3, 32, 32] = .ok .chw := (C96_layout_partial 32 32 3 (by simp) (by omega) (by omega)).2.1 false

end ModSSC.Augment
