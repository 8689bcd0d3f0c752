import Verif.Preprocess.WaveModel
import Verif.ExceptLemmas
import Mathlib.Tactic.Linarith
import Mathlib.Tactic.Tauto
import Mathlib.Algebra.Order.Field.Rat

/-!
# Waveforms (C148)
-/

namespace ModSSC.Wave
open ModSSC

/-- Where the part that is kept of a longer waveform starts. -/
def Spec.offset (trim : String) (len maxLen : Nat) : Nat :=
  if trim = "center" then (len - maxLen) / 2 else if trim = "end" then len - maxLen else 0

/-- C148: cutting and padding to `m` samples gives exactly `m`; a shorter waveform is followed by the pad value, of a longer
one `m` consecutive samples are kept, from the start, the middle or the end as asked. -/
theorem C148_fit (m : Nat) (trim : String) (pad : Rat) (w : List Rat) :
    (padWave m pad (trimWave m trim w)).length = m ∧
    (w.length ≤ m → ∀ t < m, (padWave m pad (trimWave m trim w))[t]? = some (w.getD t pad)) ∧
    (m ≤ w.length → ∀ t < m, (padWave m pad (trimWave m trim w))[t]? = w[Spec.offset trim w.length m + t]?) := by
  have hpad : ∀ v : List Rat, v.length ≤ m → (padWave m pad v).length = m ∧ ∀ t < m, (padWave m pad v)[t]? = some (v.getD t pad) := by
    intro v hv
    unfold padWave
    split
    · exact ⟨by omega, fun t ht => by rw [List.getD_eq_getElem?_getD, List.getElem?_eq_getElem (by omega)]; rfl⟩
    · refine ⟨by simp; omega, fun t ht => ?_⟩
      by_cases h : t < v.length
      · rw [List.getElem?_append_left h, List.getD_eq_getElem?_getD, List.getElem?_eq_getElem h]; rfl
      · rw [List.getElem?_append_right (by omega), List.getElem?_replicate, if_pos (by omega), List.getD_eq_getElem?_getD,
          List.getElem?_eq_none (by omega)]; rfl
  by_cases hl : w.length ≤ m
  · have ht : trimWave m trim w = w := by simp [trimWave, hl]
    rw [ht]
    obtain ⟨h1, h2⟩ := hpad w hl
    refine ⟨h1, fun _ => h2, fun hm t htm => ?_⟩
    have he : w.length = m := by omega
    have ho : Spec.offset trim w.length m = 0 := by unfold Spec.offset; split; omega; split <;> omega
    rw [h2 t htm, ho, Nat.zero_add, List.getD_eq_getElem?_getD, List.getElem?_eq_getElem (by omega)]
    rfl
  · have htrim : (trimWave m trim w).length = m ∧ ∀ t < m, (trimWave m trim w)[t]? = w[Spec.offset trim w.length m + t]? := by
      unfold trimWave Spec.offset
      rw [if_neg hl]
      split
      · refine ⟨by simp; omega, fun t ht => ?_⟩
        rw [List.getElem?_take, if_pos ht, List.getElem?_drop]
      · split
        · refine ⟨by simp; omega, fun t ht => ?_⟩
          rw [List.getElem?_drop]
        · refine ⟨by simp; omega, fun t ht => ?_⟩
          rw [List.getElem?_take, if_pos ht, Nat.zero_add]
    have hp : padWave m pad (trimWave m trim w) = trimWave m trim w := by simp [padWave, htrim.1]
    rw [hp]
    exact ⟨htrim.1, fun h => absurd h hl, fun _ => htrim.2⟩

/-- C148: a batch is made exactly if it is empty, or `trim` is one of the three words, `max_length` is positive if given and all
waveforms are equally long if not, and with a target rate every item has a rate; anything else is a
`PreprocessValidationError`.  The rows are the waveforms in order, cut and padded if `max_length` is given, else unchanged. -/
theorem C148_batch (c : Cfg) (ws : List (List Rat × Option Int)) :
    ((∃ rows, batch c ws = .ok rows) ↔ ws = [] ∨ ((c.trim = "start" ∨ c.trim = "center" ∨ c.trim = "end") ∧
      (∀ m, c.maxLen = some m → 0 < m) ∧ (c.maxLen = none → ∀ a ∈ ws, ∀ b ∈ ws, a.1.length = b.1.length) ∧
      (c.rate.isSome = true → ∀ w ∈ ws, w.2.isSome = true))) ∧
    (∀ e, batch c ws = .error e → e = .validation) ∧
    ∀ rows, batch c ws = .ok rows →
      (∀ m, c.maxLen = some m → rows = ws.map fun w => padWave m.toNat c.pad (trimWave m.toNat c.trim w.1)) ∧
      (c.maxLen = none → rows = ws.map (·.1)) := by
  cases ws with
  | nil =>
    have : batch c [] = .ok [] := rfl
    rw [this]
    refine ⟨⟨fun _ => .inl rfl, fun _ => ⟨_, rfl⟩⟩, fun e h => (by cases h), fun rows h => ?_⟩
    cases h
    exact ⟨fun _ _ => rfl, fun _ => rfl⟩
  | cons w0 ws =>
    have hany : ((w0 :: ws).any fun w => w.2.isNone) = true ↔ ¬ ∀ w ∈ (w0 :: ws), w.2.isSome = true := by
      simp only [List.any_eq_true, not_forall]
      constructor
      · rintro ⟨w, hw, hn⟩; exact ⟨w, hw, by simpa using hn⟩
      · rintro ⟨w, hw, hn⟩; exact ⟨w, hw, by simpa using hn⟩
    have hall : ((w0 :: ws).all fun w => decide (w.1.length = ((w0 :: ws).headD ([], none)).1.length)) = true ↔
        ∀ a ∈ (w0 :: ws), ∀ b ∈ (w0 :: ws), a.1.length = b.1.length := by
      simp only [List.all_eq_true, List.headD_cons]
      constructor
      · intro h a ha b hb; rw [of_decide_eq_true (h a ha), of_decide_eq_true (h b hb)]
      · intro h a ha; exact decide_eq_true (h a ha w0 List.mem_cons_self)
    unfold batch
    rw [if_neg (by simp)]
    by_cases ht : c.trim = "start" ∨ c.trim = "center" ∨ c.trim = "end"
    · rw [if_neg (by tauto)]
      have hc : (w0 :: ws = [] ∨ (c.trim = "start" ∨ c.trim = "center" ∨ c.trim = "end") ∧
          (∀ m, c.maxLen = some m → 0 < m) ∧ (c.maxLen = none → ∀ a ∈ w0 :: ws, ∀ b ∈ w0 :: ws, a.1.length = b.1.length) ∧
          (c.rate.isSome = true → ∀ w ∈ w0 :: ws, w.2.isSome = true)) ↔
          ((∀ m, c.maxLen = some m → 0 < m) ∧ (c.maxLen = none → ∀ a ∈ w0 :: ws, ∀ b ∈ w0 :: ws, a.1.length = b.1.length) ∧
          (c.rate.isSome = true → ∀ w ∈ w0 :: ws, w.2.isSome = true)) := by
        simp only [reduceCtorEq, false_or, ht, true_and]
      rw [hc]
      by_cases hr : (c.rate.isSome && (w0 :: ws).any fun w => w.2.isNone) = true
      · have hbad : ¬ (c.rate.isSome = true → ∀ w ∈ w0 :: ws, w.2.isSome = true) := by
          rw [Bool.and_eq_true, hany] at hr
          exact fun h => hr.2 (h hr.1)
        cases hm : c.maxLen with
        | none =>
          simp only
          split
          · simp only [bind, Except.bind, if_pos hr]
            exact ⟨⟨fun ⟨_, h⟩ => (by cases h), fun h => absurd h.2.2 hbad⟩, fun e h => by cases h; rfl, fun _ h => by cases h⟩
          · simp only [bind, Except.bind]
            exact ⟨⟨fun ⟨_, h⟩ => (by cases h), fun h => absurd h.2.2 hbad⟩, fun e h => by cases h; rfl, fun _ h => by cases h⟩
        | some m =>
          simp only
          split
          · simp only [bind, Except.bind]
            exact ⟨⟨fun ⟨_, h⟩ => (by cases h), fun h => absurd h.2.2 hbad⟩, fun e h => by cases h; rfl, fun _ h => by cases h⟩
          · simp only [bind, Except.bind, if_pos hr]
            exact ⟨⟨fun ⟨_, h⟩ => (by cases h), fun h => absurd h.2.2 hbad⟩, fun e h => by cases h; rfl, fun _ h => by cases h⟩
      · have hgood : c.rate.isSome = true → ∀ w ∈ w0 :: ws, w.2.isSome = true := by
          intro h
          by_contra hn
          exact hr (by rw [Bool.and_eq_true]; exact ⟨h, hany.mpr hn⟩)
        cases hm : c.maxLen with
        | none =>
          simp only
          split
          · rename_i he
            simp only [bind, Except.bind, if_neg hr]
            refine ⟨⟨fun _ => ⟨fun m h => by simp at h, fun _ => hall.mp he, hgood⟩, fun _ => ⟨_, rfl⟩⟩, fun e h => (by cases h), ?_⟩
            intro rows h
            cases h
            exact ⟨fun m h => by simp at h, fun _ => rfl⟩
          · rename_i he
            simp only [bind, Except.bind]
            exact ⟨⟨fun ⟨_, h⟩ => (by cases h), fun h => absurd (hall.mpr (h.2.1 trivial)) he⟩, fun e h => by cases h; rfl, fun _ h => by cases h⟩
        | some m =>
          simp only
          split
          · rename_i he
            simp only [bind, Except.bind]
            exact ⟨⟨fun ⟨_, h⟩ => (by cases h), fun h => absurd (h.1 m rfl) (by omega)⟩, fun e h => by cases h; rfl, fun _ h => by cases h⟩
          · rename_i he
            simp only [bind, Except.bind, if_neg hr]
            refine ⟨⟨fun _ => ⟨fun m' h => by cases h; omega, fun h => by simp at h, hgood⟩, fun _ => ⟨_, rfl⟩⟩, fun e h => (by cases h), ?_⟩
            intro rows h
            cases h
            exact ⟨fun m' h => by cases h; rfl, fun h => by simp at h⟩
    · rw [if_pos (by tauto)]
      refine ⟨⟨fun ⟨_, h⟩ => (by cases h), fun h => ?_⟩, fun e h => by cases h; rfl, fun _ h => by cases h⟩
      rcases h with h | h
      · simp at h
      · exact absurd h.1 ht

/-- What the samples of a file become before cutting. -/
def Spec.heard {P : Type} (io : Io P) (c : Cfg) (chans : List (List Rat)) (sr : Int) : List (List Rat) :=
  match c.rate with
  | some t => if sr = t then chans else io.resample chans sr t
  | none => chans

theorem loadPath_ok {P : Type} (io : Io P) (c : Cfg) (p : P) (w : List Rat) (r : Option Int) (h : loadPath io c p = .ok (w, r)) :
    ∃ chans sr, io.load p = .ok (chans, sr) ∧ asWave c.mono (.two (Spec.heard io c chans sr)) = .ok w ∧ r = some (c.rate.getD sr) := by
  unfold loadPath at h
  rw [ebind_ok] at h
  obtain ⟨⟨chans, sr⟩, hl, h⟩ := h
  refine ⟨chans, sr, hl, ?_⟩
  unfold Spec.heard
  cases hc : c.rate with
  | none =>
    simp only [hc] at h ⊢
    cases ha : asWave c.mono (.two chans) with
    | error e => rw [ha] at h; cases h
    | ok v => rw [ha] at h; cases h; exact ⟨rfl, rfl⟩
  | some t =>
    simp only [hc] at h ⊢
    split at h
    · rename_i hs
      rw [if_pos hs]
      cases ha : asWave c.mono (.two chans) with
      | error e => rw [ha] at h; cases h
      | ok v => rw [ha] at h; cases h; exact ⟨rfl, by simp [hs]⟩
    · rename_i hs
      rw [if_neg hs]
      cases ha : asWave c.mono (.two (io.resample chans sr t)) with
      | error e => rw [ha] at h; cases h
      | ok v => rw [ha] at h; cases h; exact ⟨rfl, rfl⟩

/-- C148 (partial: with a target rate): every row of the result comes from the file at the same position, which was at that
rate or was resampled to it; arrays without a rate are refused. -/
theorem C148_rate_partial {P : Type} (io : Io P) (c : Cfg) (t : Int) (hc : c.rate = some t) (items : List (Item P)) (rows : List (List Rat))
    (h : transform io c items = .ok rows) :
    rows.length = items.length ∧
    ∀ (i : Nat) (it : Item P), items[i]? = some it → ∃ p chans sr w, it = .path p ∧ io.load p = .ok (chans, sr) ∧
      asWave c.mono (.two (if sr = t then chans else io.resample chans sr t)) = .ok w ∧
      (∀ m, c.maxLen = some m → rows[i]? = some (padWave m.toNat c.pad (trimWave m.toNat c.trim w))) ∧
      (c.maxLen = none → rows[i]? = some w) := by
  unfold transform at h
  rw [ebind_ok] at h
  obtain ⟨ws, hws, hb⟩ := h
  obtain ⟨hok, -, hrows⟩ := C148_batch c ws
  obtain ⟨hr1, hr2⟩ := hrows rows hb
  rw [mapM_ok] at hws
  obtain ⟨hlen, hget⟩ := List.forall₂_iff_get.mp hws
  have hrl : rows.length = ws.length := by
    cases hm : c.maxLen with
    | none => rw [hr2 hm, List.length_map]
    | some m => rw [hr1 m hm, List.length_map]
  refine ⟨by rw [hrl, hlen], ?_⟩
  intro i it hi
  obtain ⟨hil, hie⟩ := List.getElem?_eq_some_iff.mp hi
  have hiw : i < ws.length := by omega
  have hl := hget i hil hiw
  simp only [List.get_eq_getElem] at hl
  rw [hie] at hl
  have hsome : (ws[i]).2.isSome = true := by
    rcases hok.mp ⟨rows, hb⟩ with hnil | ⟨-, -, -, hs⟩
    · rw [hnil] at hiw; simp at hiw
    · exact hs (by rw [hc]; rfl) _ (List.getElem_mem _)
  cases it with
  | arr a =>
    simp only [loadItem] at hl
    cases ha : asWave c.mono a with
    | error e => rw [ha] at hl; cases hl
    | ok v =>
      rw [ha] at hl
      simp only [Except.map, Except.ok.injEq] at hl
      rw [← hl] at hsome
      simp at hsome
  | path p =>
    obtain ⟨w, r, hw⟩ : ∃ w r, ws[i] = (w, r) := ⟨_, _, rfl⟩
    rw [hw] at hl
    obtain ⟨chans, sr, h1, h2, -⟩ := loadPath_ok io c p w r hl
    unfold Spec.heard at h2
    simp only [hc] at h2
    refine ⟨p, chans, sr, w, rfl, h1, h2, ?_, ?_⟩
    · intro m hm
      rw [hr1 m hm, List.getElem?_map, List.getElem?_eq_getElem hiw, hw]; rfl
    · intro hm
      rw [hr2 hm, List.getElem?_map, List.getElem?_eq_getElem hiw, hw]; rfl

/-- C148: several channels become their average, sample by sample. -/
theorem C148_channels (mono : Bool) (c : List Rat) (cs : List (List Rat)) (w : List Rat) (h : asWave mono (.two (c :: cs)) = .ok w) :
    w.length = c.length ∧ ∀ t < c.length, w[t]? = some (((c :: cs).map fun v => v.getD t 0).sum / ((cs.length + 1 : Nat) : Rat)) := by
  simp only [asWave, Except.ok.injEq] at h
  subst h
  refine ⟨by simp, fun t ht => ?_⟩
  rw [List.getElem?_map, List.getElem?_range ht]
  simp [chanMean]

/-- C148 is violated without a target rate: files of different sample rates are put in one table without a word. -/
theorem C148_rate_violated : ∃ (io : Io Nat) (c : Cfg), c.rate = none ∧
    io.load 0 = .ok ([[1, 2]], 8000) ∧ io.load 1 = .ok ([[3, 4]], 16000) ∧
    transform io c [.path 0, .path 1] = .ok [[1, 2], [3, 4]] :=
  ⟨⟨fun p => if p = 0 then .ok ([[1, 2]], 8000) else .ok ([[3, 4]], 16000), fun x _ _ => x⟩, ⟨none, none, 0, true, "start"⟩, rfl, rfl, rfl,
    by decide +kernel⟩

/-- C148 is violated by `mono = False`: the channels are averaged all the same. -/
theorem C148_mono_violated (a : Arr) : asWave false a = asWave true a := by
  cases a with
  | one w => rfl
  | two cs => cases cs <;> rfl
  | other => rfl

example : padWave 3 0 (trimWave 3 "center" [1, 2, 3, 4, 5]) = [2, 3, 4] := by decide +kernel
example : padWave 3 0 (trimWave 3 "end" [1, 2, 3, 4, 5]) = [3, 4, 5] := by decide +kernel
example : padWave 3 9 (trimWave 3 "start" [1, 2]) = [1, 2, 9] := by decide +kernel
example : transform (P := Nat) ⟨fun _ => .ok ([[1, 3], [3, 5]], 8), fun x _ _ => x⟩ ⟨some 8, some 3, 0, true, "start"⟩ [.path 0] = .ok [[2, 4, 0]] := by
  decide +kernel
example : batch ⟨some 8, none, 0, true, "start"⟩ [([1], none)] = .error .validation := by decide +kernel

end ModSSC.Wave
