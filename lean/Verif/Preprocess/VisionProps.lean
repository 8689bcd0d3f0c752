import Verif.Preprocess.VisionSpec
import Mathlib.Tactic.Linarith
import Mathlib.Tactic.FieldSimp
import Mathlib.Data.Rat.Floor
import Mathlib.Tactic.Positivity

/-!
# The image steps act on pixels, whatever the storage order (C70)
-/

namespace ModSSC.Preprocess.Vision
open ModSSC ModSSC.Preprocess.Vision.Spec

variable {β : Type}

theorem few_iff {c : Nat} : c ∈ [1, 2, 3, 4] ↔ Few c := by
  simp only [List.mem_cons, List.not_mem_nil, or_false, Few]; omega

/-- What `prepare` returns for a batch that is read correctly: an array with the pixels of `b` (for a single image, of the
first one). -/
def arrIn : Layout → Batch → Arr4
  | .nchw, b => ⟨b.n, b.c, b.h, b.w, b.px⟩
  | .nhwc, b => ⟨b.n, b.h, b.w, b.c, fun n h w c => b.px n c h w⟩

/-- The first image as a batch. -/
def firstOf (b : Batch) : Batch := { b with n := 1, px := fun _ => b.px 0 }

/-- Grey images with one channel whose number is not looked at. -/
def oneChannel (b : Batch) : Batch := { b with c := 1, px := fun n _ => b.px n 0 }

/-- The kinds of correctly read arrays, as `prepare` sees them. -/
theorem prepare_reads {b : Batch} {l : Layout} {X : Raw β} {store : Layout → Batch → Raw β} (h : Reads b l X store) :
    (prepare X = some (arrIn l b, false, l) ∧ store = batchIn) ∨
    (prepare X = some (arrIn l (firstOf b), true, l) ∧ store = imageIn) ∨
    (prepare X = some (arrIn l (oneChannel b), false, l) ∧ store = batchIn ∧ b.c = 1 ∧ l = .nchw) := by
  cases h with
  | nhwc hc =>
    refine .inl ⟨?_, rfl⟩
    simp only [prepare, Batch.nhwc, inferLayout4]
    have := few_iff.mpr hc
    by_cases hh : b.h ∈ [1, 2, 3, 4] <;> simp_all [arrIn]
  | nchw hc hw =>
    refine .inl ⟨?_, rfl⟩
    simp only [prepare, Batch.nchw, inferLayout4]
    have h1 := few_iff.mpr hc
    have h2 := fun h => hw (few_iff.mp h)
    rw [if_pos ⟨h1, h2⟩]
    rfl
  | hwc hc =>
    refine .inr (.inl ⟨?_, rfl⟩)
    have h1 := few_iff.mpr hc
    simp only [prepare, Batch.hwc, inferLayout3]
    by_cases hh : b.h ∈ [1, 3, 4]
    · rw [if_neg (by tauto), if_neg (by tauto), if_pos ⟨hh, h1⟩]; rfl
    · rw [if_neg (by tauto), if_pos ⟨h1, hh⟩]; rfl
  | chw hc h2 hw =>
    refine .inr (.inl ⟨?_, rfl⟩)
    have h1 : b.c ∈ [1, 3, 4] := by
      simp only [List.mem_cons, List.not_mem_nil, or_false]; obtain ⟨a, b⟩ := hc; omega
    have h3 := fun h => hw (few_iff.mp h)
    simp only [prepare, Batch.chw, inferLayout3]
    rw [if_pos ⟨h1, h3⟩]; rfl
  | grey hc h1 h3 h4 hw =>
    refine .inr (.inr ⟨?_, rfl, hc, rfl⟩)
    have h5 : ¬ b.n ∈ [1, 3, 4] := by
      simp only [List.mem_cons, List.not_mem_nil, or_false]; omega
    have h6 := fun h => hw (few_iff.mp h)
    simp only [prepare, Batch.grey, inferLayout3]
    rw [if_neg (by tauto), if_neg (by tauto), if_neg (by tauto)]; rfl

/-- Converting the storage order is exact. -/
theorem order_arr (d l : Layout) (b : Batch) (s : Bool) (X : Raw β) (hp : prepare X = some (arrIn l b, s, l)) :
    channelsOrder (some d) X = finish s (arrIn d b) := by
  unfold channelsOrder
  rw [hp]
  cases d <;> cases l <;> rfl

theorem finish_batch (l : Layout) (b : Batch) : (finish false (arrIn l b) : Raw β) = batchIn l b := by cases l <;> rfl
theorem finish_image (l : Layout) (b : Batch) : (finish true (arrIn l (firstOf b)) : Raw β) = imageIn l b := by cases l <;> rfl

theorem same_refl (X : Raw β) : Same X X := by
  cases X <;> simp [Same]

theorem same_oneChannel (l : Layout) (b : Batch) (hc : b.c = 1) : Same (batchIn l (oneChannel b) : Raw β) (batchIn l b) := by
  cases l
  · refine ⟨rfl, hc.symm, rfl, rfl, fun i j k m _ hj _ _ => ?_⟩
    simp only [oneChannel] at hj ⊢
    have : j = 0 := by omega
    rw [this]
  · refine ⟨rfl, rfl, rfl, hc.symm, fun i j k m _ _ _ hm => ?_⟩
    simp only [oneChannel] at hm ⊢
    have : m = 0 := by omega
    rw [this]

/-- **C70.**  `channels_order` stores the same pixels in the requested order. -/
theorem C70_order (b : Batch) (l d : Layout) (X : Raw β) (store : Layout → Batch → Raw β) (h : Reads b l X store) :
    Same (channelsOrder (some d) X) (store d b) := by
  rcases prepare_reads h with ⟨hp, rfl⟩ | ⟨hp, rfl⟩ | ⟨hp, rfl, hc, -⟩
  · rw [order_arr d l _ _ X hp, finish_batch]; exact same_refl _
  · rw [order_arr d l _ _ X hp, finish_image]; exact same_refl _
  · rw [order_arr d l _ _ X hp, finish_batch]; exact same_oneChannel d b hc

/-- Equal inside the shape. -/
def Same4 (a b : Arr4) : Prop := a.s0 = b.s0 ∧ a.s1 = b.s1 ∧ a.s2 = b.s2 ∧ a.s3 = b.s3 ∧
  ∀ i j k l, i < a.s0 → j < a.s1 → k < a.s2 → l < a.s3 → a.at4 i j k l = b.at4 i j k l

theorem same_finish {a b : Arr4} (h : Same4 a b) (hs : Bool) (h0 : hs = true → 0 < a.s0) :
    Same (finish hs a : Raw β) (finish hs b) := by
  obtain ⟨h1, h2, h3, h4, h5⟩ := h
  cases hs
  · exact ⟨h1, h2, h3, h4, h5⟩
  · exact ⟨h2, h3, h4, fun i j k hi hj hk => h5 0 i j k (h0 rfl) hi hj hk⟩

theorem channels_arrIn (l : Layout) (b : Batch) : channels l (arrIn l b) = b.c := by cases l <;> rfl

theorem pick_same (l : Layout) (b : Batch) (k : Nat) (f : Nat → Option Nat)
    (hf : ∀ n c h w, c < k → (f c).elim 0 (fun c' => b.px n c' h w) = (b.withChannels k).px n c h w) :
    Same4 (pickChannels l (arrIn l b) k f) (arrIn l (b.withChannels k)) := by
  cases l
  · exact ⟨rfl, rfl, rfl, rfl, fun i j m o hi hj hm ho => hf i j m o hj⟩
  · exact ⟨rfl, rfl, rfl, rfl, fun i j m o hi hj hm ho => hf i o j m ho⟩

/-- The channel step on the array with the pixels of a batch. -/
theorem ensure_arr (l : Layout) (b : Batch) (hb : 1 ≤ b.c) (k : Nat) :
    Same4 (if (k : Int) = (channels l (arrIn l b) : Nat) then arrIn l b
      else if channels l (arrIn l b) = 1 ∧ 1 < (k : Int) then pickChannels l (arrIn l b) (k : Int).toNat fun _ => some 0
      else if (k : Int) < (channels l (arrIn l b) : Nat) then
        pickChannels l (arrIn l b) (sliceEnd (channels l (arrIn l b)) k) some
      else pickChannels l (arrIn l b) (k : Int).toNat fun c => if c < channels l (arrIn l b) then some c else none)
      (arrIn l (b.withChannels k)) := by
  rw [channels_arrIn]
  by_cases h1 : (k : Int) = (b.c : Nat)
  · rw [if_pos h1]
    have hk : k = b.c := by exact_mod_cast h1
    have key : ∀ n c h w, c < b.c → b.px n c h w = (b.withChannels k).px n c h w := by
      intro n c h w hc
      simp only [Batch.withChannels]
      by_cases h2 : b.c = 1
      · rw [if_pos h2]; have : c = 0 := by omega
        rw [this]
      · rw [if_neg h2, if_pos hc]
    cases l
    · exact ⟨rfl, hk.symm, rfl, rfl, fun i j m o hi hj hm ho => key i j m o hj⟩
    · exact ⟨rfl, rfl, rfl, hk.symm, fun i j m o hi hj hm ho => key i o j m ho⟩
  rw [if_neg h1, Int.toNat_natCast]
  by_cases h2 : b.c = 1 ∧ 1 < (k : Int)
  · rw [if_pos h2]
    refine pick_same l b k _ fun n c h w hc => ?_
    simp [Batch.withChannels, h2.1]
  rw [if_neg h2]
  by_cases h3 : (k : Int) < (b.c : Nat)
  · rw [if_pos h3]
    have e : sliceEnd b.c k = k := by simp [sliceEnd]
    rw [e]
    refine pick_same l b k _ fun n c h w hc => ?_
    simp only [Batch.withChannels, Option.elim_some]
    by_cases h4 : b.c = 1
    · omega
    · rw [if_neg h4, if_pos (by omega)]
  · rw [if_neg h3]
    refine pick_same l b k _ fun n c h w hc => ?_
    simp only [Batch.withChannels]
    by_cases h4 : b.c = 1
    · omega
    · rw [if_neg h4]
      split_ifs <;> rfl

theorem few_of_reads {b : Batch} {l : Layout} {X : Raw β} {store : Layout → Batch → Raw β} (h : Reads b l X store) : Few b.c := by
  cases h <;> first | assumption | (rename_i hc _ _ _ _; exact ⟨by omega, by omega⟩)

theorem same_trans {X Y Z : Raw β} (h1 : Same X Y) (h2 : Same Y Z) : Same X Z := by
  cases X <;> cases Y <;> simp only [Same] at h1 <;> cases Z <;> simp only [Same] at h2
  · exact h1.trans h2
  · obtain ⟨a1, a2, a3, a4⟩ := h1
    obtain ⟨b1, b2, b3, b4⟩ := h2
    exact ⟨a1.trans b1, a2.trans b2, a3.trans b3, fun i j k hi hj hk =>
      (a4 i j k hi hj hk).trans (b4 i j k (a1 ▸ hi) (a2 ▸ hj) (a3 ▸ hk))⟩
  · obtain ⟨a1, a2, a3, a4, a5⟩ := h1
    obtain ⟨b1, b2, b3, b4, b5⟩ := h2
    exact ⟨a1.trans b1, a2.trans b2, a3.trans b3, a4.trans b4, fun i j k l hi hj hk hl =>
      (a5 i j k l hi hj hk hl).trans (b5 i j k l (a1 ▸ hi) (a2 ▸ hj) (a3 ▸ hk) (a4 ▸ hl))⟩

/-- **C70.**  `ensure_num_channels` gives exactly `k` channels: a single channel is repeated, surplus channels are dropped and
missing ones are zero; nothing else changes. -/
theorem C70_channels (b : Batch) (l : Layout) (X : Raw β) (store : Layout → Batch → Raw β) (h : Reads b l X store) (k : Nat) :
    Same (ensureNumChannels k X) (store l (b.withChannels k)) := by
  have hc := (few_of_reads h).1
  rcases prepare_reads h with ⟨hp, rfl⟩ | ⟨hp, rfl⟩ | ⟨hp, rfl, hc1, -⟩
  · simp only [ensureNumChannels, hp]
    have := same_finish (β := β) (ensure_arr l b hc k) false (by simp)
    rwa [finish_batch] at this
  · simp only [ensureNumChannels, hp]
    have := same_finish (β := β) (ensure_arr l (firstOf b) hc k) true (by
      intro _
      have h0 : ∀ a b' : Arr4, Same4 a b' → 0 < b'.s0 → 0 < a.s0 := fun a b' h h' => by rw [h.1]; exact h'
      exact h0 _ _ (ensure_arr l (firstOf b) hc k) (by cases l <;> exact Nat.one_pos))
    have e : (finish true (arrIn l ((firstOf b).withChannels k)) : Raw β) = imageIn l (b.withChannels k) := by
      cases l <;> rfl
    rwa [e] at this
  · simp only [ensureNumChannels, hp]
    have := same_finish (β := β) (ensure_arr l (oneChannel b) (Nat.le_refl 1) k) false (by simp)
    rw [finish_batch] at this
    refine same_trans this ?_
    have e : (oneChannel b).withChannels k = b.withChannels k := by
      simp [Batch.withChannels, oneChannel, hc1]
    rw [e]; exact same_refl _

/-! ## Resizing -/

theorem sample_grid (size k : Nat) (hs : 0 < size) : IsGrid size k (sample size k) := by
  have hcast : ((size - 1 : Nat) : Rat) = (size : Rat) - 1 := by push_cast [Nat.cast_sub hs]; rfl
  refine ⟨?_, ?_, ?_, ?_, ?_⟩
  · intro i hi
    unfold sample
    by_cases hk : k ≤ 1
    · rw [if_pos hk]; exact hs
    rw [if_neg hk]
    have : i * (size - 1) / (k - 1) ≤ size - 1 := by
      apply Nat.div_le_of_le_mul
      exact Nat.mul_le_mul_right _ (by omega)
    omega
  · intro i j hij hj
    unfold sample
    by_cases hk : k ≤ 1
    · rw [if_pos hk, if_pos hk]
    rw [if_neg hk, if_neg hk]
    exact Nat.div_le_div_right (Nat.mul_le_mul_right _ hij)
  · intro _
    simp [sample]
  · intro hk
    unfold sample
    rw [if_neg (by omega), Nat.mul_div_cancel_left _ (by omega)]
  · intro hk i hi
    unfold sample
    rw [if_neg (by omega)]
    have hk1 : ((k - 1 : Nat) : Rat) = (k : Rat) - 1 := by push_cast [Nat.cast_sub (show 1 ≤ k by omega)]; rfl
    rw [← hcast, ← hk1]
    have hpos : (0 : Rat) < ((k - 1 : Nat) : Rat) := by exact_mod_cast (show 0 < k - 1 by omega)
    constructor
    · rw [le_div_iff₀ hpos]
      exact_mod_cast Nat.div_mul_le_self _ _
    · rw [div_lt_iff₀ hpos]
      have h3 : i * (size - 1) < (i * (size - 1) / (k - 1) + 1) * (k - 1) := by
        rw [Nat.add_mul, Nat.one_mul]
        exact Nat.lt_div_mul_add (by omega)
      exact_mod_cast h3

theorem id_grid (size : Nat) : IsGrid size size (fun i => i) := by
  refine ⟨fun i hi => hi, fun i j h _ => h, fun _ => rfl, fun _ => rfl, fun hk i hi => ?_⟩
  have hpos : (0 : Rat) < (size : Rat) - 1 := by
    have : (2 : Rat) ≤ (size : Rat) := by exact_mod_cast hk
    linarith
  rw [mul_div_assoc, div_self hpos.ne', mul_one]
  exact ⟨le_refl _, by linarith⟩

/-- `astype(uint8)` keeps bytes and cuts off the fraction of other pixel values. -/
theorem toU8_spec (v : Rat) (h0 : 0 ≤ v) (h1 : v < 256) : ∃ k : Int, toU8 v = k ∧ (k : Rat) ≤ v ∧ v < k + 1 := by
  refine ⟨v.floor, ?_, Int.floor_le v, Int.lt_floor_add_one v⟩
  have hf0 : 0 ≤ v.floor := Int.floor_nonneg.mpr h0
  have hf1 : v.floor < 256 := by
    have : (v.floor : Rat) ≤ v := Int.floor_le v
    have h3 : (v.floor : Rat) < (256 : Int) := by push_cast; linarith
    exact_mod_cast h3
  simp only [toU8, pyInt, if_pos h0]
  rw [Int.emod_eq_of_lt hf0 hf1]

theorem resizeNhwc_ok (b : Batch) (hh : 0 < b.h) (hw : 0 < b.w) (H W : Nat) :
    ∃ rows cols, IsGrid b.h H rows ∧ IsGrid b.w W cols ∧
      resizeNhwc (arrIn .nhwc b) H W = .ok (arrIn .nhwc (b.sampled H W rows cols id)) := by
  unfold resizeNhwc
  by_cases h1 : (((arrIn .nhwc b).s1 : Nat) : Int) = (H : Int) ∧ (((arrIn .nhwc b).s2 : Nat) : Int) = (W : Int)
  · rw [if_pos h1]
    obtain ⟨e1, e2⟩ := h1
    have e1' : b.h = H := by exact_mod_cast e1
    have e2' : b.w = W := by exact_mod_cast e2
    subst e1' e2'
    exact ⟨_, _, id_grid _, id_grid _, rfl⟩
  · rw [if_neg h1, if_neg (by omega)]
    have h2 : ¬ (((arrIn .nhwc b).s1 = 0 ∧ 0 < (H : Int)) ∨ ((arrIn .nhwc b).s2 = 0 ∧ 0 < (W : Int))) := by
      simp only [arrIn]; omega
    rw [if_neg h2]
    exact ⟨_, _, sample_grid b.h H hh, sample_grid b.w W hw, rfl⟩

/-- **C70.**  `resize` gives images of exactly the requested size; every pixel is the pixel of the input at an evenly spaced
row and column, cut down to a byte. -/
theorem C70_resize (b : Batch) (l : Layout) (X : Raw β) (store : Layout → Batch → Raw β) (h : Reads b l X store)
    (hh : 0 < b.h) (hw : 0 < b.w) (H W : Nat) :
    ∃ (r : Raw β) (rows cols : Nat → Nat) (byte : Rat → Rat), resize H W X = .ok r ∧
      IsGrid b.h H rows ∧ IsGrid b.w W cols ∧
      (∀ v : Rat, 0 ≤ v → v < 256 → ∃ k : Int, byte v = k ∧ (k : Rat) ≤ v ∧ v < k + 1) ∧
      Same r (store l (b.sampled H W rows cols byte)) := by
  have key : ∀ b' : Batch, b'.h = b.h → b'.w = b.w → ∃ rows cols, IsGrid b.h H rows ∧ IsGrid b.w W cols ∧
      ∀ s : Bool, prepare X = some (arrIn l b', s, l) →
      resize H W X = .ok (finish s (arrIn l (b'.sampled H W rows cols toU8))) := by
    intro b' e1 e2
    obtain ⟨rows, cols, g1, g2, hr⟩ := resizeNhwc_ok b' (by omega) (by omega) H W
    refine ⟨rows, cols, e1 ▸ g1, e2 ▸ g2, fun s hp => ?_⟩
    unfold resize
    rw [hp]
    cases l
    · show (do
        let r ← resizeNhwc (arrIn .nhwc b') H W
        .ok (finish s (castU8 (toNchw r)))) = _
      rw [hr]; rfl
    · show (do
        let r ← resizeNhwc (arrIn .nhwc b') H W
        .ok (finish s (castU8 r))) = _
      rw [hr]; rfl
  rcases prepare_reads h with ⟨hp, rfl⟩ | ⟨hp, rfl⟩ | ⟨hp, rfl, hc1, hl⟩
  · obtain ⟨rows, cols, g1, g2, hr⟩ := key b rfl rfl
    refine ⟨_, rows, cols, toU8, hr _ hp, g1, g2, fun v => toU8_spec v, ?_⟩
    rw [finish_batch]; exact same_refl _
  · obtain ⟨rows, cols, g1, g2, hr⟩ := key (firstOf b) rfl rfl
    refine ⟨_, rows, cols, toU8, hr _ hp, g1, g2, fun v => toU8_spec v, ?_⟩
    have e : (finish true (arrIn l ((firstOf b).sampled H W rows cols toU8)) : Raw β) =
        imageIn l (b.sampled H W rows cols toU8) := by cases l <;> rfl
    rw [e]; exact same_refl _
  · obtain ⟨rows, cols, g1, g2, hr⟩ := key (oneChannel b) rfl rfl
    refine ⟨_, rows, cols, toU8, hr _ hp, g1, g2, fun v => toU8_spec v, ?_⟩
    rw [finish_batch]
    exact same_oneChannel l (b.sampled H W rows cols toU8) hc1

/-! ## Normalising -/

theorem normalize_arr (l : Layout) (b : Batch) (mean std : List Rat) (hm : mean.length = b.c) (hs : std.length = b.c) (s : Bool)
    (hs0 : s = true → 0 < b.n) (X : Raw β) (hp : prepare X = some (arrIn l b, s, l)) :
    ∃ r, normalize mean std X = .ok r ∧
      Same r (finish s (arrIn l (b.standardized (fun c => mean.getD c 0) (fun c => std.getD c 0)))) := by
  unfold normalize
  rw [hp]
  simp only [channels_arrIn]
  rw [if_neg (by omega), if_neg (by omega)]
  refine ⟨_, rfl, ?_⟩
  have e : (if b.c = 1 then mean.length else b.c) = b.c := by split_ifs <;> omega
  have hsel : ∀ c < b.c, (if b.c = 1 then 0 else c) = c := by
    intro c hc; split_ifs <;> omega
  have hpar : ∀ c < b.c, (if mean.length = 1 then 0 else c) = c := by
    intro c hc; split_ifs <;> omega
  apply same_finish
  · cases l
    · refine ⟨rfl, e, rfl, rfl, fun i j m o hi hj hm' ho => ?_⟩
      have hj' : j < b.c := by simpa only [pickChannels, e] using hj
      simp only [pickChannels, Option.elim_some, arrIn, Batch.standardized]
      rw [hsel j hj', hpar j hj']
    · refine ⟨rfl, rfl, rfl, e, fun i j m o hi hj hm' ho => ?_⟩
      have ho' : o < b.c := by simpa only [pickChannels, e] using ho
      simp only [pickChannels, Option.elim_some, arrIn, Batch.standardized]
      rw [hsel o ho', hpar o ho']
  · intro h
    have := hs0 h
    cases l <;> exact this

/-- **C70.**  `normalize` replaces every value by `(x - mean) / std` of its channel. -/
theorem C70_normalize (b : Batch) (l : Layout) (X : Raw β) (store : Layout → Batch → Raw β) (h : Reads b l X store)
    (mean std : List Rat) (hm : mean.length = b.c) (hs : std.length = b.c) :
    ∃ r, normalize mean std X = .ok r ∧
      Same r (store l (b.standardized (fun c => mean.getD c 0) (fun c => std.getD c 0))) := by
  rcases prepare_reads h with ⟨hp, rfl⟩ | ⟨hp, rfl⟩ | ⟨hp, rfl, hc1, -⟩
  · obtain ⟨r, h1, h2⟩ := normalize_arr l b mean std hm hs false (by simp) X hp
    rw [finish_batch] at h2
    exact ⟨r, h1, h2⟩
  · obtain ⟨r, h1, h2⟩ := normalize_arr l (firstOf b) mean std hm hs true (fun _ => Nat.one_pos) X hp
    refine ⟨r, h1, ?_⟩
    have e : (finish true (arrIn l ((firstOf b).standardized (fun c => mean.getD c 0) (fun c => std.getD c 0))) : Raw β) =
        imageIn l (b.standardized (fun c => mean.getD c 0) (fun c => std.getD c 0)) := by cases l <;> rfl
    rwa [e] at h2
  · obtain ⟨r, h1, h2⟩ := normalize_arr l (oneChannel b) mean std (by rw [hm, hc1]; rfl) (by rw [hs, hc1]; rfl) false (by simp) X hp
    refine ⟨r, h1, same_trans h2 ?_⟩
    rw [finish_batch]
    refine same_trans ?_ (same_oneChannel l (b.standardized (fun c => mean.getD c 0) (fun c => std.getD c 0)) hc1)
    cases l
    · refine ⟨rfl, rfl, rfl, rfl, fun i j m o hi hj hm' ho => ?_⟩
      have : j = 0 := by simp only [Batch.standardized, oneChannel] at hj; omega
      subst this; rfl
    · refine ⟨rfl, rfl, rfl, rfl, fun i j m o hi hj hm' ho => ?_⟩
      have : o = 0 := by simp only [Batch.standardized, oneChannel] at ho; omega
      subst this; rfl

/-- **C70.**  `normalize` accepts exactly parameter lists of equal length that fit the channels or where one side has size one. -/
theorem C70_normalize_accepts (b : Batch) (l : Layout) (X : Raw β) (store : Layout → Batch → Raw β) (h : Reads b l X store)
    (mean std : List Rat) :
    (∃ r, normalize mean std X = .ok r) ↔
      std.length = mean.length ∧ (b.c = mean.length ∨ b.c = 1 ∨ mean.length = 1) := by
  have key : ∀ (b' : Batch) (s : Bool), b'.c = b.c → prepare X = some (arrIn l b', s, l) →
      ((∃ r, normalize mean std X = .ok r) ↔
      std.length = mean.length ∧ (b.c = mean.length ∨ b.c = 1 ∨ mean.length = 1)) := by
    intro b' s hc hp
    unfold normalize
    rw [hp]
    simp only [channels_arrIn, hc]
    by_cases h1 : std.length ≠ mean.length
    · rw [if_pos h1]; simp [h1]
    rw [if_neg h1]
    by_cases h2 : b.c ≠ mean.length ∧ b.c ≠ 1 ∧ mean.length ≠ 1
    · rw [if_pos h2]
      simp only [reduceCtorEq, exists_false, false_iff]
      rintro ⟨-, h⟩
      omega
    · rw [if_neg h2]
      simp only [Except.ok.injEq, exists_eq', true_iff]
      omega
  rcases prepare_reads h with ⟨hp, -⟩ | ⟨hp, -⟩ | ⟨hp, -, hc1, -⟩
  · exact key b _ rfl hp
  · exact key (firstOf b) _ rfl hp
  · exact key (oneChannel b) _ hc1.symm hp

/-! ## Squeezing and arrays that are no images -/

/-- **C70.**  `squeeze` removes the channel axis of grey images stored channels last. -/
theorem C70_squeeze (b : Batch) (hc : b.c = 1) : squeeze (-1) (b.nhwc : Raw β) = .ok b.grey := by
  simp [squeeze, Batch.nhwc, Batch.grey, hc]

/-- **C70.**  What is no image batch is left alone by every step. -/
theorem C70_other (x : β) (d : Option Layout) (k H W : Int) (mean std : List Rat) :
    channelsOrder d (.other x) = .other x ∧ ensureNumChannels k (.other x) = .other x ∧
      resize H W (.other x) = .ok (.other x) ∧ normalize mean std (.other x) = .ok (.other x) ∧
      squeeze k (.other x) = .ok (.other x) := ⟨rfl, rfl, rfl, rfl, rfl⟩

/-! ## Violations -/

/-- **C70 (violated).**  "Converting a batch with known order to channels-last moves the channels": a channels-first batch
of width 3 is taken for channels-last and left as it is. -/
theorem C70_order_violated :
    ∃ b : Batch, Few b.c ∧ b.w = 3 ∧ ¬ Same (channelsOrder (some .nhwc) (b.nchw : Raw Unit)) b.nhwc := by
  refine ⟨⟨1, 3, 8, 3, fun _ _ _ _ => 0⟩, ⟨by decide, by decide⟩, rfl, ?_⟩
  have e : channelsOrder (some .nhwc) ((⟨1, 3, 8, 3, fun _ _ _ _ => 0⟩ : Batch).nchw : Raw Unit) =
      (⟨1, 3, 8, 3, fun _ _ _ _ => 0⟩ : Batch).nchw := by
    simp [channelsOrder, prepare, Batch.nchw, inferLayout4, finish]
  rw [e]
  simp [Same, Batch.nchw, Batch.nhwc]

/-- **C70 (violated).**  "The number of samples is kept": three grey images are taken for one image with three channels, so
asking for one channel drops two images. -/
theorem C70_grey_violated :
    ∃ b : Batch, b.c = 1 ∧ samples (b.grey : Raw Unit) = some 3 ∧ samples (ensureNumChannels 1 (b.grey : Raw Unit)) = some 1 := by
  refine ⟨⟨3, 1, 28, 28, fun _ _ _ _ => 0⟩, rfl, rfl, ?_⟩
  simp [ensureNumChannels, prepare, Batch.grey, inferLayout3, finish, channels, samples, pickChannels, sliceEnd]

/-- **C70 (violated).**  "Resizing to the same size changes nothing": values between 0 and 1 all become 0. -/
theorem C70_resize_violated :
    ∃ (b : Batch) (r : Arr4), Reads b .nhwc (b.nhwc : Raw Unit) batchIn ∧ b.px 0 0 0 0 = 1 / 2 ∧
      resize b.h b.w (b.nhwc : Raw Unit) = .ok (.d4 r) ∧ r.at4 0 0 0 0 = 0 := by
  refine ⟨⟨1, 1, 8, 8, fun _ _ _ _ => 1 / 2⟩, ⟨1, 8, 8, 1, fun _ _ _ _ => toU8 (1 / 2)⟩, .nhwc ⟨by decide, by decide⟩, rfl, ?_, by
    show toU8 (1 / 2) = 0; decide +kernel⟩
  simp [resize, prepare, Batch.nhwc, inferLayout4, finish, resizeNhwc, castU8, bind, Except.bind]

/-! ## Non-vacuity -/

/-- Two colour images of 2 × 8 pixels with different values everywhere. -/
def demoBatch : Batch := ⟨2, 3, 2, 8, fun n c h w => (n * 48 + c * 16 + h * 8 + w : Nat)⟩

example : Reads demoBatch .nchw (demoBatch.nchw : Raw Unit) batchIn := .nchw ⟨by decide, by decide⟩ (by unfold Few demoBatch; simp)
example : Reads demoBatch .nhwc (demoBatch.hwc : Raw Unit) imageIn := .hwc ⟨by decide, by decide⟩
example : Reads ⟨5, 1, 8, 8, fun _ _ _ _ => 0⟩ .nchw ((⟨5, 1, 8, 8, fun _ _ _ _ => 0⟩ : Batch).grey : Raw Unit) batchIn :=
  .grey rfl (by decide) (by decide) (by decide) (by unfold Few; simp)
example : (List.range 5).map (sample 9 5) = [0, 2, 4, 6, 8] ∧ (List.range 3).map (sample 8 3) = [0, 3, 7] := by decide

end ModSSC.Preprocess.Vision
