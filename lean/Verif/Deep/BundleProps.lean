import Verif.Deep.BundleModel
import Verif.ExceptLemmas

/-!
# C162: a network built for a dataset scores its batches

The specification is `Scores`: whatever the number of rows, the network takes the batch and returns one score per row and
class.
-/

namespace ModSSC.Deep.Bundle
open ModSSC

namespace Spec

/-- The network takes any batch of rows of shape `row` and returns one score per row and class. -/
def Scores (net : Net) (classes : Nat) (row : List Nat) : Prop :=
  ∀ (n : Nat) (x : Tensor), x.shape = n :: row →
    ∃ o, net.forward (.tensor x) = .ok o ∧ o.logits = [n, classes]

/-- The network refuses a batch. -/
def Refuses (net : Net) (x : Tensor) : Prop := ∃ e, net.forward (.tensor x) = .error e

/-- Features that come with the scores have `d` columns and the rows of the batch. -/
def FeatCols (net : Net) (d : Nat) (row : List Nat) : Prop :=
  ∀ (n : Nat) (x : Tensor) (o : Output) (f : List Nat), x.shape = n :: row →
    net.forward (.tensor x) = .ok o → o.feat = some f → f = [n, d]

/-- A pretrained network as torchvision provides it: on images with the channels it expects it computes, for the head,
`width` features per image. -/
def Lawful (b : Backbone) : Prop :=
  ∃ e, b.inChannels = some e ∧ ∀ n h w, b.feats [n, e, h, w] = .ok [n, b.width]

/-- An audio network as torchaudio provides it: features of a fixed width, over time or averaged. -/
def LawfulAudio (b : Backbone) : Prop :=
  ∃ d, ∀ n l, (∃ t, b.feats [n, l] = .ok [n, t, d]) ∨ b.feats [n, l] = .ok [n, d]

end Spec

open Spec

/-! ### Layers -/

theorem linear_run (i o : Nat) (pre : List Nat) : (Layer.linear i o).run (pre ++ [i]) = .ok (pre ++ [o]) := by
  simp [Layer.run]

theorem linear_run2 (i o n : Nat) : (Layer.linear i o).run [n, i] = .ok [n, o] := linear_run i o [n]

theorem linear_ok {i o : Nat} {s t : List Nat} (h : (Layer.linear i o).run s = .ok t) :
    s.getLast? = some i ∧ t = s.dropLast ++ [o] := by
  simp only [Layer.run] at h
  cases hs : s.getLast? with
  | none => simp [hs] at h
  | some d =>
    simp only [hs] at h
    by_cases hd : d = i
    · rw [if_pos hd] at h
      injection h with h
      exact ⟨by rw [hd], h.symm⟩
    · rw [if_neg hd] at h
      exact absurd h (by simp)

theorem linear_length {i o : Nat} {s t : List Nat} (h : (Layer.linear i o).run s = .ok t) : t.length = s.length := by
  obtain ⟨h1, h2⟩ := linear_ok h
  have : s ≠ [] := by rintro rfl; simp at h1
  have := List.length_pos_iff.2 this
  rw [h2]
  simp
  omega

theorem runLayers_append (a b : List Layer) (s : List Nat) :
    runLayers (a ++ b) s = (runLayers a s >>= runLayers b) := by
  induction a generalizing s with
  | nil => rfl
  | cons l ls ih =>
    simp only [List.cons_append, runLayers]
    cases l.run s with
    | error e => rfl
    | ok s' => exact ih s'

/-- Layers that keep the number of axes. -/
def Dense (l : Layer) : Prop := (∃ i o, l = .linear i o) ∨ l = .act ∨ l = .dropout

theorem dense_length {ls : List Layer} (hd : ∀ l ∈ ls, Dense l) {s t : List Nat} (h : runLayers ls s = .ok t) :
    t.length = s.length := by
  induction ls generalizing s with
  | nil => injection h with h; rw [h]
  | cons l ls ih =>
    simp only [runLayers] at h
    rw [ebind_ok] at h
    obtain ⟨s', h1, h2⟩ := h
    rw [ih (fun l hl => hd l (List.mem_cons_of_mem _ hl)) h2]
    rcases hd l List.mem_cons_self with ⟨i, o, rfl⟩ | rfl | rfl
    · exact linear_length h1
    · injection h1 with h1; rw [h1]
    · injection h1 with h1; rw [h1]

theorem mkAct_ok {a : String} {l : Layer} (h : mkAct a = .ok l) : l = .act := by
  unfold mkAct at h
  split at h
  · injection h with h; exact h.symm
  · exact absurd h (by simp)

theorem dropoutIf_ok {p : Rat} {l : List Layer} (h : dropoutIf p = .ok l) : l = [] ∨ l = [.dropout] := by
  unfold dropoutIf mkDropout at h
  by_cases hp : 0 < p
  · rw [if_pos hp] at h
    by_cases h1 : p < 0 ∨ 1 < p
    · rw [if_pos h1] at h; exact absurd h (by simp [bind, Except.bind])
    · rw [if_neg h1] at h; injection h with h; exact .inr h.symm
  · rw [if_neg hp] at h; injection h with h; exact .inl h.symm

theorem run_dropoutIf {p : Rat} {l : List Layer} (h : dropoutIf p = .ok l) (s : List Nat) : runLayers l s = .ok s := by
  rcases dropoutIf_ok h with rfl | rfl <;> rfl

theorem hiddenLayers_run {act : String} {p : Rat} {i o : Nat} {hs : List Int} {ls : List Layer}
    (h : hiddenLayers act p i hs = .ok (ls, o)) (pre : List Nat) :
    runLayers ls (pre ++ [i]) = .ok (pre ++ [o]) := by
  induction hs generalizing i ls with
  | nil =>
    simp only [hiddenLayers] at h
    injection h with h
    injection h with h1 h2
    subst h1 h2
    rfl
  | cons x hs ih =>
    simp only [hiddenLayers] at h
    by_cases hx : x ≤ 0
    · rw [if_pos hx] at h; exact absurd h (by simp)
    · rw [if_neg hx] at h
      rw [ebind_ok] at h
      obtain ⟨a, ha, h⟩ := h
      rw [ebind_ok] at h
      obtain ⟨d, hdr, h⟩ := h
      rw [ebind_ok] at h
      obtain ⟨r, hr, h⟩ := h
      obtain ⟨rl, ro⟩ := r
      injection h with h
      injection h with h1 h2
      simp only at h1 h2
      subst h2
      rw [← h1, mkAct_ok ha]
      have := ih hr
      simp only [List.cons_append, runLayers]
      rw [ebind_of_ok (linear_run i x.toNat pre), ebind_of_ok (show Layer.act.run _ = .ok _ from rfl), runLayers_append,
        run_dropoutIf hdr]
      exact this

theorem hiddenLayers_dense {act : String} {p : Rat} {i o : Nat} {hs : List Int} {ls : List Layer}
    (h : hiddenLayers act p i hs = .ok (ls, o)) : ∀ l ∈ ls, Dense l := by
  induction hs generalizing i ls with
  | nil =>
    simp only [hiddenLayers] at h
    injection h with h
    injection h with h1 h2
    subst h1
    intro l hl
    cases hl
  | cons x hs ih =>
    simp only [hiddenLayers] at h
    by_cases hx : x ≤ 0
    · rw [if_pos hx] at h; exact absurd h (by simp)
    · rw [if_neg hx] at h
      rw [ebind_ok] at h
      obtain ⟨a, ha, h⟩ := h
      rw [ebind_ok] at h
      obtain ⟨d, hdr, h⟩ := h
      rw [ebind_ok] at h
      obtain ⟨r, hr, h⟩ := h
      obtain ⟨rl, ro⟩ := r
      injection h with h
      injection h with h1 h2
      simp only at h1 h2
      subst h2
      intro l hl
      rw [← h1, mkAct_ok ha] at hl
      simp only [List.cons_append, List.mem_cons, List.mem_append] at hl
      rcases hl with rfl | rfl | hl | hl
      · exact .inl ⟨_, _, rfl⟩
      · exact .inr (.inl rfl)
      · rcases dropoutIf_ok hdr with rfl | rfl
        · cases hl
        · simp only [List.mem_singleton] at hl
          exact .inr (.inr hl)
      · exact ih hr l hl

theorem bundleAll_ok {net : Net} {ema : Bool} {seed : Int} {dev : String} {lr wd : Rat} {b : Bundle}
    (h : bundleAll net ema seed dev lr wd = .ok b) :
    b = ⟨net, if ema then some net else none, seed, dev, .all, none⟩ := by
  unfold bundleAll at h
  rw [ebind_ok] at h
  obtain ⟨_, _, h⟩ := h
  injection h with h
  exact h.symm

theorem bundleFrozen_ok {net : Net} {ema : Bool} {seed : Int} {dev : String} {fr : Bool} {lr wd : Rat} {b : Bundle}
    (h : bundleFrozen net ema seed dev fr lr wd = .ok b) :
    b = ⟨net, if ema then some net else none, seed, dev, if fr then .head else .all, none⟩ := by
  unfold bundleFrozen at h
  rw [ebind_ok] at h
  obtain ⟨_, _, h⟩ := h
  injection h with h
  exact h.symm

/-- What a successful call of the factory went through. -/
theorem build_ok {ext : Ext} {id : String} {be : Option String} {p : Params} {x : Tensor} {c : Option Int} {seed : Int}
    {ema : Bool} {b : Bundle} (h : build ext id be p x c seed ema = .ok b) :
    (be = none ∨ be = some "" ∨ be = some "auto" ∨ be = some "torch") ∧
      ∃ k : Nat, 0 < k ∧ c = some (k : Int) ∧ dispatch ext id (takeSample x) k p seed ema = .ok b := by
  unfold build at h
  by_cases hb : backendOf be ≠ "torch"
  · rw [if_pos hb] at h; exact absurd h (by simp)
  · rw [if_neg hb] at h
    refine ⟨?_, ?_⟩
    · cases be with
      | none => exact .inl rfl
      | some s =>
        simp only [ne_eq, Decidable.not_not, backendOf] at hb
        by_cases hs : s = "" ∨ s = "auto"
        · rcases hs with rfl | rfl
          · exact .inr (.inl rfl)
          · exact .inr (.inr (.inl rfl))
        · rw [if_neg hs] at hb
          exact .inr (.inr (.inr (by rw [hb])))
    · cases c with
      | none => exact absurd h (by simp)
      | some z =>
        simp only at h
        by_cases hz : z ≤ 0
        · rw [if_pos hz] at h; exact absurd h (by simp)
        · rw [if_neg hz] at h
          refine ⟨z.toNat, by omega, ?_, h⟩
          congr 1
          omega

theorem takeSample_shape {x : Tensor} {m : Nat} {row : List Nat} (h : x.shape = m :: row) :
    (takeSample x).shape = (if 1 < m then 1 else m) :: row := by
  unfold takeSample
  rw [h]
  simp only
  by_cases hm : 1 < m
  · rw [if_pos hm, if_pos hm]
  · rw [if_neg hm, if_neg hm, h]

theorem takeSample_device (x : Tensor) : (takeSample x).device = x.device := by
  unfold takeSample
  split
  · split <;> rfl
  · rfl


/-! ### Dense networks -/

theorem buildMlp_ok {x : Tensor} {k : Nat} {p : Params} {seed : Int} {ema : Bool} {forced : Option (List Int)}
    {wf : Bool} {b : Bundle} (h : buildMlp x k p seed ema forced wf = .ok b) :
    ∃ d hs ls o, inputDim x.shape = .ok d ∧
      hiddenLayers p.activation (p.dropout.getD (1 / 10)) d hs = .ok (ls, o) ∧
      b = ⟨if wf then .feat ls (.linear o k) else .seq (ls ++ [.linear o k]),
        if ema then some (if wf then .feat ls (.linear o k) else .seq (ls ++ [.linear o k])) else none,
        seed, x.device, .all, none⟩ := by
  unfold buildMlp at h
  rw [ebind_ok] at h
  obtain ⟨d, hd, h⟩ := h
  rw [ebind_ok] at h
  obtain ⟨hs, _, h⟩ := h
  rw [ebind_ok] at h
  obtain ⟨r, hr, h⟩ := h
  obtain ⟨ls, o⟩ := r
  exact ⟨d, hs, ls, o, hd, hr, bundleAll_ok h⟩

theorem inputDim_row {m d e : Nat} (h : inputDim [m, d] = .ok e) : e = d := by
  simp only [inputDim] at h
  by_cases hm : m = 0
  · rw [if_pos hm] at h; exact absurd h (by simp)
  · rw [if_neg hm] at h
    injection h with h
    simp at h
    exact h.symm

theorem mlp_scores {x : Tensor} {k : Nat} {p : Params} {seed : Int} {ema : Bool} {forced : Option (List Int)}
    {wf : Bool} {b : Bundle} (h : buildMlp x k p seed ema forced wf = .ok b) {m : Nat} {row : List Nat}
    (hx : x.shape = m :: row) : Scores b.net k row ↔ row.length = 1 := by
  obtain ⟨d, hs, ls, o, hd, hl, rfl⟩ := buildMlp_ok h
  constructor
  · intro hS
    obtain ⟨out, h1, h2⟩ := hS 2 ⟨2 :: row, true, [], ""⟩ rfl
    have key : out.logits.length = row.length + 1 := by
      cases wf with
      | true =>
        simp only [if_true, Net.forward] at h1
        rw [ebind_ok] at h1
        obtain ⟨f, hf, h1⟩ := h1
        rw [ebind_ok] at h1
        obtain ⟨s, hs', h1⟩ := h1
        injection h1 with h1
        rw [← h1]
        simp only [Output.logits]
        rw [linear_length hs', dense_length (hiddenLayers_dense hl) hf]
        rfl
      | false =>
        simp only [Bool.false_eq_true, if_false, Net.forward] at h1
        rw [ebind_ok] at h1
        obtain ⟨s, hs', h1⟩ := h1
        injection h1 with h1
        rw [← h1]
        simp only [Output.logits]
        refine (dense_length ?_ hs').trans rfl
        intro l hl'
        rcases List.mem_append.1 hl' with hl' | hl'
        · exact hiddenLayers_dense hl l hl'
        · simp only [List.mem_singleton] at hl'
          exact .inl ⟨_, _, hl'⟩
    rw [h2] at key
    simp at key
    omega
  · intro hrow n y hy
    obtain ⟨e, rfl⟩ := List.length_eq_one_iff.1 hrow
    rw [hx] at hd
    have := inputDim_row hd
    subst this
    have hrun : runLayers ls [n, d] = .ok [n, o] := hiddenLayers_run hl [n]
    cases wf with
    | true =>
      refine ⟨.mapping [n, k] [n, o], ?_, rfl⟩
      simp only [if_true, Net.forward, hy]
      rw [ebind_of_ok hrun, ebind_of_ok (linear_run2 o k n)]
      rfl
    | false =>
      refine ⟨.tensor [n, k], ?_, rfl⟩
      simp only [Bool.false_eq_true, if_false, Net.forward, hy]
      rw [runLayers_append]
      have : (runLayers ls [n, d] >>= runLayers [.linear o k]) = .ok [n, k] := by
        rw [ebind_of_ok hrun]
        simp only [runLayers]
        rw [ebind_of_ok (linear_run2 o k n)]
      rw [ebind_of_ok this]
      rfl

/-! ### Convolutions -/

theorem convLen_ok {k p l r : Nat} (h : convLen k p l = .ok r) : 1 ≤ k ∧ 0 < r ∧ r = l + 2 * p - k + 1 := by
  unfold convLen at h
  split at h
  · rename_i hc
    injection h with h
    omega
  · exact absurd h (by simp)

theorem convLen_half {k l : Nat} (hk : 1 ≤ k) (hl : 0 < l) : ∃ r, 0 < r ∧ convLen k (k / 2) l = .ok r := by
  refine ⟨l + 2 * (k / 2) - k + 1, by omega, ?_⟩
  unfold convLen
  rw [if_pos]
  omega

theorem size_ok {z : Int} {n : Nat} (h : size z = .ok n) : (n : Int) = z := by
  unfold size at h
  split at h
  · exact absurd h (by simp)
  · injection h with h
    omega

theorem convLayers_cons {conv : Nat → Nat → Nat → Nat → Layer} {act : String} {k i o : Nat} {c : Int} {cs : List Int}
    {ls : List Layer} (h : convLayers conv act k i (c :: cs) = .ok (ls, o)) :
    ∃ (m : Nat) (rest : List Layer), (m : Int) = c ∧ convLayers conv act k m cs = .ok (rest, o) ∧
      ls = conv i m k (k / 2) :: .act :: rest := by
  simp only [convLayers] at h
  rw [ebind_ok] at h
  obtain ⟨m, hm, h⟩ := h
  rw [ebind_ok] at h
  obtain ⟨a, ha, h⟩ := h
  rw [ebind_ok] at h
  obtain ⟨r, hr, h⟩ := h
  obtain ⟨rl, ro⟩ := r
  injection h with h
  injection h with h1 h2
  simp only at h1 h2
  subst h2
  refine ⟨m, rl, size_ok hm, hr, ?_⟩
  rw [← h1, mkAct_ok ha]

theorem convLayers_nil {conv : Nat → Nat → Nat → Nat → Layer} {act : String} {k i o : Nat}
    {ls : List Layer} (h : convLayers conv act k i [] = .ok (ls, o)) : ls = [] ∧ o = i := by
  simp only [convLayers] at h
  injection h with h
  injection h with h1 h2
  exact ⟨h1.symm, h2.symm⟩

theorem conv2_run {act : String} {k : Nat} (hk : 1 ≤ k) {cs : List Int} (hc : ∀ c ∈ cs, 0 < c) :
    ∀ {i o : Nat} {ls : List Layer}, 0 < i → convLayers .conv2 act k i cs = .ok (ls, o) →
      0 < o ∧ ∀ n h w : Nat, 0 < h → 0 < w →
        ∃ h' w', 0 < h' ∧ 0 < w' ∧ runLayers ls [n, i, h, w] = .ok [n, o, h', w'] := by
  induction cs with
  | nil =>
    intro i o ls hi h
    obtain ⟨rfl, rfl⟩ := convLayers_nil h
    exact ⟨hi, fun n h w hh hw => ⟨h, w, hh, hw, rfl⟩⟩
  | cons c cs ih =>
    intro i o ls hi h
    obtain ⟨m, rest, hm, hr, rfl⟩ := convLayers_cons h
    have hc0 := hc c List.mem_cons_self
    obtain ⟨ho, hrun⟩ := ih (fun c hc' => hc c (List.mem_cons_of_mem _ hc')) (by omega : 0 < m) hr
    refine ⟨ho, fun n h w hh hw => ?_⟩
    obtain ⟨h1, hh1, hc1⟩ := convLen_half hk hh
    obtain ⟨w1, hw1, hc2⟩ := convLen_half hk hw
    obtain ⟨h2, w2, hh2, hw2, h3⟩ := hrun n h1 w1 hh1 hw1
    refine ⟨h2, w2, hh2, hw2, ?_⟩
    simp only [runLayers]
    have e1 : (Layer.conv2 i m k (k / 2)).run [n, i, h, w] = .ok [n, m, h1, w1] := by
      simp only [Layer.run]
      rw [if_pos ⟨trivial, hi⟩, ebind_of_ok hc1, ebind_of_ok hc2]
      rfl
    rw [ebind_of_ok e1, ebind_of_ok (show Layer.act.run _ = .ok _ from rfl), h3]

theorem conv1_run {act : String} {k : Nat} (hk : 1 ≤ k) {cs : List Int} (hc : ∀ c ∈ cs, 0 < c) :
    ∀ {i o : Nat} {ls : List Layer}, 0 < i → convLayers .conv1 act k i cs = .ok (ls, o) →
      0 < o ∧ ∀ n l : Nat, 0 < l → ∃ l', 0 < l' ∧ runLayers ls [n, i, l] = .ok [n, o, l'] := by
  induction cs with
  | nil =>
    intro i o ls hi h
    obtain ⟨rfl, rfl⟩ := convLayers_nil h
    exact ⟨hi, fun n l hl => ⟨l, hl, rfl⟩⟩
  | cons c cs ih =>
    intro i o ls hi h
    obtain ⟨m, rest, hm, hr, rfl⟩ := convLayers_cons h
    have hc0 := hc c List.mem_cons_self
    obtain ⟨ho, hrun⟩ := ih (fun c hc' => hc c (List.mem_cons_of_mem _ hc')) (by omega : 0 < m) hr
    refine ⟨ho, fun n l hl => ?_⟩
    obtain ⟨l1, hl1, hc1⟩ := convLen_half hk hl
    obtain ⟨l2, hl2, h3⟩ := hrun n l1 hl1
    refine ⟨l2, hl2, ?_⟩
    simp only [runLayers]
    have e1 : (Layer.conv1 i m k (k / 2)).run [n, i, l] = .ok [n, m, l1] := by
      simp only [Layer.run]
      rw [if_pos ⟨trivial, hi⟩, ebind_of_ok hc1]
      rfl
    rw [ebind_of_ok e1, ebind_of_ok (show Layer.act.run _ = .ok _ from rfl), h3]

/-- Convolutions on a tensor with one axis less read its first axis as the channels. -/
theorem conv2_unbatched {act : String} {k : Nat} {cs : List Int} :
    ∀ {i o : Nat} {ls : List Layer} {a h w : Nat} {t : List Nat},
      convLayers .conv2 act k i cs = .ok (ls, o) → runLayers ls [a, h, w] = .ok t →
      ∃ h' w', (cs = [] ∧ t = [a, h, w]) ∨ (a = i ∧ t = [o, h', w']) := by
  induction cs with
  | nil =>
    intro i o ls a h w t hc hr
    obtain ⟨rfl, rfl⟩ := convLayers_nil hc
    injection hr with hr
    exact ⟨0, 0, .inl ⟨rfl, hr.symm⟩⟩
  | cons c cs ih =>
    intro i o ls a h w t hc hr
    obtain ⟨m, rest, hm, hrest, rfl⟩ := convLayers_cons hc
    simp only [runLayers] at hr
    rw [ebind_ok] at hr
    obtain ⟨s1, h1, hr⟩ := hr
    rw [ebind_of_ok (show Layer.act.run _ = .ok _ from rfl)] at hr
    simp only [Layer.run] at h1
    by_cases hai : a = i ∧ 0 < a
    · rw [if_pos hai, ebind_ok] at h1
      obtain ⟨h', _, h1⟩ := h1
      rw [ebind_ok] at h1
      obtain ⟨w', _, h1⟩ := h1
      injection h1 with h1
      subst h1
      obtain ⟨h2, w2, hcase⟩ := ih hrest hr
      rcases hcase with ⟨rfl, rfl⟩ | ⟨_, rfl⟩
      · obtain ⟨_, rfl⟩ := convLayers_nil hrest
        exact ⟨h', w', .inr ⟨hai.1, rfl⟩⟩
      · exact ⟨h2, w2, .inr ⟨hai.1, rfl⟩⟩
    · rw [if_neg hai] at h1
      exact absurd h1 (by simp)

theorem conv1_unbatched {act : String} {k : Nat} {cs : List Int} :
    ∀ {i o : Nat} {ls : List Layer} {a l : Nat} {t : List Nat},
      convLayers .conv1 act k i cs = .ok (ls, o) → runLayers ls [a, l] = .ok t →
      ∃ l', (cs = [] ∧ t = [a, l]) ∨ (a = i ∧ t = [o, l']) := by
  induction cs with
  | nil =>
    intro i o ls a l t hc hr
    obtain ⟨rfl, rfl⟩ := convLayers_nil hc
    injection hr with hr
    exact ⟨0, .inl ⟨rfl, hr.symm⟩⟩
  | cons c cs ih =>
    intro i o ls a l t hc hr
    obtain ⟨m, rest, hm, hrest, rfl⟩ := convLayers_cons hc
    simp only [runLayers] at hr
    rw [ebind_ok] at hr
    obtain ⟨s1, h1, hr⟩ := hr
    rw [ebind_of_ok (show Layer.act.run _ = .ok _ from rfl)] at hr
    simp only [Layer.run] at h1
    by_cases hai : a = i ∧ 0 < a
    · rw [if_pos hai, ebind_ok] at h1
      obtain ⟨l', _, h1⟩ := h1
      injection h1 with h1
      subst h1
      obtain ⟨l2, hcase⟩ := ih hrest hr
      rcases hcase with ⟨rfl, rfl⟩ | ⟨_, rfl⟩
      · obtain ⟨_, rfl⟩ := convLayers_nil hrest
        exact ⟨l', .inr ⟨hai.1, rfl⟩⟩
      · exact ⟨l2, .inr ⟨hai.1, rfl⟩⟩
    · rw [if_neg hai] at h1
      exact absurd h1 (by simp)

theorem cnnHead_run {act : String} {p : Rat} {c k : Nat} {fc : Int} {ls : List Layer}
    (h : cnnHead act p c fc k = .ok ls) (n : Nat) : runLayers ls [n, c] = .ok [n, k] := by
  unfold cnnHead at h
  by_cases hf : 0 < fc
  · rw [if_pos hf, ebind_ok] at h
    obtain ⟨a, ha, h⟩ := h
    rw [ebind_ok] at h
    obtain ⟨d, hd, h⟩ := h
    injection h with h
    rw [← h, mkAct_ok ha]
    simp only [List.cons_append, runLayers]
    rw [ebind_of_ok (linear_run2 c fc.toNat n), ebind_of_ok (show Layer.act.run _ = .ok _ from rfl), runLayers_append,
      run_dropoutIf hd]
    simp only [runLayers, bind, Except.bind]
    rw [linear_run2]
  · rw [if_neg hf] at h
    injection h with h
    rw [← h]
    simp only [runLayers]
    rw [ebind_of_ok (linear_run2 c k n)]

/-- The head reads the width it was built for and keeps the rows. -/
theorem cnnHead_ok {act : String} {p : Rat} {c k : Nat} {fc : Int} {ls : List Layer} {n d : Nat} {t : List Nat}
    (h : cnnHead act p c fc k = .ok ls) (hr : runLayers ls [n, d] = .ok t) : d = c ∧ t = [n, k] := by
  have key : d = c := by
    have : ∃ o rest, ls = Layer.linear c o :: rest := by
      unfold cnnHead at h
      by_cases hf : 0 < fc
      · rw [if_pos hf, ebind_ok] at h
        obtain ⟨a, ha, h⟩ := h
        rw [ebind_ok] at h
        obtain ⟨d, hd, h⟩ := h
        injection h with h
        exact ⟨_, _, h.symm⟩
      · rw [if_neg hf] at h
        injection h with h
        exact ⟨_, _, h.symm⟩
    obtain ⟨o, rest, rfl⟩ := this
    simp only [runLayers] at hr
    rw [ebind_ok] at hr
    obtain ⟨s, hs, _⟩ := hr
    have := (linear_ok hs).1
    simp at this
    exact this
  subst key
  rw [cnnHead_run h n] at hr
  injection hr with hr
  exact ⟨rfl, hr.symm⟩

theorem buildImageCnn_ok {x : Tensor} {k : Nat} {p : Params} {seed : Int} {ema : Bool} {b : Bundle}
    (h : buildImageCnn x k p seed ema = .ok b) :
    ∃ (c kk o : Nat) (ls head : List Layer), imageChannels x.shape p.inputShape = .ok c ∧
      (kk : Int) = p.kernelSize.getD 3 ∧
      convLayers .conv2 p.activation kk c (p.convChannels.getD [32, 64]) = .ok (ls, o) ∧
      cnnHead p.activation (p.dropout.getD (1 / 5)) o (p.fcDim.getD 128) k = .ok head ∧
      b = ⟨.cnn ls .pool2 head true, if ema then some (.cnn ls .pool2 head true) else none, seed, x.device, .all, none⟩ := by
  unfold buildImageCnn at h
  rw [ebind_ok] at h
  obtain ⟨c, hc, h⟩ := h
  rw [ebind_ok] at h
  obtain ⟨kk, hk, h⟩ := h
  rw [ebind_ok] at h
  obtain ⟨r, hr, h⟩ := h
  obtain ⟨ls, o⟩ := r
  rw [ebind_ok] at h
  obtain ⟨head, hh, h⟩ := h
  exact ⟨c, kk, o, ls, head, hc, size_ok hk, hr, hh, bundleAll_ok h⟩

theorem buildAudioCnn_ok {x : Tensor} {k : Nat} {p : Params} {seed : Int} {ema : Bool} {b : Bundle}
    (h : buildAudioCnn x k p seed ema = .ok b) :
    ∃ (c kk o : Nat) (ls head : List Layer), audioChannels x.shape p.inputShape = .ok c ∧
      (kk : Int) = p.kernelSize.getD 5 ∧
      convLayers .conv1 p.activation kk c (p.convChannels.getD [16, 32]) = .ok (ls, o) ∧
      cnnHead p.activation (p.dropout.getD (1 / 5)) o (p.fcDim.getD 64) k = .ok head ∧
      b = ⟨.cnn ls .pool1 head false, if ema then some (.cnn ls .pool1 head false) else none, seed, x.device, .all, none⟩ := by
  unfold buildAudioCnn at h
  rw [ebind_ok] at h
  obtain ⟨c, hc, h⟩ := h
  rw [ebind_ok] at h
  obtain ⟨kk, hk, h⟩ := h
  rw [ebind_ok] at h
  obtain ⟨r, hr, h⟩ := h
  obtain ⟨ls, o⟩ := r
  rw [ebind_ok] at h
  obtain ⟨head, hh, h⟩ := h
  exact ⟨c, kk, o, ls, head, hc, size_ok hk, hr, hh, bundleAll_ok h⟩


/-! ### Text -/

theorem cat_same (n f : Nat) : ∀ (l : List (List Nat)) (g : Nat), (∀ a ∈ l, a = [n, f]) →
    l.foldlM catTwo [n, g] = .ok [n, g + f * l.length] := by
  intro l
  induction l with
  | nil => intro g _; rfl
  | cons a l ih =>
    intro g h
    rw [h a List.mem_cons_self]
    simp only [List.foldlM_cons, catTwo, if_true]
    rw [ebind_of_ok rfl, ih (g + f) (fun a ha => h a (List.mem_cons_of_mem _ ha))]
    simp only [List.length_cons, Nat.mul_add, Nat.mul_one]
    congr 3
    omega

theorem textConv_run {i f k n l : Nat} (hi : 0 < i) (hk : 1 ≤ k) (hkl : k ≤ l) :
    textConv (i, f, k) [n, i, l] = .ok [n, f] := by
  have h1 : convLen k 0 l = .ok (l + 2 * 0 - k + 1) := by
    unfold convLen
    rw [if_pos]
    omega
  have e1 : (Layer.conv1 i f k 0).run [n, i, l] = .ok [n, f, l + 2 * 0 - k + 1] := by
    simp only [Layer.run]
    rw [if_pos ⟨trivial, hi⟩, ebind_of_ok h1]
    rfl
  unfold textConv
  rw [ebind_of_ok e1]
  simp [maxDim2]

theorem textForward_run {i f n l k : Nat} {ks : List Nat} (hi : 0 < i) (hne : ks ≠ []) (h : ∀ q ∈ ks, 1 ≤ q ∧ q ≤ l) :
    textForward (ks.map (fun q => (i, f, q))) (.linear (f * ks.length) k) [n, i, l] = .ok [n, k] := by
  have hm : (ks.map (fun q => (i, f, q))).mapM (fun c => textConv c [n, i, l]) =
      .ok (List.replicate ks.length [n, f]) := by
    rw [mapM_ok, List.forall₂_map_left_iff]
    clear hne
    induction ks with
    | nil => exact .nil
    | cons q ks ih =>
      refine .cons ?_ (ih (fun q hq => h q (List.mem_cons_of_mem _ hq)))
      exact textConv_run hi (h q List.mem_cons_self).1 (h q List.mem_cons_self).2
  unfold textForward
  rw [ebind_of_ok hm]
  obtain ⟨q, qs, rfl⟩ := List.exists_cons_of_ne_nil hne
  have hc : catCols (List.replicate (q :: qs).length [n, f]) = .ok [n, f * (q :: qs).length] := by
    simp only [List.length_cons, List.replicate_succ, catCols]
    rw [cat_same n f _ f (fun a ha => List.eq_of_mem_replicate ha)]
    simp only [List.length_replicate, Nat.mul_add, Nat.mul_one]
    congr 3
    omega
  rw [ebind_of_ok hc, linear_run2]

theorem mem_mapM_size {l : List Int} {r : List Nat} (h : l.mapM size = .ok r) :
    r.length = l.length ∧ ∀ n ∈ r, (n : Int) ∈ l := by
  rw [mapM_ok] at h
  induction h with
  | nil => exact ⟨rfl, fun n hn => by cases hn⟩
  | cons hab _ ih =>
    refine ⟨by simp [ih.1], fun n hn => ?_⟩
    rcases List.mem_cons.1 hn with rfl | hn
    · rw [size_ok hab]; exact List.mem_cons_self
    · exact List.mem_cons_of_mem _ (ih.2 n hn)

theorem buildTextCnn_ok {x : Tensor} {k : Nat} {p : Params} {seed : Int} {ema : Bool} {b : Bundle}
    (h : buildTextCnn x k p seed ema = .ok b) :
    ∃ (c l f : Nat) (ks : List Nat), textShape x.shape (p.inputLayout.getD "channels_last") = .ok (c, l) ∧ ks ≠ [] ∧
      (∀ q ∈ ks, q ≤ l ∧ (q : Int) ∈ p.kernelSizes.getD [3, 4, 5]) ∧
      b = ⟨.text (ks.map (fun q => (c, f, q))) (.linear (f * ks.length) k),
        if ema then some (.text (ks.map (fun q => (c, f, q))) (.linear (f * ks.length) k)) else none,
        seed, x.device, .all, none⟩ := by
  unfold buildTextCnn at h
  rw [ebind_ok] at h
  obtain ⟨cl, hcl, h⟩ := h
  obtain ⟨c, l⟩ := cl
  simp only at h
  split at h
  · exact absurd h (by simp)
  · rename_i hu
    rw [ebind_ok] at h
    obtain ⟨f, _, h⟩ := h
    rw [ebind_ok] at h
    obtain ⟨ks, hks, h⟩ := h
    rw [ebind_ok] at h
    obtain ⟨_, _, h⟩ := h
    rw [ebind_ok] at h
    obtain ⟨_, _, h⟩ := h
    obtain ⟨h1, h2⟩ := mem_mapM_size hks
    refine ⟨c, l, f, ks, hcl, ?_, ?_, bundleAll_ok h⟩
    · rintro rfl
      exact hu (List.eq_nil_of_length_eq_zero h1.symm)
    · intro q hq
      have := List.mem_filter.1 (h2 q hq)
      exact ⟨by have := of_decide_eq_true this.2; omega, this.1⟩

/-! ### Recurrent -/

theorem buildLstm_ok {x0 : Tensor} {k : Nat} {p : Params} {seed : Int} {ema : Bool} {b : Bundle}
    (h : buildLstm x0 k p seed ema = .ok b) :
    ∃ (v e hd : Nat), vocabOf p (takeSample x0) = .ok (v : Int) ∧ (e : Int) = p.embedDim.getD 128 ∧
      lstmHidden p = .ok (hd : Int) ∧ 0 < hd ∧
      b.net = .lstm v e hd (p.bidirectional.getD true) p.returnFeatures k ∧
      b.ema = (if ema then some b.net else none) ∧ b.seed = seed ∧ b.device = x0.device ∧ b.trained = .all ∧
      b.features = some (lstmFeatures v e hd (p.bidirectional.getD true)) := by
  unfold buildLstm at h
  simp only at h
  rw [ebind_ok] at h
  obtain ⟨v, hv, h⟩ := h
  rw [ebind_ok] at h
  obtain ⟨vn, hvn, h⟩ := h
  rw [ebind_ok] at h
  obtain ⟨e, he, h⟩ := h
  rw [ebind_ok] at h
  obtain ⟨hd, hh, h⟩ := h
  split at h
  · exact absurd h (by simp)
  · rename_i hpos
    rw [ebind_ok] at h
    obtain ⟨_, _, h⟩ := h
    rw [ebind_ok] at h
    obtain ⟨b', hb', h⟩ := h
    injection h with h
    have hb := bundleAll_ok hb'
    subst hb
    rw [← size_ok hvn] at hv
    have hcast : ((hd.toNat : Nat) : Int) = hd := by omega
    refine ⟨vn, e, hd.toNat, hv, size_ok he, by rw [hcast]; exact hh, by omega, ?_⟩
    rw [← h]
    exact ⟨rfl, rfl, rfl, takeSample_device x0, rfl, rfl⟩

theorem lstmState_run {e hd n l : Nat} {bi : Bool} (hl : 0 < l) :
    lstmState e hd bi [n, l, e] = .ok [n, if bi then 2 * hd else hd] := by
  exact if_pos ⟨rfl, hl⟩

theorem lstm_features {v e hd n l : Nat} {bi : Bool} {x : Tensor} (hx : x.shape = [n, l]) (hl : 0 < l)
    (hv : ∀ t ∈ x.values, 0 ≤ t ∧ t < (v : Int)) :
    lstmFeatures v e hd bi x = .ok [n, if bi then 2 * hd else hd] := by
  have h1 : embedded v e x = .ok [n, l, e] := by
    unfold embedded isEmbedded
    rw [hx]
    rw [if_neg (by simp), if_pos]
    · rfl
    · rw [List.all_eq_true]
      exact fun t ht => decide_eq_true (hv t ht)
  unfold lstmFeatures
  rw [ebind_of_ok h1, lstmState_run hl]

/-! ### Graphs -/

theorem sageRun_run {edges : List (Nat × Nat)} {n : Nat} (he : ∀ e ∈ edges, e.1 < n ∧ e.2 < n) (k : Nat) :
    ∀ (hs : List Nat) (i : Nat), sageRun edges (i :: hs ++ [k]) [n, i] =
      .ok ([n, (i :: hs).getLast (by simp)], [n, k]) := by
  have hall : edges.all (fun e => decide (e.1 < n ∧ e.2 < n)) = true := by
    rw [List.all_eq_true]
    exact fun e h => decide_eq_true (he e h)
  have hconv : ∀ i o, sageConv i o edges [n, i] = .ok [n, o] := by
    intro i o
    exact if_pos ⟨rfl, hall⟩
  intro hs
  induction hs with
  | nil =>
    intro i
    simp only [List.cons_append, List.nil_append, sageRun]
    rw [ebind_of_ok (hconv i k)]
    rfl
  | cons h hs ih =>
    intro i
    have : sageRun edges (i :: h :: hs ++ [k]) [n, i] =
        (sageConv i h edges [n, i] >>= sageRun edges (h :: hs ++ [k])) := by
      cases hs with
      | nil => rfl
      | cons a l => rfl
    rw [this, ebind_of_ok (hconv i h), ih h]
    simp

theorem buildSage_ok {x : Tensor} {k : Nat} {p : Params} {seed : Int} {ema : Bool} {b : Bundle}
    (h : buildSage x k p seed ema = .ok b) :
    ∃ (i : Nat) (l : List Int) (hs : List Nat), x.shape.getLast? = some i ∧ sageHidden p = .ok l ∧
      l.mapM size = .ok hs ∧
      b = ⟨.sage (i :: hs ++ [k]), if ema then some (.sage (i :: hs ++ [k])) else none, seed, x.device, .all, none⟩ := by
  unfold buildSage at h
  rw [ebind_ok] at h
  obtain ⟨l, hl, h⟩ := h
  rw [ebind_ok] at h
  obtain ⟨i, hi, h⟩ := h
  rw [ebind_ok] at h
  obtain ⟨hs, hhs, h⟩ := h
  refine ⟨i, l, hs, ?_, hl, hhs, bundleAll_ok h⟩
  unfold lastDim at hi
  cases hg : x.shape.getLast? with
  | none => rw [hg] at hi; exact absurd hi (by simp)
  | some d => rw [hg] at hi; injection hi with hi; rw [hi]


/-! ### The property -/

variable {ext : Ext} {be : Option String} {p : Params} {x : Tensor} {k : Nat} {seed : Int} {ema : Bool} {b : Bundle}

theorem build_dispatch {id : String} (h : build ext id be p x (some (k : Int)) seed ema = .ok b) :
    0 < k ∧ dispatch ext id (takeSample x) k p seed ema = .ok b := by
  obtain ⟨_, c, hc, hk, h⟩ := build_ok h
  have : k = c := by
    injection hk with hk
    omega
  subst this
  exact ⟨hc, h⟩

/-- C162: a backend that is not torch, no or no positive number of classes, and an unknown classifier are refused. -/
theorem C162_refused (ext : Ext) (id : String) (be : Option String) (p : Params) (x : Tensor) (c : Option Int)
    (seed : Int) (ema : Bool)
    (h : (∃ s, be = some s ∧ s ∉ ["", "auto", "torch"]) ∨ c = none ∨ (∃ z, c = some z ∧ z ≤ 0) ∨
      id ∉ ["mlp", "logreg", "image_cnn", "audio_cnn", "text_cnn", "image_pretrained", "audio_pretrained", "lstm_scratch",
        "graphsage_inductive"]) :
    build ext id be p x c seed ema = .error .validation := by
  unfold build
  by_cases hb : backendOf be ≠ "torch"
  · rw [if_pos hb]
  rw [if_neg hb]
  rcases h with ⟨s, rfl, hs⟩ | rfl | ⟨z, rfl, hz⟩ | hid
  · exfalso
    simp only [List.mem_cons, List.not_mem_nil, or_false, not_or] at hs
    simp only [ne_eq, Decidable.not_not, backendOf, hs.1, hs.2.1, or_self, if_false] at hb
    exact hs.2.2 hb
  · rfl
  · simp only [hz, if_true]
  · cases c with
    | none => rfl
    | some z =>
      simp only
      by_cases hz : z ≤ 0
      · rw [if_pos hz]
      · rw [if_neg hz]
        simp only [List.mem_cons, List.not_mem_nil, or_false, not_or] at hid
        simp only [dispatch, hid, if_false]

/-- C162: what comes with the network: an averaged copy exactly when asked for, the seed that was given, the device of the
data, and an optimizer with the head only for a frozen pretrained network. -/
theorem C162_bundle {id : String} (h : build ext id be p x (some (k : Int)) seed ema = .ok b) :
    b.ema = (if ema then some b.net else none) ∧ b.seed = seed ∧ b.device = x.device ∧
      (b.trained = .head ↔ (id = "image_pretrained" ∨ id = "audio_pretrained") ∧ p.freeze = true) := by
  obtain ⟨_, h⟩ := build_dispatch h
  have hdev := takeSample_device x
  unfold dispatch at h
  by_cases h1 : id = "mlp"
  · rw [if_pos h1] at h
    obtain ⟨d, hs, ls, o, _, _, rfl⟩ := buildMlp_ok h
    exact ⟨rfl, rfl, hdev, by simp [h1]⟩
  rw [if_neg h1] at h
  by_cases h2 : id = "logreg"
  · rw [if_pos h2] at h
    obtain ⟨d, hs, ls, o, _, _, rfl⟩ := buildMlp_ok h
    exact ⟨rfl, rfl, hdev, by simp [h2]⟩
  rw [if_neg h2] at h
  by_cases h3 : id = "image_cnn"
  · rw [if_pos h3] at h
    obtain ⟨_, _, _, _, _, _, _, _, _, rfl⟩ := buildImageCnn_ok h
    exact ⟨rfl, rfl, hdev, by simp [h3]⟩
  rw [if_neg h3] at h
  by_cases h4 : id = "audio_cnn"
  · rw [if_pos h4] at h
    obtain ⟨_, _, _, _, _, _, _, _, _, rfl⟩ := buildAudioCnn_ok h
    exact ⟨rfl, rfl, hdev, by simp [h4]⟩
  rw [if_neg h4] at h
  by_cases h5 : id = "text_cnn"
  · rw [if_pos h5] at h
    obtain ⟨_, _, _, _, _, _, _, rfl⟩ := buildTextCnn_ok h
    exact ⟨rfl, rfl, hdev, by simp [h5]⟩
  rw [if_neg h5] at h
  by_cases h6 : id = "image_pretrained"
  · rw [if_pos h6] at h
    unfold buildImagePre at h
    rw [ebind_ok] at h
    obtain ⟨sh, _, h⟩ := h
    rw [ebind_ok] at h
    obtain ⟨bb, _, h⟩ := h
    rw [bundleFrozen_ok h]
    refine ⟨rfl, rfl, hdev, ?_⟩
    cases p.freeze <;> simp [h6]
  rw [if_neg h6] at h
  by_cases h7 : id = "audio_pretrained"
  · rw [if_pos h7] at h
    unfold buildAudioPre at h
    rw [ebind_ok] at h
    obtain ⟨bb, _, h⟩ := h
    rw [ebind_ok] at h
    obtain ⟨sh, _, h⟩ := h
    rw [ebind_ok] at h
    obtain ⟨f, _, h⟩ := h
    rw [bundleFrozen_ok h]
    refine ⟨rfl, rfl, hdev, ?_⟩
    cases p.freeze <;> simp [h7]
  rw [if_neg h7] at h
  by_cases h8 : id = "lstm_scratch"
  · rw [if_pos h8] at h
    obtain ⟨_, _, _, _, _, _, _, _, he, hs, hd, ht, _⟩ := buildLstm_ok h
    exact ⟨he, hs, hd.trans hdev, by simp [ht, h8]⟩
  rw [if_neg h8] at h
  by_cases h9 : id = "graphsage_inductive"
  · rw [if_pos h9] at h
    obtain ⟨_, _, _, _, _, _, rfl⟩ := buildSage_ok h
    exact ⟨rfl, rfl, hdev, by simp [h9]⟩
  rw [if_neg h9] at h
  exact absurd h (by simp)

/-- C162: a dense network or logistic regression scores the batches of the data it was built for exactly when a row is a
single vector of features. -/
theorem C162_dense {id : String} (hid : id = "mlp" ∨ id = "logreg")
    (h : build ext id be p x (some (k : Int)) seed ema = .ok b) {m : Nat} {row : List Nat} (hx : x.shape = m :: row) :
    Scores b.net k row ↔ row.length = 1 := by
  obtain ⟨_, h⟩ := build_dispatch h
  have hs := takeSample_shape hx
  rcases hid with rfl | rfl
  · simp only [dispatch, if_true] at h
    exact mlp_scores h hs
  · simp only [dispatch, show ("logreg" = "mlp") = False from by simp, if_true, if_false] at h
    exact mlp_scores h hs

theorem hiddenLayers_last {act : String} {q : Rat} {i o : Nat} {hs : List Int} {ls : List Layer}
    (h : hiddenLayers act q i hs = .ok (ls, o)) : (o : Int) = hs.getLast?.getD i := by
  induction hs generalizing i ls with
  | nil =>
    simp only [hiddenLayers] at h
    injection h with h
    injection h with h1 h2
    subst h2
    rfl
  | cons z hs ih =>
    simp only [hiddenLayers] at h
    by_cases hz : z ≤ 0
    · rw [if_pos hz] at h; exact absurd h (by simp)
    · rw [if_neg hz] at h
      rw [ebind_ok] at h
      obtain ⟨a, ha, h⟩ := h
      rw [ebind_ok] at h
      obtain ⟨d, hdr, h⟩ := h
      rw [ebind_ok] at h
      obtain ⟨r, hr, h⟩ := h
      obtain ⟨rl, ro⟩ := r
      injection h with h
      injection h with h1 h2
      simp only at h2
      subst h2
      rw [ih hr, List.getLast?_cons, Option.getD_some]
      congr 1
      omega

/-- C162: a dense network asked for features returns, besides the scores, a row of features per row of the batch: the last
hidden layer, or the row itself when there is none (as in logistic regression). -/
theorem C162_dense_features {id : String} (hid : id = "mlp" ∨ id = "logreg")
    (h : build ext id be p x (some (k : Int)) seed ema = .ok b) (hf : p.returnFeatures = true) {m d : Nat}
    (hx : x.shape = [m, d]) :
    ∃ (hs : List Int) (w : Nat), (id = "logreg" ∧ hs = [] ∨
        id = "mlp" ∧ normalizeHidden p.hiddenSizes p.hiddenDim [256, 128] = .ok hs) ∧ (w : Int) = hs.getLast?.getD d ∧
      ∀ (n : Nat) (y : Tensor), y.shape = [n, d] → b.net.forward (.tensor y) = .ok (.mapping [n, k] [n, w]) := by
  obtain ⟨_, h⟩ := build_dispatch h
  have hs := takeSample_shape hx
  have key : ∀ forced, buildMlp (takeSample x) k p seed ema forced p.returnFeatures = .ok b →
      ∃ (hs : List Int) (w : Nat), mlpHidden p forced = .ok hs ∧ (w : Int) = hs.getLast?.getD d ∧
      ∀ (n : Nat) (y : Tensor), y.shape = [n, d] → b.net.forward (.tensor y) = .ok (.mapping [n, k] [n, w]) := by
    intro forced h
    rw [hf] at h
    unfold buildMlp at h
    rw [ebind_ok] at h
    obtain ⟨d', hd, h⟩ := h
    rw [hs] at hd
    have := inputDim_row hd
    subst this
    rw [ebind_ok] at h
    obtain ⟨hl, hhl, h⟩ := h
    rw [ebind_ok] at h
    obtain ⟨r, hr, h⟩ := h
    obtain ⟨ls, o⟩ := r
    rw [bundleAll_ok h]
    refine ⟨hl, o, hhl, hiddenLayers_last hr, fun n y hy => ?_⟩
    have hrun : runLayers ls [n, d'] = .ok [n, o] := hiddenLayers_run hr [n]
    simp only [if_true, Net.forward, hy]
    rw [ebind_of_ok hrun, ebind_of_ok (linear_run2 o k n)]
    rfl
  rcases hid with rfl | rfl
  · simp only [dispatch, if_true] at h
    obtain ⟨hl, w, h1, h2⟩ := key none h
    exact ⟨hl, w, .inr ⟨rfl, h1⟩, h2⟩
  · simp only [dispatch, show ("logreg" = "mlp") = False from by simp, if_true, if_false] at h
    obtain ⟨hl, w, h1, h2⟩ := key (some []) h
    injection h1 with h1
    exact ⟨hl, w, .inl ⟨rfl, h1.symm⟩, h2⟩

theorem dispatch_image (h : dispatch ext "image_cnn" x k p seed ema = .ok b) : buildImageCnn x k p seed ema = .ok b := by
  simpa [dispatch] using h

theorem dispatch_audio (h : dispatch ext "audio_cnn" x k p seed ema = .ok b) : buildAudioCnn x k p seed ema = .ok b := by
  simpa [dispatch] using h

theorem dispatch_text (h : dispatch ext "text_cnn" x k p seed ema = .ok b) : buildTextCnn x k p seed ema = .ok b := by
  simpa [dispatch] using h

theorem dispatch_lstm (h : dispatch ext "lstm_scratch" x k p seed ema = .ok b) : buildLstm x k p seed ema = .ok b := by
  simpa [dispatch] using h

theorem dispatch_sage (h : dispatch ext "graphsage_inductive" x k p seed ema = .ok b) :
    buildSage x k p seed ema = .ok b := by
  simpa [dispatch] using h

theorem dispatch_imagePre (h : dispatch ext "image_pretrained" x k p seed ema = .ok b) :
    buildImagePre ext x k p seed ema = .ok b := by
  simpa [dispatch] using h

theorem dispatch_audioPre (h : dispatch ext "audio_pretrained" x k p seed ema = .ok b) :
    buildAudioPre ext x k p seed ema = .ok b := by
  simpa [dispatch] using h

/-- C162: a convolutional network for images built for batches of images scores every batch of images with the same
channels, of whatever size and whatever number, with one row of features per image. -/
theorem C162_image (h : build ext "image_cnn" be p x (some (k : Int)) seed ema = .ok b) {m c h0 w0 : Nat}
    (hx : x.shape = [m, c, h0, w0]) (hc : 0 < c) (hk : 1 ≤ p.kernelSize.getD 3)
    (hch : ∀ q ∈ p.convChannels.getD [32, 64], 0 < q) {h1 w1 : Nat} (hh : 0 < h1) (hw : 0 < w1) :
    Scores b.net k [c, h1, w1] ∧ ∃ d, FeatCols b.net d [c, h1, w1] := by
  obtain ⟨_, h⟩ := build_dispatch h
  obtain ⟨c', kk, o, ls, head, hc', hkk, hl, hhd, rfl⟩ := buildImageCnn_ok (dispatch_image h)
  rw [takeSample_shape hx] at hc'
  simp only [imageChannels] at hc'
  injection hc' with hc'
  subst hc'
  obtain ⟨ho, hrun⟩ := conv2_run (by omega) hch hc hl
  have key : ∀ (n : Nat) (y : Tensor), y.shape = [n, c, h1, w1] →
      (Net.cnn ls .pool2 head true).forward (.tensor y) = .ok (.pair [n, k] [n, o]) := by
    intro n y hy
    obtain ⟨h', w', hh', hw', hr⟩ := hrun n h1 w1 hh hw
    simp only [Net.forward, hy]
    have e1 : Layer.pool2.run [n, o, h', w'] = .ok [n, o, 1, 1] := if_pos ⟨ho, hh', hw'⟩
    have e2 : Layer.flat.run [n, o, 1, 1] = .ok [n, o] := by simp [Layer.run]
    rw [ebind_of_ok hr, ebind_of_ok e1, ebind_of_ok e2, ebind_of_ok (cnnHead_run hhd n)]
    rfl
  refine ⟨fun n y hy => ⟨_, key n y hy, rfl⟩, o, fun n y out f hy hout hf => ?_⟩
  rw [key n y hy] at hout
  injection hout with hout
  subst hout
  injection hf with hf
  exact hf.symm

/-- C162, the failure: images without a channel axis, or flattened images with `input_shape`, are accepted when the network
is built, but the network then scores no batch of two or more of them. -/
theorem C162_image_flat_violated (h : build ext "image_cnn" be p x (some (k : Int)) seed ema = .ok b) {m : Nat}
    {row : List Nat} (hx : x.shape = m :: row) (hrow : row.length = 1 ∨ row.length = 2)
    (hch : p.convChannels.getD [32, 64] ≠ []) {n : Nat} (hn : 2 ≤ n) {y : Tensor} (hy : y.shape = n :: row) (o : Output)
    (ho : b.net.forward (.tensor y) = .ok o) : o.logits ≠ [n, k] := by
  obtain ⟨_, h⟩ := build_dispatch h
  obtain ⟨c', kk, oc, ls, head, hc', hkk, hl, hhd, rfl⟩ := buildImageCnn_ok (dispatch_image h)
  rw [takeSample_shape hx] at hc'
  simp only [Net.forward, hy] at ho
  rw [ebind_ok] at ho
  obtain ⟨a, ha, ho⟩ := ho
  rw [ebind_ok] at ho
  obtain ⟨q, hq, ho⟩ := ho
  rw [ebind_ok] at ho
  obtain ⟨f, hf, ho⟩ := ho
  rw [ebind_ok] at ho
  obtain ⟨s, hs, ho⟩ := ho
  injection ho with ho
  rw [← ho]
  simp only [if_true, Output.logits]
  rcases hrow with hrow | hrow
  · exfalso
    obtain ⟨d, rfl⟩ := List.length_eq_one_iff.1 hrow
    obtain ⟨c, cs, hcs⟩ := List.exists_cons_of_ne_nil hch
    rw [hcs] at hl
    obtain ⟨m', rest, _, _, rfl⟩ := convLayers_cons hl
    simp only [runLayers, Layer.run, bind, Except.bind] at ha
    exact absurd ha (by simp)
  · obtain ⟨h0, w0, rfl⟩ := List.length_eq_two.1 hrow
    obtain ⟨h', w', hcase⟩ := conv2_unbatched hl ha
    rcases hcase with ⟨hnil, _⟩ | ⟨hni, rfl⟩
    · exact absurd hnil hch
    · simp only [imageChannels] at hc'
      injection hc' with hc'
      omega

/-- C162: a convolutional network for sound built for batches with channels scores every batch with the same channels, of
whatever length and number. -/
theorem C162_audio (h : build ext "audio_cnn" be p x (some (k : Int)) seed ema = .ok b) {m c l0 : Nat}
    (hx : x.shape = [m, c, l0]) (hc : 0 < c) (hk : 1 ≤ p.kernelSize.getD 5)
    (hch : ∀ q ∈ p.convChannels.getD [16, 32], 0 < q) {l1 : Nat} (hl1 : 0 < l1) :
    Scores b.net k [c, l1] := by
  obtain ⟨_, h⟩ := build_dispatch h
  obtain ⟨c', kk, o, ls, head, hc', hkk, hl, hhd, rfl⟩ := buildAudioCnn_ok (dispatch_audio h)
  rw [takeSample_shape hx] at hc'
  simp only [audioChannels] at hc'
  injection hc' with hc'
  subst hc'
  obtain ⟨ho, hrun⟩ := conv1_run (by omega) hch hc hl
  intro n y hy
  obtain ⟨l', hl', hr⟩ := hrun n l1 hl1
  refine ⟨.tensor [n, k], ?_, rfl⟩
  simp only [Net.forward, hy]
  have e1 : Layer.pool1.run [n, o, l'] = .ok [n, o, 1] := if_pos ⟨ho, hl'⟩
  have e2 : Layer.flat.run [n, o, 1] = .ok [n, o] := by simp [Layer.run]
  rw [ebind_of_ok hr, ebind_of_ok e1, ebind_of_ok e2, ebind_of_ok (cnnHead_run hhd n)]
  rfl

/-- C162, the failure: sound without a channel axis is accepted when the network is built (see the example below), but the
network, whatever it was built for, scores no batch of two or more recordings without a channel axis. -/
theorem C162_audio_flat_violated (h : build ext "audio_cnn" be p x (some (k : Int)) seed ema = .ok b)
    (hch : p.convChannels.getD [16, 32] ≠ []) {n l : Nat} (hn : 2 ≤ n) {y : Tensor} (hy : y.shape = [n, l]) (o : Output) (ho : b.net.forward (.tensor y) = .ok o) : o.logits ≠ [n, k] := by
  obtain ⟨_, h⟩ := build_dispatch h
  obtain ⟨c', kk, oc, ls, head, hc', hkk, hl, hhd, rfl⟩ := buildAudioCnn_ok (dispatch_audio h)
  simp only [Net.forward, hy] at ho
  rw [ebind_ok] at ho
  obtain ⟨a, ha, ho⟩ := ho
  rw [ebind_ok] at ho
  obtain ⟨q, hq, ho⟩ := ho
  rw [ebind_ok] at ho
  obtain ⟨f, hf, ho⟩ := ho
  rw [ebind_ok] at ho
  obtain ⟨s, hs, ho⟩ := ho
  injection ho with ho
  rw [← ho]
  simp only [Bool.false_eq_true, if_false, Output.logits]
  obtain ⟨l', hcase⟩ := conv1_unbatched hl ha
  rcases hcase with ⟨hnil, _⟩ | ⟨hni, rfl⟩
  · exact absurd hnil hch
  · simp only [Layer.run] at hq
    by_cases hl' : 0 < l'
    · rw [if_pos hl'] at hq
      injection hq with hq
      subst hq
      simp only [Layer.run, List.prod_cons, List.prod_nil, Nat.mul_one] at hf
      injection hf with hf
      subst hf
      obtain ⟨h1, rfl⟩ := cnnHead_ok hhd hs
      intro heq
      injection heq with h2 _
      omega
    · rw [if_neg hl'] at hq
      exact absurd hq (by simp)

/-- C162: a convolutional network for text built for batches of sequences with the channels first scores every batch of
sequences at least as long. -/
theorem C162_text (h : build ext "text_cnn" be p x (some (k : Int)) seed ema = .ok b) {m e l0 : Nat}
    (hlay : p.inputLayout = some "channels_first") (hx : x.shape = [m, e, l0]) (he : 0 < e)
    (hks : ∀ q ∈ p.kernelSizes.getD [3, 4, 5], 1 ≤ q) {l1 : Nat} (hl1 : l0 ≤ l1) : Scores b.net k [e, l1] := by
  obtain ⟨_, h⟩ := build_dispatch h
  obtain ⟨c, l, f, ks, hs, hne, hq, rfl⟩ := buildTextCnn_ok (dispatch_text h)
  rw [takeSample_shape hx, hlay] at hs
  simp [textShape] at hs
  obtain ⟨rfl, rfl⟩ := hs
  intro n y hy
  refine ⟨.tensor [n, k], ?_, rfl⟩
  simp only [Net.forward, hy]
  rw [ebind_of_ok (textForward_run he hne (fun q hq' => ?_))]
  · rfl
  · obtain ⟨h1, h2⟩ := hq q hq'
    have := hks q h2
    exact ⟨by omega, by omega⟩

/-- C162, the failure: with the default layout (the features of a token last) the network for text refuses every batch of the
data it was built for, unless a sequence happens to be as long as a token is wide; and it refuses every batch without
token features. -/
theorem C162_text_violated (h : build ext "text_cnn" be p x (some (k : Int)) seed ema = .ok b) {m : Nat}
    {row : List Nat} (hx : x.shape = m :: row)
    (hrow : (p.inputLayout.getD "channels_last" = "channels_last" ∧ ∃ l e, row = [l, e] ∧ l ≠ e) ∨ row.length = 1)
    {n : Nat} {y : Tensor} (hy : y.shape = n :: row) : Refuses b.net y := by
  obtain ⟨_, h⟩ := build_dispatch h
  obtain ⟨c, l, f, ks, hs, hne, hq, rfl⟩ := buildTextCnn_ok (dispatch_text h)
  obtain ⟨q, qs, rfl⟩ := List.exists_cons_of_ne_nil hne
  rw [takeSample_shape hx] at hs
  have key : ∃ e, textConv (c, f, q) (n :: row) = .error e := by
    rcases hrow with ⟨hlay, l', e', rfl, hle⟩ | hrow
    · simp only [textShape, hlay, if_true] at hs
      injection hs with hs
      injection hs with h1 h2
      subst h1 h2
      refine ⟨.runtimeError, ?_⟩
      unfold textConv
      simp only [Layer.run]
      rw [if_neg (fun hc => hle hc.1)]
      rfl
    · obtain ⟨d, rfl⟩ := List.length_eq_one_iff.1 hrow
      unfold textConv
      simp only [Layer.run]
      by_cases hc : n = c ∧ 0 < n
      · rw [if_pos hc]
        cases convLen q 0 d with
        | error e => exact ⟨e, rfl⟩
        | ok l' => exact ⟨.indexError, rfl⟩
      · rw [if_neg hc]
        exact ⟨_, rfl⟩
  obtain ⟨e, he⟩ := key
  refine ⟨e, ?_⟩
  simp only [Net.forward, hy, textForward, List.map_cons, List.mapM_cons, he]
  rfl

/-- C162: a recurrent network built with a vocabulary scores every batch of token sequences over it. -/
theorem C162_tokens (h : build ext "lstm_scratch" be p x (some (k : Int)) seed ema = .ok b) {v : Int}
    (hv : p.vocabSize = some v) (hv0 : 0 < v) {n l : Nat} (hl : 0 < l) {y : Tensor} (hy : y.shape = [n, l])
    (ht : ∀ t ∈ y.values, 0 ≤ t ∧ t < v) :
    ∃ o, b.net.forward (.tensor y) = .ok o ∧ o.logits = [n, k] ∧
      ∃ f, b.features = some f ∧ ∃ d, f y = .ok [n, d] ∧ (∀ g, o.feat = some g → g = [n, d]) := by
  obtain ⟨_, h⟩ := build_dispatch h
  obtain ⟨vn, e, hd, hvn, he, hhd, hpos, hnet, _, _, _, _, hfeat⟩ := buildLstm_ok (dispatch_lstm h)
  have : (vn : Int) = v := by
    unfold vocabOf at hvn
    simp only [hv, Option.getD_some] at hvn
    rw [if_neg (by omega)] at hvn
    injection hvn with hvn
    exact hvn.symm
  have hf := lstm_features (e := e) (hd := hd) (bi := p.bidirectional.getD true) hy hl (v := vn)
    (by rw [this]; exact ht)
  rw [hnet]
  simp only [Net.forward]
  rw [ebind_of_ok hf, ebind_of_ok (linear_run2 _ _ _)]
  cases p.returnFeatures with
  | true =>
    refine ⟨_, rfl, rfl, _, hfeat, _, hf, ?_⟩
    intro g hg
    injection hg with hg
    exact hg.symm
  | false => exact ⟨_, rfl, rfl, _, hfeat, _, hf, fun g hg => by cases hg⟩

/-- C162: without `vocab_size`, the network scores every batch whose tokens do not exceed a token of the first row. -/
theorem C162_tokens_guessed (h : build ext "lstm_scratch" be p x (some (k : Int)) seed ema = .ok b)
    (hv : p.vocabSize = none) (hfl : x.floating = false) {m l : Nat} (hx : x.shape = [m, l]) (hm : 1 < m) (hl : 0 < l)
    {n : Nat} {y : Tensor} (hy : y.shape = [n, l])
    (ht : ∀ t ∈ y.values, 0 ≤ t ∧ ∃ a ∈ x.values.take l, t ≤ a) :
    ∃ o, b.net.forward (.tensor y) = .ok o ∧ o.logits = [n, k] := by
  obtain ⟨_, h⟩ := build_dispatch h
  obtain ⟨vn, e, hd, hvn, he, hhd, hpos, hnet, _, _, _, _, hfeat⟩ := buildLstm_ok (dispatch_lstm h)
  have hts : (takeSample (takeSample x)).values = x.values.take l ∧ (takeSample (takeSample x)).floating = false := by
    have h1 : takeSample x = { x with shape := [1, l], values := x.values.take l } := by
      unfold takeSample
      rw [hx]
      simp [hm]
    rw [h1]
    unfold takeSample
    simp [hfl]
  have hvt : ∀ a ∈ x.values.take l, a < (vn : Int) := by
    unfold vocabOf at hvn
    simp only [hv, Option.getD_none, le_refl, if_true, hts.1, hts.2, Bool.false_eq_true, if_false] at hvn
    generalize x.values.take l = vs at hvn
    cases vs with
    | nil => exact absurd hvn (by simp)
    | cons a vs =>
      simp only at hvn
      injection hvn with hvn
      rw [← hvn]
      have : ∀ (vs : List Int) (a : Int), a ≤ vs.foldl max a ∧ ∀ z ∈ vs, z ≤ vs.foldl max a := by
        intro vs
        induction vs with
        | nil => intro a; exact ⟨le_refl _, by simp⟩
        | cons z vs ih =>
          intro a
          have ih := ih (max a z)
          refine ⟨(le_max_left a z).trans ih.1, ?_⟩
          intro w hw
          rcases List.mem_cons.1 hw with rfl | hw
          · exact (le_max_right a w).trans ih.1
          · exact ih.2 w hw
      intro w hw
      rcases List.mem_cons.1 hw with rfl | hw
      · have := (this vs w).1; omega
      · have := (this vs a).2 w hw; omega
  have hf := lstm_features (e := e) (hd := hd) (bi := p.bidirectional.getD true) hy hl (v := vn) (by
    intro t htm
    obtain ⟨h0, a, ha, hle⟩ := ht t htm
    exact ⟨h0, lt_of_le_of_lt hle (hvt a ha)⟩)
  rw [hnet]
  simp only [Net.forward]
  rw [ebind_of_ok hf, ebind_of_ok (linear_run2 _ _ _)]
  cases p.returnFeatures with
  | true => exact ⟨_, rfl, rfl⟩
  | false => exact ⟨_, rfl, rfl⟩

/-- C162, the failure: without `vocab_size` the vocabulary is guessed from the first row of the data alone, and every batch
with a larger token is refused. -/
theorem C162_tokens_violated (h : build ext "lstm_scratch" be p x (some (k : Int)) seed ema = .ok b)
    (hv : p.vocabSize = none) (hfl : x.floating = false) {m l : Nat} (hx : x.shape = [m, l]) (hm : 1 < m)
    {n : Nat} {y : Tensor} (hy : y.shape = [n, l]) {t : Int} (ht : t ∈ y.values)
    (hbig : ∀ a ∈ x.values.take l, a < t) : Refuses b.net y := by
  obtain ⟨_, h⟩ := build_dispatch h
  obtain ⟨vn, e, hd, hvn, he, hhd, hpos, hnet, _, _, _, _, hfeat⟩ := buildLstm_ok (dispatch_lstm h)
  have hts : (takeSample (takeSample x)).values = x.values.take l ∧ (takeSample (takeSample x)).floating = false := by
    have h1 : takeSample x = { x with shape := [1, l], values := x.values.take l } := by
      unfold takeSample
      rw [hx]
      simp [hm]
    rw [h1]
    unfold takeSample
    simp [hfl]
  have hvt : (vn : Int) ≤ t := by
    unfold vocabOf at hvn
    simp only [hv, Option.getD_none, le_refl, if_true, hts.1, hts.2, Bool.false_eq_true, if_false] at hvn
    generalize x.values.take l = vs at hvn hbig
    cases vs with
    | nil => exact absurd hvn (by simp)
    | cons a vs =>
      simp only at hvn
      injection hvn with hvn
      rw [← hvn]
      have : ∀ (vs : List Int) (a : Int), a < t → (∀ z ∈ vs, z < t) → vs.foldl max a < t := by
        intro vs
        induction vs with
        | nil => intro a ha _; exact ha
        | cons z vs ih =>
          intro a ha hz
          exact ih _ (max_lt ha (hz z List.mem_cons_self)) (fun w hw => hz w (List.mem_cons_of_mem _ hw))
      have := this vs a (hbig a List.mem_cons_self) (fun z hz => hbig z (List.mem_cons_of_mem _ hz))
      omega
  refine ⟨.indexError, ?_⟩
  rw [hnet]
  have hemb : embedded vn e y = .error .indexError := by
    unfold embedded isEmbedded
    rw [hy, if_neg (by simp), if_neg]
    rw [List.all_eq_true]
    intro hall
    have := of_decide_eq_true (hall t ht)
    omega
  simp only [Net.forward, lstmFeatures, hemb]
  rfl

/-- C162: a graph network scores every graph whose nodes have as many features as the data it was built for, with one row of
features per node. -/
theorem C162_graph (h : build ext "graphsage_inductive" be p x (some (k : Int)) seed ema = .ok b) {m d : Nat}
    (hx : x.shape = [m, d]) {n : Nat} {y : Tensor} (hy : y.shape = [n, d]) {edges : List (Nat × Nat)}
    (he : ∀ e ∈ edges, e.1 < n ∧ e.2 < n) :
    ∃ (w : Nat) (l : List Int), b.net.forward (.graph y edges) = .ok (.mapping [n, k] [n, w]) ∧
      sageHidden p = .ok l ∧ (w : Int) = l.getLast?.getD d := by
  obtain ⟨_, h⟩ := build_dispatch h
  obtain ⟨i, l, hs, hi, hl, hhs, rfl⟩ := buildSage_ok (dispatch_sage h)
  rw [takeSample_shape hx] at hi
  simp at hi
  subst hi
  refine ⟨(d :: hs).getLast (by simp), l, ?_, hl, ?_⟩
  · simp only [Net.forward, hy]
    rw [ebind_of_ok (sageRun_run he k hs d)]
    rfl
  · rw [mapM_ok] at hhs
    clear hl he
    have key : ∀ {l : List Int} {r : List Nat}, List.Forall₂ (fun a b => size a = .ok b) l r →
        ∀ d : Nat, (((d :: r).getLast (by simp) : Nat) : Int) = l.getLast?.getD d := by
      intro l r hlr
      induction hlr with
      | nil => intro d; rfl
      | @cons a b l r hab hlr ih =>
        intro d
        rw [List.getLast_cons (by simp), ih b]
        cases hlr with
        | nil => simp [size_ok hab]
        | cons h2 h3 => simp [List.getLast?_cons]
    exact key hhs d

/-- C162: a pretrained network for images scores every batch of images with the channels it expects, of gray images when it
expects three channels (unless told not to), and of flattened images of the given shape, gray if the shape has two sizes. -/
theorem C162_pretrained_image (h : build ext "image_pretrained" be p x (some (k : Int)) seed ema = .ok b)
    {bb : Backbone} (hbb : ext.image p.modelName = .ok bb) (hlaw : Lawful bb) {e : Nat} (he : bb.inChannels = some e)
    {row : List Nat} {hh w : Nat}
    (hrow : (row = [e, hh, w] ∧ p.inputLayout.getD "channels_first" = "channels_first") ∨
      (row = [hh, w, e] ∧ p.inputLayout = some "channels_last") ∨
      (row = [hh, w] ∧ e = 3 ∧ p.repeatGray = true) ∨
      (row = [e * hh * w] ∧ p.inputShape = some [(e : Int), (hh : Int), (w : Int)]) ∨
      (row = [hh * w] ∧ p.inputShape = some [(hh : Int), (w : Int)] ∧ e = 3 ∧ p.repeatGray = true)) :
    Scores b.net k row := by
  obtain ⟨_, h⟩ := build_dispatch h
  have h := dispatch_imagePre h
  unfold buildImagePre at h
  rw [ebind_ok] at h
  obtain ⟨sh, hsh, h⟩ := h
  rw [ebind_ok] at h
  obtain ⟨bb', hb', h⟩ := h
  rw [hbb] at hb'
  injection hb' with hb'
  subst hb'
  rw [bundleFrozen_ok h]
  obtain ⟨e', he', hfe⟩ := hlaw
  have : e' = e := by rw [he] at he'; injection he' with he'; exact he'.symm
  subst this
  have fin : ∀ (n a c : Nat) (y : Tensor), prepareImage bb (p.inputLayout.getD "channels_first") sh p.repeatGray y.shape =
      .ok [n, e', a, c] → ∃ o, (Net.image bb (p.inputLayout.getD "channels_first") sh p.repeatGray p.returnFeatures k).forward
        (.tensor y) = .ok o ∧ o.logits = [n, k] := by
    intro n a c y hy
    simp only [Net.forward]
    rw [ebind_of_ok hy, ebind_of_ok (hfe n a c), ebind_of_ok (linear_run2 _ _ _)]
    cases p.returnFeatures <;> exact ⟨_, rfl, rfl⟩
  intro n y hy
  rcases hrow with ⟨rfl, hlay⟩ | ⟨rfl, hlay⟩ | ⟨rfl, rfl, hg⟩ | ⟨rfl, hshape⟩ | ⟨rfl, hshape, rfl, hg⟩
  · refine fin n hh w y ?_
    simp [prepareImage, imageAxes, imageFix, hy, hlay, he', bind, Except.bind]
  · refine fin n hh w y ?_
    simp [prepareImage, imageAxes, imageFix, hy, hlay, he', bind, Except.bind]
  · refine fin n hh w y ?_
    simp [prepareImage, imageAxes, imageFix, hy, hg, he', bind, Except.bind]
  · rw [hshape] at hsh
    simp only [parseShape] at hsh
    injection hsh with hsh
    refine fin n hh w y ?_
    rw [← hsh]
    simp [prepareImage, imageAxes, imageFix, hy, he', bind, Except.bind]
  · rw [hshape] at hsh
    simp only [parseShape] at hsh
    injection hsh with hsh
    refine fin n hh w y ?_
    rw [← hsh]
    simp [prepareImage, imageAxes, imageFix, hy, he', hg, bind, Except.bind]

/-- C162: a pretrained network for sound scores every batch of recordings, with or without a channel axis of one, of
whatever length and number, and scores one recording alone as a batch of one. -/
theorem C162_pretrained_audio (h : build ext "audio_pretrained" be p x (some (k : Int)) seed ema = .ok b)
    {bb : Backbone} (hbb : ext.audio p.audioBundle = .ok bb) (hlaw : LawfulAudio bb) {m l0 : Nat}
    (hx : x.shape = [m, l0] ∨ x.shape = [m, 1, l0]) (l : Nat) : Scores b.net k [l] ∧ Scores b.net k [1, l] ∧
      ∀ y : Tensor, y.shape = [l] → ∃ o, b.net.forward (.tensor y) = .ok o ∧ o.logits = [1, k] := by
  obtain ⟨_, h⟩ := build_dispatch h
  have h := dispatch_audioPre h
  unfold buildAudioPre at h
  rw [ebind_ok] at h
  obtain ⟨bb', hb', h⟩ := h
  rw [hbb] at hb'
  injection hb' with hb'
  subst hb'
  rw [ebind_ok] at h
  obtain ⟨xs, hxs, h⟩ := h
  rw [ebind_ok] at h
  obtain ⟨f, hf, h⟩ := h
  rw [bundleFrozen_ok h]
  obtain ⟨d, hd⟩ := hlaw
  have hall : ∀ n l, audioFeats bb [n, l] = .ok [n, d] := by
    intro n l
    unfold audioFeats
    rcases hd n l with ⟨t, ht⟩ | ht
    · rw [ebind_of_ok ht]; rfl
    · rw [ebind_of_ok ht]; rfl
  have hf1 : f.getD 1 0 = d := by
    have : ∃ n, xs = [n, l0] := by
      rcases hx with hx | hx
      · rw [takeSample_shape (takeSample_shape hx)] at hxs
        simp only [prepareAudio] at hxs
        injection hxs with hxs
        exact ⟨_, hxs.symm⟩
      · rw [takeSample_shape (takeSample_shape hx)] at hxs
        simp only [prepareAudio, if_true] at hxs
        injection hxs with hxs
        exact ⟨_, hxs.symm⟩
    obtain ⟨n, rfl⟩ := this
    rw [hall] at hf
    injection hf with hf
    rw [← hf]
    rfl
  rw [hf1]
  refine ⟨?_, ?_, ?_⟩
  · intro n y hy
    simp only [Net.forward, hy, prepareAudio]
    rw [ebind_of_ok rfl, ebind_of_ok (hall n l), ebind_of_ok (linear_run2 _ _ _)]
    cases p.returnFeatures <;> exact ⟨_, rfl, rfl⟩
  · intro n y hy
    simp only [Net.forward, hy, prepareAudio, if_true]
    rw [ebind_of_ok rfl, ebind_of_ok (hall n l), ebind_of_ok (linear_run2 _ _ _)]
    cases p.returnFeatures <;> exact ⟨_, rfl, rfl⟩
  · intro y hy
    simp only [Net.forward, hy, prepareAudio]
    rw [ebind_of_ok rfl, ebind_of_ok (hall 1 l), ebind_of_ok (linear_run2 _ _ _)]
    cases p.returnFeatures <;> exact ⟨_, rfl, rfl⟩

/-- Backends without pretrained networks. -/
def noExt : Ext := ⟨fun _ => .error .runtimeError, fun _ => .error .runtimeError⟩

/-- C162, the failure of the whole claim: a network that was built for the data need not take it.  With every parameter at its
default, the network for text refuses four sentences of seven tokens of five features. -/
theorem C162_violated : ¬ ∀ (ext : Ext) (id : String) (be : Option String) (p : Params) (x : Tensor) (k : Nat) (seed : Int)
    (ema : Bool) (b : Bundle) (m : Nat) (row : List Nat), build ext id be p x (some (k : Int)) seed ema = .ok b →
    x.shape = m :: row → Scores b.net k row := by
  intro hall
  cases hb : build noExt "text_cnn" none {} ⟨[4, 7, 5], true, [], "cpu"⟩ (some ((2 : Nat) : Int)) 0 false with
  | error e =>
    exact absurd hb (by
      simp [build, backendOf, dispatch, takeSample, buildTextCnn, textShape, size, mkAct, mkDropout, bundleAll, adamw, bind,
        Except.bind, pure, Except.pure]
      norm_num
      exact fun h => by cases h)
  | ok b =>
    obtain ⟨o, ho, _⟩ := hall _ _ _ _ _ _ _ _ b 4 [7, 5] hb rfl 4 ⟨[4, 7, 5], true, [], "cpu"⟩ rfl
    obtain ⟨e, he⟩ := C162_text_violated hb rfl (.inl ⟨rfl, 7, 5, rfl, by decide⟩) (y := ⟨[4, 7, 5], true, [], "cpu"⟩) rfl
    rw [he] at ho
    exact absurd ho (by simp)

/-! ### The hypotheses are met -/

/-- A classifier builds a network for this shape, and the network turns the batch into these outputs. -/
def runs (id : String) (p : Params) (x : Tensor) (k : Nat) (y : Input) : Except PyErr Output := do
  let b ← build noExt id (some "auto") p x (some (k : Int)) 7 true
  b.net.forward y

def batch (s : List Nat) : Tensor := ⟨s, true, [], "cpu"⟩

/-- Six rows of four features, three classes: a batch of five is scored; rows of four by four features are not. -/
example : runs "mlp" {} (batch [6, 4]) 3 (.tensor (batch [5, 4])) = .ok (.tensor [5, 3]) ∧
    runs "logreg" { returnFeatures := true } (batch [6, 4]) 3 (.tensor (batch [5, 4])) = .ok (.mapping [5, 3] [5, 4]) ∧
    runs "mlp" {} (batch [6, 4, 4]) 3 (.tensor (batch [6, 4, 4])) = .error .runtimeError := by
  decide +kernel

/-- Images of two channels: other sizes are scored too; without the channel axis they are accepted and then refused. -/
example : runs "image_cnn" {} (batch [6, 2, 8, 8]) 3 (.tensor (batch [5, 2, 9, 3])) = .ok (.pair [5, 3] [5, 64]) ∧
    runs "image_cnn" {} (batch [6, 8, 8]) 3 (.tensor (batch [6, 8, 8])) = .error .runtimeError ∧
    runs "image_cnn" { inputShape := some [8, 8] } (batch [6, 64]) 3 (.tensor (batch [6, 64])) = .error .runtimeError := by
  decide +kernel

/-- Sound: with the channel axis, and without. -/
example : runs "audio_cnn" {} (batch [6, 1, 50]) 3 (.tensor (batch [5, 1, 70])) = .ok (.tensor [5, 3]) ∧
    runs "audio_cnn" {} (batch [6, 50]) 3 (.tensor (batch [6, 50])) = .error .runtimeError := by
  decide +kernel

/-- Text: channels first, and the default layout. -/
example : runs "text_cnn" { inputLayout := some "channels_first" } (batch [4, 5, 7]) 2 (.tensor (batch [3, 5, 9])) =
      .ok (.tensor [3, 2]) ∧
    runs "text_cnn" {} (batch [4, 7, 5]) 2 (.tensor (batch [4, 7, 5])) = .error .runtimeError := by
  decide +kernel

/-- Tokens: with the vocabulary given, and guessed from the first row. -/
example : runs "lstm_scratch" { vocabSize := some 10 } ⟨[2, 3], false, [1, 2, 3, 7, 1, 1], "cpu"⟩ 2
      (.tensor ⟨[2, 3], false, [1, 2, 3, 7, 1, 1], "cpu"⟩) = .ok (.tensor [2, 2]) ∧
    runs "lstm_scratch" {} ⟨[2, 3], false, [1, 2, 3, 7, 1, 1], "cpu"⟩ 2
      (.tensor ⟨[2, 3], false, [1, 2, 3, 7, 1, 1], "cpu"⟩) = .error .indexError ∧
    runs "lstm_scratch" {} ⟨[2, 3], false, [1, 2, 3, 7, 1, 1], "cpu"⟩ 2
      (.tensor ⟨[1, 3], false, [3, 0, 2], "cpu"⟩) = .ok (.tensor [1, 2]) := by
  decide +kernel

/-- Graphs. -/
example : runs "graphsage_inductive" { hiddenSizes := some (.seq [6, 4]) } (batch [9, 5]) 3
      (.graph (batch [7, 5]) [(0, 1), (6, 2)]) = .ok (.mapping [7, 3] [7, 4]) := by
  decide +kernel

/-- A pretrained network for images of three channels, with eight features. -/
def demoBackbone : Backbone :=
  ⟨some 3, 8, fun s => match s with
    | [n, _] => .ok [n, 5, 6]
    | [n, c, _, _] => if c = 3 then .ok [n, 8] else .error .runtimeError
    | _ => .error .runtimeError⟩

theorem demoBackbone_lawful : Lawful demoBackbone ∧ LawfulAudio demoBackbone :=
  ⟨⟨3, rfl, fun _ _ _ => rfl⟩, 6, fun _ _ => .inl ⟨5, rfl⟩⟩

/-- Gray images and recordings with pretrained networks. -/
example :
    ((build ⟨fun _ => .ok demoBackbone, fun _ => .ok demoBackbone⟩ "image_pretrained" none {} (batch [4, 9, 9]) (some 2) 1
      true).bind (fun b => b.net.forward (.tensor (batch [3, 9, 9])))) = .ok (.tensor [3, 2]) ∧
    ((build ⟨fun _ => .ok demoBackbone, fun _ => .ok demoBackbone⟩ "audio_pretrained" none {} (batch [4, 99]) (some 2) 1
      true).bind (fun b => b.net.forward (.tensor (batch [3, 1, 77])))) = .ok (.tensor [3, 2]) := by
  decide +kernel

end ModSSC.Deep.Bundle
