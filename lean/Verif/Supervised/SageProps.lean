import Verif.Supervised.SageModel
import Verif.ExceptLemmas
import Mathlib.Data.List.Basic
import Mathlib.Tactic.Linarith

/-!
# Options, inputs and layers of the GraphSAGE classifier (C204)
-/

namespace ModSSC.Supervised.Sage.Spec
open ModSSC

/-- The widths `hidden_sizes` stands for, if given and not empty. -/
def Given : Sizes → List Int → Prop
  | .int n, l => l = [n]
  | .seq s, l => l = s ∧ s ≠ []
  | _, _ => False

/-- A chain of layers from `a` inputs to `b` outputs through the widths `ws`. -/
inductive Chain : Int → List Int → Int → List (Int × Int) → Prop
  | last (a b : Int) : Chain a [] b [(a, b)]
  | next (a w : Int) (ws : List Int) (b : Int) (ls : List (Int × Int)) : Chain w ws b ls → Chain a (w :: ws) b ((a, w) :: ls)

/-- Layers applied one after the other, with the activation between them. -/
inductive Applied {L X : Type} (conv : L → X → X) (act : X → X) : List L → X → X → Prop
  | one (l : L) (x : X) : Applied conv act [l] x (conv l x)
  | more (l k : L) (ls : List L) (x z : X) : Applied conv act (k :: ls) (act (conv l x)) z → Applied conv act (l :: k :: ls) x z

end ModSSC.Supervised.Sage.Spec

namespace ModSSC.Supervised.Sage
open ModSSC Spec

/-- **C204 (hidden widths).**  Given widths are accepted exactly if they are positive and `num_layers` is not given or one more than
their number; they replace `hidden_channels`. -/
theorem C204_hidden_sizes (hidden : Option Int) (sizes : Sizes) (ws : List Int) (hg : Given sizes ws) (layers : Option Int) (act : String) :
    (∀ c, construct hidden sizes layers act = .ok c ↔ (∀ w ∈ ws, 0 < w) ∧ (∀ l, layers = some l → l = ws.length + 1) ∧
      c = ⟨some ws, ws.headD 0, ws.length + 1, act⟩) ∧
    (¬ ((∀ w ∈ ws, 0 < w) ∧ ∀ l, layers = some l → l = ws.length + 1) → construct hidden sizes layers act = .error .valueError) := by
  have hn : normalizeSizes sizes = .ok (some ws) ∧ ws ≠ [] := by
    cases sizes with
    | none => exact hg.elim
    | int n => cases hg; exact ⟨rfl, by simp⟩
    | seq l => obtain ⟨rfl, h⟩ := hg; exact ⟨rfl, h⟩
    | other => exact hg.elim
  obtain ⟨hn, hne⟩ := hn
  obtain ⟨h, t, rfl⟩ := List.exists_cons_of_ne_nil hne
  unfold construct
  rw [ebind_of_ok hn]
  simp only
  by_cases c1 : ((h :: t).any fun a => decide (a ≤ 0)) = true
  · rw [if_pos c1]
    have hbad : ¬ ∀ w ∈ h :: t, 0 < w := by
      intro hw
      obtain ⟨a, ha, hb⟩ := List.any_eq_true.mp c1
      have h1 := hw a ha
      have h2 : a ≤ 0 := by simpa using hb
      omega
    exact ⟨fun c => ⟨fun e => (by cases e), fun e => absurd e.1 hbad⟩, fun _ => rfl⟩
  rw [if_neg c1]
  have hgood : ∀ w ∈ h :: t, 0 < w := by
    intro w hw
    by_contra hle
    exact c1 (List.any_eq_true.mpr ⟨w, hw, by simpa using hle⟩)
  cases layers with
  | none =>
    simp only
    exact ⟨fun c => ⟨fun e => ⟨hgood, fun l hl => (by cases hl), (Except.ok.inj e).symm⟩, fun e => (by rw [e.2.2]; rfl)⟩,
      fun e => absurd ⟨hgood, fun l hl => (by cases hl)⟩ e⟩
  | some l =>
    simp only
    by_cases c2 : l ≠ (((h :: t).length : Nat) : Int) + 1
    · rw [if_pos c2]
      exact ⟨fun c => ⟨fun e => (by cases e), fun e => absurd (e.2.1 l rfl) c2⟩, fun _ => rfl⟩
    · rw [if_neg c2]
      rw [not_not] at c2
      exact ⟨fun c => ⟨fun e => ⟨hgood, fun l' hl => (by cases hl; exact c2), (Except.ok.inj e).symm⟩, fun e => (by rw [e.2.2]; rfl)⟩,
        fun e => absurd ⟨hgood, fun l' hl => (by cases hl; exact c2)⟩ e⟩

/-- **C204 (no widths).**  Without widths, or with none in the list, `hidden_channels` (128) and `num_layers` (2) are taken as given. -/
theorem C204_no_sizes (hidden : Option Int) (sizes : Sizes) (hs : sizes = .none ∨ sizes = .seq []) (layers : Option Int) (act : String) :
    ∃ c, construct hidden sizes layers act = .ok c ∧ c.hidden = hidden.getD 128 ∧ c.layers = layers.getD 2 ∧ c.sizes.getD [] = [] := by
  rcases hs with rfl | rfl
  · exact ⟨_, rfl, rfl, rfl, rfl⟩
  · exact ⟨_, rfl, rfl, rfl, rfl⟩

theorem convs_chain (a : Int) (ws : List Int) (b : Int) : Chain a ws b (convs (a :: ws ++ [b])) := by
  induction ws generalizing a with
  | nil => exact Chain.last a b
  | cons w ws ih =>
    have h := ih w
    have e : convs (a :: (w :: ws) ++ [b]) = (a, w) :: convs (w :: ws ++ [b]) := by
      unfold convs
      simp only [List.cons_append, List.tail_cons]
      rw [List.dropLast_cons_of_ne_nil (by simp), List.zip_cons_cons]
    rw [e]
    exact Chain.next _ _ _ _ _ h

/-- **C204 (layers, partial).**  The network leads from the features through the hidden widths to the classes; without given widths
there are `num_layers` layers of width `hidden_channels`.  Missing: `num_layers` below one (`C204_layers_violated`). -/
theorem C204_layers_partial (hidden : Option Int) (sizes : Sizes) (layers : Option Int) (act : String) (c : Conf)
    (h : construct hidden sizes layers act = .ok c) (hl : 1 ≤ c.layers) (features classes : Int) :
    ∃ ws, Chain features ws classes (convs (layerSizes c features classes)) ∧ (ws.length : Int) + 1 = c.layers ∧
      (∀ gs, Given sizes gs → ws = gs) ∧ ((sizes = .none ∨ sizes = .seq []) → ∀ w ∈ ws, w = c.hidden) := by
  have hplain : (sizes = .none ∨ sizes = .seq []) → ∃ ws, Chain features ws classes (convs (layerSizes c features classes)) ∧
      (ws.length : Int) + 1 = c.layers ∧ (∀ gs, Given sizes gs → ws = gs) ∧
      ((sizes = .none ∨ sizes = .seq []) → ∀ w ∈ ws, w = c.hidden) := by
    intro hs
    obtain ⟨c', h1, -, -, h4⟩ := C204_no_sizes hidden sizes hs layers act
    rw [h] at h1
    obtain rfl := Except.ok.inj h1
    refine ⟨List.replicate (c.layers - 1).toNat c.hidden, ?_, by rw [List.length_replicate]; omega, ?_,
      fun _ w hw => (List.mem_replicate.mp hw).2⟩
    · have e : layerSizes c features classes = features :: List.replicate (c.layers - 1).toNat c.hidden ++ [classes] := by
        unfold layerSizes
        cases hcs : c.sizes with
        | none => rfl
        | some l =>
          cases l with
          | nil => rfl
          | cons a b => rw [hcs] at h4; cases h4
      rw [e]
      exact convs_chain _ _ _
    · intro gs hg
      rcases hs with rfl | rfl
      · exact hg.elim
      · exact absurd rfl hg.2
  have hgiven : ∀ ws, Given sizes ws → ∃ ws, Chain features ws classes (convs (layerSizes c features classes)) ∧
      (ws.length : Int) + 1 = c.layers ∧ (∀ gs, Given sizes gs → ws = gs) ∧
      ((sizes = .none ∨ sizes = .seq []) → ∀ w ∈ ws, w = c.hidden) := by
    intro ws hg
    obtain ⟨-, -, rfl⟩ := ((C204_hidden_sizes hidden sizes ws hg layers act).1 c).mp h
    have hne : ws ≠ [] := by
      cases sizes with
      | none => exact hg.elim
      | int n => cases hg; simp
      | seq l => obtain ⟨rfl, h⟩ := hg; exact h
      | other => exact hg.elim
    refine ⟨ws, ?_, rfl, ?_, ?_⟩
    · obtain ⟨a, b, rfl⟩ := List.exists_cons_of_ne_nil hne
      exact convs_chain _ _ _
    · intro gs hg'
      cases sizes with
      | none => exact hg.elim
      | int n => cases hg; cases hg'; rfl
      | seq l => obtain ⟨rfl, -⟩ := hg; obtain ⟨rfl, -⟩ := hg'; rfl
      | other => exact hg.elim
    · rintro (rfl | rfl)
      · exact hg.elim
      · exact absurd rfl hg.2
  cases hs : sizes with
  | none => rw [hs] at hplain; exact hplain (.inl rfl)
  | int n => rw [hs] at hgiven; exact hgiven [n] rfl
  | seq l =>
    cases l with
    | nil => rw [hs] at hplain; exact hplain (.inr rfl)
    | cons a b => rw [hs] at hgiven; exact hgiven (a :: b) ⟨rfl, by simp⟩
  | other => rw [hs] at h; cases h

/-- **C204 violated (number of layers).**  `num_layers` below one is accepted and gives one layer. -/
theorem C204_layers_violated (layers : Int) (hl : layers < 1) (act : String) (features classes : Int) :
    ∃ c, construct none .none (some layers) act = .ok c ∧ c.layers = layers ∧
      convs (layerSizes c features classes) = [(features, classes)] := by
  refine ⟨⟨none, 128, layers, act⟩, rfl, rfl, ?_⟩
  have : (layers - 1).toNat = 0 := by omega
  simp [layerSizes, this, convs]

/-- **C204 violated (width).**  Widths that are refused in `hidden_sizes` are accepted as `hidden_channels`. -/
theorem C204_width_violated (w : Int) (hw : w ≤ 0) (act : String) : construct none (.int w) none act = .error .valueError ∧
    ∃ c, construct (some w) .none none act = .ok c ∧ c.hidden = w := by
  refine ⟨(C204_hidden_sizes none (.int w) [w] rfl none act).2 ?_, ⟨none, w, 2, act⟩, rfl, rfl⟩
  intro h
  have := h.1 w (List.mem_singleton_self _)
  omega

theorem forwardFrom_applied {L X : Type} (conv : L → X → X) (act : X → X) (n : Nat) (l : L) (ls : List L) (i : Nat) (x : X)
    (h : i + (ls.length + 1) = n) : Applied conv act (l :: ls) x (forwardFrom conv act n i (l :: ls) x) := by
  induction ls generalizing l i x with
  | nil =>
    have e : forwardFrom conv act n i [l] x = conv l x := by
      simp only [List.length_nil] at h
      simp only [forwardFrom]
      rw [if_neg (by omega)]
    rw [e]
    exact Applied.one l x
  | cons k ls ih =>
    simp only [List.length_cons] at h
    have e : forwardFrom conv act n i (l :: k :: ls) x = forwardFrom conv act n (i + 1) (k :: ls) (act (conv l x)) := by
      rw [forwardFrom, if_pos (by omega)]
    rw [e]
    exact Applied.more l k ls x _ (ih k (i + 1) _ (by omega))

/-- **C204 (forward pass).**  The layers are applied in order, with the activation after each but the last. -/
theorem C204_forward {L X : Type} (conv : L → X → X) (act : X → X) (ls : List L) (hne : ls ≠ []) (x : X) :
    Applied conv act ls x (forward conv act ls x) := by
  obtain ⟨l, t, rfl⟩ := List.exists_cons_of_ne_nil hne
  exact forwardFrom_applied conv act _ l t 0 x (by simp)

/-- **C204 (inputs).**  A fit accepts dicts with `x` and `edge_index`; prediction also accepts bare features, as nodes without edges.
Features must have two axes and edges be two rows. -/
theorem C204_inputs {K : Type} (allow : Bool) (X : Inp K) (x : Ten K) (e : Ten Int) : coerce allow X = .ok (x, e) ↔
    ((∃ w, X = .dict (some x) (some e) w) ∨ allow = true ∧ X = .array x ∧ e = ⟨[2, 0], fun _ => 0⟩) ∧
    x.dims.length = 2 ∧ ∃ m, e.dims = [2, m] := by
  have hd : ∀ d : List Nat, ¬ (d.length ≠ 2 ∨ d.head? ≠ some 2) ↔ ∃ m, d = [2, m] := by
    intro d
    constructor
    · intro h
      rw [not_or, not_not, not_not] at h
      obtain ⟨h1, h2⟩ := h
      match d, h1, h2 with
      | [a, b], _, h2 => exact ⟨b, by cases h2; rfl⟩
    · rintro ⟨m, rfl⟩
      simp
  unfold coerce
  rw [ebind_ok]
  constructor
  · rintro ⟨p, h1, h2⟩
    by_cases c1 : p.1.dims.length ≠ 2
    · rw [if_pos c1] at h2; cases h2
    rw [if_neg c1] at h2
    by_cases c2 : p.2.dims.length ≠ 2 ∨ p.2.dims.head? ≠ some 2
    · rw [if_pos c2] at h2; cases h2
    rw [if_neg c2] at h2
    obtain rfl := Except.ok.inj h2
    refine ⟨?_, not_not.mp c1, (hd _).mp c2⟩
    cases X with
    | dict a b w =>
      cases a with
      | none => cases h1
      | some a =>
        cases b with
        | none => cases h1
        | some b => cases h1; exact .inl ⟨w, rfl⟩
    | array t =>
      cases allow with
      | false => cases h1
      | true => cases h1; exact .inr ⟨rfl, rfl, rfl⟩
    | other => cases h1
  · rintro ⟨h1, h2, h3⟩
    refine ⟨(x, e), ?_, ?_⟩
    · rcases h1 with ⟨w, rfl⟩ | ⟨rfl, rfl, rfl⟩
      · rfl
      · rfl
    · rw [if_neg (not_not.mpr h2), if_neg ((hd _).mpr h3)]

/-- **C204 violated (weights).**  Edge weights make no difference: the network gets the same features and edges whatever they are. -/
theorem C204_weights_violated {K : Type} (lower : String → String) (c : Conf) (cs : Option (List Int)) (x : Option (Ten K))
    (e : Option (Ten Int)) (w w' : Option (Ten K)) (y : List Int) (allow : Bool) :
    prepareFit lower c cs (.dict x e w) y = prepareFit lower c cs (.dict x e w') y ∧
    coerce allow (.dict x e w) = coerce allow (.dict x e w') := by
  have h : ∀ b : Bool, coerce b (.dict x e w) = coerce b (.dict x e w') := by
    intro b
    cases x <;> cases e <;> rfl
  refine ⟨?_, h allow⟩
  unfold prepareFit
  rw [h false]

/-- **C204 (classes).**  After a successful preparation the classes are `0, 1, …` up to the largest label, every label that is not
negative among them; the activation is one of the three. -/
theorem C204_classes {K : Type} (lower : String → String) (c : Conf) (cs : Option (List Int)) (X : Inp K) (y : List Int)
    (p : Ten K × Ten Int) (a : String) (h : (prepareFit lower c cs X y).2 = .ok (p, a)) :
    coerce false X = .ok p ∧ y.length = p.1.dims.headD 0 ∧ a ∈ ["relu", "gelu", "tanh"] ∧ lower c.activation = a ∧
    ∃ ks, (prepareFit lower c cs X y).1 = some ks ∧ ∀ k, k ∈ ks ↔ 0 ≤ k ∧ ∃ l ∈ y, k ≤ l := by
  unfold prepareFit at h ⊢
  cases hc : coerce false X with
  | error e => rw [hc] at h; cases h
  | ok q =>
    rw [hc] at h
    simp only at h ⊢
    by_cases c1 : y.length ≠ q.1.dims.headD 0
    · rw [if_pos c1] at h; cases h
    rw [if_neg c1] at h
    rw [if_neg c1]
    cases hm : y.max? with
    | none => rw [hm] at h; cases h
    | some m =>
      rw [hm] at h
      simp only at h ⊢
      by_cases c3 : m + 1 < 0
      · rw [if_pos c3] at h; cases h
      rw [if_neg c3] at h
      rw [if_neg c3]
      cases ha : resolveActivation lower c.activation with
      | error e => rw [ha] at h; cases h
      | ok b =>
        rw [ha] at h
        cases h
        have hact : a ∈ ["relu", "gelu", "tanh"] ∧ lower c.activation = a := by
          unfold resolveActivation at ha
          by_cases r1 : lower c.activation = "relu"
          · rw [if_pos r1] at ha; cases ha; exact ⟨by simp, r1⟩
          rw [if_neg r1] at ha
          by_cases r2 : lower c.activation = "gelu"
          · rw [if_pos r2] at ha; cases ha; exact ⟨by simp, r2⟩
          rw [if_neg r2] at ha
          by_cases r3 : lower c.activation = "tanh"
          · rw [if_pos r3] at ha; cases ha; exact ⟨by simp, r3⟩
          rw [if_neg r3] at ha
          cases ha
        refine ⟨rfl, not_not.mp c1, hact.1, hact.2, _, rfl, ?_⟩
        obtain ⟨hmem, hmax⟩ := List.max?_eq_some_iff.mp hm
        intro k
        simp only [List.mem_map, List.mem_range]
        constructor
        · rintro ⟨i, hi, rfl⟩
          exact ⟨by omega, m, hmem, by omega⟩
        · rintro ⟨h0, l, hl, hkl⟩
          have := hmax l hl
          exact ⟨k.toNat, by omega, by omega⟩

/-- **C204 violated (late refusal).**  An unknown activation is accepted by the constructor; the fit that refuses it has already replaced
the classes of an earlier fit. -/
theorem C204_activation_violated : ∃ (c : Conf) (X : Inp Nat) (y : List Int), construct none .none none "elu" = .ok c ∧
    prepareFit id c (some [0, 1, 2]) X y = (some [0, 1], .error .valueError) := by
  refine ⟨⟨none, 128, 2, "elu"⟩, .dict (some ⟨[2, 1], fun _ => 0⟩) (some ⟨[2, 0], fun _ => 0⟩) none, [1, 0], rfl, ?_⟩
  simp [prepareFit, coerce, entries, resolveActivation, bind, Except.bind, List.max?]
  decide

example : construct none (.seq [8, 4]) (some 3) "relu" = .ok ⟨some [8, 4], 8, 3, "relu"⟩ ∧
    convs (layerSizes ⟨some [8, 4], 8, 3, "relu"⟩ 10 2) = [(10, 8), (8, 4), (4, 2)] := by decide +kernel

example : forward (fun (l : Nat) x => x * l + 1) (fun x => 2 * x) [2, 3] 5 = 67 := by decide +kernel

end ModSSC.Supervised.Sage
