import Verif.Deep.BundleProps

/-!
# C162 — which networks can be built
-/

/-! ### Specification -/

namespace ModSSC.Deep.Bundle.Spec
open ModSSC

/-- The activations there are. -/
def Activation (a : String) : Prop := a = "relu" ∨ a = "gelu" ∨ a = "tanh"

/-- Learning rate and weight decay, by default `lr` and `wd`, are not negative. -/
def Optimizable (p : Params) (lr wd : Rat) : Prop := 0 ≤ p.lr.getD lr ∧ 0 ≤ p.weightDecay.getD wd

/-- The hidden sizes of an `mlp`: `hidden_sizes`, else `hidden_dim`, else 256 and 128. -/
inductive MlpSizes (p : Params) : List Int → Prop where
  | seq (l : List Int) : p.hiddenSizes = some (.seq l) → MlpSizes p l
  | int (n : Int) : p.hiddenSizes = some (.int n) → MlpSizes p [n]
  | dim (d : Int) : p.hiddenSizes = none → p.hiddenDim = some d → MlpSizes p [d]
  | default : p.hiddenSizes = none → p.hiddenDim = none → MlpSizes p [256, 128]

/-- Rows that can be read as images: with channels, without, or flat with an `input_shape` of two or three sizes. -/
def ImageRows (p : Params) (row : List Nat) : Prop :=
  row.length = 3 ∨ row.length = 2 ∨ row.length = 1 ∧
    ((∃ h w, p.inputShape = some [h, w]) ∨ ∃ c h w, p.inputShape = some [c, h, w] ∧ 0 ≤ c)

/-- Rows that can be read as sounds. -/
def AudioRows (p : Params) (row : List Nat) : Prop :=
  row.length = 2 ∨ row.length ≤ 1 ∧ ∀ c l, p.inputShape = some [c, l] → 0 ≤ c

/-- Convolutions and head of a convolutional network that can be built. -/
def ConvNet (p : Params) (kernel : Int) (channels : List Int) (fc : Int) : Prop :=
  0 ≤ p.kernelSize.getD kernel ∧ (∀ c ∈ p.convChannels.getD channels, 0 ≤ c) ∧
    (p.convChannels.getD channels ≠ [] → Activation p.activation) ∧
    (0 < p.fcDim.getD fc → Activation p.activation ∧ p.dropout.getD (1 / 5) ≤ 1)

/-- The length of the texts, if rows can be read as texts. -/
inductive TextLength (p : Params) : List Nat → Nat → Prop where
  | last (l e : Nat) : p.inputLayout.getD "channels_last" = "channels_last" → TextLength p [l, e] l
  | first (e l : Nat) : p.inputLayout = some "channels_first" → TextLength p [e, l] l
  | flat (l : Nat) : TextLength p [l] l

/-- The hidden size of an `lstm_scratch`: `hidden_dim`, else `hidden_size`, else the first of `hidden_sizes`, else 128. -/
inductive LstmSize (p : Params) : Int → Prop where
  | dim (h : Int) : p.hiddenDim = some h → LstmSize p h
  | size (h : Int) : p.hiddenDim = none → p.hiddenSize = some h → LstmSize p h
  | int (h : Int) : p.hiddenDim = none → p.hiddenSize = none → p.hiddenSizes = some (.int h) → LstmSize p h
  | seq (h : Int) (l : List Int) : p.hiddenDim = none → p.hiddenSize = none → p.hiddenSizes = some (.seq (h :: l)) → LstmSize p h
  | default : p.hiddenDim = none → p.hiddenSize = none → p.hiddenSizes = none → LstmSize p 128

/-- The hidden sizes of a `graphsage_inductive` network: `hidden_sizes`, whose number must fit `num_layers`, else
`num_layers - 1` times `hidden_channels`. -/
inductive SageSizes (p : Params) : List Int → Prop where
  | seq (l : List Int) : p.hiddenSizes = some (.seq l) → (∀ h ∈ l, 0 < h) → (∀ n, p.numLayers = some n → n = l.length + 1) →
      SageSizes p l
  | int (h : Int) : p.hiddenSizes = some (.int h) → 0 < h → (∀ n, p.numLayers = some n → n = 2) → SageSizes p [h]
  | default : p.hiddenSizes = none →
      SageSizes p (List.replicate (p.numLayers.getD 2 - 1).toNat (p.hiddenChannels.getD 128))

end ModSSC.Deep.Bundle.Spec

namespace ModSSC.Deep.Bundle
open ModSSC Spec

variable {ext : Ext} {be : Option String} {p : Params} {x : Tensor} {k : Nat} {seed : Int} {ema : Bool}

/-! ### Parts -/

theorem ok_bind {α β : Type} {a : Except PyErr α} {f : α → Except PyErr β} :
    (∃ b, (a >>= f) = .ok b) ↔ ∃ x, a = .ok x ∧ ∃ b, f x = .ok b := by
  simp only [ebind_ok]
  constructor
  · rintro ⟨b, x, h1, h2⟩; exact ⟨x, h1, b, h2⟩
  · rintro ⟨x, h1, b, h2⟩; exact ⟨b, x, h1, h2⟩

theorem build_iff {id : String} (hbe : be ∈ [none, some "", some "auto", some "torch"]) (hk : 0 < k) :
    (∃ b, build ext id be p x (some (k : Int)) seed ema = .ok b) ↔ ∃ b, dispatch ext id (takeSample x) k p seed ema = .ok b := by
  have hb : backendOf be = "torch" := by
    simp only [List.mem_cons, List.not_mem_nil, or_false] at hbe
    rcases hbe with rfl | rfl | rfl | rfl <;> rfl
  unfold build
  rw [if_neg (by simp [hb])]
  simp only
  rw [if_neg (by omega), Int.toNat_natCast]

theorem size_iff {z : Int} : (∃ n, size z = .ok n) ↔ 0 ≤ z := by
  unfold size
  by_cases h : z < 0
  · rw [if_pos h]; simp; exact h
  · rw [if_neg h]; simp; omega

theorem size_eq {z : Int} {n : Nat} : size z = .ok n ↔ z = n := by
  unfold size
  by_cases h : z < 0
  · rw [if_pos h]; simp; omega
  · rw [if_neg h]; simp; omega

theorem mkAct_iff {a : String} : (∃ l, mkAct a = .ok l) ↔ Activation a := by
  unfold mkAct Activation
  by_cases h : a = "relu" ∨ a = "gelu" ∨ a = "tanh"
  · rw [if_pos h]; simp [h]
  · rw [if_neg h]; simp [h]

theorem mkDropout_iff {q : Rat} : (∃ l, mkDropout q = .ok l) ↔ 0 ≤ q ∧ q ≤ 1 := by
  unfold mkDropout
  by_cases h : q < 0 ∨ 1 < q
  · rw [if_pos h]
    simp only [reduceCtorEq, exists_false, false_iff, not_and, not_le]
    intro h0
    rcases h with h | h
    · exact absurd h (not_lt.mpr h0)
    · exact h
  · rw [if_neg h]
    rw [not_or, not_lt, not_lt] at h
    exact iff_of_true ⟨_, rfl⟩ h

theorem dropoutIf_iff {q : Rat} : (∃ l, dropoutIf q = .ok l) ↔ q ≤ 1 := by
  unfold dropoutIf
  by_cases h : 0 < q
  · rw [if_pos h, ok_bind]
    constructor
    · rintro ⟨l, hl, -⟩; exact (mkDropout_iff.mp ⟨l, hl⟩).2
    · intro h1
      obtain ⟨l, hl⟩ := mkDropout_iff.mpr ⟨h.le, h1⟩
      exact ⟨l, hl, _, rfl⟩
  · rw [if_neg h]
    exact iff_of_true ⟨_, rfl⟩ ((not_lt.mp h).trans (by norm_num))

theorem adamw_iff {lr wd : Rat} : adamw lr wd = .ok () ↔ 0 ≤ lr ∧ 0 ≤ wd := by
  unfold adamw
  by_cases h : lr < 0 ∨ wd < 0
  · rw [if_pos h]
    simp only [reduceCtorEq, false_iff, not_and, not_le]
    intro h0
    rcases h with h | h
    · exact absurd h (not_lt.mpr h0)
    · exact h
  · rw [if_neg h]
    rw [not_or, not_lt, not_lt] at h
    exact iff_of_true rfl h

theorem bundleAll_iff {net : Net} {dev : String} {lr wd : Rat} :
    (∃ b, bundleAll net ema seed dev lr wd = .ok b) ↔ 0 ≤ lr ∧ 0 ≤ wd := by
  unfold bundleAll
  rw [ok_bind, ← adamw_iff]
  exact ⟨fun ⟨_, h, _⟩ => h, fun h => ⟨_, h, _, rfl⟩⟩

theorem bundleFrozen_iff {net : Net} {dev : String} {fr : Bool} {lr wd : Rat} :
    (∃ b, bundleFrozen net ema seed dev fr lr wd = .ok b) ↔ 0 ≤ lr ∧ 0 ≤ wd := by
  unfold bundleFrozen
  rw [ok_bind, ← adamw_iff]
  exact ⟨fun ⟨_, h, _⟩ => h, fun h => ⟨_, h, _, rfl⟩⟩

theorem hiddenLayers_iff {act : String} {q : Rat} : ∀ {hs : List Int} {i : Nat},
    (∃ r, hiddenLayers act q i hs = .ok r) ↔ (∀ h ∈ hs, 0 < h) ∧ (hs ≠ [] → Activation act ∧ q ≤ 1)
  | [], i => by simp [hiddenLayers]
  | h :: hs, i => by
    rw [hiddenLayers]
    by_cases h0 : h ≤ 0
    · rw [if_pos h0]
      simp only [reduceCtorEq, exists_false, List.mem_cons, forall_eq_or_imp, false_iff]
      rintro ⟨⟨a, -⟩, -⟩
      omega
    · rw [if_neg h0, ok_bind]
      constructor
      · rintro ⟨a, ha, b, hb⟩
        obtain ⟨d, hd, b2, hb2⟩ := ok_bind.mp ⟨b, hb⟩
        obtain ⟨r, hr, -⟩ := ok_bind.mp ⟨b2, hb2⟩
        have ih := (hiddenLayers_iff (hs := hs)).mp ⟨r, hr⟩
        refine ⟨?_, fun _ => ⟨mkAct_iff.mp ⟨a, ha⟩, dropoutIf_iff.mp ⟨d, hd⟩⟩⟩
        intro z hz
        rcases List.mem_cons.mp hz with rfl | hz
        · omega
        · exact ih.1 z hz
      · rintro ⟨h1, h2⟩
        obtain ⟨a1, a2⟩ := h2 (by simp)
        obtain ⟨a, ha⟩ := mkAct_iff.mpr a1
        obtain ⟨d, hd⟩ := dropoutIf_iff.mpr a2
        obtain ⟨r, hr⟩ := (hiddenLayers_iff (i := h.toNat) (hs := hs)).mpr ⟨fun z hz => h1 z (by simp [hz]), fun _ => ⟨a1, a2⟩⟩
        exact ⟨a, ha, ok_bind.mpr ⟨d, hd, ok_bind.mpr ⟨r, hr, _, rfl⟩⟩⟩

theorem convLayers_iff {conv : Nat → Nat → Nat → Nat → Layer} {act : String} {kk : Nat} : ∀ {cs : List Int} {i : Nat},
    (∃ r, convLayers conv act kk i cs = .ok r) ↔ (∀ c ∈ cs, 0 ≤ c) ∧ (cs ≠ [] → Activation act)
  | [], i => by simp [convLayers]
  | c :: cs, i => by
    rw [convLayers, ok_bind]
    constructor
    · rintro ⟨o, ho, b, hb⟩
      obtain ⟨a, ha, b2, hb2⟩ := ok_bind.mp ⟨b, hb⟩
      obtain ⟨r, hr, -⟩ := ok_bind.mp ⟨b2, hb2⟩
      have ih := (convLayers_iff (cs := cs)).mp ⟨r, hr⟩
      refine ⟨?_, fun _ => mkAct_iff.mp ⟨a, ha⟩⟩
      intro z hz
      rcases List.mem_cons.mp hz with rfl | hz
      · exact size_iff.mp ⟨o, ho⟩
      · exact ih.1 z hz
    · rintro ⟨h1, h2⟩
      obtain ⟨o, ho⟩ := size_iff.mpr (h1 c (by simp))
      obtain ⟨a, ha⟩ := mkAct_iff.mpr (h2 (by simp))
      obtain ⟨r, hr⟩ := (convLayers_iff (conv := conv) (kk := kk) (i := o) (cs := cs)).mpr
        ⟨fun z hz => h1 z (by simp [hz]), fun _ => h2 (by simp)⟩
      exact ⟨o, ho, ok_bind.mpr ⟨a, ha, ok_bind.mpr ⟨r, hr, _, rfl⟩⟩⟩

theorem cnnHead_iff {act : String} {q : Rat} {c : Nat} {fc : Int} :
    (∃ l, cnnHead act q c fc k = .ok l) ↔ (0 < fc → Activation act ∧ q ≤ 1) := by
  unfold cnnHead
  by_cases h : 0 < fc
  · rw [if_pos h, ok_bind]
    constructor
    · rintro ⟨a, ha, b, hb⟩ -
      obtain ⟨d, hd, -⟩ := ok_bind.mp ⟨b, hb⟩
      exact ⟨mkAct_iff.mp ⟨a, ha⟩, dropoutIf_iff.mp ⟨d, hd⟩⟩
    · intro h1
      obtain ⟨a, ha⟩ := mkAct_iff.mpr (h1 h).1
      obtain ⟨d, hd⟩ := dropoutIf_iff.mpr (h1 h).2
      exact ⟨a, ha, ok_bind.mpr ⟨d, hd, _, rfl⟩⟩
  · rw [if_neg h]
    exact iff_of_true ⟨_, rfl⟩ fun h' => absurd h' h

/-- A pipeline whose first part gives a value that the success of the rest does not depend on. -/
theorem ok_bind_iff {α β : Type} {a : Except PyErr α} {f : α → Except PyErr β} {A B : Prop} (ha : (∃ x, a = .ok x) ↔ A)
    (hf : ∀ x, a = .ok x → ((∃ b, f x = .ok b) ↔ B)) : (∃ b, (a >>= f) = .ok b) ↔ A ∧ B := by
  rw [ok_bind, ← ha]
  constructor
  · rintro ⟨x, h1, h2⟩; exact ⟨⟨x, h1⟩, (hf x h1).mp h2⟩
  · rintro ⟨⟨x, h1⟩, h2⟩; exact ⟨x, h1, (hf x h1).mpr h2⟩

/-! ### The property -/

theorem mlpHidden_iff {hs : List Int} : mlpHidden p none = .ok hs ↔ MlpSizes p hs := by
  unfold mlpHidden normalizeHidden
  constructor
  · intro h
    cases h1 : p.hiddenSizes with
    | none =>
      rw [h1] at h
      cases h2 : p.hiddenDim with
      | none => rw [h2] at h; cases h; exact .default h1 h2
      | some d => rw [h2] at h; cases h; exact .dim d h1 h2
    | some a =>
      rw [h1] at h
      cases a with
      | int n => cases h; exact .int n h1
      | seq l => cases h; exact .seq _ h1
      | other => cases h
  · intro h
    cases h with
    | seq l h => simp [h]
    | int n h => simp [h]
    | dim d h h' => simp [h, h']
    | default h h' => simp [h, h']

theorem inputDim_iff {m : Nat} {row : List Nat} : (∃ d, inputDim (m :: row) = .ok d) ↔ (m = 0 → row = []) := by
  cases row with
  | nil => simp [inputDim]
  | cons a l =>
    simp only [inputDim]
    by_cases h : m = 0
    · rw [if_pos h]; simp [h]
    · rw [if_neg h]; simp [h]

/-- **C162 (dense networks that can be built).**  For data with at least one row (or a single row without batch axis) exactly those
with positive hidden sizes, a known activation and a dropout rate up to one (if there is a hidden layer), and learning rate and
weight decay that are not negative. -/
theorem C162_dense_builds (hbe : be ∈ [none, some "", some "auto", some "torch"]) (hk : 0 < k) {id : String} {m : Nat}
    {row : List Nat} (hx : x.shape = m :: row) (hid : id = "mlp" ∨ id = "logreg") :
    (∃ b, build ext id be p x (some (k : Int)) seed ema = .ok b) ↔ (m = 0 → row = []) ∧ Optimizable p (1 / 1000) 0 ∧
      ∃ hs, (id = "logreg" ∧ hs = [] ∨ id = "mlp" ∧ MlpSizes p hs) ∧ (∀ h ∈ hs, 0 < h) ∧
        (hs ≠ [] → Activation p.activation ∧ p.dropout.getD (1 / 10) ≤ 1) := by
  rw [build_iff hbe hk]
  have hs := takeSample_shape hx
  have key : ∀ forced, (∃ b, buildMlp (takeSample x) k p seed ema forced p.returnFeatures = .ok b) ↔
      (m = 0 → row = []) ∧ Optimizable p (1 / 1000) 0 ∧
      ∃ hs, mlpHidden p forced = .ok hs ∧ (∀ h ∈ hs, 0 < h) ∧ (hs ≠ [] → Activation p.activation ∧ p.dropout.getD (1 / 10) ≤ 1) := by
    intro forced
    unfold buildMlp
    rw [ok_bind_iff (A := (m = 0 → row = [])) (B := Optimizable p (1 / 1000) 0 ∧ ∃ hs, mlpHidden p forced = .ok hs ∧ (∀ h ∈ hs, 0 < h) ∧
      (hs ≠ [] → Activation p.activation ∧ p.dropout.getD (1 / 10) ≤ 1))]
    · rw [hs, inputDim_iff]
      constructor
      · intro h hm; exact h (by simp [hm])
      · intro h hm
        apply h
        by_cases c : 1 < m
        · rw [if_pos c] at hm; omega
        · rw [if_neg c] at hm; exact hm
    · intro d _
      rw [ok_bind]
      constructor
      · rintro ⟨l, hl, hb⟩
        obtain ⟨r, hr, hb⟩ := ok_bind.mp hb
        have h1 := hiddenLayers_iff.mp ⟨r, hr⟩
        exact ⟨bundleAll_iff.mp hb, l, hl, h1.1, h1.2⟩
      · rintro ⟨ho, l, hl, h1, h2⟩
        obtain ⟨r, hr⟩ := (hiddenLayers_iff (i := d)).mpr ⟨h1, h2⟩
        exact ⟨l, hl, ok_bind.mpr ⟨r, hr, bundleAll_iff.mpr ho⟩⟩
  rcases hid with rfl | rfl
  · simp only [dispatch, if_true, key, mlpHidden_iff]
    simp
  · simp only [dispatch, show ("logreg" = "mlp") = False from by simp, if_true, if_false, key, mlpHidden]
    simp

theorem imageChannels_iff {m : Nat} {row : List Nat} :
    (∃ c, imageChannels (m :: row) p.inputShape = .ok c) ↔ ImageRows p row := by
  unfold ImageRows
  match row with
  | [] => simp [imageChannels]
  | [d] =>
    simp only [imageChannels, List.length_cons, List.length_nil]
    match hs : p.inputShape with
    | none => simp
    | some [] => simp
    | some [a] => simp
    | some [a, b] => simp
    | some [a, b, c] => simp [size_iff]
    | some (a :: b :: c :: d :: l) => simp
  | [h, w] => simp [imageChannels]
  | [c, h, w] => simp [imageChannels]
  | a :: b :: c :: d :: l => simp [imageChannels]

theorem audioChannels_iff {m : Nat} {row : List Nat} :
    (∃ c, audioChannels (m :: row) p.inputShape = .ok c) ↔ AudioRows p row := by
  unfold AudioRows
  match row with
  | [] =>
    simp only [audioChannels, List.length_nil]
    match hs : p.inputShape with
    | none => simp
    | some [] => simp
    | some [a] => simp
    | some [a, b] => simp [size_iff]
    | some (a :: b :: c :: l) => simp
  | [d] =>
    simp only [audioChannels, List.length_cons, List.length_nil]
    match hs : p.inputShape with
    | none => simp
    | some [] => simp
    | some [a] => simp
    | some [a, b] => simp [size_iff]
    | some (a :: b :: c :: l) => simp
  | [c, l] => simp [audioChannels]
  | a :: b :: c :: l => simp [audioChannels]

theorem cnn_iff {conv : Nat → Nat → Nat → Nat → Layer} {fin : List Layer → List Layer → Net} {dev : String} {c : Nat}
    {kernel fc : Int} {channels : List Int} :
    (∃ b, (do
      let kk ← size (p.kernelSize.getD kernel)
      let r ← convLayers conv p.activation kk c (p.convChannels.getD channels)
      let head ← cnnHead p.activation (p.dropout.getD (1 / 5)) r.2 (p.fcDim.getD fc) k
      bundleAll (fin r.1 head) ema seed dev (p.lr.getD (1 / 1000)) (p.weightDecay.getD 0) : Except PyErr Bundle) = .ok b) ↔
    ConvNet p kernel channels fc ∧ Optimizable p (1 / 1000) 0 := by
  rw [ok_bind_iff size_iff (B := ((∀ c ∈ p.convChannels.getD channels, 0 ≤ c) ∧
      (p.convChannels.getD channels ≠ [] → Activation p.activation)) ∧ (0 < p.fcDim.getD fc → Activation p.activation ∧
      p.dropout.getD (1 / 5) ≤ 1) ∧ Optimizable p (1 / 1000) 0)]
  · unfold ConvNet; tauto
  · intro kk _
    exact ok_bind_iff convLayers_iff fun r _ => ok_bind_iff cnnHead_iff fun l _ => bundleAll_iff

/-- **C162 (image networks that can be built).** -/
theorem C162_image_builds (hbe : be ∈ [none, some "", some "auto", some "torch"]) (hk : 0 < k) {m : Nat} {row : List Nat}
    (hx : x.shape = m :: row) :
    (∃ b, build ext "image_cnn" be p x (some (k : Int)) seed ema = .ok b) ↔
      ImageRows p row ∧ ConvNet p 3 [32, 64] 128 ∧ Optimizable p (1 / 1000) 0 := by
  rw [build_iff hbe hk]
  simp only [dispatch, show ("image_cnn" = "mlp") = False from by simp, show ("image_cnn" = "logreg") = False from by simp,
    if_true, if_false, buildImageCnn]
  exact ok_bind_iff (by rw [takeSample_shape hx]; exact imageChannels_iff) fun c _ =>
    cnn_iff (fin := fun a h => .cnn a .pool2 h true)

/-- **C162 (sound networks that can be built).** -/
theorem C162_audio_builds (hbe : be ∈ [none, some "", some "auto", some "torch"]) (hk : 0 < k) {m : Nat} {row : List Nat}
    (hx : x.shape = m :: row) :
    (∃ b, build ext "audio_cnn" be p x (some (k : Int)) seed ema = .ok b) ↔
      AudioRows p row ∧ ConvNet p 5 [16, 32] 64 ∧ Optimizable p (1 / 1000) 0 := by
  rw [build_iff hbe hk]
  simp only [dispatch, show ("audio_cnn" = "mlp") = False from by simp, show ("audio_cnn" = "logreg") = False from by simp,
    show ("audio_cnn" = "image_cnn") = False from by simp, if_true, if_false, buildAudioCnn]
  exact ok_bind_iff (by rw [takeSample_shape hx]; exact audioChannels_iff) fun c _ =>
    cnn_iff (fin := fun a h => .cnn a .pool1 h false)

theorem mapM_size_iff : ∀ {l : List Int}, (∃ r, l.mapM size = .ok r) ↔ ∀ z ∈ l, 0 ≤ z
  | [] => by simp [pure, Except.pure]
  | z :: l => by
    rw [List.mapM_cons, ok_bind]
    constructor
    · rintro ⟨n, hn, hb⟩
      obtain ⟨r, hr, -⟩ := ok_bind.mp hb
      intro y hy
      rcases List.mem_cons.mp hy with rfl | hy
      · exact size_iff.mp ⟨n, hn⟩
      · exact mapM_size_iff.mp ⟨r, hr⟩ y hy
    · intro h
      obtain ⟨n, hn⟩ := size_iff.mpr (h z (by simp))
      obtain ⟨r, hr⟩ := (mapM_size_iff (l := l)).mpr fun y hy => h y (by simp [hy])
      exact ⟨n, hn, ok_bind.mpr ⟨r, hr, _, rfl⟩⟩

theorem textShape_iff {m : Nat} {row : List Nat} {l : Nat} :
    (∃ c, textShape (m :: row) (p.inputLayout.getD "channels_last") = .ok (c, l)) ↔ TextLength p row l := by
  match row with
  | [] =>
    simp only [textShape, reduceCtorEq, exists_false, false_iff]
    intro h; cases h
  | [d] =>
    simp only [textShape, Except.ok.injEq, Prod.mk.injEq]
    constructor
    · rintro ⟨c, -, rfl⟩; exact .flat d
    · intro h; cases h; exact ⟨1, rfl, rfl⟩
  | [a, b] =>
    simp only [textShape]
    by_cases h1 : p.inputLayout.getD "channels_last" = "channels_last"
    · rw [if_pos h1]
      simp only [Except.ok.injEq, Prod.mk.injEq]
      constructor
      · rintro ⟨c, -, rfl⟩; exact .last a b h1
      · intro h
        cases h with
        | last _ _ _ => exact ⟨b, rfl, rfl⟩
        | first _ _ h2 => rw [h2] at h1; simp at h1
    · rw [if_neg h1]
      by_cases h2 : p.inputLayout.getD "channels_last" = "channels_first"
      · rw [if_pos h2]
        simp only [Except.ok.injEq, Prod.mk.injEq]
        have h3 : p.inputLayout = some "channels_first" := by
          cases hl : p.inputLayout with
          | none => rw [hl] at h2; simp at h2
          | some z => rw [hl] at h2; simp at h2; rw [h2]
        constructor
        · rintro ⟨c, -, rfl⟩; exact .first a b h3
        · intro h
          cases h with
          | last _ _ h => exact absurd h h1
          | first _ _ _ => exact ⟨a, rfl, rfl⟩
      · rw [if_neg h2]
        simp only [reduceCtorEq, exists_false, false_iff]
        intro h
        cases h with
        | last _ _ h => exact h1 h
        | first _ _ h => rw [h] at h2; simp at h2
  | a :: b :: c :: d =>
    simp only [textShape, reduceCtorEq, exists_false, false_iff]
    intro h; cases h

/-- **C162 (text networks that can be built).**  Some kernel fits into the texts of the sample, and no kernel that fits is negative. -/
theorem C162_text_builds (hbe : be ∈ [none, some "", some "auto", some "torch"]) (hk : 0 < k) {m : Nat} {row : List Nat}
    (hx : x.shape = m :: row) :
    (∃ b, build ext "text_cnn" be p x (some (k : Int)) seed ema = .ok b) ↔
      (∃ l, TextLength p row l ∧ (∃ q ∈ p.kernelSizes.getD [3, 4, 5], q ≤ (l : Int)) ∧
        ∀ q ∈ p.kernelSizes.getD [3, 4, 5], q ≤ (l : Int) → 0 ≤ q) ∧ 0 ≤ p.numFilters.getD 100 ∧ Activation p.activation ∧
      (0 ≤ p.dropout.getD (1 / 2) ∧ p.dropout.getD (1 / 2) ≤ 1) ∧ Optimizable p (1 / 1000) 0 := by
  rw [build_iff hbe hk]
  simp only [dispatch, show ("text_cnn" = "mlp") = False from by simp, show ("text_cnn" = "logreg") = False from by simp,
    show ("text_cnn" = "image_cnn") = False from by simp, show ("text_cnn" = "audio_cnn") = False from by simp, if_true, if_false,
    buildTextCnn]
  rw [takeSample_shape hx, ok_bind]
  have rest : ∀ c l, (∃ b, (if (p.kernelSizes.getD [3, 4, 5]).filter (fun q => decide (q ≤ ((((c, l) : Nat × Nat).2 : Nat) : Int))) = [] then
        .error .validation
      else do
        let f ← size (p.numFilters.getD 100)
        let ks ← ((p.kernelSizes.getD [3, 4, 5]).filter (fun q => decide (q ≤ ((((c, l) : Nat × Nat).2 : Nat) : Int)))).mapM size
        let _ ← mkAct p.activation
        let _ ← mkDropout (p.dropout.getD (1 / 2))
        bundleAll (.text (ks.map (fun k => (((c, l) : Nat × Nat).1, f, k))) (.linear (f * ks.length) k)) ema seed
          (takeSample x).device (p.lr.getD (1 / 1000)) (p.weightDecay.getD 0) : Except PyErr Bundle) = .ok b) ↔
      ((∃ q ∈ p.kernelSizes.getD [3, 4, 5], q ≤ (l : Int)) ∧ ∀ q ∈ p.kernelSizes.getD [3, 4, 5], q ≤ (l : Int) → 0 ≤ q) ∧
      0 ≤ p.numFilters.getD 100 ∧ Activation p.activation ∧
      (0 ≤ p.dropout.getD (1 / 2) ∧ p.dropout.getD (1 / 2) ≤ 1) ∧ Optimizable p (1 / 1000) 0 := by
    intro c l
    by_cases he : (p.kernelSizes.getD [3, 4, 5]).filter (fun q => decide (q ≤ ((((c, l) : Nat × Nat).2 : Nat) : Int))) = []
    · rw [if_pos he]
      simp only [reduceCtorEq, exists_false, false_iff]
      rintro ⟨⟨⟨q, hq, hl⟩, -⟩, -⟩
      rw [List.filter_eq_nil_iff] at he
      exact he q hq (decide_eq_true hl)
    · rw [if_neg he, ok_bind_iff size_iff (B := (∀ q ∈ p.kernelSizes.getD [3, 4, 5], q ≤ (l : Int) → 0 ≤ q) ∧
        Activation p.activation ∧ (0 ≤ p.dropout.getD (1 / 2) ∧ p.dropout.getD (1 / 2) ≤ 1) ∧ Optimizable p (1 / 1000) 0)]
      · obtain ⟨q, hq⟩ := List.exists_mem_of_ne_nil _ he
        rw [List.mem_filter] at hq
        have := of_decide_eq_true hq.2
        have hex : ∃ q ∈ p.kernelSizes.getD [3, 4, 5], q ≤ (l : Int) := ⟨q, hq.1, this⟩
        tauto
      · intro f _
        refine ok_bind_iff ?_ fun ks _ => ok_bind_iff mkAct_iff fun _ _ => ok_bind_iff mkDropout_iff fun _ _ => bundleAll_iff
        rw [mapM_size_iff]
        simp only [List.mem_filter, decide_eq_true_eq, and_imp]
  constructor
  · rintro ⟨⟨c, l⟩, hc, hb⟩
    have := (rest c l).mp hb
    exact ⟨⟨l, textShape_iff.mp ⟨c, hc⟩, this.1⟩, this.2⟩
  · rintro ⟨⟨l, hl, h1⟩, h2⟩
    obtain ⟨c, hc⟩ := (textShape_iff (m := if 1 < m then 1 else m)).mpr hl
    exact ⟨(c, l), hc, (rest c l).mpr ⟨h1, h2⟩⟩

theorem lstmHidden_iff {h : Int} : lstmHidden p = .ok h ↔ LstmSize p h := by
  unfold lstmHidden
  constructor
  · intro hh
    cases h1 : p.hiddenDim with
    | some d => rw [h1] at hh; cases hh; exact .dim _ h1
    | none =>
      rw [h1] at hh
      cases h2 : p.hiddenSize with
      | some d => rw [h2] at hh; cases hh; exact .size _ h1 h2
      | none =>
        rw [h2] at hh
        match h3 : p.hiddenSizes with
        | none => rw [h3] at hh; cases hh; exact .default h1 h2 h3
        | some (.int n) => rw [h3] at hh; cases hh; exact .int _ h1 h2 h3
        | some (.seq []) => rw [h3] at hh; cases hh
        | some (.seq (a :: l)) => rw [h3] at hh; cases hh; exact .seq _ l h1 h2 h3
        | some .other => rw [h3] at hh; cases hh
  · intro h
    cases h with
    | dim h h1 => simp [h1]
    | size h h1 h2 => simp [h1, h2]
    | int h h1 h2 h3 => simp [h1, h2, h3]
    | seq h l h1 h2 h3 => simp [h1, h2, h3]
    | default h1 h2 h3 => simp [h1, h2, h3]

/-- **C162 (LSTMs that can be built).**  With a positive `vocab_size`, exactly those with an embedding that is not negative, positive
hidden size and number of layers, a dropout rate between zero and one, and a learning rate and weight decay that are not
negative. -/
theorem C162_tokens_builds (hbe : be ∈ [none, some "", some "auto", some "torch"]) (hk : 0 < k) {v : Int}
    (hv : p.vocabSize = some v) (hv0 : 0 < v) :
    (∃ b, build ext "lstm_scratch" be p x (some (k : Int)) seed ema = .ok b) ↔
      0 ≤ p.embedDim.getD 128 ∧ (∃ h, LstmSize p h ∧ 0 < h) ∧ 0 < p.numLayers.getD 1 ∧
      (0 ≤ p.dropout.getD 0 ∧ p.dropout.getD 0 ≤ 1) ∧ Optimizable p (1 / 1000) 0 := by
  rw [build_iff hbe hk]
  simp only [dispatch, show ("lstm_scratch" = "mlp") = False from by simp, show ("lstm_scratch" = "logreg") = False from by simp,
    show ("lstm_scratch" = "image_cnn") = False from by simp, show ("lstm_scratch" = "audio_cnn") = False from by simp,
    show ("lstm_scratch" = "text_cnn") = False from by simp, show ("lstm_scratch" = "image_pretrained") = False from by simp,
    show ("lstm_scratch" = "audio_pretrained") = False from by simp, if_true, if_false, buildLstm]
  have hvo : vocabOf p (takeSample (takeSample x)) = .ok v := by
    unfold vocabOf
    simp only [hv, Option.getD_some]
    rw [if_neg (by omega)]
  rw [ebind_of_ok hvo, ok_bind]
  obtain ⟨n, hn⟩ := size_iff.mpr hv0.le
  have h1 : ∀ (f : Nat → Except PyErr Bundle), (∃ z, size v = .ok z ∧ ∃ b, f z = .ok b) ↔ ∃ b, f n = .ok b := by
    intro f
    rw [hn]
    simp
  rw [h1]
  refine ok_bind_iff size_iff fun e _ => ?_
  rw [ok_bind]
  constructor
  · rintro ⟨h, hh, hb⟩
    by_cases hc : h ≤ 0 ∨ p.numLayers.getD 1 ≤ 0
    · rw [if_pos hc] at hb; obtain ⟨_, hb⟩ := hb; cases hb
    · rw [if_neg hc] at hb
      rw [not_or, not_le, not_le] at hc
      obtain ⟨d, hd, hb⟩ := ok_bind.mp hb
      obtain ⟨b, hb, -⟩ := ok_bind.mp hb
      exact ⟨⟨h, lstmHidden_iff.mp hh, hc.1⟩, hc.2, mkDropout_iff.mp ⟨d, hd⟩, bundleAll_iff.mp ⟨b, hb⟩⟩
  · rintro ⟨⟨h, hh, h0⟩, hl, hd, ho⟩
    refine ⟨h, lstmHidden_iff.mpr hh, ?_⟩
    rw [if_neg (by rw [not_or, not_le, not_le]; exact ⟨h0, hl⟩)]
    obtain ⟨d, hd⟩ := mkDropout_iff.mpr hd
    obtain ⟨b, hb⟩ := (bundleAll_iff (net := .lstm n e h.toNat (p.bidirectional.getD true) p.returnFeatures k) (ema := ema)
      (seed := seed) (dev := (takeSample (takeSample x)).device)).mpr ho
    exact ok_bind.mpr ⟨d, hd, ok_bind.mpr ⟨b, hb, _, rfl⟩⟩

theorem sageHidden_iff {l : List Int} : sageHidden p = .ok l ↔ SageSizes p l := by
  unfold sageHidden
  match h : p.hiddenSizes with
  | none =>
    simp only [Except.ok.injEq]
    constructor
    · rintro rfl; exact .default h
    · intro hl
      cases hl with
      | seq l h' => rw [h] at h'; cases h'
      | int n h' => rw [h] at h'; cases h'
      | default _ => rfl
  | some .other =>
    simp only [reduceCtorEq, false_iff]
    intro hl
    cases hl with
    | seq l h' => rw [h] at h'; cases h'
    | int n h' => rw [h] at h'; cases h'
    | default h' => rw [h] at h'; cases h'
  | some (.int n) =>
    simp only [List.any_cons, List.any_nil, Bool.or_false, decide_eq_true_eq]
    by_cases hn : n ≤ 0
    · rw [if_pos hn]
      simp only [reduceCtorEq, false_iff]
      intro hl
      cases hl with
      | seq l h' => rw [h] at h'; cases h'
      | int n h' h0 => rw [h] at h'; cases h'; omega
      | default h' => rw [h] at h'; cases h'
    · rw [if_neg hn]
      have back : SageSizes p l → l = [n] ∧ ∀ q, p.numLayers = some q → q = 2 := by
        intro hl
        cases hl with
        | seq l h' => rw [h] at h'; cases h'
        | int n h' h0 hq => rw [h] at h'; cases h'; exact ⟨rfl, hq⟩
        | default h' => rw [h] at h'; cases h'
      match hl : p.numLayers with
      | none =>
        simp only [Except.ok.injEq]
        exact ⟨fun e => e ▸ .int n h (by omega) (by simp [hl]), fun e => (back e).1.symm⟩
      | some q =>
        simp only [List.length_cons, List.length_nil]
        by_cases hq : q ≠ ((0 + 1 : Nat) : Int) + 1
        · rw [if_pos hq]
          simp only [reduceCtorEq, false_iff]
          intro e
          exact hq ((back e).2 q hl)
        · rw [if_neg hq]
          simp only [Except.ok.injEq]
          refine ⟨fun e => e ▸ .int n h (by omega) ?_, fun e => (back e).1.symm⟩
          intro q' hq'
          rw [hl] at hq'
          cases hq'
          simpa using hq
  | some (.seq s) =>
    simp only
    have back : SageSizes p l → l = s ∧ (∀ z ∈ s, 0 < z) ∧ ∀ q, p.numLayers = some q → q = s.length + 1 := by
      intro hl
      cases hl with
      | seq l h' h0 hq => rw [h] at h'; cases h'; exact ⟨rfl, h0, hq⟩
      | int n h' h0 hq => rw [h] at h'; cases h'
      | default h' => rw [h] at h'; cases h'
    by_cases hn : s.any (fun h => decide (h ≤ 0)) = true
    · rw [if_pos hn]
      simp only [reduceCtorEq, false_iff]
      intro e
      obtain ⟨z, hz, hz0⟩ := List.any_eq_true.mp hn
      have := (back e).2.1 z hz
      have := of_decide_eq_true hz0
      omega
    · rw [if_neg hn]
      have hpos : ∀ z ∈ s, 0 < z := by
        intro z hz
        by_contra hc
        exact hn (List.any_eq_true.mpr ⟨z, hz, decide_eq_true (by omega)⟩)
      match hl : p.numLayers with
      | none =>
        simp only [Except.ok.injEq]
        exact ⟨fun e => e ▸ .seq s h hpos (by simp [hl]), fun e => (back e).1.symm⟩
      | some q =>
        simp only
        by_cases hq : q ≠ (s.length : Int) + 1
        · rw [if_pos hq]
          simp only [reduceCtorEq, false_iff]
          intro e
          exact hq ((back e).2.2 q hl)
        · rw [if_neg hq]
          simp only [Except.ok.injEq]
          refine ⟨fun e => e ▸ .seq s h hpos ?_, fun e => (back e).1.symm⟩
          intro q' hq'
          rw [hl] at hq'
          cases hq'
          simpa using hq

/-- **C162 (graph networks that can be built).** -/
theorem C162_graph_builds (hbe : be ∈ [none, some "", some "auto", some "torch"]) (hk : 0 < k) {m : Nat} {row : List Nat}
    (hx : x.shape = m :: row) :
    (∃ b, build ext "graphsage_inductive" be p x (some (k : Int)) seed ema = .ok b) ↔
      (∃ l, SageSizes p l ∧ ∀ h ∈ l, 0 ≤ h) ∧ Optimizable p (1 / 100) (1 / 2000) := by
  rw [build_iff hbe hk]
  simp only [dispatch, show ("graphsage_inductive" = "mlp") = False from by simp,
    show ("graphsage_inductive" = "logreg") = False from by simp,
    show ("graphsage_inductive" = "image_cnn") = False from by simp, show ("graphsage_inductive" = "audio_cnn") = False from by simp,
    show ("graphsage_inductive" = "text_cnn") = False from by simp,
    show ("graphsage_inductive" = "image_pretrained") = False from by simp,
    show ("graphsage_inductive" = "audio_pretrained") = False from by simp,
    show ("graphsage_inductive" = "lstm_scratch") = False from by simp, if_true, if_false, buildSage]
  have hd : ∃ d, lastDim (takeSample x).shape = .ok d := by
    rw [takeSample_shape hx]
    unfold lastDim
    cases hg : ((if 1 < m then 1 else m) :: row).getLast? with
    | none => simp at hg
    | some d => exact ⟨d, rfl⟩
  obtain ⟨d, hd⟩ := hd
  rw [ok_bind]
  simp only [ebind_of_ok hd]
  constructor
  · rintro ⟨l, hl, hb⟩
    obtain ⟨r, hr, hb⟩ := ok_bind.mp hb
    exact ⟨⟨l, sageHidden_iff.mp hl, mapM_size_iff.mp ⟨r, hr⟩⟩, bundleAll_iff.mp hb⟩
  · rintro ⟨⟨l, hl, h0⟩, ho⟩
    obtain ⟨r, hr⟩ := mapM_size_iff.mpr h0
    exact ⟨l, sageHidden_iff.mpr hl, ok_bind.mpr ⟨r, hr, bundleAll_iff.mpr ho⟩⟩

/-- **C162 (pretrained image networks that can be built).** -/
theorem C162_pretrained_builds (hbe : be ∈ [none, some "", some "auto", some "torch"]) (hk : 0 < k) :
    (∃ b, build ext "image_pretrained" be p x (some (k : Int)) seed ema = .ok b) ↔
      (∀ s, p.inputShape = some s → s.length = 2 ∨ s.length = 3) ∧ (∃ bb, ext.image p.modelName = .ok bb) ∧
      Optimizable p (1 / 10000) (1 / 10000) := by
  rw [build_iff hbe hk]
  simp only [dispatch, show ("image_pretrained" = "mlp") = False from by simp,
    show ("image_pretrained" = "logreg") = False from by simp,
    show ("image_pretrained" = "image_cnn") = False from by simp, show ("image_pretrained" = "audio_cnn") = False from by simp,
    show ("image_pretrained" = "text_cnn") = False from by simp, if_true, if_false, buildImagePre]
  refine ok_bind_iff ?_ fun s _ => ok_bind_iff Iff.rfl fun bb _ => bundleFrozen_iff
  match h : p.inputShape with
  | none => simp [parseShape]
  | some [] => simp [parseShape]
  | some [a] => simp [parseShape]
  | some [a, b] => simp [parseShape]
  | some [a, b, c] => simp [parseShape]
  | some (a :: b :: c :: d :: l) => simp [parseShape]

/-- **C162 (embedded texts).**  An LSTM also scores sequences that are embedded already, of the width of its embedding. -/
theorem C162_embedded {b : Bundle} (h : build ext "lstm_scratch" be p x (some (k : Int)) seed ema = .ok b) {e l : Nat}
    (he : p.embedDim.getD 128 = (e : Int)) (hl : 0 < l) : Scores b.net k [l, e] := by
  obtain ⟨_, h⟩ := build_dispatch h
  obtain ⟨vn, e', hd, hvn, he', hhd, hpos, hnet, -⟩ := buildLstm_ok (dispatch_lstm h)
  have hee : e' = e := by rw [he] at he'; exact_mod_cast he'
  subst hee
  intro n y hy
  rw [hnet]
  have h1 : embedded vn e' y = .ok [n, l, e'] := by
    unfold embedded isEmbedded
    rw [hy, if_pos (by simp)]
  have h2 : lstmFeatures vn e' hd (p.bidirectional.getD true) y =
      .ok [n, if p.bidirectional.getD true = true then 2 * hd else hd] := by
    unfold lstmFeatures
    rw [ebind_of_ok h1, lstmState_run hl]
  simp only [Net.forward]
  rw [ebind_of_ok h2]
  rw [ebind_of_ok (linear_run2 _ _ _)]
  cases p.returnFeatures <;> exact ⟨_, rfl, rfl⟩

/-! ### Witnesses -/

/-- With default parameters and any data of the right number of axes. -/
example (m d : Nat) : ∃ b, build noExt "mlp" none {} (batch [m + 1, d]) (some 3) 0 false = .ok b := by
  refine (C162_dense_builds (k := 3) (by simp) (by decide) rfl (.inl rfl)).mpr ⟨by simp, by norm_num [Optimizable],
    [256, 128], .inr ⟨rfl, .default rfl rfl⟩, by decide, fun _ => ⟨.inl rfl, by norm_num⟩⟩

example (m c h w : Nat) : ∃ b, build noExt "image_cnn" none {} (batch [m, c, h, w]) (some 3) 0 false = .ok b :=
  (C162_image_builds (k := 3) (by simp) (by decide) rfl).mpr ⟨.inl rfl, by norm_num [ConvNet, Activation],
    by norm_num [Optimizable]⟩

example (m l : Nat) (h : 3 ≤ l) (e : Nat) : ∃ b, build noExt "text_cnn" none {} (batch [m, l, e]) (some 3) 0 false = .ok b :=
  (C162_text_builds (k := 3) (by simp) (by decide) rfl).mpr ⟨⟨l, .last l e rfl, ⟨3, by simp, by omega⟩, by simp⟩, by norm_num,
    .inl rfl, by norm_num, by norm_num [Optimizable]⟩

example : ∃ b, build noExt "graphsage_inductive" none { numLayers := some 3 } (batch [7, 5]) (some 3) 0 false = .ok b :=
  (C162_graph_builds (k := 3) (by simp) (by decide) rfl).mpr ⟨⟨_, .default rfl, by decide⟩, by norm_num [Optimizable]⟩

/-- A text network for texts of two tokens cannot be built with the default kernels. -/
example (m e : Nat) : ¬ ∃ b, build noExt "text_cnn" none {} (batch [m, 2, e]) (some 3) 0 false = .ok b := by
  intro h
  obtain ⟨⟨l, hl, ⟨q, hq, hql⟩, -⟩, -⟩ := (C162_text_builds (k := 3) (by simp) (by decide) rfl).mp h
  cases hl with
  | last _ _ _ =>
    simp at hq
    omega
  | first _ _ h => cases h

end ModSSC.Deep.Bundle
