import Verif.Gnn.GrandFitModel
import Verif.Gnn.GrafnFitProps
import Mathlib.Analysis.SpecialFunctions.Log.Basic
import Mathlib.Tactic.Linarith
import Mathlib.Tactic.FieldSimp
import Mathlib.Tactic.Ring

/-!
# C183 — training GRAND
-/

namespace ModSSC.Gnn.Grand
open ModSSC ModSSC.Transductive ModSSC.Gnn
open ModSSC.Gnn.Grafn (Input probOf meanOver sum_range_list meanOver_eq lt_nClasses any_id)

variable {K : Type} [Field K] [LinearOrder K] {O G : Type}

namespace Spec
open Finset
open ModSSC.Gnn.Grafn.Spec (Valid)

/-- The nodes of a mask that have a label; -100 marks a label to ignore. -/
def Labeled (inp : Input K) (m : List Bool) : Finset Nat := {i ∈ range inp.n | m[i]? = some true ∧ inp.y[i]? ≠ some (-100)}

/-- The label of a node. -/
def Label (inp : Input K) (i : Nat) : Nat := (inp.y.getD i 0).toNat

/-- The score the two layers give node `i` for class `c`, from features `F`, with noise in front of the layers. -/
def Score (d h : Nat) (inner hidden : Nat → Nat → K) (w : Weights K) (F : Feat K) (i c : Nat) : K :=
  ∑ j ∈ range h, max 0 (∑ a ∈ range d, F i a * inner i a * w.w1 j a + w.b1 j) * hidden i j * w.w2 c j + w.b2 c

/-- The probability of class `c` for node `i`. -/
def Prob (T : Torch K O G) (k : Nat) (score : Nat → Nat → K) (i c : Nat) : K :=
  T.exp (score i c) / ∑ c ∈ range k, T.exp (score i c)

/-- The score under the noise `z`: the features are perturbed, propagated along the edges, and given to the network. -/
def Noisy (T : Torch K O G) (cfg : Config K) (inp : Input K) (h : Nat) (z : Noise K) (w : Weights K) : Nat → Nat → K :=
  Score inp.d h z.inner z.hidden w
    (propagate (prepEdges T.sqrt T.eps inp.n cfg.addSelfLoops .rw inp.edges) cfg.propSteps.toNat fun i c => inp.X i c * z.feat i c)

/-- The score without noise. -/
def Clean (T : Torch K O G) (cfg : Config K) (inp : Input K) (h : Nat) (w : Weights K) : Nat → Nat → K :=
  Score inp.d h (fun _ _ => 1) (fun _ _ => 1) w
    (propagate (prepEdges T.sqrt T.eps inp.n cfg.addSelfLoops .rw inp.edges) cfg.propSteps.toNat inp.X)

/-- The mean cross-entropy of the labels of a mask. -/
def CrossEntropy (T : Torch K O G) (inp : Input K) (k : Nat) (m : List Bool) (score : Nat → Nat → K) : K :=
  (∑ i ∈ Labeled inp m, -T.log (Prob T k score i (Label inp i))) / ((Labeled inp m).card : K)

/-- The mean distance of the distributions from their mean over the augmentations, with all probabilities at least `floor`. -/
def Consistency (T : Torch K O G) (n k : Nat) {ι : Type} (zs : List ι) (p : ι → Nat → Nat → K) : K :=
  (zs.map fun z => ∑ i ∈ range n, ∑ c ∈ range k, max (p z i c) T.floor *
    (T.log (max (p z i c) T.floor) - T.log (max ((zs.map fun z => p z i c).sum / (zs.length : K)) T.floor))).sum /
      ((zs.length : K) * (n : K))

/-- The loss of GRAND for parameters `w`. -/
def GrandLoss (T : Torch K O G) (cfg : Config K) (inp : Input K) (h k : Nat) (zs : List (Noise K)) (w : Weights K) : K :=
  (zs.map fun z => CrossEntropy T inp k inp.train (Noisy T cfg inp h z w)).sum / (zs.length : K) +
  cfg.lamConsistency * Consistency T inp.n k zs fun z => Prob T k (Noisy T cfg inp h z w)

/-- The loss, which is not a number if no training node has a label. -/
def Objective (T : Torch K O G) (cfg : Config K) (inp : Input K) (h k : Nat) (zs : List (Noise K)) (w : Weights K) : Option K :=
  if (Labeled inp inp.train).Nonempty then some (GrandLoss T cfg inp h k zs w) else none

/-- `m` is a matrix of factors that dropout with probability `p` draws when the generator goes from `g` to `g'`: 1 for `p = 0`,
0 for `p = 1`, else for every entry 0 or `1 / (1 - p)` as the generator says. -/
def Drawn (T : Torch K O G) (p : K) (n d : Nat) (g : G) (m : Nat → Nat → K) (g' : G) : Prop :=
  (p = 0 → (∀ i c, m i c = 1) ∧ g' = g) ∧ (p = 1 → (∀ i c, m i c = 0) ∧ g' = g) ∧
  (p ≠ 0 → p ≠ 1 → (∀ i c, m i c = if (T.bern g (1 - p) n d).1 i c then 1 / (1 - p) else 0) ∧ g' = (T.bern g (1 - p) n d).2)

/-- One augmentation after the other. -/
def Augmentations (T : Torch K O G) (cfg : Config K) (n d h : Nat) : G → List (Noise K) → G → Prop
  | g, [], g' => g' = g
  | g, z :: zs, g' => ∃ g1 g2 g3, Drawn T cfg.dropnode n d g z.feat g1 ∧ Drawn T cfg.mlpDropout n d g1 z.inner g2 ∧
      Drawn T cfg.mlpDropout n h g2 z.hidden g3 ∧ Augmentations T cfg n d h g3 zs g'

/-- Every node of a mask has a label that is a class, or is to be ignored. -/
def LabelsOk (inp : Input K) (m : List Bool) : Prop :=
  ∀ i : Nat, m[i]? = some true → ∃ v : Int, inp.y[i]? = some v ∧ (0 ≤ v ∨ v = -100)

end Spec

open Spec
open ModSSC.Gnn.Grafn.Spec (Valid)

/-! ### The loss -/

theorem mem_maskNodes {n i : Nat} {m : List Bool} : i ∈ maskNodes n m ↔ i < n ∧ m[i]? = some true := by
  unfold maskNodes
  rw [List.mem_filter, List.mem_range, beq_iff_eq]

theorem y_get {inp : Input K} (hv : Valid inp) {i : Nat} (h : i < inp.n) : inp.y[i]? = some (inp.y.getD i 0) := by
  have : i < inp.y.length := by rw [hv.y]; exact h
  simp [List.getD_eq_getElem?_getD, this]

theorem mem_counted {inp : Input K} (hv : Valid inp) {m : List Bool} {i : Nat} :
    i ∈ counted inp.y (maskNodes inp.n m) ↔ i ∈ Labeled inp m := by
  unfold counted Labeled
  rw [List.mem_filter, mem_maskNodes, decide_eq_true_eq, Finset.mem_filter, Finset.mem_range, and_assoc]
  refine and_congr_right fun hi => and_congr_right fun _ => ?_
  rw [y_get hv hi]
  simp

theorem counted_nodup (y : List Int) (n : Nat) (m : List Bool) : (counted y (maskNodes n m)).Nodup :=
  (List.nodup_range.filter _).filter _

theorem counted_toFinset {inp : Input K} (hv : Valid inp) (m : List Bool) :
    (counted inp.y (maskNodes inp.n m)).toFinset = Labeled inp m := by
  ext i
  rw [List.mem_toFinset, mem_counted hv]

theorem counted_nil {inp : Input K} (hv : Valid inp) (m : List Bool) :
    counted inp.y (maskNodes inp.n m) = [] ↔ ¬ (Labeled inp m).Nonempty := by
  rw [← counted_toFinset hv, Finset.not_nonempty_iff_eq_empty, List.toFinset_eq_empty_iff]

theorem probOf_eq (T : Torch K O G) (k : Nat) (score : Nat → Nat → K) (i c : Nat) :
    probOf T.exp k (score i) c = Prob T k score i c := by
  unfold probOf Prob
  rw [sum_range_list]

theorem forward_eq (d h : Nat) (inner hidden : Nat → Nat → K) (w : Weights K) (X : Feat K) :
    forward d h inner hidden w X = Score d h inner hidden w X := by
  funext i c
  unfold forward Score
  simp only [sum_range_list]

theorem trainLogits_eq (T : Torch K O G) (cfg : Config K) (inp : Input K) (h : Nat) (z : Noise K) (w : Weights K) :
    trainLogits T cfg inp h z w = Noisy T cfg inp h z w := forward_eq _ _ _ _ _ _

theorem evalLogits_eq (T : Torch K O G) (cfg : Config K) (inp : Input K) (h : Nat) (w : Weights K) :
    evalLogits T cfg inp h w = Clean T cfg inp h w := forward_eq _ _ _ _ _ _

theorem crossEntropy_eq (T : Torch K O G) {inp : Input K} (hv : Valid inp) (k : Nat) (m : List Bool) (score : Nat → Nat → K) :
    crossEntropy T k inp.y (maskNodes inp.n m) score =
      if (Labeled inp m).Nonempty then some (CrossEntropy T inp k m score) else none := by
  unfold crossEntropy
  dsimp only
  by_cases h : (Labeled inp m).Nonempty
  · rw [if_neg (fun hn => (counted_nil hv m).mp hn h), if_pos h, meanOver_eq (counted_nodup _ _ _), counted_toFinset hv]
    simp only [probOf_eq]
    rfl
  · rw [if_pos ((counted_nil hv m).mpr h), if_neg h]

theorem foldl_addLoss (f : (Nat → Nat → K) → K) : ∀ (l : List (Nat → Nat → K)) (a : K),
    l.foldl (fun a q => addLoss a (some (f q))) (some a) = some (a + (l.map f).sum)
  | [], a => by simp
  | q :: l, a => by
    rw [List.foldl_cons]
    show l.foldl _ (some (a + f q)) = _
    rw [foldl_addLoss f l, List.map_cons, List.sum_cons, add_assoc]

theorem foldl_addLoss_none (l : List (Nat → Nat → K)) (a : Option K) (h : l ≠ []) :
    l.foldl (fun a _ => addLoss a none) a = none := by
  have hn : ∀ a : Option K, addLoss a none = none := by intro a; cases a <;> rfl
  have key : ∀ l : List (Nat → Nat → K), l.foldl (fun a _ => addLoss a none) (none : Option K) = none := by
    intro l
    induction l with
    | nil => rfl
    | cons q l ih => rw [List.foldl_cons, hn, ih]
  cases l with
  | nil => exact absurd rfl h
  | cons q l => rw [List.foldl_cons, hn, key]

theorem consistency_eq (T : Torch K O G) (n k : Nat) {ι : Type} (zs : List ι) (score : ι → Nat → Nat → K) :
    consistency T n k (zs.map score) = Consistency T n k zs fun z => Prob T k (score z) := by
  unfold consistency Consistency pBar
  simp only [List.map_map, Function.comp_def, List.length_map, sum_range_list, probOf_eq, Nat.cast_mul]

theorem total_eq (T : Torch K O G) (cfg : Config K) {inp : Input K} (hv : Valid inp) (h k : Nat) {zs : List (Noise K)} (hz : zs ≠ [])
    (w : Weights K) : total T cfg inp h k zs w = Objective T cfg inp h k zs w := by
  unfold total Objective
  dsimp only
  have hne : (zs.map fun z => trainLogits T cfg inp h z w) ≠ [] := by simpa using hz
  by_cases hl : (Labeled inp inp.train).Nonempty
  · simp only [crossEntropy_eq T hv, if_pos hl]
    rw [foldl_addLoss]
    simp only [Option.map_some, List.map_map, Function.comp_def, zero_add, trainLogits_eq, consistency_eq]
    rfl
  · simp only [crossEntropy_eq T hv, if_neg hl]
    rw [foldl_addLoss_none _ _ hne]
    rfl

/-! ### One epoch -/

theorem dropout_drawn (T : Torch K O G) (p : K) (n d : Nat) (g : G) :
    Drawn T p n d g (dropout T p n d g).1 (dropout T p n d g).2 := by
  unfold Drawn dropout
  by_cases h0 : p = 0
  · rw [if_pos h0]
    refine ⟨fun _ => ⟨fun _ _ => rfl, rfl⟩, fun h1 => ?_, fun h => absurd h0 h⟩
    rw [h0] at h1
    exact absurd h1 zero_ne_one
  · rw [if_neg h0]
    by_cases h1 : p = 1
    · rw [if_pos h1]
      exact ⟨fun h => absurd h h0, fun _ => ⟨fun _ _ => rfl, rfl⟩, fun _ h => absurd h1 h⟩
    · rw [if_neg h1]
      exact ⟨fun h => absurd h h0, fun h => absurd h h1, fun _ _ => ⟨fun _ _ => rfl, rfl⟩⟩

theorem drawAll_spec (T : Torch K O G) (cfg : Config K) (n d h : Nat) : ∀ s g, (drawAll T cfg n d h s g).1.length = s ∧
    Augmentations T cfg n d h g (drawAll T cfg n d h s g).1 (drawAll T cfg n d h s g).2
  | 0, _ => ⟨rfl, rfl⟩
  | s + 1, g => by
    obtain ⟨h1, h2⟩ := drawAll_spec T cfg n d h s (drawNoise T cfg n d h g).2
    exact ⟨by show (_ :: _ : List _).length = _; rw [List.length_cons, h1],
      _, _, _, dropout_drawn _ _ _ _ _, dropout_drawn _ _ _ _ _, dropout_drawn _ _ _ _ _, h2⟩

/-- The settings and labels with which an epoch does not fail. -/
def Ready (cfg : Config K) (inp : Input K) : Prop :=
  0 < cfg.numSamples ∧ (0 ≤ cfg.dropnode ∧ cfg.dropnode ≤ 1) ∧ (0 ≤ cfg.mlpDropout ∧ cfg.mlpDropout ≤ 1) ∧
    badLabel inp.y (maskNodes inp.n inp.train) = false

theorem epoch_ready {T : Torch K O G} {cfg : Config K} {inp : Input K} {h : Nat} (st : State K O G) :
    (∃ st', epoch T cfg inp h st = .ok st') ↔ Ready cfg inp := by
  unfold epoch Ready
  by_cases h1 : cfg.numSamples ≤ 0
  · rw [if_pos h1]
    simp only [reduceCtorEq, exists_false, false_iff]
    exact fun q => absurd q.1 (by omega)
  rw [if_neg h1]
  by_cases h2 : ¬ (0 ≤ cfg.dropnode ∧ cfg.dropnode ≤ 1)
  · rw [if_pos h2]
    simp only [reduceCtorEq, exists_false, false_iff]
    exact fun q => h2 q.2.1
  rw [if_neg h2]
  by_cases h3 : ¬ (0 ≤ cfg.mlpDropout ∧ cfg.mlpDropout ≤ 1)
  · rw [if_pos h3]
    simp only [reduceCtorEq, exists_false, false_iff]
    exact fun q => h3 q.2.2.1
  rw [if_neg h3]
  by_cases h4 : badLabel inp.y (maskNodes inp.n inp.train) = true
  · rw [if_pos h4]
    simp [h4]
  rw [if_neg h4]
  exact ⟨fun _ => ⟨by omega, not_not.mp h2, not_not.mp h3, by simpa using h4⟩, fun _ => ⟨_, rfl⟩⟩

theorem epoch_spec {T : Torch K O G} {cfg : Config K} {inp : Input K} (hv : Valid inp) {h : Nat} {st st' : State K O G}
    (he : epoch T cfg inp h st = .ok st') :
    ∃ zs, st'.log = st.log ++ [(zs, Objective T cfg inp h (nClasses inp.y) zs st.net)] ∧ (zs.length : Int) = cfg.numSamples ∧
      Augmentations T cfg inp.n inp.d h st.gen zs st'.gen ∧
      (st'.net, st'.opt) = T.learn (Objective T cfg inp h (nClasses inp.y) zs) st.net st.opt := by
  have hr := (epoch_ready st).mp ⟨st', he⟩
  unfold epoch at he
  rw [if_neg (by have := hr.1; omega), if_neg (not_not.mpr hr.2.1), if_neg (not_not.mpr hr.2.2.1),
    if_neg (by rw [hr.2.2.2]; simp)] at he
  dsimp only at he
  obtain ⟨g1, g2⟩ := drawAll_spec T cfg inp.n inp.d h cfg.numSamples.toNat st.gen
  set z := drawAll T cfg inp.n inp.d h cfg.numSamples.toNat st.gen
  have hz : z.1 ≠ [] := by
    intro hn
    rw [hn] at g1
    have := hr.1
    simp at g1
    omega
  have hobj : total T cfg inp h (nClasses inp.y) z.1 = Objective T cfg inp h (nClasses inp.y) z.1 :=
    funext fun w => total_eq T cfg hv h _ hz w
  rw [hobj] at he
  injection he with he
  refine ⟨z.1, ?_, ?_, ?_, ?_⟩
  · rw [← he]
  · have := hr.1
    omega
  · rw [← he]; exact g2
  · rw [← he]

/-! ### The whole training -/

theorem badLabel_iff {inp : Input K} (hv : Valid inp) {m : List Bool} (hm : m.length = inp.n) :
    badLabel inp.y (maskNodes inp.n m) = false ↔ LabelsOk inp m := by
  unfold badLabel LabelsOk
  rw [List.any_eq_false]
  simp only [decide_eq_true_eq, not_lt, mem_counted hv]
  constructor
  · intro h i hi
    have hin : i < inp.n := by rw [← hm]; exact (List.getElem?_eq_some_iff.mp hi).1
    refine ⟨_, y_get hv hin, ?_⟩
    by_cases h100 : inp.y.getD i 0 = -100
    · exact .inr h100
    · refine .inl (h i ?_)
      unfold Labeled
      rw [Finset.mem_filter, Finset.mem_range, y_get hv hin]
      exact ⟨hin, hi, by simpa using h100⟩
  · intro h i hi
    unfold Labeled at hi
    rw [Finset.mem_filter, Finset.mem_range] at hi
    obtain ⟨v, hy, h0⟩ := h i hi.2.1
    rw [y_get hv hi.1] at hy
    rcases h0 with h0 | h0
    · injection hy with hy
      rw [hy]; exact h0
    · rw [y_get hv hi.1, hy, h0] at hi
      exact absurd rfl hi.2.2

/-- The validation measure. -/
def measure (T : Torch K O G) (cfg : Config K) (inp : Input K) (h : Nat) : Option (Weights K → Loss K) :=
  (valNodes inp).map (valLoss T cfg inp h)

/-- Also the validation labels can be used. -/
def ReadyVal (inp : Input K) : Prop := ∀ nodes, valNodes inp = some nodes → badLabel inp.y nodes = false

/-- An epoch, for data on which epochs do not fail. -/
def stepT (T : Torch K O G) (cfg : Config K) (inp : Input K) (h : Nat) (st : State K O G) : State K O G :=
  match epoch T cfg inp h st with
  | .ok st' => st'
  | .error _ => st

theorem epoch_stepT {T : Torch K O G} {cfg : Config K} {inp : Input K} {h : Nat} (hr : Ready cfg inp) (st : State K O G) :
    epoch T cfg inp h st = .ok (stepT T cfg inp h st) := by
  obtain ⟨st', he⟩ := (epoch_ready (T := T) (h := h) st).mpr hr
  unfold stepT
  rw [he]

theorem loop_eq {T : Torch K O G} {cfg : Config K} {inp : Input K} {h : Nat} (hr : Ready cfg inp) (hrv : ReadyVal inp) : ∀ j e st es,
    loop T cfg inp h j e st es =
      .ok (esLoop (grandMeasure T.tol) cfg.patience (stepT T cfg inp h) (·.net) (measure T cfg inp h) j e st es)
  | 0, _, _, _ => rfl
  | j + 1, e, st, es => by
    unfold loop
    rw [epoch_stepT hr]
    dsimp only
    unfold measure
    cases hv : valNodes inp with
    | none =>
      dsimp only
      rw [loop_eq hr hrv j]
      unfold measure
      rw [hv]
      rfl
    | some nodes =>
      dsimp only
      rw [if_neg (by rw [hrv nodes hv]; simp)]
      show _ = Except.ok (esLoop (grandMeasure T.tol) cfg.patience (stepT T cfg inp h) (·.net) (some (valLoss T cfg inp h nodes))
        (j + 1) e st es)
      unfold esLoop
      dsimp only
      split
      · rfl
      · rw [loop_eq hr hrv j]
        unfold measure
        rw [hv]
        rfl

theorem loop_ready {T : Torch K O G} {cfg : Config K} {inp : Input K} {h j e : Nat} {st : State K O G} {es : Es K (Weights K)} :
    (∃ r, loop T cfg inp h j e st es = .ok r) ↔ (j ≠ 0 → Ready cfg inp ∧ ReadyVal inp) := by
  constructor
  · rintro ⟨r, hl⟩ hj
    obtain ⟨j', rfl⟩ := Nat.exists_eq_succ_of_ne_zero hj
    unfold loop at hl
    cases he : epoch T cfg inp h st with
    | error q => rw [he] at hl; cases hl
    | ok st' =>
      rw [he] at hl
      refine ⟨(epoch_ready st).mp ⟨st', he⟩, fun nodes hn => ?_⟩
      dsimp only at hl
      rw [hn] at hl
      dsimp only at hl
      by_cases hb : badLabel inp.y nodes = true
      · rw [if_pos hb] at hl; cases hl
      · simpa using hb
  · intro hr
    by_cases hj : j = 0
    · subst hj; exact ⟨_, rfl⟩
    · exact ⟨_, loop_eq (hr hj).1 (hr hj).2 _ _ _ _⟩

theorem valNodes_none {inp : Input K} :
    valNodes inp = none ↔ ∀ mk, inp.val = some mk → ∀ i : Nat, mk[i]? ≠ some true := by
  unfold valNodes
  cases hm : inp.val with
  | none => simp
  | some m =>
    simp only [Option.some.injEq, forall_eq']
    by_cases ha : m.any id = true
    · rw [if_pos ha]
      simp only [reduceCtorEq, false_iff, not_forall, not_not]
      exact any_id.mp ha
    · rw [if_neg ha]
      simp only [true_iff]
      exact fun i hi => ha (any_id.mpr ⟨i, hi⟩)

theorem valNodes_some {inp : Input K} {mk : List Bool} {i : Nat} (h : inp.val = some mk) (hi : mk[i]? = some true) :
    valNodes inp = some (maskNodes inp.n mk) := by
  unfold valNodes
  rw [h]
  dsimp only
  rw [if_pos (any_id.mpr ⟨i, hi⟩)]

theorem readyVal_iff {inp : Input K} (hv : Valid inp) : ReadyVal inp ↔ ∀ mk, inp.val = some mk → LabelsOk inp mk := by
  unfold ReadyVal
  constructor
  · intro h mk hmk
    by_cases ha : ∃ i : Nat, mk[i]? = some true
    · obtain ⟨i, hi⟩ := ha
      exact (badLabel_iff hv (hv.val mk hmk)).mp (h _ (valNodes_some hmk hi))
    · intro i hi
      exact absurd ⟨i, hi⟩ ha
  · intro h nodes hn
    cases hm : inp.val with
    | none =>
      unfold valNodes at hn
      rw [hm] at hn
      cases hn
    | some mk =>
      by_cases ha : ∃ i : Nat, mk[i]? = some true
      · obtain ⟨i, hi⟩ := ha
        rw [valNodes_some hm hi] at hn
        cases hn
        exact (badLabel_iff hv (hv.val mk hm)).mpr (h mk hm)
      · have : valNodes inp = none := valNodes_none.mpr (by
          intro mk' hmk' i hi
          rw [hm] at hmk'
          cases hmk'
          exact ha ⟨i, hi⟩)
        rw [this] at hn
        cases hn

theorem log_spec {T : Torch K O G} {cfg : Config K} {inp : Input K} (hv : Valid inp) {h : Nat} (hr : Ready cfg inp)
    {t0 : State K O G} (h0 : t0.log = []) : ∀ n,
    (Gnn.Spec.afterEpochs (stepT T cfg inp h) t0 n).log.length = n ∧
    ∀ e zs loss, (Gnn.Spec.afterEpochs (stepT T cfg inp h) t0 n).log[e]? = some (zs, loss) →
      loss = Objective T cfg inp h (nClasses inp.y) zs (Gnn.Spec.afterEpochs (stepT T cfg inp h) t0 e).net ∧
      (zs.length : Int) = cfg.numSamples ∧
      Augmentations T cfg inp.n inp.d h (Gnn.Spec.afterEpochs (stepT T cfg inp h) t0 e).gen zs
        (Gnn.Spec.afterEpochs (stepT T cfg inp h) t0 (e + 1)).gen ∧
      ((Gnn.Spec.afterEpochs (stepT T cfg inp h) t0 (e + 1)).net, (Gnn.Spec.afterEpochs (stepT T cfg inp h) t0 (e + 1)).opt) =
        T.learn (Objective T cfg inp h (nClasses inp.y) zs) (Gnn.Spec.afterEpochs (stepT T cfg inp h) t0 e).net
          (Gnn.Spec.afterEpochs (stepT T cfg inp h) t0 e).opt
  | 0 => by simp [Gnn.Spec.afterEpochs, h0]
  | n + 1 => by
    obtain ⟨h1, h2⟩ := log_spec hv hr h0 n
    obtain ⟨zs, g1, g2, g3, g4⟩ := epoch_spec hv (epoch_stepT (T := T) (h := h) hr (Gnn.Spec.afterEpochs (stepT T cfg inp h) t0 n))
    have hs : Gnn.Spec.afterEpochs (stepT T cfg inp h) t0 (n + 1) =
      stepT T cfg inp h (Gnn.Spec.afterEpochs (stepT T cfg inp h) t0 n) := rfl
    constructor
    · rw [hs, g1, List.length_append, h1]; rfl
    · intro e zs' loss' he
      rw [hs, g1] at he
      by_cases hlt : e < n
      · rw [List.getElem?_append_left (by omega)] at he
        exact h2 e zs' loss' he
      · rw [List.getElem?_append_right (by omega), h1] at he
        have hen : e = n := by
          by_contra hc
          have := (List.getElem?_eq_some_iff.mp he).1
          simp at this
          omega
        subst hen
        simp only [Nat.sub_self, List.getElem?_cons_zero, Option.some.injEq, Prod.mk.injEq] at he
        obtain ⟨rfl, rfl⟩ := he
        exact ⟨rfl, g2, g3, g4⟩

/-- What a completed fit was given. -/
theorem fit_ok {T : Torch K O G} {cfg : Config K} {m m' : Method K} {inp : Input K} {seed : Int} {g : G} {done : Done K}
    (h : fit T cfg m inp seed g = (m', .ok done)) :
    ∃ r, loop T cfg inp cfg.hiddenDim.toNat cfg.maxEpochs.toNat 0 ⟨(T.init inp.d cfg.hiddenDim.toNat (nClasses inp.y) g).1,
        T.opt (T.init inp.d cfg.hiddenDim.toNat (nClasses inp.y) g).1 cfg.lr cfg.weightDecay, T.seed seed, []⟩ ⟨none, 0⟩ = .ok r ∧
      m' = ⟨some ⟨inp.d, cfg.hiddenDim.toNat, nClasses inp.y, match r.2.1.best with
            | none => r.1.net
            | some b => b.2.2⟩, true, some inp.n⟩ ∧ done = ⟨r.2.2, r.1.log⟩ := by
  unfold fit at h
  by_cases h1 : cfg.hiddenDim < 0
  · rw [if_pos h1] at h; cases h
  rw [if_neg h1] at h
  dsimp only at h
  by_cases h4 : cfg.lr < 0 ∨ cfg.weightDecay < 0
  · rw [if_pos h4] at h; cases h
  rw [if_neg h4] at h
  cases hl : loop T cfg inp cfg.hiddenDim.toNat cfg.maxEpochs.toNat 0 ⟨(T.init inp.d cfg.hiddenDim.toNat (nClasses inp.y) g).1,
        T.opt (T.init inp.d cfg.hiddenDim.toNat (nClasses inp.y) g).1 cfg.lr cfg.weightDecay, T.seed seed, []⟩ ⟨none, 0⟩ with
  | error q => rw [hl] at h; cases h
  | ok r =>
    rw [hl] at h
    cases h
    exact ⟨r, rfl, rfl, rfl⟩

/-- **C183 (training).**  A completed fit ran epochs from a fresh network and the generator of the seed.  Every epoch draws
`num_samples` augmentations and ends with the optimizer's step for the loss of GRAND under them.  Without validation nodes all
epochs are run and the last network is kept; with labeled validation nodes the network of an epoch whose cross-entropy there
exceeds that of no epoch run by more than the tolerance, and training stops `patience` epochs (at least one) after it. -/
theorem C183_training [IsStrictOrderedRing K] {T : Torch K O G} (htol : 0 ≤ T.tol) {cfg : Config K} {m m' : Method K} {inp : Input K}
    (hv : Valid inp) {seed : Int} {g : G} {done : Done K} (hf : fit T cfg m inp seed g = (m', .ok done)) (hmax : 0 < cfg.maxEpochs) :
    ∃ (states : Nat → Weights K × O) (gen : Nat → G) (net : Net K),
      m'.net = some net ∧ (net.d = inp.d ∧ (net.h : Int) = cfg.hiddenDim ∧ net.k = nClasses inp.y) ∧
      (states 0).1 = (T.init net.d net.h net.k g).1 ∧ (states 0).2 = T.opt (states 0).1 cfg.lr cfg.weightDecay ∧
      gen 0 = T.seed seed ∧ done.log.length = done.epochs ∧
      (∀ e zs loss, done.log[e]? = some (zs, loss) → (zs.length : Int) = cfg.numSamples ∧
        Augmentations T cfg inp.n inp.d net.h (gen e) zs (gen (e + 1)) ∧
        loss = Objective T cfg inp net.h net.k zs (states e).1 ∧
        states (e + 1) = T.learn (Objective T cfg inp net.h net.k zs) (states e).1 (states e).2) ∧
      ((∀ mk, inp.val = some mk → ∀ i : Nat, mk[i]? ≠ some true) → (done.epochs : Int) = cfg.maxEpochs ∧
        net.w = (states done.epochs).1) ∧
      ∀ mk, inp.val = some mk → (Labeled inp mk).Nonempty → ∃ b < done.epochs, net.w = (states (b + 1)).1 ∧
        (∀ e < done.epochs, CrossEntropy T inp net.k mk (Clean T cfg inp net.h net.w) ≤
          CrossEntropy T inp net.k mk (Clean T cfg inp net.h (states (e + 1)).1) + T.tol) ∧
        done.epochs = min cfg.maxEpochs.toNat (b + 1 + max 1 cfg.patience.toNat) := by
  have hh : ¬ cfg.hiddenDim < 0 := by
    intro hn
    unfold fit at hf
    rw [if_pos hn] at hf
    cases hf
  obtain ⟨r, hloop, rfl, rfl⟩ := fit_ok hf
  obtain ⟨hr, hrv⟩ := loop_ready.mp ⟨r, hloop⟩ (by omega)
  rw [loop_eq hr hrv] at hloop
  injection hloop with hloop
  set h := cfg.hiddenDim.toNat with hhdef
  set t0 : State K O G := ⟨(T.init inp.d h (nClasses inp.y) g).1,
        T.opt (T.init inp.d h (nClasses inp.y) g).1 cfg.lr cfg.weightDecay, T.seed seed, []⟩ with ht0
  have hend : r.1 = Gnn.Spec.afterEpochs (stepT T cfg inp h) t0 r.2.2 := by
    rw [← hloop]
    cases hval : measure T cfg inp h with
    | none =>
      have := esLoop_noval (grandMeasure T.tol) cfg.patience (stepT T cfg inp h) (·.net) t0 cfg.maxEpochs.toNat 0 ⟨none, 0⟩
      simp only [Gnn.Spec.afterEpochs, Nat.zero_add] at this
      rw [this]
    | some f =>
      have h0 : EsInv (grandMeasure T.tol) (stepT T cfg inp h) (·.net) f t0 0 ⟨none, 0⟩ := ⟨rfl, by intro i hi; omega⟩
      exact (esLoop_inv (grand_lawful T.tol htol) cfg.patience (stepT T cfg inp h) (·.net) f t0 cfg.maxEpochs.toNat 0 ⟨none, 0⟩ h0
        (by simp)).1
  obtain ⟨g1, g2⟩ := log_spec (T := T) hv (h := h) hr (t0 := t0) rfl r.2.2
  have hrun : runTraining (grandMeasure T.tol) cfg.maxEpochs cfg.patience (stepT T cfg inp h) (·.net) (measure T cfg inp h) t0 =
      match r.2.1.best with
      | none => ⟨r.1.net, r.2.2, none, none⟩
      | some (v, e, s) => ⟨s, r.2.2, some e, some v⟩ := by
    unfold runTraining
    rw [hloop]
    dsimp only
    cases r.2.1.best <;> rfl
  have hnet : (runTraining (grandMeasure T.tol) cfg.maxEpochs cfg.patience (stepT T cfg inp h) (·.net) (measure T cfg inp h)
      t0).params = (match r.2.1.best with
            | none => r.1.net
            | some b => b.2.2) ∧ (runTraining (grandMeasure T.tol) cfg.maxEpochs cfg.patience (stepT T cfg inp h) (·.net)
      (measure T cfg inp h) t0).epochs = r.2.2 := by
    rw [hrun]
    cases r.2.1.best with
    | none => exact ⟨rfl, rfl⟩
    | some b => exact ⟨rfl, rfl⟩
  refine ⟨fun e => ((Gnn.Spec.afterEpochs (stepT T cfg inp h) t0 e).net, (Gnn.Spec.afterEpochs (stepT T cfg inp h) t0 e).opt),
    fun e => (Gnn.Spec.afterEpochs (stepT T cfg inp h) t0 e).gen, _, rfl,
    ⟨rfl, by show (h : Int) = _; omega, rfl⟩, rfl, rfl, rfl, ?_, ?_, ?_, ?_⟩
  · show r.1.log.length = r.2.2
    rw [hend, g1]
  · intro e zs loss he
    have he : r.1.log[e]? = some (zs, loss) := he
    rw [hend] at he
    obtain ⟨k1, k2, k3, k4⟩ := g2 e zs loss he
    exact ⟨k2, k3, k1, k4⟩
  · intro hno
    have hvn : measure T cfg inp h = none := by unfold measure; rw [valNodes_none.mpr hno]; rfl
    have := C139_no_validation (grandMeasure T.tol) cfg.maxEpochs cfg.patience (stepT T cfg inp h) (·.net) t0
    rw [hvn] at hnet
    rw [this] at hnet
    obtain ⟨n1, n2⟩ := hnet
    have n2 : cfg.maxEpochs.toNat = r.2.2 := n2
    refine ⟨by show (r.2.2 : Int) = _; omega, ?_⟩
    show (match r.2.1.best with
            | none => r.1.net
            | some b => b.2.2) = _
    rw [← n1, n2]
  · intro mk hmk hne
    obtain ⟨i, hi⟩ := hne
    have hi' : mk[i]? = some true := by
      unfold Labeled at hi
      rw [Finset.mem_filter] at hi
      exact hi.2.1
    have hme : measure T cfg inp h = some fun w => some (CrossEntropy T inp (nClasses inp.y) mk (Clean T cfg inp h w)) := by
      unfold measure
      rw [valNodes_some hmk hi']
      show some _ = some _
      congr 1
      funext w
      unfold valLoss
      rw [crossEntropy_eq T hv, if_pos ⟨i, hi⟩, evalLogits_eq]
    rw [hme] at hnet
    obtain ⟨n1, n2⟩ := hnet
    rcases C139_best (grandMeasure T.tol) (grand_lawful T.tol htol) cfg.maxEpochs cfg.patience (stepT T cfg inp h) (·.net)
      (fun w => some (CrossEntropy T inp (nClasses inp.y) mk (Clean T cfg inp h w))) t0 with
      ⟨b, -, b2, b3, -, b5, b6⟩ | ⟨-, -, -, b4, b5⟩
    · rw [n2] at b2 b5 b6
      refine ⟨b, b2, ?_, ?_, b6⟩
      · show (match r.2.1.best with
            | none => r.1.net
            | some b => b.2.2) = _
        rw [← n1, b3]; rfl
      · intro e he
        have := b5 e he
        rw [n1] at this
        simp only [grandMeasure, lossBetter, decide_eq_false_iff_not, not_lt] at this
        have h2 : ∀ x y t : K, x - t ≤ y → x ≤ y + t := fun x y t hxy => by linarith
        exact h2 _ _ _ this
    · rw [n2] at b4 b5
      exfalso
      have hpos : 0 < r.2.2 := by rw [b5]; omega
      have := b4 0 hpos
      simp [grandMeasure] at this

/-- **C183 (what is accepted).**  Fitting succeeds exactly for these settings and labels. -/
theorem C183_accepts (T : Torch K O G) (cfg : Config K) (m : Method K) {inp : Input K} (hv : Valid inp) (seed : Int) (g : G) :
    (∃ done, (fit T cfg m inp seed g).2 = .ok done) ↔
      0 ≤ cfg.hiddenDim ∧ 0 ≤ cfg.lr ∧ 0 ≤ cfg.weightDecay ∧
      (0 < cfg.maxEpochs → 0 < cfg.numSamples ∧ (0 ≤ cfg.dropnode ∧ cfg.dropnode ≤ 1) ∧ (0 ≤ cfg.mlpDropout ∧ cfg.mlpDropout ≤ 1) ∧
        LabelsOk inp inp.train ∧ ∀ mk, inp.val = some mk → LabelsOk inp mk) := by
  unfold fit
  by_cases h1 : cfg.hiddenDim < 0
  · rw [if_pos h1]
    simp only [reduceCtorEq, exists_false, false_iff]
    exact fun h => absurd h.1 (by omega)
  rw [if_neg h1]
  dsimp only
  by_cases h5 : cfg.lr < 0 ∨ cfg.weightDecay < 0
  · rw [if_pos h5]
    simp only [reduceCtorEq, exists_false, false_iff]
    intro h
    rcases h5 with h5 | h5
    · exact absurd h.2.1 (not_le.mpr h5)
    · exact absurd h.2.2.1 (not_le.mpr h5)
  rw [if_neg h5]
  rw [not_or, not_lt, not_lt] at h5
  have hl := loop_ready (T := T) (cfg := cfg) (inp := inp) (h := cfg.hiddenDim.toNat) (j := cfg.maxEpochs.toNat) (e := 0)
    (st := ⟨(T.init inp.d cfg.hiddenDim.toNat (nClasses inp.y) g).1,
        T.opt (T.init inp.d cfg.hiddenDim.toNat (nClasses inp.y) g).1 cfg.lr cfg.weightDecay, T.seed seed, []⟩) (es := ⟨none, 0⟩)
  unfold Ready at hl
  rw [readyVal_iff hv, badLabel_iff hv hv.train] at hl
  have hmax : cfg.maxEpochs.toNat ≠ 0 ↔ 0 < cfg.maxEpochs := by omega
  rw [hmax] at hl
  simp only [and_assoc] at hl ⊢
  cases hloop : loop T cfg inp cfg.hiddenDim.toNat cfg.maxEpochs.toNat 0 ⟨(T.init inp.d cfg.hiddenDim.toNat (nClasses inp.y) g).1,
        T.opt (T.init inp.d cfg.hiddenDim.toNat (nClasses inp.y) g).1 cfg.lr cfg.weightDecay, T.seed seed, []⟩ ⟨none, 0⟩ with
  | error q =>
    simp only [reduceCtorEq, exists_false, false_iff]
    intro h
    obtain ⟨r, hr⟩ := hl.mpr h.2.2.2
    rw [hloop] at hr
    cases hr
  | ok r =>
    exact ⟨fun _ => ⟨by omega, h5.1, h5.2, hl.mp ⟨r, hloop⟩⟩, fun _ => ⟨_, rfl⟩⟩

/-! ### The consistency loss -/

theorem sum_map_mul {ι : Type} (l : List ι) (f : ι → K) (a : K) : (l.map fun z => f z * a).sum = (l.map f).sum * a := by
  induction l with
  | nil => simp
  | cons z l ih => simp only [List.map_cons, List.sum_cons, ih]; ring

theorem swap_sum {ι : Type} (l : List ι) (n : Nat) (f : ι → Nat → K) :
    (l.map fun z => ∑ i ∈ Finset.range n, f z i).sum = ∑ i ∈ Finset.range n, (l.map fun z => f z i).sum := by
  induction l with
  | nil => simp
  | cons z l ih => simp only [List.map_cons, List.sum_cons, ih, Finset.sum_add_distrib]

section
variable [IsStrictOrderedRing K]

theorem sum_map_nonneg {ι : Type} (l : List ι) (f g : ι → K) (h : ∀ z ∈ l, g z ≤ f z) : (l.map g).sum ≤ (l.map f).sum := by
  induction l with
  | nil => simp
  | cons z l ih =>
    simp only [List.map_cons, List.sum_cons]
    exact add_le_add (h z (by simp)) (ih fun z hz => h z (by simp [hz]))

/-- **C183 (consistency).**  The consistency loss is never negative, whatever the network says: with a logarithm that has
`log (a / b) = log a - log b` and stays below its tangent at 1. -/
theorem C183_consistency (T : Torch K O G) (hfloor : 0 < T.floor)
    (hdiv : ∀ a b, 0 < a → 0 < b → T.log (a / b) = T.log a - T.log b) (htan : ∀ a, 0 < a → T.log a ≤ a - 1)
    (n k : Nat) {ι : Type} (zs : List ι) (p : ι → Nat → Nat → K) : 0 ≤ Consistency T n k zs p := by
  unfold Consistency
  refine div_nonneg ?_ (mul_nonneg (Nat.cast_nonneg _) (Nat.cast_nonneg _))
  rw [swap_sum]
  refine Finset.sum_nonneg fun i _ => ?_
  rw [swap_sum]
  refine Finset.sum_nonneg fun c _ => ?_
  by_cases hz : zs = []
  · subst hz; simp
  have hlen : (0 : K) < (zs.length : K) := Nat.cast_pos.mpr (List.length_pos_iff.mpr hz)
  set M := max ((zs.map fun z => p z i c).sum / (zs.length : K)) T.floor with hM
  have hMpos : 0 < M := lt_of_lt_of_le hfloor (le_max_right _ _)
  have key : ∀ z ∈ zs, max (p z i c) T.floor - M ≤
      max (p z i c) T.floor * (T.log (max (p z i c) T.floor) - T.log M) := by
    intro z _
    set q := max (p z i c) T.floor with hq
    have hqpos : 0 < q := lt_of_lt_of_le hfloor (le_max_right _ _)
    have h1 := htan (M / q) (div_pos hMpos hqpos)
    rw [hdiv M q hMpos hqpos] at h1
    have h2 := mul_le_mul_of_nonneg_left h1 hqpos.le
    have h3 : q * (M / q - 1) = M - q := by field_simp
    rw [h3] at h2
    nlinarith
  refine le_trans ?_ (sum_map_nonneg zs _ _ key)
  have e1 : (zs.map fun z => max (p z i c) T.floor - M).sum =
      (zs.map fun z => max (p z i c) T.floor).sum - (zs.length : K) * M := by
    clear key hlen hz hMpos
    clear_value M
    clear hM
    induction zs with
    | nil => simp
    | cons z l ih =>
      simp only [List.map_cons, List.sum_cons, ih, List.length_cons, Nat.cast_add, Nat.cast_one]
      ring
  rw [e1, sub_nonneg]
  have a1 : (zs.map fun z => p z i c).sum ≤ (zs.map fun z => max (p z i c) T.floor).sum :=
    sum_map_nonneg zs _ _ fun z _ => le_max_left _ _
  have a2 : (zs.length : K) * T.floor ≤ (zs.map fun z => max (p z i c) T.floor).sum := by
    have : (zs.map fun _ => T.floor).sum = (zs.length : K) * T.floor := by simp
    rw [← this]
    exact sum_map_nonneg zs _ _ fun z _ => le_max_right _ _
  rcases le_total ((zs.map fun z => p z i c).sum / (zs.length : K)) T.floor with hc | hc
  · rw [hM, max_eq_right hc]; exact a2
  · rw [hM, max_eq_left hc, mul_div_cancel₀ _ hlen.ne']; exact a1

/-- **C183 (no noise).**  With both dropout probabilities zero the loss of every epoch is the cross-entropy of the training nodes
without noise: the consistency loss vanishes. -/
theorem C183_no_noise (T : Torch K O G) (cfg : Config K) (inp : Input K) (h k : Nat) (h1 : cfg.dropnode = 0) (h2 : cfg.mlpDropout = 0)
    {zs : List (Noise K)} {g g' : G} (hz : zs ≠ []) (ha : Augmentations T cfg inp.n inp.d h g zs g') (w : Weights K) :
    GrandLoss T cfg inp h k zs w = CrossEntropy T inp k inp.train (Clean T cfg inp h w) ∧ g' = g := by
  have hall : ∀ zs g, Augmentations T cfg inp.n inp.d h g zs g' →
      (∀ z ∈ zs, Noisy T cfg inp h z w = Clean T cfg inp h w) ∧ g' = g := by
    intro zs
    induction zs with
    | nil => intro g hg; exact ⟨by simp, hg⟩
    | cons z zs ih =>
      rintro g ⟨g1, g2, g3, d1, d2, d3, hr⟩
      obtain ⟨i1, i2⟩ := ih g3 hr
      obtain ⟨e1, f1⟩ := d1.1 h1
      obtain ⟨e2, f2⟩ := d2.1 h2
      obtain ⟨e3, f3⟩ := d3.1 h2
      refine ⟨?_, by rw [i2, f3, f2, f1]⟩
      intro z' hz'
      rcases List.mem_cons.mp hz' with rfl | hz'
      · unfold Noisy Clean
        have q1 : z'.feat = fun _ _ => 1 := funext fun i => funext fun c => e1 i c
        have q2 : z'.inner = fun _ _ => 1 := funext fun i => funext fun c => e2 i c
        have q3 : z'.hidden = fun _ _ => 1 := funext fun i => funext fun c => e3 i c
        rw [q1, q2, q3]
        simp only [mul_one]
      · exact i1 z' hz'
  obtain ⟨b1, b2⟩ := hall zs g ha
  refine ⟨?_, b2⟩
  have hlen : (zs.length : K) ≠ 0 := Nat.cast_ne_zero.mpr (by simpa using hz)
  have hsum : ∀ (f : (Nat → Nat → K) → K), (zs.map fun z => f (Noisy T cfg inp h z w)).sum =
      (zs.length : K) * f (Clean T cfg inp h w) := by
    intro f
    have : (zs.map fun z => f (Noisy T cfg inp h z w)) = zs.map fun _ => f (Clean T cfg inp h w) :=
      List.map_congr_left fun z hz => by rw [b1 z hz]
    rw [this]
    simp
  unfold GrandLoss Consistency
  rw [hsum fun s => CrossEntropy T inp k inp.train s]
  have hmean : ∀ i c, (zs.map fun z => Prob T k (Noisy T cfg inp h z w) i c).sum / (zs.length : K) =
      Prob T k (Clean T cfg inp h w) i c := by
    intro i c
    rw [hsum fun s => Prob T k s i c, mul_div_cancel_left₀ _ hlen]
  simp only [hmean]
  rw [hsum fun s => ∑ i ∈ Finset.range inp.n, ∑ c ∈ Finset.range k, max (Prob T k s i c) T.floor *
    (T.log (max (Prob T k s i c) T.floor) - T.log (max (Prob T k (Clean T cfg inp h w) i c) T.floor))]
  simp only [sub_self, mul_zero, Finset.sum_const_zero, zero_div, add_zero]
  rw [mul_div_cancel_left₀ _ hlen]

end

/-! ### Predicting -/

/-- **C183 (predicting).**  After a completed fit with a probability as dropout, `predict_proba` gives every dataset with as many nodes
and features one distribution over the classes per node: of the fitted network, without noise, on the features and the graph of
that dataset.  Every other number of nodes or features is refused, as is predicting before fitting. -/
theorem C183_predict [IsStrictOrderedRing K] {T : Torch K O G} (hexp : ∀ x, 0 < T.exp x) {cfg : Config K}
    {m m' : Method K} {inp : Input K} {seed : Int} {g : G} {done : Done K} (hf : fit T cfg m inp seed g = (m', .ok done))
    (hp : 0 ≤ cfg.mlpDropout ∧ cfg.mlpDropout ≤ 1) (hy : ∃ v ∈ inp.y, 0 ≤ v) (data : Input K) :
    predictProba T cfg Method.new data = .error .runtimeError ∧ ∃ net, m'.net = some net ∧
      (data.n ≠ inp.n → predictProba T cfg m' data = .error .valueError) ∧
      (data.n = inp.n → data.d ≠ inp.d → predictProba T cfg m' data = .error .runtimeError) ∧
      (data.n = inp.n → data.d = inp.d → ∃ P, predictProba T cfg m' data = .ok P ∧ P.length = data.n ∧
        (∀ row ∈ P, row.length = nClasses inp.y ∧ (∀ q ∈ row, 0 < q) ∧ row.sum = 1) ∧
        ∀ i c q, (P[i]?.bind (·[c]?)) = some q → q = Prob T (nClasses inp.y) (Clean T cfg data net.h net.w) i c) := by
  obtain ⟨r, hloop, rfl, rfl⟩ := fit_ok hf
  have hk : 0 < nClasses inp.y := by
    obtain ⟨v, hv, h0⟩ := hy
    exact lt_nClasses.mpr ⟨v, hv, h0⟩
  refine ⟨rfl, _, rfl, ?_, ?_, ?_⟩
  · intro hn
    unfold predictProba
    dsimp only
    rw [if_pos hn]
  · intro hn hd
    unfold predictProba
    dsimp only
    rw [if_neg (not_not.mpr hn), if_neg (not_not.mpr hp), if_pos hd]
  · intro hn hd
    unfold predictProba
    dsimp only
    rw [if_neg (not_not.mpr hn), if_neg (not_not.mpr hp), if_neg (not_not.mpr hd)]
    refine ⟨_, rfl, by simp, ?_, ?_⟩
    · intro row hrow
      obtain ⟨i, -, rfl⟩ := List.mem_map.mp hrow
      have hpos : ∀ (f : Nat → K), 0 < ((List.range (nClasses inp.y)).map fun c => T.exp (f c)).sum := by
        intro f
        rw [sum_range_list]
        exact Finset.sum_pos (fun _ _ => hexp _) ⟨0, Finset.mem_range.mpr hk⟩
      refine ⟨by simp, ?_, ?_⟩
      · intro q hq
        obtain ⟨c, -, rfl⟩ := List.mem_map.mp hq
        exact div_pos (hexp _) (hpos _)
      · unfold probOf
        rw [sum_range_list, ← Finset.sum_div, ← sum_range_list]
        exact div_self (hpos _).ne'
    · intro i c q hq
      rw [Option.bind_eq_some_iff] at hq
      obtain ⟨row, hrow, hq⟩ := hq
      rw [List.getElem?_map, Option.map_eq_some_iff] at hrow
      obtain ⟨j, hj, rfl⟩ := hrow
      rw [List.getElem?_map, Option.map_eq_some_iff] at hq
      obtain ⟨d, hd, rfl⟩ := hq
      obtain ⟨hj', rfl⟩ := List.getElem?_eq_some_iff.mp hj
      obtain ⟨hd', rfl⟩ := List.getElem?_eq_some_iff.mp hd
      simp only [List.getElem_range, probOf_eq, evalLogits_eq]

/-! ### Hidden labels -/

theorem counted_congr {y y' : List Int} {nodes : List Nat} (h : ∀ i ∈ nodes, y.getD i 0 = y'.getD i 0) :
    counted y nodes = counted y' nodes := by
  unfold counted
  exact List.filter_congr fun i hi => by rw [h i hi]

theorem crossEntropy_congr (T : Torch K O G) (k : Nat) {y y' : List Int} {nodes : List Nat}
    (h : ∀ i ∈ nodes, y.getD i 0 = y'.getD i 0) (l : Nat → Nat → K) :
    crossEntropy T k y nodes l = crossEntropy T k y' nodes l := by
  unfold crossEntropy
  dsimp only
  rw [counted_congr h]
  congr 2
  unfold meanOver
  congr 2
  refine List.map_congr_left fun i hi => ?_
  rw [h i (List.mem_filter.mp hi).1]

theorem badLabel_congr {y y' : List Int} {nodes : List Nat} (h : ∀ i ∈ nodes, y.getD i 0 = y'.getD i 0) :
    badLabel y nodes = badLabel y' nodes := by
  unfold badLabel
  rw [counted_congr h, Bool.eq_iff_iff, List.any_eq_true, List.any_eq_true]
  refine exists_congr fun i => and_congr_right fun hi => ?_
  rw [h i (List.mem_filter.mp hi).1]

/-- **C183 (hidden labels), what holds.**  The fitted network, and whether fitting succeeds, depends on no label outside the training and
validation masks, except through the number of classes. -/
theorem C183_hidden_partial (T : Torch K O G) (cfg : Config K) (m : Method K) (n d : Nat) (X : Feat K) (es : List (WEdge K))
    (train : List Bool) (val : Option (List Bool)) (y y' : List Int) (hk : nClasses y = nClasses y')
    (ht : ∀ i : Nat, train[i]? = some true → y[i]? = y'[i]?)
    (hval : ∀ (mk : List Bool) (i : Nat), val = some mk → mk[i]? = some true → y[i]? = y'[i]?) (seed : Int) (g : G) :
    fit T cfg m ⟨n, d, X, es, y, train, val⟩ seed g = fit T cfg m ⟨n, d, X, es, y', train, val⟩ seed g := by
  set a : Input K := ⟨n, d, X, es, y, train, val⟩ with ha
  set b : Input K := ⟨n, d, X, es, y', train, val⟩ with hb
  have hget : ∀ i : Nat, y[i]? = y'[i]? → y.getD i 0 = y'.getD i 0 := by
    intro i hi
    rw [List.getD_eq_getElem?_getD, List.getD_eq_getElem?_getD, hi]
  have htr : ∀ i ∈ maskNodes n train, y.getD i 0 = y'.getD i 0 := fun i hi => hget i (ht i (mem_maskNodes.mp hi).2)
  have htotal : ∀ h zs, total T cfg a h (nClasses y) zs = total T cfg b h (nClasses y') zs := by
    intro h zs
    funext w
    unfold total
    dsimp only
    have e1 : ∀ l, crossEntropy T (nClasses y') y (maskNodes n train) l = crossEntropy T (nClasses y') y' (maskNodes n train) l :=
      fun l => crossEntropy_congr T _ htr l
    show Option.map _ (Option.map _ (List.foldl (fun x l => addLoss x (crossEntropy T (nClasses y) y (maskNodes n train) l)) _ _)) =
      Option.map _ (Option.map _ (List.foldl (fun x l => addLoss x (crossEntropy T (nClasses y') y' (maskNodes n train) l)) _ _))
    rw [hk]
    simp only [e1]
    rfl
  have hepoch : ∀ h st, epoch T cfg a h st = epoch T cfg b h st := by
    intro h st
    unfold epoch
    dsimp only
    have e1 : badLabel a.y (maskNodes a.n a.train) = badLabel b.y (maskNodes b.n b.train) := badLabel_congr htr
    have e2 : ∀ zs, total T cfg a h (nClasses a.y) zs = total T cfg b h (nClasses b.y) zs := htotal h
    rw [e1]
    simp only [e2]
    rfl
  have hvn : valNodes a = valNodes b := rfl
  have hnodes : ∀ nodes, valNodes b = some nodes → ∀ i ∈ nodes, y.getD i 0 = y'.getD i 0 := by
    intro nodes hn i hi
    unfold valNodes at hn
    cases hvv : val with
    | none => rw [hb] at hn; dsimp only at hn; rw [hvv] at hn; cases hn
    | some mk =>
      rw [hb] at hn
      dsimp only at hn
      rw [hvv] at hn
      dsimp only at hn
      split at hn
      · cases hn
        exact hget i (hval mk i hvv (mem_maskNodes.mp hi).2)
      · cases hn
  have hloop : ∀ h j e st es, loop T cfg a h j e st es = loop T cfg b h j e st es := by
    intro h j
    induction j with
    | zero => intro e st es; rfl
    | succ j ih =>
      intro e st es
      unfold loop
      rw [hepoch, hvn]
      cases epoch T cfg b h st with
      | error q => rfl
      | ok st' =>
        dsimp only
        cases hn : valNodes b with
        | none => exact ih _ _ _
        | some nodes =>
          dsimp only
          have e1 : badLabel a.y nodes = badLabel b.y nodes := badLabel_congr (hnodes nodes hn)
          have e2 : ∀ w, valLoss T cfg a h nodes w = valLoss T cfg b h nodes w := by
            intro w
            unfold valLoss
            show crossEntropy T (nClasses y) y nodes _ = crossEntropy T (nClasses y') y' nodes _
            rw [hk]
            exact crossEntropy_congr T _ (hnodes nodes hn) _
          rw [e1, e2, ih]
  unfold fit
  dsimp only
  have e3 : nClasses a.y = nClasses b.y := hk
  rw [hloop, e3]

/-! ### A small example and the failures -/

/-- A generator that counts its draws and keeps every second entry of a row; an optimizer that changes nothing. -/
def demoT : Torch Rat Unit Nat :=
  ⟨fun _ _ _ g => (⟨fun _ _ => 1, fun _ => 0, fun c _ => c, fun _ => 0⟩, g), fun z => z.toNat, fun g _ _ _ => (fun _ c => c % 2 == 0, g + 1),
    fun _ _ _ => (), fun _ w _ => (w, ()), fun x => if 0 ≤ x then x + 1 else 1, fun x => x, id, 1 / 1000000, 1 / 1000000, 1 / 1000000⟩

theorem demoT_exp (x : Rat) : 0 < demoT.exp x := by
  show 0 < if 0 ≤ x then x + 1 else 1
  split
  · linarith
  · norm_num

/-- The default probabilities, with two epochs. -/
def demoCfg : Config Rat := ⟨2, 1 / 2, 1, 1 / 2, 2, 1, 1 / 100, 1 / 1000, 2, 5, true⟩

/-- Three nodes with two features on a path, the first two in the mask `train`, the second for validation, labels `y`. -/
def demoInp (train : List Bool) (y : List Int) : Input Rat :=
  ⟨3, 2, fun i c => i + c, [⟨0, 1, 1⟩, ⟨1, 2, 1⟩], y, train, some [false, true, false]⟩

theorem demoInp_valid (a b c : Bool) (x y z : Int) : Valid (demoInp [a, b, c] [x, y, z]) :=
  ⟨rfl, rfl, by rintro m h; cases h; rfl⟩

theorem demo_accepted (a b : Bool) (z : Int) (m : Method Rat) (seed : Int) (g : Nat) :
    ∃ done, (fit demoT demoCfg m (demoInp [a, b, false] [0, 1, z]) seed g).2 = .ok done := by
  rw [C183_accepts demoT demoCfg m (demoInp_valid _ _ _ _ _ _)]
  refine ⟨by decide, by norm_num [demoCfg], by norm_num [demoCfg], fun _ => ⟨by decide, by norm_num [demoCfg], by norm_num [demoCfg],
    ?_, ?_⟩⟩
  · intro i hi
    match i with
    | 0 => exact ⟨0, rfl, .inl (by decide)⟩
    | 1 => exact ⟨1, rfl, .inl (by decide)⟩
    | 2 => cases hi
    | i + 3 => cases hi
  · rintro mk hmk i hi
    cases hmk
    match i with
    | 0 => cases hi
    | 1 => exact ⟨1, rfl, .inl (by decide)⟩
    | 2 => cases hi
    | i + 3 => cases hi

/-- The hypotheses of `C183_training` and `C183_predict` are met, with labeled validation nodes and labeled training nodes. -/
example : ∃ m' done, fit demoT demoCfg Method.new (demoInp [true, true, false] [0, 1, -1]) 7 0 = (m', .ok done) ∧ 0 ≤ demoT.tol ∧
    Valid (demoInp [true, true, false] [0, 1, -1]) ∧ 0 < demoCfg.maxEpochs ∧ (0 ≤ demoCfg.mlpDropout ∧ demoCfg.mlpDropout ≤ 1) ∧
    (Labeled (demoInp [true, true, false] [0, 1, -1]) [false, true, false]).Nonempty ∧
    (Labeled (demoInp [true, true, false] [0, 1, -1]) [true, true, false]).Nonempty ∧
    ∃ v ∈ (demoInp [true, true, false] [0, 1, -1]).y, 0 ≤ v := by
  obtain ⟨done, h⟩ := demo_accepted true true (-1) Method.new 7 0
  exact ⟨_, done, Prod.ext rfl h, by norm_num [demoT], demoInp_valid _ _ _ _ _ _, by decide, by norm_num [demoCfg],
    ⟨1, by decide⟩, ⟨0, by decide⟩, 0, by simp [demoInp], by decide⟩

/-- The hypotheses of `C183_no_noise` are met. -/
example : ∃ (zs : List (Noise Rat)) (g' : Nat), zs ≠ [] ∧
    Augmentations demoT ⟨2, 0, 1, 0, 4, 1, 1, 1, 2, 5, true⟩ 3 2 2 5 zs g' := by
  obtain ⟨h1, h2⟩ := drawAll_spec demoT ⟨2, 0, 1, 0, 4, 1, 1, 1, 2, 5, true⟩ 3 2 2 4 5
  exact ⟨_, _, List.ne_nil_of_length_pos (by omega), h2⟩

/-- The hypotheses of `C183_consistency` are met by the logarithm of the real numbers. -/
example : (0 : ℝ) < 1 / 1000000000000 ∧ (∀ a b : ℝ, 0 < a → 0 < b → Real.log (a / b) = Real.log a - Real.log b) ∧
    ∀ a : ℝ, 0 < a → Real.log a ≤ a - 1 :=
  ⟨by norm_num, fun _ _ ha hb => Real.log_div ha.ne' hb.ne', fun _ ha => Real.log_le_sub_one_of_pos ha⟩

/-- `C183_hidden_partial` applies to a hidden label. -/
example : fit demoT demoCfg Method.new (demoInp [true, true, false] [0, 1, 0]) 7 0 =
    fit demoT demoCfg Method.new (demoInp [true, true, false] [0, 1, -1]) 7 0 := by
  refine C183_hidden_partial demoT demoCfg Method.new 3 2 _ _ [true, true, false] (some [false, true, false]) [0, 1, 0] [0, 1, -1]
    (by decide) ?_ ?_ 7 0
  · intro i hi
    match i with
    | 0 => rfl
    | 1 => rfl
    | 2 => cases hi
    | i + 3 => cases hi
  · rintro mk i hmk hi
    cases hmk
    match i with
    | 0 => cases hi
    | 1 => rfl
    | 2 => cases hi
    | i + 3 => cases hi

/-- **C183 violated (dropping nodes).**  An augmentation does not drop whole nodes: of the features of one node some are dropped and some
are kept. -/
theorem C183_dropnode_violated : ¬ ∀ (T : Torch Rat Unit Nat) (cfg : Config Rat) (inp : Input Rat) (seed : Int) (g : Nat)
    (m' : Method Rat) (done : Done Rat), Valid inp → fit T cfg Method.new inp seed g = (m', .ok done) →
    ∀ q ∈ done.log, ∀ z ∈ q.1, ∀ i < inp.n, (∀ c < inp.d, z.feat i c = 0) ∨ ∀ c < inp.d, z.feat i c ≠ 0 := by
  intro hall
  have hb : (match fit demoT demoCfg Method.new (demoInp [true, true, false] [0, 1, -1]) 7 0 with
    | (_, .ok done) => done.log.any fun q => q.1.any fun z => decide (z.feat 0 0 ≠ 0) && decide (z.feat 0 1 = 0)
    | (_, .error _) => false) = true := by decide +kernel
  have h := hall demoT demoCfg (demoInp [true, true, false] [0, 1, -1]) 7 0
  revert hb h
  cases hf : fit demoT demoCfg Method.new (demoInp [true, true, false] [0, 1, -1]) 7 0 with
  | mk m' r =>
    cases r with
    | error e => intro hb; cases hb
    | ok done =>
      intro hb h
      dsimp only at hb
      obtain ⟨q, hq, hb⟩ := List.any_eq_true.mp hb
      obtain ⟨z, hz, hb⟩ := List.any_eq_true.mp hb
      rw [Bool.and_eq_true, decide_eq_true_eq, decide_eq_true_eq] at hb
      rcases h m' done (demoInp_valid _ _ _ _ _ _) rfl q hq z hz 0 (by decide) with hc | hc
      · exact hb.1 (hc 0 (by decide))
      · exact hc 1 (by decide) hb.2

/-- **C183 violated (nothing to learn from).**  Fitting without any training node succeeds, with losses that are not numbers. -/
theorem C183_empty_violated : ¬ ∀ (T : Torch Rat Unit Nat) (cfg : Config Rat) (inp : Input Rat) (seed : Int) (g : Nat)
    (m' : Method Rat) (done : Done Rat), Valid inp → fit T cfg Method.new inp seed g = (m', .ok done) →
    ∀ q ∈ done.log, q.2 ≠ none := by
  intro hall
  have hb : (match fit demoT demoCfg Method.new (demoInp [false, false, false] [0, 1, -1]) 7 0 with
    | (_, .ok done) => done.log.any fun q => q.2.isNone
    | (_, .error _) => false) = true := by decide +kernel
  have h := hall demoT demoCfg (demoInp [false, false, false] [0, 1, -1]) 7 0
  revert hb h
  cases hf : fit demoT demoCfg Method.new (demoInp [false, false, false] [0, 1, -1]) 7 0 with
  | mk m' r =>
    cases r with
    | error e => intro hb; cases hb
    | ok done =>
      intro hb h
      dsimp only at hb
      obtain ⟨q, hq, hb⟩ := List.any_eq_true.mp hb
      exact h m' done (demoInp_valid _ _ _ _ _ _) rfl q hq (Option.isNone_iff_eq_none.mp hb)

/-- **C183 violated (hidden labels).**  The label of a node that is neither for training nor for validation changes how many classes are
predicted. -/
theorem C183_hidden_violated : ¬ ∀ (T : Torch Rat Unit Nat) (cfg : Config Rat) (a b : Input Rat) (seed : Int) (g : Nat) (P Q : List (List Rat)),
    Valid a → Valid b → b = { a with y := b.y } → (∀ i : Nat, a.train[i]? = some true ∨ a.val.any (fun m => m[i]? == some true) →
      a.y[i]? = b.y[i]?) →
    predictProba T cfg (fit T cfg Method.new a seed g).1 a = .ok P → predictProba T cfg (fit T cfg Method.new b seed g).1 a = .ok Q →
    P.map List.length = Q.map List.length := by
  intro hall
  have hb : (match predictProba demoT demoCfg (fit demoT demoCfg Method.new (demoInp [true, true, false] [0, 1, 0]) 7 0).1
        (demoInp [true, true, false] [0, 1, 0]),
      predictProba demoT demoCfg (fit demoT demoCfg Method.new (demoInp [true, true, false] [0, 1, 2]) 7 0).1
        (demoInp [true, true, false] [0, 1, 0]) with
    | .ok P, .ok Q => decide (P.map List.length ≠ Q.map List.length)
    | _, _ => false) = true := by decide +kernel
  have h := hall demoT demoCfg (demoInp [true, true, false] [0, 1, 0]) (demoInp [true, true, false] [0, 1, 2]) 7 0
  revert hb h
  cases predictProba demoT demoCfg (fit demoT demoCfg Method.new (demoInp [true, true, false] [0, 1, 0]) 7 0).1
        (demoInp [true, true, false] [0, 1, 0]) with
  | error e => intro hb; cases hb
  | ok P =>
    cases predictProba demoT demoCfg (fit demoT demoCfg Method.new (demoInp [true, true, false] [0, 1, 2]) 7 0).1
        (demoInp [true, true, false] [0, 1, 0]) with
    | error e => intro hb; cases hb
    | ok Q =>
      intro hb h
      refine of_decide_eq_true hb (h P Q (demoInp_valid _ _ _ _ _ _) (demoInp_valid _ _ _ _ _ _) rfl ?_ rfl rfl)
      intro i hi
      match i with
      | 0 => rfl
      | 1 => rfl
      | 2 => rcases hi with hi | hi <;> simp [demoInp] at hi
      | i + 3 => rfl

/-- **C183 violated (failed fit).**  A method whose only fit failed does not refuse to predict: it answers with an untrained network. -/
theorem C183_failed_violated : ¬ ∀ (T : Torch Rat Unit Nat) (cfg : Config Rat) (inp data : Input Rat) (seed : Int) (g : Nat)
    (e : PyErr), Valid inp → (fit T cfg Method.new inp seed g).2 = .error e →
    predictProba T cfg (fit T cfg Method.new inp seed g).1 data = .error .runtimeError := by
  intro hall
  have hb : (match (fit demoT demoCfg Method.new (demoInp [true, true, true] [0, 1, -1]) 7 0).2,
      predictProba demoT demoCfg (fit demoT demoCfg Method.new (demoInp [true, true, true] [0, 1, -1]) 7 0).1
        (demoInp [true, true, true] [0, 1, -1]) with
    | .error _, .ok _ => true
    | _, _ => false) = true := by decide +kernel
  have h := hall demoT demoCfg (demoInp [true, true, true] [0, 1, -1]) (demoInp [true, true, true] [0, 1, -1]) 7 0
  revert hb h
  cases (fit demoT demoCfg Method.new (demoInp [true, true, true] [0, 1, -1]) 7 0).2 with
  | ok done => intro hb; cases hb
  | error e =>
    intro hb h
    rw [h e (demoInp_valid _ _ _ _ _ _) rfl] at hb
    cases hb

end ModSSC.Gnn.Grand
