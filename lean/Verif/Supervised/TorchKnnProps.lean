import Verif.Supervised.TorchKnnModel
import Verif.Supervised.KnnProps

/-!
# The torch nearest-neighbour classifier (C158)
-/

namespace ModSSC.Supervised.Spec

/-- Contract of `torch.topk(a, k)` for one row: `k` different positions that hold the largest entries. -/
def IsTopk {K : Type} [Field K] [LinearOrder K] (topk : List K → Nat → List Nat) : Prop :=
  ∀ a k, k ≤ a.length → (topk a k).Nodup ∧ (topk a k).length = k ∧ (∀ i ∈ topk a k, i < a.length) ∧
    ∀ i ∈ topk a k, ∀ j, j < a.length → j ∉ topk a k → a.getD j 0 ≤ a.getD i 0

/-- A tensor of one or two axes with these rows. -/
def HasRows {K : Type} : Torch.Shape K → Nat → List (List K) → Prop
  | .vec l, w, rows => w = 1 ∧ rows = l.map fun a => [a]
  | .mat a, w, rows => w = a.width ∧ rows = a.rows ∧ ∀ r ∈ a.rows, r.length = a.width
  | .other, _, _ => False

/-- Training rows at pairwise different distances from the query. -/
def NoTies {K : Type} (D : Nat → K) (n : Nat) : Prop := ∀ i j, i < n → j < n → D i = D j → i = j

end ModSSC.Supervised.Spec

namespace ModSSC.Supervised.Torch
open ModSSC Supervised Spec

set_option linter.unusedSectionVars false

section
variable {K : Type} [Field K] [LinearOrder K] [IsStrictOrderedRing K] {α : Type} [LinearOrder α]

/-! ### The same computation as a numpy classifier -/

/-- A partition that starts with the positions `topk` returns. -/
def part (topk : List K → Nat → List Nat) (a : List K) (kth : Nat) : List Nat :=
  let t := topk (a.map fun s => -s) (kth + 1)
  t ++ (List.range a.length).filter fun i => decide (i ∉ t)

theorem part_law {topk : List K → Nat → List Nat} (h : IsTopk topk) : IsArgpartition (part topk) := by
  intro a kth hk
  obtain ⟨h1, h2, h3, h4⟩ := h (a.map fun s => -s) (kth + 1) (by rw [List.length_map]; omega)
  rw [List.length_map] at h3 h4
  unfold part
  simp only
  generalize topk (a.map fun s => -s) (kth + 1) = t at *
  constructor
  · rw [List.perm_ext_iff_of_nodup]
    · intro i
      simp only [List.mem_append, List.mem_filter, List.mem_range, decide_eq_true_eq]
      constructor
      · rintro (h | h)
        · exact h3 i h
        · exact h.1
      · intro hi
        by_cases hm : i ∈ t
        · exact .inl hm
        · exact .inr ⟨hi, hm⟩
    · rw [List.nodup_append]
      refine ⟨h1, List.nodup_range.filter _, ?_⟩
      rintro i hi j hj rfl
      simp only [List.mem_filter, decide_eq_true_eq] at hj
      exact hj.2 hi
    · exact List.nodup_range
  · intro i hi j hj
    rw [List.take_left' h2] at hi
    rw [List.drop_left' h2] at hj
    simp only [List.mem_filter, List.mem_range, decide_eq_true_eq] at hj
    have := h4 i hi j hj.1 hj.2
    have hi' := h3 i hi
    rw [List.getD_eq_getElem _ _ (by simpa using hj.1), List.getD_eq_getElem _ _ (by simpa using hi'),
      List.getElem_map, List.getElem_map] at this
    rw [List.getD_eq_getElem _ _ hi', List.getD_eq_getElem _ _ hj.1]
    exact neg_le_neg_iff.mp this

/-- Numpy with that partition. -/
def np (ext : TorchExt K) : KnnExt K := ⟨ext.sqrt, part ext.topk⟩

theorem rowVotes_eq {ext : TorchExt K} (hext : IsTopk ext.topk) {p : KnnParams K} (hk : 0 < p.k) {X : Arr2 K}
    (hne : X.rows ≠ []) (yEnc : List Nat) (nc : Nat) (q : List K) :
    rowVotes ext p X yEnc nc q = Supervised.rowVotes (np ext) p X yEnc nc q := by
  have hn : 0 < X.rows.length := List.length_pos_of_ne_nil hne
  have hk1 : (min p.k X.rows.length).toNat - 1 + 1 = (min p.k X.rows.length).toNat := by omega
  have e1 : (Supervised.pairScore (np ext) p q) = pairScore ext p q := rfl
  have e2 : (X.rows.map (pairScore ext p q)).map ((fun s => -s) ∘ fun s => -s) = X.rows.map (pairScore ext p q) := by
    rw [List.map_map]
    apply List.map_congr_left
    intro x _
    simp
  have e3 : ((np ext).argpartition ((X.rows.map (pairScore ext p q)).map fun s => -s)
      ((min p.k X.rows.length).toNat - 1)).take (min p.k X.rows.length).toNat
      = ext.topk (X.rows.map (pairScore ext p q)) (min p.k X.rows.length).toNat := by
    show (part ext.topk _ _).take _ = _
    unfold part
    simp only [hk1]
    rw [List.map_map, e2, List.take_left']
    exact (hext _ _ (by rw [List.length_map]; omega)).2.1
  unfold rowVotes Supervised.rowVotes
  simp only [e1, e3]
  rfl

/-- What a successful `fit` has checked and stored. -/
structure Done (p : KnnParams K) (X : Tensor K) (y : LabelTensor α) (X2 : Arr2 K) (st : State K α) : Prop where
  x : as2d X.shape = .ok X2
  len : X2.rows.length = y.flat.length
  size : X2.rows.length * X2.width ≠ 0
  device : y.device = X.device
  isInt : y.isInt = true
  k : 0 < p.k
  metric : p.metric = "euclidean" ∨ p.metric = "cosine"
  weights : p.weights = "uniform" ∨ p.weights = "distance"
  st : st = ⟨some (Labels.unique y.flat), some (X2, X.device, y.flat.map (Labels.searchsorted (Labels.unique y.flat)))⟩

theorem fit_ok {p : KnnParams K} {st st' : State K α} {X : Option (Tensor K)} {y : Option (LabelTensor α)}
    {r : Nat × Nat × Nat} :
    fit p st X y = (st', .ok r) ↔ ∃ X1 y1 X2, X = some X1 ∧ y = some y1 ∧ Done p X1 y1 X2 st' ∧
      r = (X2.rows.length, X2.width, (Labels.unique y1.flat).length) := by
  have aux : ∀ (s : State K α) (e : PyErr), (s, Except.error e) = (st', Except.ok r) ↔ False := by simp
  cases X with
  | none => simp [fit]
  | some X =>
  cases y with
  | none => simp [fit]
  | some y =>
  simp only [fit]
  cases hX : as2d X.shape with
  | error e =>
    simp only [aux, false_iff]
    rintro ⟨X1, y1, X2, h1, h2, D, -⟩
    obtain rfl := Option.some.inj h1
    rw [D.x] at hX
    cases hX
  | ok X2 =>
    simp only
    have key : ∀ {P : Prop}, (∀ D : Done p X y X2 st', ¬ P) → P →
        (False ↔ ∃ X1 y1 X2, some X = some X1 ∧ some y = some y1 ∧ Done p X1 y1 X2 st' ∧
          r = (X2.rows.length, X2.width, (Labels.unique y1.flat).length)) := by
      intro P h hP
      refine ⟨False.elim, ?_⟩
      rintro ⟨X1, y1, X3, h1, h2, D, -⟩
      obtain rfl := Option.some.inj h1
      obtain rfl := Option.some.inj h2
      have := D.x
      rw [hX] at this
      obtain rfl := Except.ok.inj this
      exact h D hP
    by_cases h1 : X2.rows.length ≠ y.flat.length
    · rw [if_pos h1, aux]; exact key (fun D h => h D.len) h1
    rw [if_neg h1]
    by_cases h2 : X2.rows.length * X2.width = 0
    · rw [if_pos h2, aux]; exact key (fun D h => D.size h) h2
    rw [if_neg h2]
    by_cases h3 : y.device ≠ X.device
    · rw [if_pos h3, aux]; exact key (fun D h => h D.device) h3
    rw [if_neg h3]
    by_cases h4 : y.isInt = false
    · rw [if_pos h4, aux]; exact key (fun D h => by rw [D.isInt] at h; cases h) h4
    rw [if_neg h4]
    by_cases h5 : p.k ≤ 0
    · rw [if_pos h5, aux]; exact key (fun D h => by have := D.k; omega) h5
    rw [if_neg h5]
    by_cases h6 : p.metric ≠ "euclidean" ∧ p.metric ≠ "cosine"
    · rw [if_pos h6, aux]; exact key (fun D h => D.metric.elim h.1 h.2) h6
    rw [if_neg h6]
    by_cases h7 : p.weights ≠ "uniform" ∧ p.weights ≠ "distance"
    · rw [if_pos h7, aux]; exact key (fun D h => D.weights.elim h.1 h.2) h7
    rw [if_neg h7]
    constructor
    · intro h
      obtain ⟨rfl, h8⟩ := Prod.mk.inj h
      refine ⟨X, y, X2, rfl, rfl, ⟨hX, not_not.mp h1, h2, not_not.mp h3, by simpa using h4, by omega, ?_, ?_, rfl⟩,
        (Except.ok.inj h8).symm⟩
      · by_contra hc; push Not at hc; exact h6 hc
      · by_contra hc; push Not at hc; exact h7 hc
    · rintro ⟨X1, y1, X3, e1, e2, D, rfl⟩
      obtain rfl := Option.some.inj e1
      obtain rfl := Option.some.inj e2
      have := D.x
      rw [hX] at this
      obtain rfl := Except.ok.inj this
      rw [D.st]
      rfl

/-- The state of the numpy classifier fitted on the same rows. -/
def npState (st : State K α) : KnnState K α := ⟨st.classes, st.train.map fun t => (t.1, t.2.2)⟩

theorem Done.np {p : KnnParams K} {X : Tensor K} {y : LabelTensor α} {X2 : Arr2 K} {st : State K α}
    (D : Done p X y X2 st) : Fitted p (.mat X2) y.flat X2 (npState st) :=
  ⟨rfl, D.size, D.len, D.k, D.metric, D.weights, by rw [D.st]; rfl, by rw [D.st]; rfl⟩

theorem setLoop_rows (rows : List (List K)) (vote : List K → List K) (nc : Nat) (c : Nat) (hc : 0 < c) :
    (Graph.chunks rows.length c).foldl
      (fun o b => setAt o b.1 (((rows.drop b.1).take (b.2 - b.1)).map vote))
      (List.replicate rows.length (List.replicate nc 0)) = rows.map vote := by
  have key : ∀ m, ((List.range m).map (fun t => (t * c, min rows.length (t * c + c)))).foldl
      (fun o b => setAt o b.1 (((rows.drop b.1).take (b.2 - b.1)).map vote))
      (List.replicate rows.length (List.replicate nc 0))
      = rows.mapIdx fun r q => if r < m * c then vote q else List.replicate nc 0 := by
    intro m
    induction m with
    | zero =>
      simp only [List.range_zero, List.map_nil, List.foldl_nil]
      apply List.ext_getElem
      · simp
      · intro r h1 h2
        simp
    | succ m ih =>
      rw [List.range_succ, List.map_append, List.foldl_append, ih]
      simp only [List.map_cons, List.map_nil, List.foldl_cons, List.foldl_nil]
      rw [show (m + 1) * c = m * c + c by ring]
      generalize m * c = a
      apply List.ext_getElem
      · simp [setAt]
      · intro r h1 h2
        have hr : r < rows.length := by simpa using h2
        simp only [setAt, List.getElem_mapIdx]
        have hlen : (((rows.drop a).take (min rows.length (a + c) - a)).map vote).length
            = min rows.length (a + c) - a := by
          simp only [List.length_map, List.length_take, List.length_drop]
          omega
        by_cases h3 : a ≤ r ∧ r < a + (((rows.drop a).take (min rows.length (a + c) - a)).map vote).length
        · rw [if_pos h3, if_pos (by omega)]
          have h4 : r - a < (((rows.drop a).take (min rows.length (a + c) - a)).map vote).length := by omega
          rw [List.getD_eq_getElem _ _ h4, List.getElem_map, List.getElem_take, List.getElem_drop]
          have h5 : a + (r - a) = r := by omega
          simp only [h5]
        · rw [if_neg h3]
          by_cases h6 : r < a
          · rw [if_pos h6, if_pos (by omega)]
          · rw [if_neg h6, if_neg (by omega)]
  unfold Graph.chunks
  rw [key]
  have h7 : rows.length ≤ ((rows.length + c - 1) / c) * c := by
    have h1 := Nat.div_add_mod (rows.length + c - 1) c
    have h2 := Nat.mod_lt (rows.length + c - 1) hc
    rw [Nat.mul_comm] at h1
    generalize (rows.length + c - 1) / c * c = q at *
    omega
  apply List.ext_getElem
  · simp
  · intro r h1 h2
    have hr : r < rows.length := by simpa using h2
    rw [List.getElem_mapIdx, if_pos (by omega), List.getElem_map]

theorem setLoop_pure {votes : Nat × Nat → Except PyErr (List (List K))} {V : Nat × Nat → List (List K)}
    (bs : List (Nat × Nat)) (h : ∀ b ∈ bs, votes b = .ok (V b)) (out : List (List K)) :
    batchLoop votes bs out = .ok (bs.foldl (fun o b => setAt o b.1 (V b)) out) := by
  induction bs generalizing out with
  | nil => rfl
  | cons b bs ih =>
    unfold batchLoop
    rw [ebind_of_ok (h b (by simp)), ih (fun b hb => h b (by simp [hb]))]
    rfl

theorem as2d_wf {s : Shape K} {w : Nat} {rows : List (List K)} (h : HasRows s w rows) :
    as2d s = .ok ⟨w, rows⟩ ∧ Arr2.Wf ⟨w, rows⟩ := by
  cases s with
  | vec l =>
    obtain ⟨rfl, rfl⟩ := h
    refine ⟨rfl, ?_⟩
    intro r hr
    obtain ⟨a, -, rfl⟩ := List.mem_map.mp hr
    rfl
  | mat a =>
    obtain ⟨rfl, rfl, h⟩ := h
    exact ⟨rfl, h⟩
  | other => exact h.elim

/-- What `predict_proba` returns after a successful fit. -/
theorem predictProba_eq {ext : TorchExt K} (hext : IsTopk ext.topk) {p : KnnParams K} {X : Tensor K}
    {y : LabelTensor α} {X2 : Arr2 K} {st : State K α} (D : Done p X y X2 st) (hX : X2.Wf) (hb : 0 < p.batchSize)
    {Q : Tensor K} {Q2 : Arr2 K} (hQ : as2d Q.shape = .ok Q2) (hQw : Q2.Wf) :
    predictProba ext p st (some Q)
      = if Q.device ≠ X.device then .error .validation
        else if Q2.rows ≠ [] ∧ Q2.width ≠ X2.width then .error .runtimeError
        else .ok (Q2.rows.map fun q => Supervised.normRow (votes (np ext) p X2 y.flat q)) := by
  have hne : X2.rows ≠ [] := by
    rintro h0
    apply D.size
    rw [h0]
    simp
  unfold predictProba
  rw [D.st]
  simp only
  rw [ebind_of_ok hQ]
  by_cases hd : Q.device ≠ X.device
  · rw [if_pos hd, if_pos hd]
  rw [if_neg hd, if_neg hd]
  have hch : Graph.allChunks Q2.rows.length p.batchSize = .ok (Graph.chunks Q2.rows.length p.batchSize.toNat) := by
    unfold Graph.allChunks
    rw [if_neg (by omega), if_neg (by omega)]
  rw [ebind_of_ok hch]
  by_cases hw : Q2.width ≠ X2.width
  · by_cases hr : Q2.rows = []
    · rw [if_neg (fun h => h.1 hr), hr]
      have : Graph.chunks ([] : List (List K)).length p.batchSize.toNat = [] := by
        unfold Graph.chunks
        have : ([] : List (List K)).length + p.batchSize.toNat - 1 < p.batchSize.toNat := by
          simp only [List.length_nil]; omega
        rw [Nat.div_eq_of_lt this]
        rfl
      rw [this]
      rfl
    · rw [if_pos ⟨hr, hw⟩]
      have hpos : 0 < Q2.rows.length := List.length_pos_of_ne_nil hr
      obtain ⟨b, bs, hbs⟩ : ∃ b bs, Graph.chunks Q2.rows.length p.batchSize.toNat = b :: bs := by
        cases hc : Graph.chunks Q2.rows.length p.batchSize.toNat with
        | nil =>
          have hl := congrArg List.length hc
          unfold Graph.chunks at hl
          rw [List.length_map, List.length_range, List.length_nil] at hl
          have : 0 < (Q2.rows.length + p.batchSize.toNat - 1) / p.batchSize.toNat :=
            Nat.div_pos (by omega) (by omega)
          omega
        | cons b bs => exact ⟨b, bs, rfl⟩
      rw [hbs]
      unfold batchLoop batchVotes
      rw [if_pos hw]
      rfl
  · rw [if_neg (fun h => hw h.2)]
    have hw' : Q2.width = X2.width := not_not.mp hw
    have hv : ∀ b ∈ Graph.chunks Q2.rows.length p.batchSize.toNat,
        batchVotes ext p X2 (y.flat.map (Labels.searchsorted (Labels.unique y.flat))) (Labels.unique y.flat).length Q2 b
          = .ok (((Q2.rows.drop b.1).take (b.2 - b.1)).map (votes (np ext) p X2 y.flat)) := by
      intro b _
      unfold batchVotes
      rw [if_neg hw, mapM_ok, List.forall₂_map_right_iff, List.forall₂_same]
      intro q hq
      rw [rowVotes_eq hext D.k hne]
      exact rowVotes_ok (part_law hext) hX hne D.k D.len (by
        rw [hQw q (List.mem_of_mem_drop (List.mem_of_mem_take hq)), hw'])
    rw [setLoop_pure _ hv, setLoop_rows _ _ _ _ (by omega)]
    show Except.ok _ = Except.ok _
    rw [List.map_map]
    rfl

/-- The numpy classifier with the same neighbours gives the same probabilities. -/
theorem predictProba_np {ext : TorchExt K} (hext : IsTopk ext.topk) {p : KnnParams K} {X : Tensor K}
    {y : LabelTensor α} {X2 : Arr2 K} {st : State K α} (D : Done p X y X2 st) (hX : X2.Wf) (hb : 0 < p.batchSize)
    {Q : Tensor K} {Q2 : Arr2 K} (hQ : as2d Q.shape = .ok Q2) (hQw : Q2.Wf) {P : List (List K)} :
    predictProba ext p st (some Q) = .ok P ↔
      Q.device = X.device ∧ Supervised.predictProba (np ext) p (npState st) (.mat Q2) = .ok P := by
  rw [predictProba_eq hext D hX hb hQ hQw, Supervised.predictProba_eq (part_law hext) D.np hX hb (Q := .mat Q2) rfl hQw]
  by_cases hd : Q.device ≠ X.device
  · rw [if_pos hd]
    constructor
    · intro h; cases h
    · intro h; exact absurd h.1 hd
  rw [if_neg hd]
  by_cases hw : Q2.rows ≠ [] ∧ Q2.width ≠ X2.width
  · rw [if_pos hw, if_pos hw]
    constructor
    · intro h; cases h
    · intro h; cases h.2
  rw [if_neg hw, if_neg hw]
  exact ⟨fun h => ⟨not_not.mp hd, h⟩, fun h => h.2⟩

/-! ### Theorems -/

/-- **C158 (what is accepted).**  `fit` accepts exactly: tensors of one or two axes, not empty, with one integer label
per row on the same device, and valid parameters.  It then stores exactly this training set. -/
theorem C158_accepts (p : KnnParams K) (st : State K α) (X : Option (Tensor K)) (y : Option (LabelTensor α)) :
    (∃ r, (fit p st X y).2 = .ok r) ↔ ∃ X1 y1 X2, X = some X1 ∧ y = some y1 ∧ as2d X1.shape = .ok X2 ∧
      X2.rows.length = y1.flat.length ∧ X2.rows ≠ [] ∧ X2.width ≠ 0 ∧ y1.device = X1.device ∧ y1.isInt = true ∧
      0 < p.k ∧ (p.metric = "euclidean" ∨ p.metric = "cosine") ∧ (p.weights = "uniform" ∨ p.weights = "distance") := by
  constructor
  · rintro ⟨r, h⟩
    obtain ⟨X1, y1, X2, rfl, rfl, D, -⟩ := fit_ok.mp (Prod.ext rfl h : fit p st X y = ((fit p st X y).1, .ok r))
    refine ⟨X1, y1, X2, rfl, rfl, D.x, D.len, ?_, ?_, D.device, D.isInt, D.k, D.metric, D.weights⟩
    · intro h0; apply D.size; rw [h0]; simp
    · intro h0; apply D.size; rw [h0]; simp
  · rintro ⟨X1, y1, X2, rfl, rfl, h1, h2, h3, h4, h5, h6, h7, h8, h9⟩
    have hsz : X2.rows.length * X2.width ≠ 0 := by
      rw [Nat.mul_ne_zero_iff]
      exact ⟨fun h => h3 (List.length_eq_zero_iff.mp h), h4⟩
    exact ⟨_, congrArg Prod.snd (fit_ok (st := st) |>.mpr
      ⟨X1, y1, X2, rfl, rfl, ⟨h1, h2, hsz, h5, h6, h7, h8, h9, rfl⟩, rfl⟩)⟩

/-- **C158 (a failed fit).**  A `fit` that raises leaves the classifier exactly as it was. -/
theorem C158_failed_fit (p : KnnParams K) (st : State K α) (X : Option (Tensor K)) (y : Option (LabelTensor α))
    (e : PyErr) (h : (fit p st X y).2 = .error e) : (fit p st X y).1 = st := by
  cases X with
  | none => rfl
  | some X =>
  cases y with
  | none => rfl
  | some y =>
  simp only [fit] at h ⊢
  cases hX : as2d X.shape with
  | error e => rfl
  | ok X2 =>
    rw [hX] at h
    simp only at h ⊢
    by_cases h1 : X2.rows.length ≠ y.flat.length
    · rw [if_pos h1]
    rw [if_neg h1] at h ⊢
    by_cases h2 : X2.rows.length * X2.width = 0
    · rw [if_pos h2]
    rw [if_neg h2] at h ⊢
    by_cases h3 : y.device ≠ X.device
    · rw [if_pos h3]
    rw [if_neg h3] at h ⊢
    by_cases h4 : y.isInt = false
    · rw [if_pos h4]
    rw [if_neg h4] at h ⊢
    by_cases h5 : p.k ≤ 0
    · rw [if_pos h5]
    rw [if_neg h5] at h ⊢
    by_cases h6 : p.metric ≠ "euclidean" ∧ p.metric ≠ "cosine"
    · rw [if_pos h6]
    rw [if_neg h6] at h ⊢
    by_cases h7 : p.weights ≠ "uniform" ∧ p.weights ≠ "distance"
    · rw [if_pos h7]
    rw [if_neg h7] at h
    cases h

/-- A history of `fit` calls, failed or not. -/
def fits (p : KnnParams K) (st : State K α) : List (Option (Tensor K) × Option (LabelTensor α)) → State K α
  | [] => st
  | c :: cs => fits p (fit p st c.1 c.2).1 cs

/-- The call succeeds on a new classifier. -/
def Succeeds (p : KnnParams K) (c : Option (Tensor K) × Option (LabelTensor α)) : Prop :=
  ∃ r, (fit p .fresh c.1 c.2).2 = .ok r

theorem succeeds_any {p : KnnParams K} {st : State K α} {c : Option (Tensor K) × Option (LabelTensor α)}
    (h : Succeeds p c) : fit p st c.1 c.2 = fit p .fresh c.1 c.2 := by
  obtain ⟨r, hr⟩ := h
  have h1 : fit p .fresh c.1 c.2 = ((fit p .fresh c.1 c.2).1, .ok r) := Prod.ext rfl hr
  have h2 := (fit_ok (st := st)).mpr (fit_ok.mp h1)
  rw [h2, h1]

theorem fails_any {p : KnnParams K} {st : State K α} {c : Option (Tensor K) × Option (LabelTensor α)}
    (h : ¬ Succeeds p c) : (fit p st c.1 c.2).1 = st := by
  cases he : (fit p st c.1 c.2).2 with
  | error e => exact C158_failed_fit p st c.1 c.2 e he
  | ok r =>
    exfalso
    have h1 : fit p st c.1 c.2 = ((fit p st c.1 c.2).1, .ok r) := Prod.ext rfl he
    exact h ⟨r, congrArg Prod.snd ((fit_ok (st := State.fresh)).mpr (fit_ok.mp h1))⟩

/-- **C158 (histories).**  After any sequence of `fit` calls, failed or not, the classifier is a new one fitted on the
last training set that was accepted; if none was, it is unfitted, and predicting raises. -/
theorem C158_history (p : KnnParams K) (cs : List (Option (Tensor K) × Option (LabelTensor α))) :
    (∀ before c after, cs = before ++ c :: after → Succeeds p c → (∀ d ∈ after, ¬ Succeeds p d) →
      fits p .fresh cs = (fit p .fresh c.1 c.2).1) ∧
    ((∀ d ∈ cs, ¬ Succeeds p d) → fits p .fresh cs = .fresh ∧
      ∀ (ext : TorchExt K) Q, predictProba ext p (fits p .fresh cs) Q = .error .runtimeError ∧
        predict ext p (fits p .fresh cs) Q = .error .runtimeError) := by
  have happ : ∀ (a b : List (Option (Tensor K) × Option (LabelTensor α))) (st : State K α),
      fits p st (a ++ b) = fits p (fits p st a) b := by
    intro a
    induction a with
    | nil => intro b st; rfl
    | cons c a ih => intro b st; exact ih b _
  have hfail : ∀ (b : List (Option (Tensor K) × Option (LabelTensor α))) (st : State K α),
      (∀ d ∈ b, ¬ Succeeds p d) → fits p st b = st := by
    intro b
    induction b with
    | nil => intro st _; rfl
    | cons c b ih =>
      intro st h
      show fits p (fit p st c.1 c.2).1 b = st
      rw [fails_any (h c (by simp)), ih st (fun d hd => h d (by simp [hd]))]
  constructor
  · rintro before c after rfl hc ha
    rw [happ]
    show fits p (fit p (fits p .fresh before) c.1 c.2).1 after = _
    rw [hfail _ _ ha, succeeds_any hc]
  · intro h
    rw [hfail _ _ h]
    exact ⟨rfl, fun ext Q => ⟨rfl, rfl⟩⟩

/-- **C158 (what the probabilities are).**  After a successful fit: for each query there are `min k n` training rows,
none farther away than a row left out, and the probability of a class is the share of their votes that go to it. -/
theorem C158_votes (ext : TorchExt K) (hext : IsTopk ext.topk) (p : KnnParams K) (hb : 0 < p.batchSize)
    (heps : 0 < p.eps) (st st' : State K α) (X : Tensor K) (w : Nat) (rows : List (List K)) (hX : HasRows X.shape w rows)
    (y : LabelTensor α) (r : Nat × Nat × Nat) (hfit : fit p st (some X) (some y) = (st', .ok r))
    (Q : Tensor K) (wq : Nat) (qs : List (List K)) (hQ : HasRows Q.shape wq qs) (P : List (List K))
    (h : predictProba ext p st' (some Q) = .ok P) :
    ∃ classes, st'.classes = some classes ∧ IsClasses y.flat classes ∧ P.length = qs.length ∧
      ∀ (i : Nat) q, qs[i]? = some q → ∃ S,
        Nearest (fun j => distance ext.sqrt p.eps p.metric q (rows.getD j [])) y.flat.length
          (min p.k y.flat.length).toNat S ∧
        P[i]? = some (classes.map (share
          (fun j => weight p.weights p.eps (distance ext.sqrt p.eps p.metric q (rows.getD j []))) y.flat S)) := by
  obtain ⟨X1, y1, X2, e1, e2, D, rfl⟩ := fit_ok.mp hfit
  obtain rfl := Option.some.inj e1
  obtain rfl := Option.some.inj e2
  obtain ⟨hx1, hx2⟩ := as2d_wf hX
  obtain ⟨hq1, hq2⟩ := as2d_wf hQ
  have := D.x
  rw [hx1] at this
  obtain rfl := Except.ok.inj this
  exact C50_votes (np ext) (part_law hext) p hb heps (npState st') (npState st') (.mat ⟨w, rows⟩) ⟨w, rows⟩ rfl hx2 y.flat
    _ (Supervised.fit_ok.mpr ⟨_, D.np, rfl⟩) (.mat ⟨wq, qs⟩) ⟨wq, qs⟩ rfl hq2 P
    ((predictProba_np hext D hx2 hb hq1 hq2).mp h).2

/-- **C158 (distributions).**  After a successful fit, every row of `predict_proba` is non-negative and sums to one. -/
theorem C158_distribution (ext : TorchExt K) (hext : IsTopk ext.topk) (p : KnnParams K) (hb : 0 < p.batchSize)
    (heps : 0 < p.eps) (st st' : State K α) (X : Tensor K) (w : Nat) (rows : List (List K)) (hX : HasRows X.shape w rows)
    (y : LabelTensor α) (r : Nat × Nat × Nat) (hfit : fit p st (some X) (some y) = (st', .ok r))
    (Q : Tensor K) (wq : Nat) (qs : List (List K)) (hQ : HasRows Q.shape wq qs) (P : List (List K))
    (h : predictProba ext p st' (some Q) = .ok P) : ∀ row ∈ P, (∀ x ∈ row, 0 ≤ x) ∧ row.sum = 1 := by
  obtain ⟨X1, y1, X2, e1, e2, D, rfl⟩ := fit_ok.mp hfit
  obtain rfl := Option.some.inj e1
  obtain rfl := Option.some.inj e2
  obtain ⟨hx1, hx2⟩ := as2d_wf hX
  obtain ⟨hq1, hq2⟩ := as2d_wf hQ
  have := D.x
  rw [hx1] at this
  obtain rfl := Except.ok.inj this
  exact C50_distribution (np ext) (part_law hext) p hb heps (npState st') (npState st') (.mat ⟨w, rows⟩) ⟨w, rows⟩ rfl
    hx2 y.flat _ (Supervised.fit_ok.mpr ⟨_, D.np, rfl⟩) (.mat ⟨wq, qs⟩) ⟨wq, qs⟩ rfl hq2 P
    ((predictProba_np hext D hx2 hb hq1 hq2).mp h).2

/-- **C158 (when it returns).**  After a successful fit, `predict_proba` returns on a tensor of one or two axes exactly
when it is on the device of the training rows and, if there are queries, they have as many features. -/
theorem C158_returns (ext : TorchExt K) (hext : IsTopk ext.topk) (p : KnnParams K) (hb : 0 < p.batchSize)
    (st st' : State K α) (X : Tensor K) (w : Nat) (rows : List (List K)) (hX : HasRows X.shape w rows)
    (y : LabelTensor α) (r : Nat × Nat × Nat) (hfit : fit p st (some X) (some y) = (st', .ok r))
    (Q : Tensor K) (wq : Nat) (qs : List (List K)) (hQ : HasRows Q.shape wq qs) :
    (∃ P, predictProba ext p st' (some Q) = .ok P) ↔ Q.device = X.device ∧ (qs = [] ∨ wq = w) := by
  obtain ⟨X1, y1, X2, e1, e2, D, rfl⟩ := fit_ok.mp hfit
  obtain rfl := Option.some.inj e1
  obtain rfl := Option.some.inj e2
  obtain ⟨hx1, hx2⟩ := as2d_wf hX
  obtain ⟨hq1, hq2⟩ := as2d_wf hQ
  have := D.x
  rw [hx1] at this
  obtain rfl := Except.ok.inj this
  simp only [predictProba_np hext D hx2 hb hq1 hq2, exists_and_left]
  rw [C50_returns (np ext) (part_law hext) p hb (npState st') (npState st') (.mat ⟨w, rows⟩) ⟨w, rows⟩ rfl
    hx2 y.flat _ (Supervised.fit_ok.mpr ⟨_, D.np, rfl⟩) (.mat ⟨wq, qs⟩) ⟨wq, qs⟩ rfl hq2]

theorem predict_eq {ext : TorchExt K} {next : KnnExt K} {p : KnnParams K} {st : State K α} {nst : KnnState K α}
    {Q : Option (Tensor K)} {Qn : ArrIn K} (hc : st.classes = nst.classes)
    (h : ∀ P, predictProba ext p st Q = .ok P ↔ Supervised.predictProba next p nst Qn = .ok P) (l : List α) :
    predict ext p st Q = .ok l ↔ Supervised.predict next p nst Qn = .ok l := by
  unfold predict Supervised.predict
  rw [ebind_ok, ebind_ok, hc]
  cases nst.classes with
  | none =>
    constructor
    · rintro ⟨P, -, h⟩; cases h
    · rintro ⟨P, -, h⟩; cases h
  | some classes => exact ⟨fun ⟨P, h1, h2⟩ => ⟨P, (h P).mp h1, h2⟩, fun ⟨P, h1, h2⟩ => ⟨P, (h P).mpr h1, h2⟩⟩

/-- **C158 (predictions).**  After a successful fit, `predict` returns whenever `predict_proba` does; each prediction
is a training label, namely the smallest class of the largest probability. -/
theorem C158_predict (ext : TorchExt K) (hext : IsTopk ext.topk) (p : KnnParams K) (hb : 0 < p.batchSize)
    (st st' : State K α) (X : Tensor K) (w : Nat) (rows : List (List K)) (hX : HasRows X.shape w rows)
    (y : LabelTensor α) (r : Nat × Nat × Nat) (hfit : fit p st (some X) (some y) = (st', .ok r))
    (Q : Tensor K) (wq : Nat) (qs : List (List K)) (hQ : HasRows Q.shape wq qs) (P : List (List K))
    (h : predictProba ext p st' (some Q) = .ok P) :
    ∃ pred classes, predict ext p st' (some Q) = .ok pred ∧ IsClasses y.flat classes ∧ pred.length = P.length ∧
      ∀ (i : Nat) (l : α), pred[i]? = some l → l ∈ y.flat ∧
        ∃ row c, P[i]? = some row ∧ FirstMax row c ∧ classes[c]? = some l := by
  obtain ⟨X1, y1, X2, e1, e2, D, rfl⟩ := fit_ok.mp hfit
  obtain rfl := Option.some.inj e1
  obtain rfl := Option.some.inj e2
  obtain ⟨hx1, hx2⟩ := as2d_wf hX
  obtain ⟨hq1, hq2⟩ := as2d_wf hQ
  have := D.x
  rw [hx1] at this
  obtain rfl := Except.ok.inj this
  have hd := ((predictProba_np hext D hx2 hb hq1 hq2).mp h).1
  obtain ⟨pred, classes, g1, g2⟩ := C50_predict (np ext) (part_law hext) p hb (npState st') (npState st')
    (.mat ⟨w, rows⟩) ⟨w, rows⟩ rfl hx2 y.flat _ (Supervised.fit_ok.mpr ⟨_, D.np, rfl⟩) (.mat ⟨wq, qs⟩) ⟨wq, qs⟩ rfl hq2 P
    ((predictProba_np hext D hx2 hb hq1 hq2).mp h).2
  refine ⟨pred, classes, ?_, g2⟩
  rw [predict_eq (next := np ext) (nst := npState st') (Qn := .mat ⟨wq, qs⟩) rfl]
  · exact g1
  · intro P'
    rw [predictProba_np hext D hx2 hb hq1 hq2]
    exact ⟨fun h => h.2, fun h => ⟨hd, h⟩⟩

/-- **C158 (batches).**  The probabilities of a query do not depend on the other queries in the call nor on the
batch size. -/
theorem C158_batch (ext : TorchExt K) (hext : IsTopk ext.topk) (p : KnnParams K) (b b1 b2 : Int)
    (hb : 0 < b) (hb1 : 0 < b1) (hb2 : 0 < b2) (st st' : State K α) (X : Tensor K) (w : Nat) (rows : List (List K))
    (hX : HasRows X.shape w rows) (y : LabelTensor α) (r : Nat × Nat × Nat)
    (hfit : fit p st (some X) (some y) = (st', .ok r)) (d : Nat) (wq : Nat) (A B : List (List K))
    (hA : ∀ q ∈ A, q.length = wq) (hB : ∀ q ∈ B, q.length = wq) (P : List (List K)) :
    predictProba ext { p with batchSize := b } st' (some ⟨d, .mat ⟨wq, A ++ B⟩⟩) = .ok P ↔
      ∃ PA PB, predictProba ext { p with batchSize := b1 } st' (some ⟨d, .mat ⟨wq, A⟩⟩) = .ok PA ∧
        predictProba ext { p with batchSize := b2 } st' (some ⟨d, .mat ⟨wq, B⟩⟩) = .ok PB ∧ P = PA ++ PB := by
  obtain ⟨X1, y1, X2, e1, e2, D, rfl⟩ := fit_ok.mp hfit
  obtain rfl := Option.some.inj e1
  obtain rfl := Option.some.inj e2
  obtain ⟨hx1, hx2⟩ := as2d_wf hX
  have := D.x
  rw [hx1] at this
  obtain rfl := Except.ok.inj this
  have D' : ∀ b, Done { p with batchSize := b } X y ⟨w, rows⟩ st' := fun b =>
    ⟨D.x, D.len, D.size, D.device, D.isInt, D.k, D.metric, D.weights, D.st⟩
  rw [predictProba_np hext (D' b) hx2 hb (Q := ⟨d, .mat ⟨wq, A ++ B⟩⟩) rfl (by
      intro q hq
      rcases List.mem_append.mp hq with h | h
      · exact hA q h
      · exact hB q h),
    C50_batch (np ext) (part_law hext) p b b1 b2 hb hb1 hb2 (npState st') (npState st') (.mat ⟨w, rows⟩) ⟨w, rows⟩ rfl
      hx2 y.flat _ (Supervised.fit_ok.mpr ⟨_, D.np, rfl⟩) wq A B hA hB P]
  simp only [predictProba_np hext (D' b1) hx2 hb1 (Q := ⟨d, .mat ⟨wq, A⟩⟩) rfl hA,
    predictProba_np hext (D' b2) hx2 hb2 (Q := ⟨d, .mat ⟨wq, B⟩⟩) rfl hB]
  constructor
  · rintro ⟨h1, PA, PB, h2, h3, h4⟩
    exact ⟨PA, PB, ⟨h1, h2⟩, ⟨h1, h3⟩, h4⟩
  · rintro ⟨PA, PB, ⟨h1, h2⟩, ⟨-, h3⟩, h4⟩
    exact ⟨h1, PA, PB, h2, h3, h4⟩

/-! ### The two backends -/

theorem nearest_sub {D : Nat → K} {n k : Nat} {S S' : List Nat} (h : Nearest D n k S) (h' : Nearest D n k S')
    (hc : NoTies D n ∨ n ≤ k) : S ⊆ S' := by
  intro i hi
  by_contra hn
  have hnd : (i :: S').Nodup := List.nodup_cons.mpr ⟨hn, h'.nodup⟩
  rcases hc with hc | hc
  · have : ∃ j ∈ S', j ∉ S := by
      by_contra hall
      push Not at hall
      have hsub : (i :: S') ⊆ S := by
        intro j hj
        rcases List.mem_cons.mp hj with rfl | hj
        · exact hi
        · exact hall j hj
      have := (hnd.subperm hsub).length_le
      rw [List.length_cons, h.length, h'.length] at this
      omega
    obtain ⟨j, hj, hjn⟩ := this
    have e := le_antisymm (h.closest i hi j (h'.range j hj) hjn) (h'.closest j hj i (h.range i hi) hn)
    have := hc i j (h.range i hi) (h'.range j hj) e
    exact hjn (this ▸ hi)
  · have hsub : (i :: S') ⊆ List.range n := by
      intro j hj
      rw [List.mem_range]
      rcases List.mem_cons.mp hj with rfl | hj
      · exact h.range _ hi
      · exact h'.range j hj
    have := (hnd.subperm hsub).length_le
    rw [List.length_cons, h'.length, List.length_range] at this
    omega

theorem nearest_perm {D : Nat → K} {n k : Nat} {S S' : List Nat} (h : Nearest D n k S) (h' : Nearest D n k S')
    (hc : NoTies D n ∨ n ≤ k) : S.Perm S' :=
  (h.nodup.subperm (nearest_sub h h' hc)).perm_of_length_le (by rw [h.length, h'.length])

theorem share_perm {w : Nat → K} {y : List α} {S S' : List Nat} (h : S.Perm S') (c : α) :
    share w y S c = share w y S' c := by
  unfold share
  rw [((h.filter _).map w).sum_eq, (h.map w).sum_eq]

/-- **C158 (the backends agree).**  What the torch classifier accepts, the numpy classifier accepts for the same rows,
labels and parameters, and reports the same sizes and classes.  If for every query no two training rows are at the
same distance, or all of them are neighbours, both return the same probabilities and the same predictions, and
they return for the same queries. -/
theorem C158_agree (ext : TorchExt K) (hext : IsTopk ext.topk) (next : KnnExt K)
    (hnext : IsArgpartition next.argpartition) (hs : next.sqrt = ext.sqrt) (p : KnnParams K) (hb : 0 < p.batchSize)
    (heps : 0 < p.eps) (st st' : State K α) (nst : KnnState K α) (X : Tensor K) (w : Nat) (rows : List (List K))
    (hX : HasRows X.shape w rows) (y : LabelTensor α) (r : Nat × Nat × Nat)
    (hfit : fit p st (some X) (some y) = (st', .ok r)) :
    ∃ nst', Supervised.fit p nst (.mat ⟨w, rows⟩) y.flat = (nst', .ok r) ∧ nst'.classes = st'.classes ∧
      ∀ (Q : Tensor K) (wq : Nat) (qs : List (List K)), HasRows Q.shape wq qs → Q.device = X.device →
        (∀ q ∈ qs, NoTies (fun j => distance ext.sqrt p.eps p.metric q (rows.getD j [])) rows.length ∨
          (rows.length : Int) ≤ p.k) →
        (∀ P, predictProba ext p st' (some Q) = .ok P ↔
          Supervised.predictProba next p nst' (.mat ⟨wq, qs⟩) = .ok P) ∧
        ∀ l, predict ext p st' (some Q) = .ok l ↔ Supervised.predict next p nst' (.mat ⟨wq, qs⟩) = .ok l := by
  obtain ⟨X1, y1, X2, e1, e2, D, rfl⟩ := fit_ok.mp hfit
  obtain rfl := Option.some.inj e1
  obtain rfl := Option.some.inj e2
  obtain ⟨hx1, hx2⟩ := as2d_wf hX
  have := D.x
  rw [hx1] at this
  obtain rfl := Except.ok.inj this
  have hne : rows ≠ [] := fitted_ne D.np
  refine ⟨npState st', Supervised.fit_ok.mpr ⟨_, D.np, rfl⟩, rfl, fun Q wq qs hQ hd hties => ?_⟩
  obtain ⟨hq1, hq2⟩ := as2d_wf hQ
  have main : ∀ P, predictProba ext p st' (some Q) = .ok P ↔
      Supervised.predictProba next p (npState st') (.mat ⟨wq, qs⟩) = .ok P := by
    intro P
    rw [predictProba_np hext D hx2 hb hq1 hq2,
      Supervised.predictProba_eq (part_law hext : IsArgpartition (np ext).argpartition) D.np hx2 hb (Q := .mat ⟨wq, qs⟩)
        rfl hq2,
      Supervised.predictProba_eq hnext D.np hx2 hb (Q := .mat ⟨wq, qs⟩) rfl hq2]
    by_cases hw : qs ≠ [] ∧ wq ≠ w
    · rw [if_pos hw, if_pos hw]
      exact ⟨fun h => h.2, fun h => ⟨hd, h⟩⟩
    rw [if_neg hw, if_neg hw]
    have : qs.map (fun q => Supervised.normRow (votes (np ext) p ⟨w, rows⟩ y.flat q))
        = qs.map (fun q => Supervised.normRow (votes next p ⟨w, rows⟩ y.flat q)) := by
      apply List.map_congr_left
      intro q hq
      have hwid : q.length = w := by
        rw [hq2 q hq]
        by_contra hc
        exact hw ⟨List.ne_nil_of_mem hq, hc⟩
      have hdist : Supervised.dist next p ⟨w, rows⟩ q = Supervised.dist (np ext) p ⟨w, rows⟩ q := by
        funext i
        unfold Supervised.dist
        rw [hs]
        rfl
      have N1 := neighbours_nearest (ext := np ext) (part_law hext) (p := p) hx2 hne D.k hwid
      have N2 := neighbours_nearest hnext (p := p) hx2 hne D.k hwid
      rw [hdist] at N2
      have hpos : 0 < (min p.k rows.length).toNat := by
        have h1 := D.k
        have h3 := List.length_pos_of_ne_nil hne
        omega
      have hp := nearest_perm N1 N2 ((hties q hq).imp (fun h => h) (fun h => by simp only; omega))
      have hl : rows.length = y.flat.length := D.len
      simp only [hl] at N1 N2 hpos
      rw [normRow_votes heps hpos N1, normRow_votes heps hpos (by rw [hdist]; exact N2), hdist]
      apply List.map_congr_left
      intro c _
      exact share_perm hp c
    rw [this]
    exact ⟨fun h => h.2, fun h => ⟨hd, h⟩⟩
  exact ⟨main, predict_eq rfl main⟩

end

/-! ### Examples -/

/-- The largest entries by sorting. -/
def sortTopk (a : List Rat) (k : Nat) : List Nat :=
  ((List.range a.length).insertionSort (fun i j => a.getD j 0 ≤ a.getD i 0)).take k

theorem sortTopk_isTopk : IsTopk sortTopk := by
  intro a k hk
  have hperm : ((List.range a.length).insertionSort (fun i j => a.getD j 0 ≤ a.getD i 0)).Perm (List.range a.length) :=
    List.perm_insertionSort _ _
  have tot : Std.Total (fun i j : Nat => a.getD j 0 ≤ a.getD i 0) := ⟨fun i j => le_total _ _⟩
  have tr : IsTrans Nat (fun i j : Nat => a.getD j 0 ≤ a.getD i 0) := ⟨fun i j k h1 h2 => le_trans h2 h1⟩
  have hs := List.pairwise_insertionSort (fun i j : Nat => a.getD j 0 ≤ a.getD i 0) (List.range a.length)
  unfold sortTopk
  generalize (List.range a.length).insertionSort (fun i j => a.getD j 0 ≤ a.getD i 0) = s at *
  refine ⟨(List.take_sublist _ _).nodup (hperm.nodup_iff.mpr List.nodup_range), ?_, ?_, ?_⟩
  · rw [List.length_take, hperm.length_eq, List.length_range]
    omega
  · intro i hi
    exact List.mem_range.mp (hperm.mem_iff.mp (List.mem_of_mem_take hi))
  · intro i hi j hj hn
    rw [← List.take_append_drop k s, List.pairwise_append] at hs
    refine hs.2.2 i hi j ?_
    have := hperm.mem_iff.mpr (List.mem_range.mpr hj)
    rw [← List.take_append_drop k s, List.mem_append] at this
    exact this.resolve_left hn

/-- Torch for the examples. -/
def demoTorch : TorchExt Rat := ⟨fun x => x, sortTopk⟩

/-- Torch that prefers the later of two equal entries. -/
def lateTopk (a : List Rat) (k : Nat) : List Nat :=
  ((List.range a.length).reverse.insertionSort (fun i j => a.getD j 0 ≤ a.getD i 0)).take k

/-- Training tensors and queries for the examples. -/
def demoXt : Tensor Rat := ⟨0, .vec [0, 1, 2]⟩
def demoYt : LabelTensor Int := ⟨0, true, [10, 20, 20]⟩

/-- Non-vacuity: a successful fit, then probabilities and predictions, on the right device and on another; with the
queries 0 and 5 no two training rows are at the same distance. -/
example :
    let p : KnnParams Rat := ⟨2, "euclidean", "distance", 1, 1⟩
    let st := (fit p .fresh (some demoXt) (some demoYt)).1
    (fit p .fresh (some demoXt) (some demoYt)).2 = .ok (3, 1, 2) ∧
    predictProba demoTorch p st (some ⟨0, .vec [0, 3]⟩) = .ok [[2 / 3, 1 / 3], [0, 1]] ∧
    predict demoTorch p st (some ⟨0, .vec [0, 3]⟩) = .ok [10, 20] ∧
    predictProba demoTorch p st (some ⟨1, .vec [0, 3]⟩) = .error .validation ∧
    predictProba demoTorch p st (some ⟨0, .mat ⟨2, [[0, 0]]⟩⟩) = .error .runtimeError := by decide +kernel

example : ∀ q ∈ [[(0 : Rat)], [5]],
    NoTies (fun j => distance (fun x => x) 1 "euclidean" q ((([0, 1, 2] : List Rat).map fun a => [a]).getD j []))
      3 := by
  have h : ∀ q ∈ [[(0 : Rat)], [5]], ∀ i < 3, ∀ j < 3,
      distance (fun x => x) 1 "euclidean" q ((([0, 1, 2] : List Rat).map fun a => [a]).getD i [])
        = distance (fun x => x) 1 "euclidean" q ((([0, 1, 2] : List Rat).map fun a => [a]).getD j []) → i = j := by
    decide +kernel
  exact fun q hq i j hi hj he => h q hq i hi j hj he

/-- Non-vacuity: a fit that fails leaves the classifier as it was, where the numpy one relabels its rows
(`C89_failed_fit_violated`). -/
example :
    let p : KnnParams Rat := ⟨1, "euclidean", "uniform", 8, 1⟩
    let st := (fit p .fresh (some demoXt) (some demoYt)).1
    (fit p st (some demoXt) (some ⟨0, true, [98, 99]⟩)).2 = .error .validation ∧
    (fit p st (some demoXt) (some ⟨0, false, [98, 99, 99]⟩)).2 = .error .validation ∧
    predict demoTorch p (fits p .fresh [(some demoXt, some demoYt), (some demoXt, some ⟨0, true, [98, 99]⟩), (none, none)])
      (some ⟨0, .vec [2]⟩) = .ok [20] := by
  decide +kernel

/-- The hypothesis on ties is needed: with two rows at the same distance the backends may differ, here with one
neighbour of the query 1 among the rows 0 and 2. -/
theorem C158_ties_needed :
    let p : KnnParams Rat := ⟨1, "euclidean", "uniform", 8, 1⟩
    predict ⟨fun x => x, lateTopk⟩ p (fit p .fresh (some ⟨0, .vec [0, 2]⟩) (some ⟨0, true, [10, (20 : Int)]⟩)).1
      (some ⟨0, .vec [1]⟩) = .ok [20] ∧
    Supervised.predict demoExt p (Supervised.fit p .fresh (.vec [0, 2]) [10, (20 : Int)]).1 (.vec [1]) = .ok [10] := by
  decide +kernel

/-- **C158 is violated for a negative batch size.**  It is accepted by `fit`, and then every query is given the
smallest class with rows of zeros, although all the training rows near it have another label. -/
theorem C158_batch_size_violated :
    let p : KnnParams Rat := ⟨2, "euclidean", "uniform", -1, 1⟩
    let st := (fit p .fresh (some demoXt) (some demoYt)).1
    (fit p .fresh (some demoXt) (some demoYt)).2 = .ok (3, 1, 2) ∧
    predictProba demoTorch p st (some ⟨0, .vec [2, 2]⟩) = .ok [[0, 0], [0, 0]] ∧
    predict demoTorch p st (some ⟨0, .vec [2, 2]⟩) = .ok [10, 10] ∧
    predict demoTorch { p with batchSize := 1 } st (some ⟨0, .vec [2, 2]⟩) = .ok [20, 20] := by
  decide +kernel

end ModSSC.Supervised.Torch
