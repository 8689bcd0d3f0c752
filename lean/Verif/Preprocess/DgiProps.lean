import Verif.Preprocess.DgiModel
import Verif.Gnn.NetProps
import Verif.ExceptLemmas

/-!
# C191 — Graph embeddings: acceptance, edge arrays, reach, isolated nodes, seed
-/

namespace ModSSC.Preprocess.Dgi
open ModSSC ModSSC.Transductive ModSSC.Gnn ModSSC.Gnn.Nets ModSSC.Gnn.Nets.Spec

variable {K : Type} [Field K] [LinearOrder K] [IsStrictOrderedRing K] {S G : Type}

namespace Spec

/-- The array that is used as features: `features.X`, or `raw.X` if there is none. -/
def Used (st : Store K) (a : Arr K) : Prop := st.features = some (some a) ∨ (st.features = none ∧ st.raw = some (some a))

/-- It is a list of numbers or a matrix: `n` rows of `w` numbers. -/
def Table (a : Arr K) (n w : Nat) (X : Feat K) : Prop :=
  (a = .mat n w X) ∨ (w = 1 ∧ ∃ f, a = .vec n f ∧ X = fun i _ => f i)

/-- The pairs as the columns of a matrix with two rows. -/
def columns (l : List (Int × Int)) : Arr Int := .mat 2 l.length fun i j => if i = 0 then (l.getD j (0, 0)).1 else (l.getD j (0, 0)).2

/-- The pairs as the rows of a matrix with two columns. -/
def rows (l : List (Int × Int)) : Arr Int := .mat l.length 2 fun i j => if j = 0 then (l.getD i (0, 0)).1 else (l.getD i (0, 0)).2

/-- The edges an array stands for: the columns, or the rows of an array with two columns and not two rows. -/
def Edges (a : Arr Int) (l : List (Int × Int)) : Prop :=
  (∃ c f, a = .mat 2 c f ∧ l = (List.range c).map fun j => (f 0 j, f 1 j)) ∨
  (∃ r f, r ≠ 2 ∧ a = .mat r 2 f ∧ l = (List.range r).map fun j => (f j 0, f j 1))

/-- Both ends are nodes. -/
def Inside (n : Nat) (l : List (Int × Int)) : Prop := ∀ e ∈ l, 0 ≤ e.1 ∧ e.1 < n ∧ 0 ≤ e.2 ∧ e.2 < n

/-- The edges with their weights, all one if there are none. -/
def weighted (l : List (Int × Int)) (w : Option (List K)) : List (WEdge K) :=
  (l.zip (w.getD (List.replicate l.length 1))).map fun p => ⟨p.1.1.toNat, p.1.2.toNat, p.2⟩

end Spec

open Spec

theorem asEdgeIndex_iff (n : Nat) (a : Arr Int) (es : List (Nat × Nat)) :
    asEdgeIndex n a = .ok es ↔ ∃ l, Edges a l ∧ Inside n l ∧ es = l.map fun e => (e.1.toNat, e.2.toNat) := by
  have core : ∀ l : List (Int × Int),
      (if l.any (fun e => decide (e.1 < 0 ∨ e.2 < 0 ∨ (n : Int) ≤ e.1 ∨ (n : Int) ≤ e.2)) then
        (Except.error PyErr.validation : Except PyErr (List (Nat × Nat)))
      else .ok (l.map fun e => (e.1.toNat, e.2.toNat))) = .ok es ↔ Inside n l ∧ es = l.map fun e => (e.1.toNat, e.2.toNat) := by
    intro l
    by_cases h : l.any (fun e => decide (e.1 < 0 ∨ e.2 < 0 ∨ (n : Int) ≤ e.1 ∨ (n : Int) ≤ e.2)) = true
    · rw [if_pos h]
      refine ⟨fun h => (by cases h), fun hc => ?_⟩
      obtain ⟨e, he, hb⟩ := List.any_eq_true.mp h
      have := of_decide_eq_true hb
      have := hc.1 e he
      omega
    · rw [if_neg h]
      constructor
      · intro hk
        injection hk with hk
        refine ⟨fun e he => ?_, hk.symm⟩
        by_contra hc
        exact h (List.any_eq_true.mpr ⟨e, he, decide_eq_true (by omega)⟩)
      · rintro ⟨-, rfl⟩
        rfl
  cases a with
  | vec m f =>
    unfold asEdgeIndex
    refine ⟨fun h => (by cases h), ?_⟩
    rintro ⟨l, ⟨c, f', h, -⟩ | ⟨r, f', -, h, -⟩, -⟩ <;> cases h
  | other =>
    unfold asEdgeIndex
    refine ⟨fun h => (by cases h), ?_⟩
    rintro ⟨l, ⟨c, f', h, -⟩ | ⟨r, f', -, h, -⟩, -⟩ <;> cases h
  | mat r c f =>
    unfold asEdgeIndex
    dsimp only
    by_cases h : r ≠ 2 ∧ c = 2
    · rw [if_pos h]
      obtain ⟨hr, rfl⟩ := h
      dsimp only
      rw [if_neg (by simp), core]
      constructor
      · rintro ⟨a, b⟩
        exact ⟨_, .inr ⟨r, f, hr, rfl, rfl⟩, a, b⟩
      · rintro ⟨l, ⟨c, f', h, hl⟩ | ⟨r', f', -, h, hl⟩, a, b⟩
        · injection h with h1
          exact absurd h1 hr
        · injection h with h1 h2 h3
          subst h1 h3 hl
          exact ⟨a, b⟩
    · rw [if_neg h]
      dsimp only
      by_cases h2 : r ≠ 2
      · rw [if_pos h2]
        refine ⟨fun h => (by cases h), ?_⟩
        rintro ⟨l, ⟨c', f', h', hl⟩ | ⟨r', f', hr', h', hl⟩, -⟩
        · injection h' with h1
          exact absurd h1 h2
        · injection h' with h1 h3
          exact absurd ⟨h2, h3⟩ h
      · rw [if_neg h2, core]
        rw [not_not] at h2
        subst h2
        constructor
        · rintro ⟨a, b⟩
          exact ⟨_, .inl ⟨c, f, rfl, rfl⟩, a, b⟩
        · rintro ⟨l, ⟨c, f', h', hl⟩ | ⟨r', f', hr', h', hl⟩, a, b⟩
          · injection h' with h1 h3 h4
            subst h3 h4 hl
            exact ⟨a, b⟩
          · injection h' with h1
            exact absurd h1.symm hr'

theorem features_iff (st : Store K) (n w : Nat) (X : Feat K) :
    features st = .ok (n, w, X) ↔ ∃ a, Used st a ∧ Table a n w X := by
  have e2 : ∀ a : Arr K, ensure2d a = .ok (n, w, X) ↔ Table a n w X := by
    intro a
    unfold Table
    cases a with
    | vec m f =>
      unfold ensure2d
      constructor
      · intro h
        injection h with h
        injection h with h1 h
        injection h with h2 h3
        subst h1 h2 h3
        exact .inr ⟨rfl, f, rfl, rfl⟩
      · rintro (h | ⟨rfl, f', h, rfl⟩)
        · cases h
        · injection h with h1 h2
          subst h1 h2
          rfl
    | mat r c f =>
      unfold ensure2d
      constructor
      · intro h
        injection h with h
        injection h with h1 h
        injection h with h2 h3
        subst h1 h2 h3
        exact .inl rfl
      · rintro (h | ⟨-, f', h, -⟩)
        · injection h with h1 h2 h3
          subst h1 h2 h3
          rfl
        · cases h
    | other =>
      unfold ensure2d
      refine ⟨fun h => (by cases h), ?_⟩
      rintro (h | ⟨-, f', h, -⟩) <;> cases h
  unfold features Used
  cases hf : st.features with
  | some o =>
    dsimp only
    cases o with
    | none =>
      refine ⟨fun h => (by cases h), ?_⟩
      rintro ⟨a, h | ⟨h, -⟩, -⟩
      · injection h with h
        cases h
      · cases h
    | some a =>
      dsimp only
      rw [e2]
      constructor
      · intro h
        exact ⟨a, .inl rfl, h⟩
      · rintro ⟨a', h | ⟨h, -⟩, ht⟩
        · injection h with h
          injection h with h
          subst h
          exact ht
        · cases h
  | none =>
    dsimp only
    cases hr : st.raw with
    | none =>
      refine ⟨fun h => (by cases h), ?_⟩
      rintro ⟨a, h | ⟨-, h⟩, -⟩ <;> cases h
    | some o =>
      cases o with
      | none =>
        refine ⟨fun h => (by cases h), ?_⟩
        rintro ⟨a, h | ⟨-, h⟩, -⟩
        · cases h
        · injection h with h
          cases h
      | some a =>
        dsimp only
        rw [e2]
        constructor
        · intro h
          exact ⟨a, .inr ⟨rfl, rfl⟩, h⟩
        · rintro ⟨a', h | ⟨-, h⟩, ht⟩
          · cases h
          · injection h with h
            injection h with h
            subst h
            exact ht

/-- The settings are accepted. -/
def Good (s : Settings K) : Prop := 1 ≤ s.embeddingDim ∧ 1 ≤ s.hiddenDim ∧ 1 ≤ s.epochs ∧ 0 < s.lr ∧ 0 ≤ s.dropout ∧ s.dropout < 1

theorem transform_iff (sqrt : K → K) (eps : K) (t : Torch K S G) (s : Settings K) (st : Store K) (seed : Int) (g : G) (n : Nat) (emb : Feat K) :
    transform sqrt eps t s st seed g = .ok (n, emb) ↔
      ∃ ei l a w X, st.edgeIndex = some ei ∧ Edges ei l ∧ Used st a ∧ Table a n w X ∧ Inside n l ∧
        (∀ ws, st.edgeWeight = some ws → ws.length = l.length) ∧ Good s ∧
        emb = train sqrt eps t s n w (weighted l st.edgeWeight) X seed g := by
  unfold transform
  cases hei : st.edgeIndex with
  | none =>
    refine ⟨fun h => (by cases h), ?_⟩
    rintro ⟨ei, l, a, w, X, h, -⟩
    cases h
  | some ei =>
    dsimp only
    rw [ebind_ok]
    constructor
    · rintro ⟨⟨n', w, X⟩, hX, h⟩
      rw [ebind_ok] at h
      obtain ⟨es, hes, h⟩ := h
      rw [ebind_ok] at h
      obtain ⟨ws, hws, h⟩ := h
      by_cases h1 : s.embeddingDim ≤ 0
      · rw [if_pos h1] at h; cases h
      rw [if_neg h1] at h
      by_cases h2 : s.hiddenDim ≤ 0
      · rw [if_pos h2] at h; cases h
      rw [if_neg h2] at h
      by_cases h3 : s.epochs ≤ 0
      · rw [if_pos h3] at h; cases h
      rw [if_neg h3] at h
      by_cases h4 : s.lr ≤ 0
      · rw [if_pos h4] at h; cases h
      rw [if_neg h4] at h
      by_cases h5 : ¬ (0 ≤ s.dropout ∧ s.dropout < 1)
      · rw [if_pos h5] at h; cases h
      rw [if_neg h5] at h
      injection h with h
      injection h with ha hb
      dsimp only at ha hb hes
      subst ha
      obtain ⟨a, hu, ht⟩ := (features_iff st n' w X).mp hX
      obtain ⟨l, hl, hin, rfl⟩ := (asEdgeIndex_iff n' ei es).mp hes
      refine ⟨ei, l, a, w, X, rfl, hl, hu, ht, hin, ?_, ⟨by omega, by omega, by omega, not_le.mp h4, not_not.mp h5⟩, ?_⟩
      · intro ws' hw'
        rw [hw'] at hws
        unfold asEdgeWeight at hws
        dsimp only at hws
        by_contra hc
        rw [List.length_map, if_pos hc] at hws
        cases hws
      · rw [← hb]
        congr 1
        unfold weighted
        have hw : ws = st.edgeWeight.getD (List.replicate l.length 1) := by
          cases he : st.edgeWeight with
          | none =>
            rw [he] at hws
            unfold asEdgeWeight at hws
            injection hws with hws
            rw [List.length_map] at hws
            exact hws.symm
          | some w0 =>
            rw [he] at hws
            unfold asEdgeWeight at hws
            dsimp only at hws
            split at hws
            · cases hws
            · injection hws with hws
              exact hws.symm
        rw [hw, List.zip_map_left, List.map_map]
        rfl
    · rintro ⟨ei', l, a, w, X, hei', hl, hu, ht, hin, hw, ⟨h1, h2, h3, h4, h5⟩, rfl⟩
      injection hei' with hei'
      subst hei'
      refine ⟨(n, w, X), (features_iff st n w X).mpr ⟨a, hu, ht⟩, ?_⟩
      rw [ebind_ok]
      refine ⟨l.map fun e => (e.1.toNat, e.2.toNat), (asEdgeIndex_iff n ei _).mpr ⟨l, hl, hin, rfl⟩, ?_⟩
      rw [ebind_ok]
      refine ⟨st.edgeWeight.getD (List.replicate l.length 1), ?_, ?_⟩
      · cases he : st.edgeWeight with
        | none =>
          unfold asEdgeWeight
          rw [List.length_map]
          rfl
        | some w0 =>
          unfold asEdgeWeight
          dsimp only
          rw [List.length_map, if_neg (not_not.mpr (hw w0 he))]
          rfl
      · rw [if_neg (by omega), if_neg (by omega), if_neg (by omega), if_neg (not_le.mpr h4), if_neg (not_not.mpr h5)]
        unfold weighted
        rw [List.zip_map_left, List.map_map]
        rfl

/-- **C191 (acceptance).**  The step is accepted exactly when there are edges in one of the two forms between existing rows, features in a
list or table, as many weights as edges if there are any, and sizes, epochs, learning rate and dropout in their ranges; the result then has
as many rows as the features. -/
theorem C191_accept (sqrt : K → K) (eps : K) (t : Torch K S G) (s : Settings K) (st : Store K) (seed : Int) (g : G) (n : Nat) :
    (∃ emb, transform sqrt eps t s st seed g = .ok (n, emb)) ↔
      (∃ ei l a w X, st.edgeIndex = some ei ∧ Edges ei l ∧ Used st a ∧ Table a n w X ∧ Inside n l ∧
        ∀ ws, st.edgeWeight = some ws → ws.length = l.length) ∧
      1 ≤ s.embeddingDim ∧ 1 ≤ s.hiddenDim ∧ 1 ≤ s.epochs ∧ 0 < s.lr ∧ 0 ≤ s.dropout ∧ s.dropout < 1 := by
  constructor
  · rintro ⟨emb, h⟩
    obtain ⟨ei, l, a, w, X, h1, h2, h3, h4, h5, h6, h7, -⟩ := (transform_iff sqrt eps t s st seed g n emb).mp h
    exact ⟨⟨ei, l, a, w, X, h1, h2, h3, h4, h5, h6⟩, h7⟩
  · rintro ⟨⟨ei, l, a, w, X, h1, h2, h3, h4, h5, h6⟩, h7⟩
    exact ⟨_, (transform_iff sqrt eps t s st seed g n _).mpr ⟨ei, l, a, w, X, h1, h2, h3, h4, h5, h6, h7, rfl⟩⟩

theorem range_getD (l : List (Int × Int)) : ((List.range l.length).map fun j => ((l.getD j (0, 0)).1, (l.getD j (0, 0)).2)) = l := by
  apply List.ext_getElem
  · simp
  · intro i h1 h2
    simp only [List.getElem_map, List.getElem_range]
    rw [List.getD_eq_getElem?_getD, List.getElem?_eq_getElem h2]
    rfl

theorem columns_spec (n : Nat) (l : List (Int × Int)) : asEdgeIndex n (columns l) =
    (if l.any (fun e => decide (e.1 < 0 ∨ e.2 < 0 ∨ (n : Int) ≤ e.1 ∨ (n : Int) ≤ e.2)) then .error .validation
      else .ok (l.map fun e => (e.1.toNat, e.2.toNat))) := by
  unfold columns asEdgeIndex
  dsimp only
  rw [if_neg (c := 2 ≠ 2 ∧ l.length = 2) (fun h => h.1 rfl)]
  dsimp only
  rw [if_neg (by simp)]
  have : pairs l.length (fun i j => if i = 0 then (l.getD j (0, 0)).1 else (l.getD j (0, 0)).2) = l := by
    unfold pairs
    exact range_getD l
  rw [this]

theorem rows_spec (n : Nat) (l : List (Int × Int)) (hl : l.length ≠ 2) : asEdgeIndex n (rows l) = asEdgeIndex n (columns l) := by
  rw [columns_spec]
  unfold rows asEdgeIndex
  dsimp only
  rw [if_pos (c := l.length ≠ 2 ∧ 2 = 2) ⟨hl, rfl⟩]
  dsimp only
  rw [if_neg (by simp)]
  have : pairs l.length (fun i j => if i = 0 then (l.getD j (0, 0)).1 else (l.getD j (0, 0)).2) = l := by
    unfold pairs
    exact range_getD l
  rw [this]

/-- **C191 (two forms of edges).**  It makes no difference whether the edges are the columns of an array with two rows or the rows of an
array with two columns, unless there are exactly two edges.  Missing: see `C191_forms_violated`. -/
theorem C191_forms_partial (sqrt : K → K) (eps : K) (t : Torch K S G) (s : Settings K) (st : Store K) (seed : Int) (g : G)
    (l : List (Int × Int)) (hl : l.length ≠ 2) :
    transform sqrt eps t s { st with edgeIndex := some (rows l) } seed g =
      transform sqrt eps t s { st with edgeIndex := some (columns l) } seed g := by
  unfold transform
  dsimp only
  have hf : ∀ ei, features { edgeIndex := ei, edgeWeight := st.edgeWeight, features := st.features, raw := st.raw } = features st :=
    fun _ => rfl
  rw [hf (some (rows l)), hf (some (columns l))]
  have he : ∀ n, asEdgeIndex n (rows l) = asEdgeIndex n (columns l) := fun n => rows_spec n l hl
  simp only [he]

/-- **C191 (reach).**  The embedding of a node is the output of a graph network with two layers, so with the network given it depends only
on the features of nodes at most two edges before it. -/
theorem C191_reach (sqrt : K → K) (eps : K) (t : Torch K S G) (s : Settings K) (st : Store K) (seed : Int) (g : G) (n : Nat) (emb : Feat K)
    (h : transform sqrt eps t s st seed g = .ok (n, emb)) :
    ∃ ei l a w X, st.edgeIndex = some ei ∧ Edges ei l ∧ Used st a ∧ Table a n w X ∧ ∃ A B : Linear K, ∀ v, ∀ X' : Feat K,
      (∀ i, Within (weighted l st.edgeWeight) v 2 i → X i = X' i) →
      emb v = (Nets.Net.gcn A B).scores sqrt eps s.loops ⟨n, weighted l st.edgeWeight, X'⟩ v := by
  obtain ⟨ei, l, a, w, X, h1, h2, h3, h4, h5, h6, h7, rfl⟩ := (transform_iff sqrt eps t s st seed g n emb).mp h
  refine ⟨ei, l, a, w, X, h1, h2, h3, h4, ?_⟩
  unfold train
  generalize (epochs t s.lr s.dropout n (prepEdges sqrt eps n s.loops .sym (weighted l st.edgeWeight)) X s.epochs.toNat
    (t.init w s.hiddenDim.toNat s.embeddingDim.toNat g).1 (t.manualSeed seed)) = r
  refine ⟨(t.encoder r.1).1, (t.encoder r.1).2, fun v X' hX => ?_⟩
  rw [← C187_reach (Nets.Net.gcn (t.encoder r.1).1 (t.encoder r.1).2) sqrt eps s.loops n (weighted l st.edgeWeight) X X' v hX]
  rfl

/-- **C191 (isolated nodes).**  Without self-loops, the embedding of a node without edges into it is zero, whatever its features. -/
theorem C191_isolated (sqrt : K → K) (eps : K) (t : Torch K S G) (s : Settings K) (st : Store K) (seed : Int) (g : G) (n : Nat) (emb : Feat K)
    (h : transform sqrt eps t s st seed g = .ok (n, emb)) (hs : s.loops = false) (ei : Arr Int) (l : List (Int × Int))
    (hei : st.edgeIndex = some ei) (hl : Edges ei l) (v : Nat) (hv : ∀ e ∈ l, e.2 ≠ v) (c : Nat) : emb v c = 0 := by
  obtain ⟨ei', l', a, w, X, h1, h2, h3, h4, h5, h6, h7, rfl⟩ := (transform_iff sqrt eps t s st seed g n emb).mp h
  rw [hei] at h1
  injection h1 with h1
  subst h1
  have hll : l' = l := by
    rcases h2 with ⟨c1, f1, e1, r1⟩ | ⟨c1, f1, n1, e1, r1⟩ <;> rcases hl with ⟨c2, f2, e2, r2⟩ | ⟨c2, f2, n2, e2, r2⟩ <;> rw [e1] at e2
    · injection e2 with q1 q2 q3; subst q2 q3; rw [r1, r2]
    · injection e2 with q1; exact absurd q1.symm n2
    · injection e2 with q1; exact absurd q1 n1
    · injection e2 with q1 q2 q3; subst q1 q3; rw [r1, r2]
  subst hll
  unfold train Nets.Net.forward gcnConv spmm prepEdges
  dsimp only
  rw [hs]
  have hnil : ((normalize sqrt eps NormMode.sym (if false = true then addSelfLoops n 1 (weighted l' st.edgeWeight) else
      weighted l' st.edgeWeight)).filter fun e => decide (e.dst = v)) = [] := by
    rw [List.filter_eq_nil_iff]
    intro e he hd
    rw [if_neg (by simp)] at he
    unfold normalize at he
    obtain ⟨e', he', rfl⟩ := List.mem_map.mp he
    have hdst : e'.dst = v := of_decide_eq_true hd
    unfold weighted at he'
    obtain ⟨p, hp, rfl⟩ := List.mem_map.mp he'
    have hin : p.1 ∈ l' := (List.of_mem_zip (by exact hp)).1
    have := h5 p.1 hin
    have hne := hv p.1 hin
    dsimp only at hdst
    omega
  rw [hnil]
  rfl

/-- **C191 (contrast).**  The optimization sees nothing but the features, the same rows in the order drawn for the epoch, the edges and the
generator: two optimizers that agree on these give the same result. -/
theorem C191_contrast (sqrt : K → K) (eps : K) (t : Torch K S G) (step' : K → K → List (WEdge K) → Feat K → Feat K → S → G → S × G)
    (s : Settings K) (st : Store K) (seed : Int) (g : G)
    (h : ∀ n es X u γ, t.step s.lr s.dropout es X (fun i => X ((t.randperm n γ).1 i)) u (t.randperm n γ).2 =
      step' s.lr s.dropout es X (fun i => X ((t.randperm n γ).1 i)) u (t.randperm n γ).2) :
    transform sqrt eps { t with step := step' } s st seed g = transform sqrt eps t s st seed g := by
  have hep : ∀ n es X k u γ, epochs { t with step := step' } s.lr s.dropout n es X k u γ = epochs t s.lr s.dropout n es X k u γ := by
    intro n es X k
    induction k with
    | zero => intro u γ; rfl
    | succ k ih =>
      intro u γ
      unfold epochs
      dsimp only
      rw [← h, ih]
  have htr : ∀ n w es X, train sqrt eps { t with step := step' } s n w es X seed g = train sqrt eps t s n w es X seed g := by
    intro n w es X
    unfold train
    dsimp only
    rw [hep]
  unfold transform
  simp only [htr]

/-- **C191 (seed).**  The seed decides the embeddings once the networks that are created are the same.  Missing: they are created before the
generator is seeded, see `C191_seed_violated`. -/
theorem C191_seed_partial (sqrt : K → K) (eps : K) (t : Torch K S G) (s : Settings K) (st : Store K) (seed : Int) (g g' : G)
    (h : ∀ w, (t.init w s.hiddenDim.toNat s.embeddingDim.toNat g).1 = (t.init w s.hiddenDim.toNat s.embeddingDim.toNat g').1) :
    transform sqrt eps t s st seed g = transform sqrt eps t s st seed g' := by
  have htr : ∀ n w es X, train sqrt eps t s n w es X seed g = train sqrt eps t s n w es X seed g' := by
    intro n w es X
    unfold train
    dsimp only
    rw [h w]
  unfold transform
  simp only [htr]

namespace Demo

/-- A generator that counts; the encoder multiplies by the number it was created with. -/
def torch : Torch Rat Rat Nat where
  init := fun _ _ _ g => (g, g + 1)
  encoder := fun s => (⟨1, fun _ _ => s, fun _ => 0⟩, ⟨1, fun _ _ => 1, fun _ => 0⟩)
  manualSeed := fun s => s.toNat
  randperm := fun n g => (fun i => (i + 1) % n, g + 1)
  step := fun lr _ _ _ _ s g => (s + lr, g)

def settings (loops : Bool) : Settings Rat := ⟨1, 1, 0, 2, 1 / 10, loops⟩

/-- Three nodes with given edges. -/
def store (es : Arr Int) : Store Rat := ⟨some es, none, none, some (some (.vec 3 fun i => i + 1))⟩

/-- The embedding of a node. -/
def at? (r : Except PyErr (Nat × Feat Rat)) (v : Nat) : Option Rat :=
  match r with
  | .ok p => some (p.2 v 0)
  | .error _ => none

end Demo

open Demo

/-- Violation: the same data, settings and seed give different embeddings when torch's generator was used differently before. -/
theorem C191_seed_violated : at? (transform id 1 torch (settings true) (store (columns [(0, 1), (1, 2), (2, 0)])) 0 1) 0 ≠
    at? (transform id 1 torch (settings true) (store (columns [(0, 1), (1, 2), (2, 0)])) 0 2) 0 := by decide +kernel

/-- Violation: exactly two edges given as rows are taken for other edges. -/
theorem C191_forms_violated : at? (transform id 1 torch (settings true) (store (rows [(0, 1), (0, 2)])) 0 1) 1 ≠
    at? (transform id 1 torch (settings true) (store (columns [(0, 1), (0, 2)])) 0 1) 1 := by decide +kernel

example : at? (transform id 1 torch (settings false) (store (rows [(0, 1), (1, 2), (2, 2)])) 0 1) 2 =
    at? (transform id 1 torch (settings false) (store (columns [(0, 1), (1, 2), (2, 2)])) 0 1) 2 := by decide +kernel
example : at? (transform id 1 torch (settings false) (store (rows [(0, 1), (1, 2), (2, 2)])) 0 1) 2 ≠ some 0 := by decide +kernel
example : at? (transform id 1 torch (settings false) (store (columns [(0, 1), (1, 2), (2, 2)])) 0 1) 0 = some 0 := by decide +kernel
example : at? (transform id 1 torch (settings false) (store (columns [(0, 3)])) 0 1) 0 = none := by decide +kernel
example : Edges (columns [(0, 1), (1, 2)]) [(0, 1), (1, 2)] := .inl ⟨2, _, rfl, rfl⟩

end ModSSC.Preprocess.Dgi
