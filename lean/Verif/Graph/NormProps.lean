import Mathlib.Analysis.Real.Sqrt
import Verif.Graph.OpsProps
import Mathlib.Algebra.Order.Field.Basic
import Mathlib.Algebra.BigOperators.Ring.List
import Mathlib.Data.List.GetD
import Mathlib.Algebra.Order.BigOperators.Group.List

/-! # Self-loops and normalization (C40, C41) -/

namespace ModSSC.Graph
open ModSSC Labels Spec

theorem npIndex_nonneg {n : Nat} {i : Int} (h0 : 0 ≤ i) (h1 : i < n) :
    npIndex n i = .ok i.toNat := by
  unfold npIndex; rw [if_pos ⟨h0, h1⟩]

theorem mapM_npIndex {n : Nat} {l : List Int} (h : ∀ i ∈ l, 0 ≤ i ∧ i < n) :
    l.mapM (npIndex n) = .ok (l.map Int.toNat) := by
  rw [mapM_ok]
  induction l with
  | nil => exact .nil
  | cons a l ih =>
    have := h a (by simp)
    exact .cons (npIndex_nonneg this.1 this.2) (ih (fun i hi => h i (List.mem_cons_of_mem _ hi)))

/-- The nodes without a loop. -/
def missingLoops (n : Nat) (ei : List Edge) : List Nat :=
  (List.range n).filter (fun v => !decide (((v : Int), (v : Int)) ∈ ei))

theorem addSelfLoops_eq {n : Nat} {ei : List Edge} (hv : ValidEdges n ei)
    (ew : Option (List Rat)) (wt : Rat) :
    addSelfLoops n ei ew wt = .ok
      (ei ++ (missingLoops n ei).map (fun (v : Nat) => ((v : Int), (v : Int))),
       ew.map (fun w => w ++ List.replicate (missingLoops n ei).length wt)) := by
  have hm : (ei.filter (fun e => decide (e.1 = e.2))).mapM (fun e => npIndex n e.1) =
      .ok ((ei.filter (fun e => decide (e.1 = e.2))).map (fun e => e.1.toNat)) := by
    have : ∀ l : List Edge, (∀ e ∈ l, 0 ≤ e.1 ∧ e.1 < n) →
        l.mapM (fun e => npIndex n e.1) = .ok (l.map (fun e => e.1.toNat)) := by
      intro l h
      rw [mapM_ok]
      induction l with
      | nil => exact .nil
      | cons a l ih =>
        have := h a (by simp)
        exact .cons (npIndex_nonneg this.1 this.2) (ih (fun i hi => h i (List.mem_cons_of_mem _ hi)))
    apply this
    intro e he
    have := hv e (List.mem_filter.mp he).1
    exact ⟨this.1, this.2.1⟩
  have hmiss : (List.range n).filter (fun v =>
      !decide (v ∈ (ei.filter (fun e => decide (e.1 = e.2))).map (fun e => e.1.toNat)))
      = missingLoops n ei := by
    apply List.filter_congr
    intro v _
    congr 1
    rw [decide_eq_decide]
    rw [List.mem_map]
    constructor
    · rintro ⟨⟨a, b⟩, he, rfl⟩
      obtain ⟨h1, h2⟩ := List.mem_filter.mp he
      simp only [decide_eq_true_eq] at h2
      subst h2
      have := (hv _ h1).1
      simp only at this ⊢
      rw [Int.toNat_of_nonneg this]
      exact h1
    · intro h
      exact ⟨_, List.mem_filter.mpr ⟨h, by simp⟩, by simp⟩
  unfold addSelfLoops
  rw [hm]
  simp only [hmiss]
  by_cases he : (missingLoops n ei).isEmpty
  · rw [if_pos he]
    rw [List.isEmpty_iff] at he
    rw [he]
    cases ew <;> simp
  · rw [if_neg he]

theorem mem_missing {n : Nat} {ei : List Edge} {v : Nat} :
    v ∈ missingLoops n ei ↔ v < n ∧ ((v : Int), (v : Int)) ∉ ei := by
  unfold missingLoops
  simp

/-- **C40.**  For every graph, weighted or not: the result is the input followed by one loop for
every node that has none, in increasing order, each with the given weight. -/
theorem C40_add {n : Nat} {ei : List Edge} (hv : ValidEdges n ei) (ew : Option (List Rat))
    (wt : Rat) : ∃ missing : List Nat, missing.Pairwise (· < ·) ∧
      (∀ v, v ∈ missing ↔ v < n ∧ ((v : Int), (v : Int)) ∉ ei) ∧
      addSelfLoops n ei ew wt = .ok (ei ++ missing.map (fun (v : Nat) => ((v : Int), (v : Int))),
        ew.map (fun w => w ++ missing.map (fun _ => wt))) := by
  refine ⟨missingLoops n ei, ?_, fun v => mem_missing, ?_⟩
  · exact List.Pairwise.filter _ List.pairwise_lt_range
  · rw [addSelfLoops_eq hv]
    simp [List.map_const']

/-- **C40 (idempotence).**  A second application changes nothing. -/
theorem C40_idempotent {n : Nat} {ei ei' : List Edge} {ew ew' : Option (List Rat)} {wt wt' : Rat}
    (hv : ValidEdges n ei) (h : addSelfLoops n ei ew wt = .ok (ei', ew')) :
    addSelfLoops n ei' ew' wt' = .ok (ei', ew') := by
  rw [addSelfLoops_eq hv] at h
  simp only [Except.ok.injEq, Prod.mk.injEq] at h
  obtain ⟨h1, h2⟩ := h
  have hmem : ∀ v : Nat, v < n → ((v : Int), (v : Int)) ∈ ei' := by
    intro v hlt
    rw [← h1, List.mem_append]
    by_cases hin : ((v : Int), (v : Int)) ∈ ei
    · exact .inl hin
    · exact .inr (List.mem_map.mpr ⟨v, mem_missing.mpr ⟨hlt, hin⟩, rfl⟩)
  have hv' : ValidEdges n ei' := by
    intro e he
    rw [← h1] at he
    rcases List.mem_append.mp he with he | he
    · exact hv e he
    · obtain ⟨v, hm, rfl⟩ := List.mem_map.mp he
      have := (mem_missing.mp hm).1
      simp only
      omega
  have hnil : missingLoops n ei' = [] := by
    rw [List.eq_nil_iff_forall_not_mem]
    intro v hm
    obtain ⟨a, b⟩ := mem_missing.mp hm
    exact b (hmem v a)
  rw [addSelfLoops_eq hv', hnil]
  cases ew' <;> simp

example : addSelfLoops 3 [(0, 1), (1, 1)] (some [2, 5]) 1
    = .ok ([(0, 1), (1, 1), (0, 0), (2, 2)], some [2, 5, 1, 1]) := by decide +kernel

/-! ## Normalization -/

section Field
variable {K : Type} [Field K] [LinearOrder K] [IsStrictOrderedRing K]

theorem degreeAt_eq {n : Nat} {ei : List Edge} (hv : ValidEdges n ei) (w : List K) {v : Int}
    (h0 : 0 ≤ v) : degreeAt ((ei.map (·.1)).map Int.toNat) w v.toNat = outSum ei w v := by
  unfold degreeAt outSum
  congr 1
  induction ei generalizing w with
  | nil => simp
  | cons e ei ih =>
    cases w with
    | nil => simp
    | cons x w =>
      have ih := ih (fun e' he' => hv e' (List.mem_cons_of_mem _ he')) w
      have he := hv e (by simp)
      simp only [List.map_cons, List.zip_cons_cons, List.filter_cons]
      by_cases h : e.1 = v
      · rw [if_pos (by simp [h]), if_pos (by simp [h]), List.map_cons, List.map_cons, ih]
      · rw [if_neg (by simp; omega), if_neg (by simp [h]), ih]

theorem foldr_max_lt {l : List Nat} {n : Nat} (h : ∀ x ∈ l, x < n) (hn : 0 < n) :
    l.foldr max 0 < n := by
  induction l with
  | nil => exact hn
  | cons a l ih =>
    rw [List.foldr_cons]
    exact max_lt (h a (by simp)) (ih (fun x hx => h x (List.mem_cons_of_mem _ hx)))

theorem degrees_eq {n : Nat} {ei : List Edge} (hv : ValidEdges n ei) {w : List K}
    (hw : w.length = ei.length) :
    degrees n (ei.map (·.1)) w = .ok ((List.range n).map (fun (v : Nat) => outSum ei w v)) := by
  have hd : ∀ v : Nat, degreeAt ((ei.map (·.1)).map Int.toNat) w v = outSum ei w v := by
    intro v
    have := degreeAt_eq hv w (v := (v : Int)) (by omega)
    rwa [Int.toNat_natCast] at this
  unfold degrees
  rw [if_neg (by simp [hw])]
  by_cases hc : ei.map (·.1) ≠ [] ∧ (ei.map (·.1)).all (fun s => decide (0 ≤ s)) = true
  · rw [if_pos hc]
    have hne : ei ≠ [] := by
      intro h; apply hc.1; rw [h]; rfl
    obtain ⟨e, he⟩ := List.exists_mem_of_ne_nil _ hne
    have hn : 0 < n := by have := hv e he; omega
    have hmax : max n (((ei.map (·.1)).map Int.toNat).foldr max 0 + 1) = n := by
      apply max_eq_left
      apply foldr_max_lt _ hn
      intro x hx
      rw [List.map_map] at hx
      obtain ⟨e', he', rfl⟩ := List.mem_map.mp hx
      have := hv e' he'
      simp only [Function.comp]
      omega
    rw [hmax]
    congr 1
    apply List.map_congr_left
    intro v _; exact hd v
  · rw [if_neg hc, mapM_npIndex]
    · simp only
      congr 1
      apply List.map_congr_left
      intro v _; exact hd v
    · intro i hi
      obtain ⟨e, he, rfl⟩ := List.mem_map.mp hi
      have := hv e he
      omega

theorem npTake_eq {n : Nat} {f : Nat → K} {idx : List Int} (h : ∀ i ∈ idx, 0 ≤ i ∧ i < n) :
    npTake ((List.range n).map f) 0 idx = .ok (idx.map (fun (i : Int) => f i.toNat)) := by
  unfold npTake
  rw [mapM_ok]
  induction idx with
  | nil => exact .nil
  | cons a l ih =>
    have ha := h a (by simp)
    refine .cons ?_ (ih (fun i hi => h i (List.mem_cons_of_mem _ hi)))
    rw [npIndex_nonneg ha.1 (by simpa using ha.2)]
    show Except.ok _ = Except.ok _
    congr 1
    show ((List.range n).map f).getD a.toNat 0 = f a.toNat
    rw [List.getD_eq_getElem _ _ (by simp; omega)]
    simp

/-- What the `rw` mode computes. -/
theorem rw_eq {n : Nat} {ei : List Edge} (hv : ValidEdges n ei) {w : List K}
    (hw : w.length = ei.length) (sqrt : K → K) (eps : K) :
    normalizeEdgeWeights sqrt n ei (some w) "rw" eps =
      .ok (some ((ei.zip w).map (fun p => p.2 * (1 / max (outSum ei w p.1.1) eps)))) := by
  unfold normalizeEdgeWeights
  rw [if_neg (by decide)]
  simp only [degrees_eq hv hw, if_true]
  rw [npTake_eq (f := fun v => outSum ei w (v : Int))]
  · simp only
    congr 2
    rw [List.map_map]
    have : ∀ (E : List Edge) (w' : List K), (∀ e ∈ E, 0 ≤ e.1) →
        (w'.zip (E.map ((fun (i : Int) => outSum ei w ((i.toNat : Nat) : Int)) ∘ fun e : Edge => e.1))).map
          (fun p => p.1 * (1 / max p.2 eps)) =
        (E.zip w').map (fun p => p.2 * (1 / max (outSum ei w p.1.1) eps)) := by
      intro E
      induction E with
      | nil => intro w' _; simp
      | cons e E ih =>
        intro w' h
        cases w' with
        | nil => simp
        | cons x w' =>
          simp only [List.map_cons, List.zip_cons_cons, Function.comp,
            Int.toNat_of_nonneg (h e (by simp))]
          congr 1
          exact ih w' (fun e' he' => h e' (List.mem_cons_of_mem _ he'))
    exact this ei w (fun e he => (hv e he).1)
  · intro i hi
    obtain ⟨e, he, rfl⟩ := List.mem_map.mp hi
    have := hv e he
    omega

omit [LinearOrder K] [IsStrictOrderedRing K] in
theorem outSum_map {ei : List Edge} {w : List K} (f : Edge → K) (hf : ∀ e e' : Edge, e.1 = e'.1 → f e = f e')
    (v t : Int) : outSum ei ((ei.zip w).map (fun p => p.2 * f p.1)) v = outSum ei w v * f (v, t) := by
  induction ei generalizing w with
  | nil => simp [outSum]
  | cons e ei ih =>
    cases w with
    | nil => simp [outSum]
    | cons x w =>
      have ih := ih (w := w)
      unfold outSum at ih ⊢
      simp only [List.zip_cons_cons, List.map_cons, List.filter_cons]
      by_cases h : e.1 = v
      · rw [if_pos (by simp [h]), if_pos (by simp [h]), List.map_cons, List.map_cons, List.sum_cons,
          List.sum_cons, ih, hf e (v, t) h, add_mul]
      · rw [if_neg (by simp [h]), if_neg (by simp [h]), ih]

theorem outSum_nonneg {ei : List Edge} {w : List K} (h : ∀ x ∈ w, 0 ≤ x) (v : Int) :
    0 ≤ outSum ei w v := by
  unfold outSum
  apply List.sum_nonneg
  intro x hx
  obtain ⟨p, hp, rfl⟩ := List.mem_map.mp hx
  exact h _ (List.of_mem_zip (List.mem_filter.mp hp).1).2

/-- **C41.**  For every graph with non-negative weights and every positive `eps`, random-walk
normalization returns as many weights as there are edges, none negative; the weights leaving a node
sum to one if they summed to at least `eps`, and to at most one otherwise. -/
theorem C41_rw {n : Nat} {ei : List Edge} (hv : ValidEdges n ei) {w : List K}
    (hw : w.length = ei.length) (hpos : ∀ x ∈ w, 0 ≤ x) {eps : K} (heps : 0 < eps)
    (sqrt : K → K) : ∃ out, normalizeEdgeWeights sqrt n ei (some w) "rw" eps = .ok (some out) ∧
      out.length = ei.length ∧ (∀ x ∈ out, 0 ≤ x) ∧
      (∀ v, eps ≤ outSum ei w v → outSum ei out v = 1) ∧ (∀ v, outSum ei out v ≤ 1) ∧
      (∀ v, outSum ei w v = 0 → outSum ei out v = 0) := by
  have hmax : ∀ v, 0 < max (outSum ei w v) eps := fun v => lt_of_lt_of_le heps (le_max_right _ _)
  have hsum : ∀ v, outSum ei ((ei.zip w).map
      (fun p => p.2 * (1 / max (outSum ei w p.1.1) eps))) v
      = outSum ei w v * (1 / max (outSum ei w v) eps) := by
    intro v
    exact outSum_map (fun e => 1 / max (outSum ei w e.1) eps) (fun e e' h => by simp only [h]) v 0
  refine ⟨_, rw_eq hv hw sqrt eps, by simp [hw], ?_, ?_, ?_, ?_⟩
  · intro x hx
    obtain ⟨p, hp, rfl⟩ := List.mem_map.mp hx
    exact mul_nonneg (hpos _ (List.of_mem_zip hp).2) (le_of_lt (one_div_pos.mpr (hmax _)))
  · intro v h
    rw [hsum, max_eq_left h, mul_one_div, div_self (ne_of_gt (lt_of_lt_of_le heps h))]
  · intro v
    rw [hsum, mul_one_div, div_le_one (hmax v)]
    exact le_max_left _ _
  · intro v h
    rw [hsum, h, zero_mul]

/-- What the `sym` mode computes. -/
theorem sym_eq {n : Nat} {ei : List Edge} (hv : ValidEdges n ei) {w : List K}
    (hw : w.length = ei.length) (sqrt : K → K) (eps : K) :
    normalizeEdgeWeights sqrt n ei (some w) "sym" eps =
      .ok (some ((ei.zip w).map (fun p => p.2 * (1 / sqrt (max (outSum ei w p.1.1) eps))
        * (1 / sqrt (max (outSum ei w p.1.2) eps))))) := by
  unfold normalizeEdgeWeights
  rw [if_neg (by decide)]
  simp only [degrees_eq hv hw]
  rw [if_neg (by decide), if_pos trivial, List.map_map]
  have h1 : ∀ i ∈ ei.map (·.1), 0 ≤ i ∧ i < (n : Int) := by
    intro i hi
    obtain ⟨e, he, rfl⟩ := List.mem_map.mp hi
    have := hv e he
    omega
  have h2 : ∀ i ∈ ei.map (·.2), 0 ≤ i ∧ i < (n : Int) := by
    intro i hi
    obtain ⟨e, he, rfl⟩ := List.mem_map.mp hi
    have := hv e he
    omega
  rw [npTake_eq h1, npTake_eq h2]
  simp only
  congr 2
  rw [List.map_map, List.map_map]
  have : ∀ (E : List Edge) (w' : List K), (∀ e ∈ E, 0 ≤ e.1 ∧ 0 ≤ e.2) →
      ((w'.zip ((E.map ((fun (i : Int) => ((fun d => 1 / sqrt (max d eps)) ∘
          fun (v : Nat) => outSum ei w (v : Int)) i.toNat) ∘ fun e : Edge => e.1)).zip
        (E.map ((fun (i : Int) => ((fun d => 1 / sqrt (max d eps)) ∘
          fun (v : Nat) => outSum ei w (v : Int)) i.toNat) ∘ fun e : Edge => e.2)))).map
        (fun p => p.1 * p.2.1 * p.2.2)) =
      (E.zip w').map (fun p => p.2 * (1 / sqrt (max (outSum ei w p.1.1) eps))
        * (1 / sqrt (max (outSum ei w p.1.2) eps))) := by
    intro E
    induction E with
    | nil => intro w' _; simp
    | cons e E ih =>
      intro w' h
      cases w' with
      | nil => simp
      | cons x w' =>
        have he := h e (by simp)
        simp only [List.map_cons, List.zip_cons_cons, Function.comp,
          Int.toNat_of_nonneg he.1, Int.toNat_of_nonneg he.2]
        congr 1
        exact ih w' (fun e' he' => h e' (List.mem_cons_of_mem _ he'))
  exact this ei w (fun e he => ⟨(hv e he).1, (hv e he).2.2.1⟩)

/-- **C41 (symmetric mode).**  Every weight is divided by the square roots of the degrees of both end
points (at least `eps`); weights that were equal in both directions stay equal. -/
theorem C41_sym {n : Nat} {ei : List Edge} (hv : ValidEdges n ei) {w : List K}
    (hw : w.length = ei.length) {eps : K} (heps : 0 < eps) {sqrt : K → K}
    (hsqrt : ∀ x, 0 ≤ x → 0 ≤ sqrt x ∧ sqrt x * sqrt x = x) :
    ∃ out, normalizeEdgeWeights sqrt n ei (some w) "sym" eps = .ok (some out) ∧
      out.length = ei.length ∧
      (∀ i (h : i < ei.length) (h1 : i < w.length) (h2 : i < out.length),
        ∃ a b : K, 0 < a ∧ 0 < b ∧ a * a = max (outSum ei w ei[i].1) eps ∧
          b * b = max (outSum ei w ei[i].2) eps ∧ out[i] * (a * b) = w[i]) ∧
      ((∀ u v x, ((u, v), x) ∈ ei.zip w → ((v, u), x) ∈ ei.zip w) →
        ∀ u v x, ((u, v), x) ∈ ei.zip out → ((v, u), x) ∈ ei.zip out) := by
  have hmax : ∀ v, 0 < max (outSum ei w v) eps := fun v => lt_of_lt_of_le heps (le_max_right _ _)
  have hs : ∀ v, 0 < sqrt (max (outSum ei w v) eps) := by
    intro v
    obtain ⟨h1, h2⟩ := hsqrt _ (hmax v).le
    rcases lt_or_eq_of_le h1 with h | h
    · exact h
    · rw [← h, zero_mul] at h2
      exact absurd h2 (ne_of_lt (hmax v))
  refine ⟨_, sym_eq hv hw sqrt eps, by simp [hw], ?_, ?_⟩
  · intro i h h1 h2
    refine ⟨_, _, hs _, hs _, (hsqrt _ (hmax _).le).2, (hsqrt _ (hmax _).le).2, ?_⟩
    rw [List.getElem_map, List.getElem_zip]
    have ha := ne_of_gt (hs ei[i].1)
    have hb := ne_of_gt (hs ei[i].2)
    field_simp
  · intro hsym u v x hx
    generalize hout : (ei.zip w).map (fun p => p.2 * (1 / sqrt (max (outSum ei w p.1.1) eps))
        * (1 / sqrt (max (outSum ei w p.1.2) eps))) = out at hx ⊢
    have hmem : ∀ u v x, ((u, v), x) ∈ ei.zip out ↔ ∃ y, ((u, v), y) ∈ ei.zip w ∧
        x = y * (1 / sqrt (max (outSum ei w u) eps)) * (1 / sqrt (max (outSum ei w v) eps)) := by
      intro u v x
      rw [← hout]
      clear hx hout hsym
      generalize hF : (fun p : Edge × K => p.2 * (1 / sqrt (max (outSum ei w p.1.1) eps))
        * (1 / sqrt (max (outSum ei w p.1.2) eps))) = F
      have hF' : ∀ y, F ((u, v), y) = y * (1 / sqrt (max (outSum ei w u) eps)) *
          (1 / sqrt (max (outSum ei w v) eps)) := by intro y; rw [← hF]
      simp only [← hF']
      clear hF hF' hs hmax
      clear hv hw
      generalize ei = E
      induction E generalizing w with
      | nil => simp
      | cons e E ih =>
        cases w with
        | nil => simp
        | cons y w =>
          simp only [List.zip_cons_cons, List.map_cons, List.mem_cons, ih]
          constructor
          · rintro (h | ⟨y', h1, h2⟩)
            · obtain ⟨h1, h2⟩ := Prod.mk.injEq _ _ _ _ ▸ h
              exact ⟨y, .inl (by rw [h1]), by rw [h1, h2]⟩
            · exact ⟨y', .inr h1, h2⟩
          · rintro ⟨y', h1 | h1, h2⟩
            · obtain ⟨h3, h4⟩ := Prod.mk.injEq _ _ _ _ ▸ h1
              subst h3 h4 h2
              exact .inl rfl
            · exact .inr ⟨y', h1, h2⟩
    obtain ⟨y, h1, h2⟩ := (hmem _ _ _).mp hx
    refine (hmem _ _ _).mpr ⟨y, hsym _ _ _ h1, ?_⟩
    rw [h2]; ring

/-- **C41 (other modes).** -/
theorem C41_modes (sqrt : K → K) (n : Nat) (ei : List Edge) (ew : Option (List K)) (eps : K) :
    normalizeEdgeWeights sqrt n ei ew "none" eps = .ok ew ∧
    ∀ mode, normalizeEdgeWeights sqrt n ei none mode eps = .ok none := by
  refine ⟨rfl, fun mode => ?_⟩
  unfold normalizeEdgeWeights
  by_cases h : mode = "none"
  · rw [if_pos h]
  · rw [if_neg h]

end Field

example : normalizeEdgeWeights (K := Rat) id 3 [(0, 1), (0, 2), (2, 0)] (some [1, 3, 5]) "rw" (1/1000)
    = .ok (some [1/4, 3/4, 1]) := by decide +kernel

/-- The law assumed of the square root is met by the real numbers. -/
example (x : ℝ) (h : 0 ≤ x) : 0 ≤ Real.sqrt x ∧ Real.sqrt x * Real.sqrt x = x :=
  ⟨Real.sqrt_nonneg x, Real.mul_self_sqrt h⟩

end ModSSC.Graph
