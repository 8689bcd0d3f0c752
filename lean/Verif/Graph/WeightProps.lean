import Verif.Graph.NormProps
import Verif.ExceptLemmas

/-! # From distances to the graph that is returned (C199) -/

namespace ModSSC.Graph
open ModSSC Spec

/-- **C199 (what is accepted).**  Weights are computed exactly for: binary weights; heat weights with a positive width; cosine weights of
cosine distances. -/
theorem C199_kinds (exp : Rat → Rat) (kind metric : String) (sigma : Option Rat) (d : List Rat) :
    (∃ w, computeEdgeWeights exp kind metric sigma d = .ok w) ↔
      kind = "binary" ∨ (kind = "heat" ∧ ∃ s, sigma = some s ∧ 0 < s) ∨ (kind = "cosine" ∧ metric = "cosine") := by
  unfold computeEdgeWeights
  by_cases h1 : kind = "binary"
  · rw [if_pos h1]
    exact ⟨fun _ => .inl h1, fun _ => ⟨_, rfl⟩⟩
  · rw [if_neg h1]
    by_cases h2 : kind = "heat"
    · rw [if_pos h2]
      have h3 : kind ≠ "cosine" := by rw [h2]; decide
      by_cases hs : sigma.getD 0 ≤ 0
      · simp only [if_pos hs]
        refine ⟨fun ⟨w, h⟩ => (by cases h), ?_⟩
        rintro (h | ⟨-, s, rfl, h⟩ | ⟨h, -⟩)
        · exact absurd h h1
        · exact absurd hs (not_le.mpr h)
        · exact absurd h h3
      · simp only [if_neg hs]
        refine ⟨fun _ => .inr (.inl ⟨h2, ?_⟩), fun _ => ⟨_, rfl⟩⟩
        cases sigma with
        | none => exact absurd le_rfl hs
        | some s => exact ⟨s, rfl, not_le.mp hs⟩
    · rw [if_neg h2]
      by_cases h3 : kind = "cosine"
      · rw [if_pos h3]
        by_cases hm : metric = "cosine"
        · rw [if_neg (not_not.mpr hm)]
          exact ⟨fun _ => .inr (.inr ⟨h3, hm⟩), fun _ => ⟨_, rfl⟩⟩
        · rw [if_pos hm]
          refine ⟨fun ⟨w, h⟩ => (by cases h), ?_⟩
          rintro (h | ⟨h, -⟩ | ⟨-, h⟩)
          · exact absurd h h1
          · exact absurd h h2
          · exact absurd h hm
      · rw [if_neg h3]
        refine ⟨fun ⟨w, h⟩ => (by cases h), ?_⟩
        rintro (h | ⟨h, -⟩ | ⟨h, -⟩)
        · exact absurd h h1
        · exact absurd h h2
        · exact absurd h h3

/-- **C199 (the weights).**  There is one weight for each distance, in order: one, `exp(-d² / (2 σ²))`, or `1 - d`. -/
theorem C199_values (exp : Rat → Rat) (kind metric : String) (sigma : Option Rat) (d w : List Rat)
    (h : computeEdgeWeights exp kind metric sigma d = .ok w) : w.length = d.length ∧
      ∀ i (h1 : i < w.length) (h2 : i < d.length),
        (kind = "binary" → w[i] = 1) ∧
        (kind = "heat" → ∀ s, sigma = some s → w[i] = exp (-(d[i] * d[i]) / (2 * s * s))) ∧
        (kind = "cosine" → w[i] = 1 - d[i]) := by
  have hk := (C199_kinds exp kind metric sigma d).mp ⟨w, h⟩
  unfold computeEdgeWeights at h
  rcases hk with hk | ⟨hk, s, rfl, hs⟩ | ⟨hk, hm⟩
  · subst hk
    rw [if_pos rfl] at h
    obtain rfl := Except.ok.inj h
    refine ⟨by simp, fun i h1 h2 => ⟨fun _ => by simp, fun h => absurd h (by decide), fun h => absurd h (by decide)⟩⟩
  · subst hk
    rw [if_neg (by decide), if_pos rfl] at h
    simp only [Option.getD_some, if_neg (not_le.mpr hs)] at h
    obtain rfl := Except.ok.inj h
    refine ⟨by simp, fun i h1 h2 => ⟨fun h => absurd h (by decide), fun _ s' e => ?_, fun h => absurd h (by decide)⟩⟩
    obtain rfl := Option.some.inj e
    simp
  · subst hk
    rw [if_neg (by decide), if_neg (by decide), if_pos rfl, if_neg (not_not.mpr hm)] at h
    obtain rfl := Except.ok.inj h
    exact ⟨by simp, fun i h1 h2 => ⟨fun h => absurd h (by decide), fun h => absurd h (by decide), fun _ => by simp⟩⟩

/-- What is used of the exponential: positive, increasing, one at zero. -/
structure ExpRat (exp : Rat → Rat) : Prop where
  pos : ∀ x, 0 < exp x
  mono : ∀ x y, x < y → exp x < exp y
  zero : exp 0 = 1

/-- **C199 (heat).**  Heat weights lie between zero and one, are one only at distance zero, and a shorter edge weighs more. -/
theorem C199_heat (exp : Rat → Rat) (E : ExpRat exp) (metric : String) (sigma : Option Rat) (d w : List Rat)
    (h : computeEdgeWeights exp "heat" metric sigma d = .ok w) :
    (∀ i (h1 : i < w.length) (h2 : i < d.length), 0 < w[i] ∧ w[i] ≤ 1 ∧ (w[i] = 1 ↔ d[i] = 0)) ∧
    ∀ i j (h1 : i < w.length) (h2 : i < d.length) (h3 : j < w.length) (h4 : j < d.length),
      0 ≤ d[i] → 0 ≤ d[j] → (w[j] < w[i] ↔ d[i] < d[j]) := by
  obtain ⟨-, hv⟩ := C199_values exp "heat" metric sigma d w h
  rcases (C199_kinds exp "heat" metric sigma d).mp ⟨w, h⟩ with hk | ⟨-, s, rfl, hs⟩ | ⟨hk, -⟩
  · exact absurd hk (by decide)
  · have hss : (0 : Rat) < 2 * s * s := by positivity
    have hval := fun i h1 h2 => (hv i h1 h2).2.1 rfl s rfl
    have hle : ∀ x y, exp x < exp y → x < y := by
      intro x y hxy
      by_contra hc
      rcases (not_lt.mp hc).lt_or_eq with h | h
      · exact absurd (E.mono _ _ h) (not_lt.mpr hxy.le)
      · rw [h] at hxy; exact absurd hxy (lt_irrefl _)
    refine ⟨fun i h1 h2 => ?_, fun i j h1 h2 h3 h4 hi hj => ?_⟩
    · rw [hval i h1 h2]
      by_cases hz : d[i] = 0
      · rw [hz]; simp [E.zero]
      · have hneg : -(d[i] * d[i]) / (2 * s * s) < 0 := by
          apply div_neg_of_neg_of_pos _ hss
          have : 0 < d[i] * d[i] := mul_self_pos.mpr hz
          linarith
        have hlt := E.mono _ _ hneg
        rw [E.zero] at hlt
        exact ⟨E.pos _, hlt.le, fun he => absurd he hlt.ne, fun he => absurd he hz⟩
    · rw [hval i h1 h2, hval j h3 h4]
      constructor
      · intro hlt
        have := hle _ _ hlt
        rw [div_lt_div_iff_of_pos_right hss] at this
        nlinarith
      · intro hlt
        apply E.mono
        rw [div_lt_div_iff_of_pos_right hss]
        nlinarith
  · exact absurd hk (by decide)

/-! ### The graph that is returned -/

theorem postProcess_iff {exp sqrt : Rat → Rat} {eps : Rat} {s : PostSpec} {n : Nat} {ei : List Edge} {dist : List Rat}
    {g : GraphArtifact} : postProcess exp sqrt eps s n ei dist = .ok g ↔
      ∃ w, computeEdgeWeights exp s.weightKind s.metric s.sigma dist = .ok w ∧ ∃ g1, symStage s n ei w = .ok g1 ∧
        ∃ g2, loopStage s n g1 = .ok g2 ∧ ∃ ew, normStage sqrt eps s n g2 = .ok ew ∧
          mkArtifact n g2.1 ew (s.symmetrize = "none") = .ok g := by
  unfold postProcess
  simp only [ebind_ok]

theorem mkArtifact_made {n : Nat} {ei : List Edge} {ew : Option (List Rat)} {b : Bool} {g : GraphArtifact} :
    mkArtifact n ei ew b = .ok g ↔ ValidEdges n ei ∧ (∀ w, ew = some w → w.length = ei.length) ∧ g = ⟨n, ei, ew, b⟩ := by
  unfold mkArtifact
  have hany : ei.any (fun e => decide (e.1 < 0 ∨ e.2 < 0 ∨ (n : Int) ≤ e.1 ∨ (n : Int) ≤ e.2)) = false ↔ ValidEdges n ei := by
    rw [List.any_eq_false]
    constructor
    · intro h e he
      have := h e he
      simp only [decide_eq_true_eq] at this
      omega
    · intro h e he
      have := h e he
      simp only [decide_eq_true_eq]
      omega
  by_cases hb : ei.any (fun e => decide (e.1 < 0 ∨ e.2 < 0 ∨ (n : Int) ≤ e.1 ∨ (n : Int) ≤ e.2)) = true
  · rw [if_pos hb]
    refine ⟨fun h => (by cases h), fun h' => ?_⟩
    have h := h'.1
    rw [← hany, hb] at h
    cases h
  · rw [if_neg hb]
    have hv := hany.mp (Bool.eq_false_iff.mpr hb)
    cases ew with
    | none =>
      simp only [Except.ok.injEq]
      exact ⟨fun h => ⟨hv, fun w hw => (by cases hw), h.symm⟩, fun h => h.2.2.symm⟩
    | some w =>
      by_cases hl : w.length = ei.length
      · simp only [ne_eq, hl, not_true_eq_false, if_false, Except.ok.injEq]
        exact ⟨fun h => ⟨hv, fun w' hw => (Option.some.inj hw) ▸ hl, h.symm⟩, fun h => h.2.2.symm⟩
      · simp only [ne_eq, hl, not_false_eq_true, if_true]
        exact ⟨fun h => (by cases h), fun h => absurd (h.2.1 w rfl) hl⟩

/-- **C199 (nothing asked).**  Without symmetrization, loops and normalization the graph has the edges that were found, directed, with the
weights of their distances. -/
theorem C199_plain (exp sqrt : Rat → Rat) (eps : Rat) (s : PostSpec) (h1 : s.symmetrize = "none") (h2 : s.selfLoops = false)
    (h3 : s.normalize = "none") (n : Nat) (ei : List Edge) (dist : List Rat) (g : GraphArtifact) :
    postProcess exp sqrt eps s n ei dist = .ok g ↔ ValidEdges n ei ∧ dist.length = ei.length ∧
      ∃ w, computeEdgeWeights exp s.weightKind s.metric s.sigma dist = .ok w ∧ g = ⟨n, ei, some w, true⟩ := by
  rw [postProcess_iff]
  unfold symStage loopStage normStage
  simp only [h1, h2, h3, ne_eq, not_true_eq_false, if_false, Bool.false_eq_true, Except.ok.injEq, exists_eq_left', mkArtifact_made,
    decide_true, Option.some.injEq, forall_eq']
  constructor
  · rintro ⟨w, hw, hv, hl, rfl⟩
    exact ⟨hv, by rw [← (C199_values _ _ _ _ _ _ hw).1, hl], w, hw, rfl⟩
  · rintro ⟨hv, hl, w, hw, rfl⟩
    exact ⟨w, hw, hv, by rw [(C199_values _ _ _ _ _ _ hw).1, hl], rfl⟩

/-- **C199 (normalization comes last).**  A normalized graph has the edges of the graph without normalization, and its weights are
those of that graph, normalized. -/
theorem C199_normalized (exp sqrt : Rat → Rat) (eps : Rat) (s : PostSpec) (n : Nat) (ei : List Edge) (dist : List Rat)
    (g : GraphArtifact) (hei : ValidEdges n ei) (hd : dist.length = ei.length) (h : postProcess exp sqrt eps s n ei dist = .ok g) :
    ∃ g0, postProcess exp sqrt eps { s with normalize := "none" } n ei dist = .ok g0 ∧ g.edgeIndex = g0.edgeIndex ∧
      g.directed = g0.directed ∧ normalizeEdgeWeights sqrt n g0.edgeIndex g0.edgeWeight s.normalize eps = .ok g.edgeWeight := by
  obtain ⟨w, hw, g1, hg1, g2, hg2, ew, hew, hg⟩ := postProcess_iff.mp h
  obtain ⟨hv, hl, rfl⟩ := mkArtifact_made.mp hg
  have hwl : w.length = ei.length := by rw [(C199_values _ _ _ _ _ _ hw).1, hd]
  have hlen1 : ValidEdges n g1.1 ∧ ∀ w, g1.2 = some w → w.length = g1.1.length := by
    unfold symStage at hg1
    by_cases hs : s.symmetrize = "none"
    · rw [if_neg (not_not.mpr hs)] at hg1
      obtain rfl := Except.ok.inj hg1
      exact ⟨hei, fun w' hw' => by obtain rfl := Option.some.inj hw'; exact hwl⟩
    · rw [if_pos hs] at hg1
      have hm := (C39_modes (n := n) (ei := ei) (ew := some w) (mode := s.symmetrize)).2.mp ⟨_, hg1⟩
      obtain ⟨out, ow, e, h1, -, h2, -⟩ := C39_weighted (hm.resolve_left hs) hwl hei
      rw [e] at hg1
      obtain rfl := Except.ok.inj hg1
      refine ⟨fun p hp => ?_, fun w' hw' => by obtain rfl := Option.some.inj hw'; exact h1⟩
      have := (h2 p.1 p.2).mp hp
      unfold InSym at this
      split at this
      · exact hei _ this.1
      · rcases this with h | h
        · exact hei _ h
        · exact ⟨(hei _ h).2.2.1, (hei _ h).2.2.2, (hei _ h).1, (hei _ h).2.1⟩
  have hlen2 : ∀ w, g2.2 = some w → w.length = g2.1.length := by
    unfold loopStage at hg2
    by_cases hs : s.selfLoops = true
    · rw [if_pos hs] at hg2
      obtain ⟨missing, -, -, e⟩ := C40_add hlen1.1 g1.2 1
      rw [e] at hg2
      obtain rfl := Except.ok.inj hg2
      intro w' hw'
      simp only [Option.map_eq_some_iff] at hw'
      obtain ⟨w0, hw0, rfl⟩ := hw'
      simp [hlen1.2 w0 hw0]
    · rw [if_neg hs] at hg2
      obtain rfl := Except.ok.inj hg2
      exact hlen1.2
  refine ⟨⟨n, g2.1, g2.2, s.symmetrize = "none"⟩, ?_, rfl, rfl, ?_⟩
  · rw [postProcess_iff]
    refine ⟨w, hw, g1, hg1, g2, hg2, g2.2, ?_, mkArtifact_made.mpr ⟨hv, hlen2, rfl⟩⟩
    unfold normStage
    exact if_neg (not_not.mpr rfl)
  · unfold normStage at hew
    by_cases hs : s.normalize = "none"
    · rw [if_neg (not_not.mpr hs)] at hew
      rw [hs, ← hew]
      exact (C41_modes sqrt n _ _ eps).1
    · rw [if_pos hs] at hew
      exact hew

/-- **C199 (loops, directions).**  With self loops every node is joined to itself; the graph is marked as undirected exactly if
symmetrization is asked for, and then has each edge in both directions. -/
theorem C199_shape (exp sqrt : Rat → Rat) (eps : Rat) (s : PostSpec) (n : Nat) (ei : List Edge) (dist : List Rat)
    (g : GraphArtifact) (hei : ValidEdges n ei) (hd : dist.length = ei.length) (h : postProcess exp sqrt eps s n ei dist = .ok g) :
    (s.selfLoops = true → ∀ v : Nat, v < n → ((v : Int), (v : Int)) ∈ g.edgeIndex) ∧
    (g.directed = true ↔ s.symmetrize = "none") ∧
    (g.directed = false → ∀ u v, (u, v) ∈ g.edgeIndex → (v, u) ∈ g.edgeIndex) ∧
    ∀ u v, (u, v) ∈ g.edgeIndex → (u, v) ∈ ei ∨ (v, u) ∈ ei ∨ u = v := by
  obtain ⟨w, hw, g1, hg1, g2, hg2, ew, hew, hg⟩ := postProcess_iff.mp h
  obtain ⟨hv, hl, rfl⟩ := mkArtifact_made.mp hg
  have hwl : w.length = ei.length := by rw [(C199_values _ _ _ _ _ _ hw).1, hd]
  have h1 : ValidEdges n g1.1 ∧ (s.symmetrize ≠ "none" → ∀ u v, (u, v) ∈ g1.1 → (v, u) ∈ g1.1) ∧
      ∀ u v, (u, v) ∈ g1.1 → (u, v) ∈ ei ∨ (v, u) ∈ ei := by
    unfold symStage at hg1
    by_cases hs : s.symmetrize = "none"
    · rw [if_neg (not_not.mpr hs)] at hg1
      obtain rfl := Except.ok.inj hg1
      exact ⟨hei, fun h => absurd hs h, fun u v h => .inl h⟩
    · rw [if_pos hs] at hg1
      have hm := (C39_modes (n := n) (ei := ei) (ew := some w) (mode := s.symmetrize)).2.mp ⟨_, hg1⟩
      obtain ⟨out, ow, e, h1, -, h2, -⟩ := C39_weighted (hm.resolve_left hs) hwl hei
      rw [e] at hg1
      obtain rfl := Except.ok.inj hg1
      have hin : ∀ u v, InSym s.symmetrize ei u v → ((u, v) ∈ ei ∨ (v, u) ∈ ei) ∧ InSym s.symmetrize ei v u := by
        intro u v h
        unfold InSym at h ⊢
        by_cases hmm : s.symmetrize = "mutual"
        · rw [if_pos hmm] at h ⊢
          exact ⟨.inl h.1, h.2, h.1⟩
        · rw [if_neg hmm] at h ⊢
          exact ⟨h, h.symm⟩
      refine ⟨fun p hp => ?_, fun _ u v huv => (h2 v u).mpr (hin u v ((h2 u v).mp huv)).2, fun u v huv => (hin u v ((h2 u v).mp huv)).1⟩
      rcases (hin p.1 p.2 ((h2 p.1 p.2).mp hp)).1 with h | h
      · exact hei _ h
      · exact ⟨(hei _ h).2.2.1, (hei _ h).2.2.2, (hei _ h).1, (hei _ h).2.1⟩
  have h2 : (s.selfLoops = true → ∀ v : Nat, v < n → ((v : Int), (v : Int)) ∈ g2.1) ∧
      ∀ u v, (u, v) ∈ g2.1 ↔ (u, v) ∈ g1.1 ∨ (u = v ∧ (u, v) ∈ g2.1) := by
    unfold loopStage at hg2
    by_cases hs : s.selfLoops = true
    · rw [if_pos hs] at hg2
      obtain ⟨missing, -, hm, e⟩ := C40_add h1.1 g1.2 1
      rw [e] at hg2
      obtain rfl := Except.ok.inj hg2
      refine ⟨fun _ v hv => ?_, fun u v => ?_⟩
      · rw [List.mem_append]
        by_cases hin : ((v : Int), (v : Int)) ∈ g1.1
        · exact .inl hin
        · exact .inr (List.mem_map.mpr ⟨v, (hm v).mpr ⟨hv, hin⟩, rfl⟩)
      · dsimp only
        rw [List.mem_append]
        constructor
        · rintro (h | h)
          · exact .inl h
          · obtain ⟨x, -, hx⟩ := List.mem_map.mp h
            obtain ⟨e1, e2⟩ := Prod.mk.inj hx
            exact .inr ⟨e1.symm.trans e2, .inr h⟩
        · rintro (h | ⟨-, h⟩)
          · exact .inl h
          · exact h
    · rw [if_neg hs] at hg2
      obtain rfl := Except.ok.inj hg2
      exact ⟨fun h => absurd h hs, fun u v => ⟨.inl, fun h => h.elim id And.right⟩⟩
  refine ⟨h2.1, by simp, fun hdir u v huv => ?_, fun u v huv => ?_⟩
  · have hs : s.symmetrize ≠ "none" := by simpa using hdir
    rcases (h2.2 u v).mp huv with h | ⟨rfl, h⟩
    · exact (h2.2 v u).mpr (.inl (h1.2.1 hs u v h))
    · exact huv
  · rcases (h2.2 u v).mp huv with h | ⟨rfl, h⟩
    · rcases h1.2.2 u v h with h | h
      · exact .inl h
      · exact .inr (.inl h)
    · exact .inr (.inr rfl)

/-- The weights of a graph that is not normalized and has no cosine weights are not negative. -/
theorem postProcess_nonneg {exp sqrt : Rat → Rat} (he : ∀ x, 0 ≤ exp x) {eps : Rat} {s : PostSpec} (hk : s.weightKind ≠ "cosine")
    (hn : s.normalize = "none") {n : Nat} {ei : List Edge} {dist : List Rat} {g : GraphArtifact} (hei : ValidEdges n ei)
    (hd : dist.length = ei.length) (h : postProcess exp sqrt eps s n ei dist = .ok g) :
    ∃ w, g.edgeWeight = some w ∧ ∀ x ∈ w, 0 ≤ x := by
  obtain ⟨w, hw, g1, hg1, g2, hg2, ew, hew, hg⟩ := postProcess_iff.mp h
  obtain ⟨hv, hl, rfl⟩ := mkArtifact_made.mp hg
  obtain ⟨hlen, hval⟩ := C199_values _ _ _ _ _ _ hw
  have hwl : w.length = ei.length := by rw [hlen, hd]
  have hpos : ∀ x ∈ w, 0 ≤ x := by
    intro x hx
    obtain ⟨i, hi, rfl⟩ := List.mem_iff_getElem.mp hx
    obtain ⟨a, b, -⟩ := hval i hi (by omega)
    rcases (C199_kinds _ _ _ _ _).mp ⟨w, hw⟩ with h | ⟨h, s', hs', -⟩ | ⟨h, -⟩
    · rw [a h]; exact zero_le_one
    · rw [b h s' hs']; exact he _
    · exact absurd h hk
  have h1 : ValidEdges n g1.1 ∧ ∃ w1, g1.2 = some w1 ∧ ∀ x ∈ w1, 0 ≤ x := by
    unfold symStage at hg1
    by_cases hs : s.symmetrize = "none"
    · rw [if_neg (not_not.mpr hs)] at hg1
      obtain rfl := Except.ok.inj hg1
      exact ⟨hei, w, rfl, hpos⟩
    · rw [if_pos hs] at hg1
      have hm := (C39_modes (n := n) (ei := ei) (ew := some w) (mode := s.symmetrize)).2.mp ⟨_, hg1⟩
      obtain ⟨out, ow, e, h1, -, h2, h3, -⟩ := C39_weighted (hm.resolve_left hs) hwl hei
      rw [e] at hg1
      obtain rfl := Except.ok.inj hg1
      refine ⟨fun p hp => ?_, ow, rfl, fun x hx => ?_⟩
      · have := (h2 p.1 p.2).mp hp
        unfold InSym at this
        split at this
        · exact hei _ this.1
        · rcases this with h | h
          · exact hei _ h
          · exact ⟨(hei _ h).2.2.1, (hei _ h).2.2.2, (hei _ h).1, (hei _ h).2.1⟩
      · obtain ⟨i, hi, rfl⟩ := List.mem_iff_getElem.mp hx
        have hmem : (out[i]'(by omega), ow[i]) ∈ out.zip ow := by
          rw [List.mem_iff_getElem]
          exact ⟨i, by rw [List.length_zip]; omega, by simp⟩
        have hz : ∀ u v m, IsMaxWeight (ei.zip w) u v m → 0 ≤ m := fun u v m hm => hpos m (List.of_mem_zip hm.1).2
        rcases h3 (out[i]'(by omega)).1 (out[i]'(by omega)).2 ow[i] hmem with ⟨a, b, ha, hb, hx⟩ | ⟨ha, -⟩ | ⟨ha, -⟩
        · rw [hx]
          have := hz _ _ _ ha
          have := hz _ _ _ hb
          linarith
        · exact hz _ _ _ ha
        · exact hz _ _ _ ha
  obtain ⟨hv1, w1, hw1, hp1⟩ := h1
  have h2 : ∃ w2, g2.2 = some w2 ∧ ∀ x ∈ w2, 0 ≤ x := by
    unfold loopStage at hg2
    by_cases hs : s.selfLoops = true
    · rw [if_pos hs] at hg2
      obtain ⟨missing, -, -, e⟩ := C40_add hv1 g1.2 1
      rw [e] at hg2
      obtain rfl := Except.ok.inj hg2
      refine ⟨w1 ++ missing.map fun _ => 1, by rw [hw1]; rfl, fun x hx => ?_⟩
      rcases List.mem_append.mp hx with h | h
      · exact hp1 x h
      · obtain ⟨-, -, rfl⟩ := List.mem_map.mp h
        exact zero_le_one
    · rw [if_neg hs] at hg2
      obtain rfl := Except.ok.inj hg2
      exact ⟨w1, hw1, hp1⟩
  obtain ⟨w2, hw2, hp2⟩ := h2
  unfold normStage at hew
  rw [if_neg (not_not.mpr hn)] at hew
  obtain rfl := Except.ok.inj hew
  exact ⟨w2, hw2, hp2⟩

/-- **C199 (random walk weights).**  A graph with binary or heat weights that is normalized with `rw` has weights from which a random walk
can be read: none is negative, those leaving a node sum to at most one, and to exactly one if the weights before normalization sum to at
least the small number `eps`. -/
theorem C199_walk (exp sqrt : Rat → Rat) (he : ∀ x, 0 ≤ exp x) (eps : Rat) (heps : 0 < eps) (s : PostSpec)
    (hk : s.weightKind ≠ "cosine") (hn : s.normalize = "rw") (n : Nat) (ei : List Edge) (dist : List Rat) (g : GraphArtifact)
    (hei : ValidEdges n ei) (hd : dist.length = ei.length) (h : postProcess exp sqrt eps s n ei dist = .ok g) :
    ∃ g0 w0 w, postProcess exp sqrt eps { s with normalize := "none" } n ei dist = .ok g0 ∧ g0.edgeWeight = some w0 ∧
      g.edgeWeight = some w ∧ (∀ x ∈ w, 0 ≤ x) ∧ (∀ v, outSum g.edgeIndex w v ≤ 1) ∧
      ∀ v, eps ≤ outSum g.edgeIndex w0 v → outSum g.edgeIndex w v = 1 := by
  obtain ⟨g0, h0, he1, -, hnorm⟩ := C199_normalized exp sqrt eps s n ei dist g hei hd h
  obtain ⟨w0, hw0, hp0⟩ := postProcess_nonneg he (s := { s with normalize := "none" }) hk rfl hei hd h0
  obtain ⟨_, _, _, _, _, _, ew0, _, hmk⟩ := postProcess_iff.mp h0
  obtain ⟨hv, hl, hg0⟩ := mkArtifact_made.mp hmk
  have hv0 : ValidEdges n g0.edgeIndex := by rw [hg0]; exact hv
  have hl0 : w0.length = g0.edgeIndex.length := by
    rw [hg0] at hw0 ⊢
    exact hl w0 hw0
  obtain ⟨out, ho, -, a, b, c, -⟩ := C41_rw hv0 hl0 hp0 heps sqrt
  rw [hw0, hn, ho] at hnorm
  refine ⟨g0, w0, out, h0, hw0, (Except.ok.inj hnorm).symm, a, ?_, ?_⟩
  · rw [he1]; exact c
  · rw [he1]; exact b

/-- Two directed edges with distances 1 and 2, symmetrized, with loops, normalized: both ends get weights that sum to one. -/
example : postProcess (fun x => 1 / (1 - x)) id (1/1000) ⟨"heat", some 1, "euclidean", "or", true, "rw"⟩ 2 [(0, 1)] [2]
    = .ok ⟨2, [(0, 1), (1, 0), (0, 0), (1, 1)], some [1/4, 1/4, 3/4, 3/4], false⟩ := by decide +kernel

example : computeEdgeWeights (fun x => 1 / (1 - x)) "heat" "euclidean" (some 1) [0, 2] = .ok [1, 1/3] ∧
    computeEdgeWeights id "cosine" "cosine" none [1/4] = .ok [3/4] ∧
    computeEdgeWeights id "cosine" "euclidean" none [1/4] = .error .validation := by decide +kernel

/-- **C199 is violated for cosine weights**: the distances of opposite vectors give negative weights, and normalized with `rw` the weights
leaving a node are multiplied by `1/eps` (`eps` is `1e-12`, normalize.py:16), not scaled to sum to one. -/
theorem C199_cosine_violated : postProcess id id (1/1000000000000) ⟨"cosine", none, "cosine", "none", false, "rw"⟩ 2 [(0, 1)] [2]
    = .ok ⟨2, [(0, 1)], some [-1000000000000], true⟩ := by decide +kernel

end ModSSC.Graph
