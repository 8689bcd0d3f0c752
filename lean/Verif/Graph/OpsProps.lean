import Verif.Graph.Runs
import Verif.Graph.OpsSpec
import Verif.ExceptLemmas

/-! # Graph post-processing: symmetrization, self-loops, normalization (C39-C41) -/

namespace ModSSC.Graph
open ModSSC Labels Spec

/-! ## Symmetrization -/

theorem dirEdges_keys (l : List (Edge × Rat)) : ((dirEdges l).map (·.1)).Nodup := by
  have := (groups_spec l).1
  unfold dirEdges
  rw [List.map_map]
  exact this

theorem mem_dirEdges {l : List (Edge × Rat)} {e : Edge} {m : Rat} :
    (e, m) ∈ dirEdges l ↔ IsMaxWeight l e.1 e.2 m := by
  obtain ⟨hn, hg, hk⟩ := groups_spec l
  unfold dirEdges IsMaxWeight
  rw [List.mem_map]
  constructor
  · rintro ⟨g, hgm, he⟩
    obtain ⟨h1, h2⟩ := Prod.mk.injEq _ _ _ _ ▸ he
    subst h1 h2
    obtain ⟨h3, h4⟩ := hg g hgm
    obtain ⟨h5, h6⟩ := maxOf_spec h3
    exact ⟨(h4 _).mp h5, fun m' hm' => h6 _ ((h4 _).mpr hm')⟩
  · rintro ⟨h1, h2⟩
    obtain ⟨g, hgm, hge⟩ := hk _ _ h1
    have hge : g.1 = e := hge
    refine ⟨g, hgm, ?_⟩
    obtain ⟨h3, h4⟩ := hg g hgm
    obtain ⟨h5, h6⟩ := maxOf_spec h3
    rw [← hge]
    congr 1
    apply le_antisymm
    · exact h2 _ (hge ▸ (h4 _).mp h5)
    · exact h6 _ ((h4 _).mpr (hge ▸ h1))

/-- What `pairWeight` decides, on the weights `P` of one direction and `Q` of the other. -/
def PairW (both : Bool) (P Q : Rat → Prop) (w : Rat) : Prop :=
  (∃ f b, P f ∧ Q b ∧ w = (f + b) / 2) ∨
  (both = false ∧ P w ∧ ∀ m, ¬ Q m) ∨ (both = false ∧ Q w ∧ ∀ m, ¬ P m)

theorem last_spec {es : List (Bool × Rat)} {d : Bool}
    (hu : ∀ m m', (d, m) ∈ es → (d, m') ∈ es → m = m') :
    (∀ m, ((es.filter (fun e => e.1 == d)).map (·.2)).getLast? = some m ↔ (d, m) ∈ es) ∧
    (((es.filter (fun e => e.1 == d)).map (·.2)).getLast? = none ↔ ∀ m, (d, m) ∉ es) := by
  have hmem : ∀ m, m ∈ (es.filter (fun e => e.1 == d)).map (·.2) ↔ (d, m) ∈ es := by
    intro m
    simp only [List.mem_map, List.mem_filter, beq_iff_eq]
    constructor
    · rintro ⟨⟨a, b⟩, ⟨h1, h2⟩, h3⟩
      simp only at h2 h3
      rw [← h2, ← h3]; exact h1
    · intro h
      exact ⟨_, ⟨h, rfl⟩, rfl⟩
  constructor
  · intro m
    constructor
    · intro h; exact (hmem m).mp (List.mem_of_getLast? h)
    · intro h
      have hne := List.ne_nil_of_mem ((hmem m).mpr h)
      rw [List.getLast?_eq_some_getLast hne]
      congr 1
      exact hu _ _ ((hmem _).mp (List.getLast_mem hne)) h
  · rw [List.getLast?_eq_none_iff, List.eq_nil_iff_forall_not_mem]
    exact forall_congr' (fun m => not_congr (hmem m))

theorem pairWeight_spec {both : Bool} {es : List (Bool × Rat)}
    (hf : ∀ m m', (true, m) ∈ es → (true, m') ∈ es → m = m')
    (hb : ∀ m m', (false, m) ∈ es → (false, m') ∈ es → m = m') {w : Rat} :
    pairWeight both es = some w ↔ PairW both (fun m => (true, m) ∈ es) (fun m => (false, m) ∈ es) w := by
  obtain ⟨f1, f2⟩ := last_spec hf
  obtain ⟨b1, b2⟩ := last_spec hb
  have e1 : (es.filter (fun e => e.1)) = es.filter (fun e => e.1 == true) := by
    apply List.filter_congr; intro x _; cases x.1 <;> rfl
  have e2 : (es.filter (fun e => !e.1)) = es.filter (fun e => e.1 == false) := by
    apply List.filter_congr; intro x _; cases x.1 <;> rfl
  unfold pairWeight PairW
  rw [e1, e2]
  cases h1 : ((es.filter (fun e => e.1 == true)).map (·.2)).getLast? with
  | none =>
    have h1' := f2.mp h1
    cases h2 : ((es.filter (fun e => e.1 == false)).map (·.2)).getLast? with
    | none =>
      have h2' := b2.mp h2
      simp [h1', h2']
    | some b =>
      have h2' := (b1 b).mp h2
      cases both
      · simp only [Bool.false_eq_true, if_false, Option.some.injEq, true_and]
        constructor
        · rintro rfl; exact .inr (.inr ⟨h2', h1'⟩)
        · rintro (⟨f, _, hf', -⟩ | ⟨hf', -⟩ | ⟨hw, -⟩)
          · exact absurd hf' (h1' _)
          · exact absurd hf' (h1' _)
          · exact hb _ _ h2' hw
      · simp only [if_true, reduceCtorEq, false_iff, Bool.true_eq_false, false_and, or_false]
        rintro ⟨f, _, hf', -⟩
        exact h1' _ hf'
  | some f =>
    have h1' := (f1 f).mp h1
    cases h2 : ((es.filter (fun e => e.1 == false)).map (·.2)).getLast? with
    | none =>
      have h2' := b2.mp h2
      cases both
      · simp only [Bool.false_eq_true, if_false, Option.some.injEq, true_and]
        constructor
        · rintro rfl; exact .inr (.inl ⟨h1', h2'⟩)
        · rintro (⟨_, b, _, hb', -⟩ | ⟨hw, -⟩ | ⟨hw, -⟩)
          · exact absurd hb' (h2' _)
          · exact hf _ _ h1' hw
          · exact absurd hw (h2' _)
      · simp only [if_true, reduceCtorEq, false_iff, Bool.true_eq_false, false_and, or_false]
        rintro ⟨_, b, _, hb', -⟩
        exact h2' _ hb'
    | some b =>
      have h2' := (b1 b).mp h2
      simp only [Option.some.injEq]
      constructor
      · rintro rfl; exact .inl ⟨f, b, h1', h2', rfl⟩
      · rintro (⟨f', b', hf', hb', rfl⟩ | ⟨-, -, h⟩ | ⟨-, -, h⟩)
        · rw [hf _ _ h1' hf', hb _ _ h2' hb']
        · exact absurd h2' (h _)
        · exact absurd h1' (h _)

/-- Directed edges without loops, one entry each. -/
structure Clean (nl : List (Edge × Rat)) : Prop where
  keys : (nl.map (·.1)).Nodup
  noLoop : ∀ u w, ((u, u), w) ∉ nl

theorem Clean.unique {nl : List (Edge × Rat)} (h : Clean nl) {e : Edge} {m m' : Rat}
    (h1 : (e, m) ∈ nl) (h2 : (e, m') ∈ nl) : m = m' := by
  have := List.inj_on_of_nodup_map h.keys h1 h2 rfl
  exact (Prod.mk.injEq _ _ _ _ ▸ this).2

theorem mem_keptPairs {both : Bool} {nl : List (Edge × Rat)} (h : Clean nl) {a b : Int} {w : Rat} :
    ((a, b), w) ∈ keptPairs both nl ↔
      a < b ∧ PairW both (fun m => ((a, b), m) ∈ nl) (fun m => ((b, a), m) ∈ nl) w := by
  unfold keptPairs
  generalize hL : nl.map (fun e => ((min e.1.1 e.1.2, max e.1.1 e.1.2),
    (decide (e.1.1 = min e.1.1 e.1.2), e.2))) = L
  obtain ⟨hn, hg, hk⟩ := groups_spec L
  have hmem : ∀ a b d m, ((a, b), (d, m)) ∈ L ↔
      a < b ∧ (if d then ((a, b), m) ∈ nl else ((b, a), m) ∈ nl) := by
    intro a b d m
    rw [← hL, List.mem_map]
    constructor
    · rintro ⟨⟨⟨u, v⟩, m'⟩, hm, he⟩
      simp only [Prod.mk.injEq] at he
      obtain ⟨⟨h1, h2⟩, h3, rfl⟩ := he
      have hne : u ≠ v := by rintro rfl; exact h.noLoop _ _ hm
      rcases lt_or_gt_of_ne hne with hlt | hlt
      · rw [min_eq_left hlt.le] at h1 h3
        rw [max_eq_right hlt.le] at h2
        subst h1 h2
        simp only [decide_true] at h3
        subst h3
        exact ⟨hlt, by simpa using hm⟩
      · rw [min_eq_right hlt.le] at h1 h3
        rw [max_eq_left hlt.le] at h2
        subst h1 h2
        rw [decide_eq_false hne] at h3
        subst h3
        exact ⟨hlt, by simpa using hm⟩
    · rintro ⟨hlt, hd⟩
      cases d
      · refine ⟨((b, a), m), by simpa using hd, ?_⟩
        simp only [Prod.mk.injEq, and_true, decide_eq_false_iff_not]
        omega
      · refine ⟨((a, b), m), by simpa using hd, ?_⟩
        simp only [Prod.mk.injEq, and_true, decide_eq_true_eq]
        omega
  have hP : ∀ g ∈ runs (lexsort L), ∀ w, (pairWeight both g.2 = some w ↔
      g.1.1 < g.1.2 ∧ PairW both (fun m => (g.1, m) ∈ nl) (fun m => ((g.1.2, g.1.1), m) ∈ nl) w) := by
    intro g hgm w
    obtain ⟨hne, hb⟩ := hg g hgm
    obtain ⟨⟨a, b⟩, es⟩ := g
    simp only at hne hb ⊢
    obtain ⟨x, hx⟩ := List.exists_mem_of_ne_nil _ hne
    have hlt := ((hmem a b x.1 x.2).mp ((hb x).mp hx)).1
    have ht : ∀ m, (true, m) ∈ es ↔ ((a, b), m) ∈ nl := by
      intro m; rw [hb, hmem]; simp [hlt]
    have hf : ∀ m, (false, m) ∈ es ↔ ((b, a), m) ∈ nl := by
      intro m; rw [hb, hmem]; simp [hlt]
    rw [pairWeight_spec]
    · simp only [ht, hf, hlt, true_and]
    · intro m m' h1 h2; exact h.unique ((ht _).mp h1) ((ht _).mp h2)
    · intro m m' h1 h2; exact h.unique ((hf _).mp h1) ((hf _).mp h2)
  rw [List.mem_filterMap]
  constructor
  · rintro ⟨g, hgm, he⟩
    obtain ⟨w', hw', he⟩ := Option.map_eq_some_iff.mp he
    obtain ⟨h1, h2⟩ := Prod.mk.injEq _ _ _ _ ▸ he
    have := (hP g hgm w').mp hw'
    rw [h1, h2] at this
    exact this
  · rintro ⟨hlt, hp⟩
    have hex : ∃ x, ((a, b), x) ∈ L := by
      rcases hp with ⟨f, _, hf, -⟩ | ⟨-, hf, -⟩ | ⟨-, hb, -⟩
      · exact ⟨(true, f), (hmem _ _ _ _).mpr ⟨hlt, by simpa using hf⟩⟩
      · exact ⟨(true, w), (hmem _ _ _ _).mpr ⟨hlt, by simpa using hf⟩⟩
      · exact ⟨(false, w), (hmem _ _ _ _).mpr ⟨hlt, by simpa using hb⟩⟩
    obtain ⟨x, hx⟩ := hex
    obtain ⟨g, hgm, hge⟩ := hk _ _ hx
    have hge : g.1 = (a, b) := hge
    refine ⟨g, hgm, ?_⟩
    rw [(hP g hgm w).mpr (by rw [hge]; exact ⟨hlt, hp⟩), hge]
    rfl

theorem keptPairs_nodup {both : Bool} {nl : List (Edge × Rat)} :
    ((keptPairs both nl).map (·.1)).Nodup := by
  unfold keptPairs
  generalize nl.map (fun e => ((min e.1.1 e.1.2, max e.1.1 e.1.2),
    (decide (e.1.1 = min e.1.1 e.1.2), e.2))) = L
  have hn := (groups_spec L).1
  generalize runs (lexsort L) = R at hn
  induction R with
  | nil => simp
  | cons g R ih =>
    rw [List.map_cons, List.nodup_cons] at hn
    have ih := ih hn.2
    rw [List.filterMap_cons]
    cases hp : pairWeight both g.2 with
    | none => simpa using ih
    | some w =>
      simp only [Option.map_some, List.map_cons, List.nodup_cons]
      refine ⟨?_, ih⟩
      intro hm
      obtain ⟨y, hy, hye⟩ := List.mem_map.mp hm
      obtain ⟨g', hg', he⟩ := List.mem_filterMap.mp hy
      obtain ⟨w', -, he⟩ := Option.map_eq_some_iff.mp he
      apply hn.1
      rw [← hye, ← he]
      exact List.mem_map.mpr ⟨g', hg', rfl⟩

/-- The weighted edges before clipping. -/
def symOut (both : Bool) (l : List (Edge × Rat)) : List (Edge × Rat) :=
  let kept := keptPairs both ((dirEdges l).filter (fun e => !decide (e.1.1 = e.1.2)))
  kept ++ kept.map (fun e => ((e.1.2, e.1.1), e.2)) ++
    (dirEdges l).filter (fun e => decide (e.1.1 = e.1.2))

theorem clean_dir (l : List (Edge × Rat)) :
    Clean ((dirEdges l).filter (fun e => !decide (e.1.1 = e.1.2))) where
  keys := (List.filter_sublist.map _).nodup (dirEdges_keys l)
  noLoop := by
    intro u w h
    have := (List.mem_filter.mp h).2
    simp at this

theorem mem_nl {l : List (Edge × Rat)} {u v : Int} {m : Rat} (hne : u ≠ v) :
    ((u, v), m) ∈ (dirEdges l).filter (fun e => !decide (e.1.1 = e.1.2)) ↔ IsMaxWeight l u v m := by
  rw [List.mem_filter, mem_dirEdges]
  simp [hne]

theorem mem_symOut {both : Bool} {l : List (Edge × Rat)} {u v : Int} {x : Rat} :
    ((u, v), x) ∈ symOut both l ↔
      (u = v ∧ IsMaxWeight l u u x) ∨
      (u ≠ v ∧ PairW both (fun m => IsMaxWeight l u v m) (fun m => IsMaxWeight l v u m) x) := by
  have hsw : ∀ P Q : Rat → Prop, PairW both P Q x ↔ PairW both Q P x := by
    intro P Q
    have : ∀ P Q : Rat → Prop, PairW both P Q x → PairW both Q P x := by
      rintro P Q (⟨f, b, hf, hb, he⟩ | h | h)
      · exact .inl ⟨b, f, hb, hf, by rw [he, add_comm]⟩
      · exact .inr (.inr h)
      · exact .inr (.inl h)
    exact ⟨this _ _, this _ _⟩
  have h1 : ((u, v), x) ∈ keptPairs both ((dirEdges l).filter (fun e => !decide (e.1.1 = e.1.2))) ↔
      u < v ∧ PairW both (fun m => IsMaxWeight l u v m) (fun m => IsMaxWeight l v u m) x := by
    rw [mem_keptPairs (clean_dir l)]
    apply and_congr_right
    intro hlt
    simp only [mem_nl (ne_of_lt hlt), mem_nl (ne_of_gt hlt)]
  have h2 : ((v, u), x) ∈ keptPairs both ((dirEdges l).filter (fun e => !decide (e.1.1 = e.1.2))) ↔
      v < u ∧ PairW both (fun m => IsMaxWeight l u v m) (fun m => IsMaxWeight l v u m) x := by
    rw [mem_keptPairs (clean_dir l)]
    apply and_congr_right
    intro hlt
    simp only [mem_nl (ne_of_lt hlt), mem_nl (ne_of_gt hlt)]
    exact hsw _ _
  have h3 : ((u, v), x) ∈ (keptPairs both ((dirEdges l).filter
      (fun e => !decide (e.1.1 = e.1.2)))).map (fun e => ((e.1.2, e.1.1), e.2)) ↔
      ((v, u), x) ∈ keptPairs both ((dirEdges l).filter (fun e => !decide (e.1.1 = e.1.2))) := by
    rw [List.mem_map]
    constructor
    · rintro ⟨⟨⟨a, b⟩, w⟩, hm, he⟩
      simp only [Prod.mk.injEq] at he
      obtain ⟨⟨rfl, rfl⟩, rfl⟩ := he
      exact hm
    · intro hm
      exact ⟨_, hm, rfl⟩
  have h4 : ((u, v), x) ∈ (dirEdges l).filter (fun e => decide (e.1.1 = e.1.2)) ↔
      u = v ∧ IsMaxWeight l u u x := by
    rw [List.mem_filter, mem_dirEdges]
    simp only [decide_eq_true_eq]
    constructor
    · rintro ⟨h, rfl⟩; exact ⟨rfl, h⟩
    · rintro ⟨rfl, h⟩; exact ⟨h, rfl⟩
  unfold symOut
  simp only [List.mem_append]
  rw [h3, h1, h2, h4]
  constructor
  · rintro ((⟨a, b⟩ | ⟨a, b⟩) | h)
    · exact .inr ⟨by omega, b⟩
    · exact .inr ⟨by omega, b⟩
    · exact .inl h
  · rintro (h | ⟨hne, h⟩)
    · exact .inr h
    · rcases lt_or_gt_of_ne hne with hlt | hlt
      · exact .inl (.inl ⟨hlt, h⟩)
      · exact .inl (.inr ⟨hlt, h⟩)

theorem symOut_nodup (both : Bool) (l : List (Edge × Rat)) : ((symOut both l).map (·.1)).Nodup := by
  have hk : ∀ e ∈ (keptPairs both ((dirEdges l).filter
      (fun e => !decide (e.1.1 = e.1.2)))).map (·.1), e.1 < e.2 := by
    intro e he
    obtain ⟨⟨⟨a, b⟩, w⟩, hx, rfl⟩ := List.mem_map.mp he
    exact ((mem_keptPairs (clean_dir l)).mp hx).1
  have hn := keptPairs_nodup (both := both) (nl := (dirEdges l).filter
      (fun e => !decide (e.1.1 = e.1.2)))
  have hl : ((dirEdges l).filter (fun e => decide (e.1.1 = e.1.2)) |>.map (·.1)).Nodup :=
    (List.filter_sublist.map _).nodup (dirEdges_keys l)
  have hle : ∀ e ∈ ((dirEdges l).filter (fun e => decide (e.1.1 = e.1.2))).map (·.1), e.1 = e.2 := by
    intro e he
    obtain ⟨x, hx, rfl⟩ := List.mem_map.mp he
    simpa using (List.mem_filter.mp hx).2
  unfold symOut
  simp only [List.map_append, List.map_map]
  generalize keptPairs both ((dirEdges l).filter (fun e => !decide (e.1.1 = e.1.2))) = K at *
  generalize ((dirEdges l).filter (fun e => decide (e.1.1 = e.1.2))).map (·.1) = Lp at *
  have hsw : (K.map ((fun x : Edge × Rat => x.1) ∘ fun e => ((e.1.2, e.1.1), e.2))) =
      (K.map (·.1)).map (fun e : Edge => (e.2, e.1)) := by
    rw [List.map_map]; rfl
  rw [hsw]
  generalize K.map (·.1) = Ks at *
  refine List.Nodup.append (List.Nodup.append hn ?_ ?_) hl ?_
  · refine hn.map ?_
    rintro ⟨a, b⟩ ⟨c, d⟩ h
    simp only [Prod.mk.injEq] at h
    exact Prod.ext h.2 h.1
  · intro e h1 h2
    obtain ⟨e', h3, rfl⟩ := List.mem_map.mp h2
    have := hk _ h1
    have := hk _ h3
    simp only at *
    omega
  · intro e h1 h2
    have := hle _ h2
    rcases List.mem_append.mp h1 with h | h
    · have := hk _ h; omega
    · obtain ⟨e', h3, rfl⟩ := List.mem_map.mp h
      have := hk _ h3
      simp only at *
      omega

theorem exists_max {l : List (Edge × Rat)} {u v : Int} {m : Rat} (h : ((u, v), m) ∈ l) :
    ∃ m', IsMaxWeight l u v m' := by
  obtain ⟨g, hg, hk⟩ := (groups_spec l).2.2 _ _ h
  have hk : g.1 = (u, v) := hk
  refine ⟨maxOf g.2, ?_⟩
  rw [← mem_dirEdges (e := (u, v)), ← hk]
  exact List.mem_map.mpr ⟨g, hg, rfl⟩

/-- Support of the result before clipping. -/
theorem symOut_support {both : Bool} {l : List (Edge × Rat)} {u v : Int} :
    (u, v) ∈ (symOut both l).map (·.1) ↔
      if both then (u, v) ∈ l.map (·.1) ∧ (v, u) ∈ l.map (·.1)
      else (u, v) ∈ l.map (·.1) ∨ (v, u) ∈ l.map (·.1) := by
  have hmm : ∀ u v, (u, v) ∈ l.map (·.1) ↔ ∃ m, ((u, v), m) ∈ l := by
    intro u v
    rw [List.mem_map]
    constructor
    · rintro ⟨⟨e, m⟩, hm, rfl⟩; exact ⟨m, hm⟩
    · rintro ⟨m, hm⟩; exact ⟨_, hm, rfl⟩
  have hmax : ∀ u v, (u, v) ∈ l.map (·.1) ↔ ∃ m, IsMaxWeight l u v m := by
    intro u v
    rw [hmm]
    exact ⟨fun ⟨m, h⟩ => exists_max h, fun ⟨m, h⟩ => ⟨m, h.1⟩⟩
  have : (u, v) ∈ (symOut both l).map (·.1) ↔ ∃ x, ((u, v), x) ∈ symOut both l := by
    rw [List.mem_map]
    constructor
    · rintro ⟨⟨e, m⟩, hm, rfl⟩; exact ⟨m, hm⟩
    · rintro ⟨m, hm⟩; exact ⟨_, hm, rfl⟩
  rw [this]
  simp only [mem_symOut, hmax]
  constructor
  · rintro ⟨x, ⟨rfl, h⟩ | ⟨hne, h⟩⟩
    · cases both
      · exact .inl ⟨x, h⟩
      · exact ⟨⟨x, h⟩, ⟨x, h⟩⟩
    · rcases h with ⟨f, b, hf, hb, -⟩ | ⟨rfl, h, -⟩ | ⟨rfl, h, -⟩
      · cases both
        · exact .inl ⟨f, hf⟩
        · exact ⟨⟨f, hf⟩, ⟨b, hb⟩⟩
      · exact .inl ⟨x, h⟩
      · exact .inr ⟨x, h⟩
  · intro h
    by_cases huv : u = v
    · subst huv
      have : ∃ m, IsMaxWeight l u u m := by
        cases both
        · exact h.elim id id
        · exact h.1
      obtain ⟨m, hm⟩ := this
      exact ⟨m, .inl ⟨rfl, hm⟩⟩
    · by_cases h1 : ∃ m, IsMaxWeight l u v m
      · by_cases h2 : ∃ m, IsMaxWeight l v u m
        · obtain ⟨f, hf⟩ := h1
          obtain ⟨b, hb⟩ := h2
          exact ⟨_, .inr ⟨huv, .inl ⟨f, b, hf, hb, rfl⟩⟩⟩
        · cases both
          · obtain ⟨f, hf⟩ := h1
            exact ⟨f, .inr ⟨huv, .inr (.inl ⟨rfl, hf, not_exists.mp h2⟩)⟩⟩
          · exact absurd h.2 h2
      · cases both
        · rcases h with h | h
          · exact absurd h h1
          · obtain ⟨b, hb⟩ := h
            exact ⟨b, .inr ⟨huv, .inr (.inr ⟨rfl, hb, not_exists.mp h1⟩)⟩⟩
        · exact absurd h.1 h1

theorem symOut_weight {both : Bool} {l : List (Edge × Rat)} {u v : Int} {x : Rat}
    (h : ((u, v), x) ∈ symOut both l) : IsSymWeight l u v x := by
  have hno : ∀ {u v : Int}, (∀ m, ¬ IsMaxWeight l u v m) → ∀ m, ((u, v), m) ∉ l := by
    intro u v h m hm
    obtain ⟨m', hm'⟩ := exists_max hm
    exact h m' hm'
  rcases mem_symOut.mp h with ⟨rfl, h'⟩ | ⟨-, h⟩
  · exact .inl ⟨x, x, h', h', by ring⟩
  · rcases h with ⟨f, b, hf, hb, he⟩ | ⟨-, h1, h2⟩ | ⟨-, h1, h2⟩
    · exact .inl ⟨f, b, hf, hb, he⟩
    · exact .inr (.inl ⟨h1, hno h2⟩)
    · exact .inr (.inr ⟨h1, hno h2⟩)

theorem symOut_symm {both : Bool} {l : List (Edge × Rat)} {u v : Int} {x : Rat}
    (h : ((u, v), x) ∈ symOut both l) : ((v, u), x) ∈ symOut both l := by
  rw [mem_symOut] at h ⊢
  rcases h with ⟨rfl, h⟩ | ⟨hne, h⟩
  · exact .inl ⟨rfl, h⟩
  · refine .inr ⟨hne.symm, ?_⟩
    rcases h with ⟨f, b, hf, hb, he⟩ | h | h
    · exact .inl ⟨b, f, hb, hf, by rw [he, add_comm]⟩
    · exact .inr (.inr h)
    · exact .inr (.inl h)

theorem symmetrizeCore_eq {n : Int} {both : Bool} {l : List (Edge × Rat)}
    (h : ValidEdges n (l.map (·.1))) : symmetrizeCore n both l = symOut both l := by
  have hc : ∀ {x : Int}, 0 ≤ x → x < n → clip n x = x := by
    intro x h1 h2; unfold clip; omega
  have hid : ∀ e ∈ symOut both l, ((clip n e.1.1, clip n e.1.2), e.2) = e := by
    intro e he
    obtain ⟨⟨u, v⟩, x⟩ := e
    have := symOut_support.mp (List.mem_map.mpr ⟨_, he, rfl⟩ : (u, v) ∈ (symOut both l).map (·.1))
    have hv : 0 ≤ u ∧ u < n ∧ 0 ≤ v ∧ v < n := by
      cases both
      · rcases this with h' | h'
        · exact h _ h'
        · have := h _ h'; simp only at this; omega
      · exact h _ this.1
    rw [hc hv.1 hv.2.1, hc hv.2.2.1 hv.2.2.2]
  unfold symmetrizeCore
  calc _ = (symOut both l).map (fun e => ((clip n e.1.1, clip n e.1.2), e.2)) := rfl
    _ = (symOut both l).map id := List.map_congr_left hid
    _ = symOut both l := by rw [List.map_id]

theorem zip_map_fst_snd {α β : Type} (l : List (α × β)) : (l.map (·.1)).zip (l.map (·.2)) = l := by
  induction l with
  | nil => rfl
  | cons a l ih => simp [ih]

/-- **C39 (weighted graphs).**  For both modes and every weighted edge list on the nodes, with
duplicates and loops: the result has no duplicate edge, its edges are exactly the required ones, one
weight belongs to each edge, every weight is the average of the two directions (of the largest
duplicates), or the weight of the only direction, and both directions carry the same weight. -/
theorem C39_weighted {n : Int} {ei : List Edge} {w : List Rat} {mode : String}
    (hmode : mode = "or" ∨ mode = "mutual") (hw : w.length = ei.length) (hv : ValidEdges n ei) :
    ∃ out ow, symmetrizeEdges n ei (some w) mode = .ok (out, some ow) ∧ ow.length = out.length ∧
      out.Nodup ∧ (∀ u v, (u, v) ∈ out ↔ InSym mode ei u v) ∧
      (∀ u v x, ((u, v), x) ∈ out.zip ow → IsSymWeight (ei.zip w) u v x) ∧
      (∀ u v x, ((u, v), x) ∈ out.zip ow → ((v, u), x) ∈ out.zip ow) := by
  have hfst : (ei.zip w).map (·.1) = ei := by
    rw [List.map_fst_zip]; omega
  have hcore := symmetrizeCore_eq (n := n) (both := decide (mode = "mutual")) (l := ei.zip w)
    (by rw [hfst]; exact hv)
  refine ⟨(symmetrizeCore n (decide (mode = "mutual")) (ei.zip w)).map (·.1),
    (symmetrizeCore n (decide (mode = "mutual")) (ei.zip w)).map (·.2), ?_, by simp, ?_, ?_, ?_, ?_⟩
  · unfold symmetrizeEdges
    rw [if_neg (by rcases hmode with rfl | rfl <;> decide),
      if_neg (by rcases hmode with rfl | rfl <;> decide)]
  · rw [hcore]; exact symOut_nodup _ _
  · intro u v
    rw [hcore, symOut_support, hfst]
    unfold InSym
    rcases hmode with rfl | rfl <;> simp
  · intro u v x h
    rw [zip_map_fst_snd, hcore] at h
    exact symOut_weight h
  · intro u v x h
    rw [zip_map_fst_snd, hcore] at h ⊢
    exact symOut_symm h

/-- **C39 (unweighted graphs).** -/
theorem C39_unweighted {n : Int} {ei : List Edge} {mode : String}
    (hmode : mode = "or" ∨ mode = "mutual") (hv : ValidEdges n ei) :
    ∃ out, symmetrizeEdges n ei none mode = .ok (out, none) ∧ out.Nodup ∧
      ∀ u v, (u, v) ∈ out ↔ InSym mode ei u v := by
  have hfst : (ei.map (fun e => (e, (1 : Rat)))).map (·.1) = ei := by
    rw [List.map_map]; exact List.map_id _
  have hcore := symmetrizeCore_eq (n := n) (both := decide (mode = "mutual"))
    (l := ei.map (fun e => (e, (1 : Rat)))) (by rw [hfst]; exact hv)
  refine ⟨(symmetrizeCore n (decide (mode = "mutual")) (ei.map (fun e => (e, (1 : Rat))))).map (·.1),
    ?_, ?_, ?_⟩
  · unfold symmetrizeEdges
    rw [if_neg (by rcases hmode with rfl | rfl <;> decide),
      if_neg (by rcases hmode with rfl | rfl <;> decide)]
  · rw [hcore]; exact symOut_nodup _ _
  · intro u v
    rw [hcore, symOut_support, hfst]
    unfold InSym
    rcases hmode with rfl | rfl <;> simp

/-- **C39 (other modes).**  `none` returns the input, anything else is refused. -/
theorem C39_modes {n : Int} {ei : List Edge} {ew : Option (List Rat)} {mode : String} :
    symmetrizeEdges n ei ew "none" = .ok (ei, ew) ∧
    ((∃ r, symmetrizeEdges n ei ew mode = .ok r) ↔ mode = "none" ∨ mode = "or" ∨ mode = "mutual") := by
  refine ⟨rfl, ?_⟩
  unfold symmetrizeEdges
  by_cases h1 : mode = "none"
  · simp [h1]
  · rw [if_neg h1]
    by_cases h2 : mode ≠ "or" ∧ mode ≠ "mutual"
    · rw [if_pos h2]; simp [h1, h2]
    · rw [if_neg h2]
      have : mode = "or" ∨ mode = "mutual" := by tauto
      simp only [h1, false_or, this, iff_true]
      cases ew <;> exact ⟨_, rfl⟩

example : symmetrizeEdges 3 [(0, 1), (0, 1), (1, 0), (2, 1), (2, 2)] (some [1, 3, 5, 7, 9]) "or"
    = .ok ([(0, 1), (1, 2), (1, 0), (2, 1), (2, 2)], some [4, 7, 4, 7, 9]) := by decide +kernel

example : symmetrizeEdges 3 [(0, 1), (0, 1), (1, 0), (2, 1), (2, 2)] (some [1, 3, 5, 7, 9]) "mutual"
    = .ok ([(0, 1), (1, 0), (2, 2)], some [4, 4, 9]) := by decide +kernel

end ModSSC.Graph
