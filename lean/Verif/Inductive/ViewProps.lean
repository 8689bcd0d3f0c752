import Verif.Inductive.ViewModel
import Verif.Deep.GraphProps

/-!
# The views of co-training (C202)
-/

namespace ModSSC.Inductive.Views.Spec
open ModSSC

/-- An object the backend can work on: an array, or with torch a graph, with at least two axes. -/
def Usable {α β : Type} (k : Kind) (o : Obj α β) (t : Ten α) : Prop :=
  (o = .arr t ∨ k = .torch ∧ ∃ es rest, o = .graph ⟨t, es, rest⟩) ∧ 2 ≤ t.ndim

end ModSSC.Inductive.Views.Spec

namespace ModSSC.Inductive.Views
open ModSSC ModSSC.Deep ModSSC.Deep.Spec Spec

section
variable {α β : Type}

theorem tensorOf_iff (k : Kind) (o : Obj α β) (t : Ten α) :
    tensorOf k o = some t ↔ o = .arr t ∨ k = .torch ∧ ∃ es rest, o = .graph ⟨t, es, rest⟩ := by
  cases o with
  | arr t' => simp [tensorOf]
  | other => cases k <;> simp [tensorOf]
  | graph g =>
    obtain ⟨x, es, rest⟩ := g
    cases k <;> simp [tensorOf]

/-- **C202 (views for fitting).**  A view is accepted exactly if it is a mapping with `X_l` and `X_u` or a tuple of two, both are usable
and, with torch, on the same device; its two parts are used as given. -/
theorem C202_fit_view (k : Kind) (v : View α β) (l u : Obj α β) : fitView k v = .ok (l, u) ↔
    ((∃ es, v = .map es ∧ es.lookup "X_l" = some l ∧ es.lookup "X_u" = some u) ∨ v = .pair l u) ∧
    ∃ tl tu, Usable k l tl ∧ Usable k u tu ∧ (k = .torch → tl.dev = tu.dev) := by
  have hp : ∀ p : Obj α β × Obj α β, parts v = .ok p ↔
      (∃ es, v = .map es ∧ es.lookup "X_l" = some p.1 ∧ es.lookup "X_u" = some p.2) ∨ v = .pair p.1 p.2 := by
    rintro ⟨a, b⟩
    cases v with
    | map es =>
      unfold parts
      cases h1 : es.lookup "X_l" with
      | none => simp [h1]
      | some x =>
        cases h2 : es.lookup "X_u" with
        | none => simp [h2]
        | some y => simp [h1, h2]
    | pair c d => simp [parts]
    | plain o => simp [parts]
  unfold fitView
  rw [ebind_ok]
  constructor
  · rintro ⟨p, h1, h2⟩
    cases hl : tensorOf k p.1 with
    | none => simp only [hl] at h2; cases h2
    | some tl =>
      cases hu : tensorOf k p.2 with
      | none => simp only [hl, hu] at h2; cases h2
      | some tu =>
        simp only [hl, hu] at h2
        by_cases c1 : tl.ndim < 2 ∨ tu.ndim < 2
        · rw [if_pos c1] at h2; cases h2
        rw [if_neg c1] at h2
        by_cases c2 : k = .torch ∧ tl.dev ≠ tu.dev
        · rw [if_pos c2] at h2; cases h2
        rw [if_neg c2] at h2
        obtain rfl := Except.ok.inj h2
        rw [not_or, not_lt, not_lt] at c1
        exact ⟨(hp _).mp h1, tl, tu, ⟨(tensorOf_iff _ _ _).mp hl, c1.1⟩, ⟨(tensorOf_iff _ _ _).mp hu, c1.2⟩,
          fun hk => by by_contra hne; exact c2 ⟨hk, hne⟩⟩
  · rintro ⟨h1, tl, tu, ⟨hl, cl⟩, ⟨hu, cu⟩, hd⟩
    refine ⟨(l, u), (hp _).mpr h1, ?_⟩
    simp only [(tensorOf_iff _ _ _).mpr hl, (tensorOf_iff _ _ _).mpr hu]
    rw [if_neg (by omega), if_neg (fun h => h.2 (hd h.1))]

/-- **C202 (views for prediction).**  Of a mapping `X` is used, without it `X_u`, without both `X_l`; an array is used itself.  It must be
usable.  Tuples, and graphs that are not in a mapping, are refused. -/
theorem C202_predict_view (k : Kind) (v : View α β) (o : Obj α β) : predictView k v = .ok o ↔
    ((∃ es, v = .map es ∧ (es.lookup "X" = some o ∨ es.lookup "X" = none ∧ es.lookup "X_u" = some o ∨
      es.lookup "X" = none ∧ es.lookup "X_u" = none ∧ es.lookup "X_l" = some o)) ∨ ∃ t, v = .plain (.arr t) ∧ o = .arr t) ∧
    ∃ t, Usable k o t := by
  have ht : ∀ o : Obj α β, (match tensorOf k o with
      | some t => if t.ndim < 2 then (Except.error .validation : Except PyErr (Obj α β)) else .ok o
      | none => .error .validation) = .ok o ↔ ∃ t, Usable k o t := by
    intro o
    cases h : tensorOf k o with
    | none =>
      simp only
      refine ⟨fun h => (by cases h), fun ⟨t, hu, _⟩ => ?_⟩
      rw [(tensorOf_iff _ _ _).mpr hu] at h
      cases h
    | some t =>
      simp only
      by_cases c : t.ndim < 2
      · rw [if_pos c]
        refine ⟨fun h => (by cases h), fun ⟨t', hu, c'⟩ => ?_⟩
        rw [(tensorOf_iff _ _ _).mpr hu] at h
        obtain rfl := Option.some.inj h
        omega
      · rw [if_neg c]
        exact ⟨fun _ => ⟨t, (tensorOf_iff _ _ _).mp h, by omega⟩, fun _ => rfl⟩
  have hval : ∀ o o' : Obj α β, (match tensorOf k o with
      | some t => if t.ndim < 2 then (Except.error .validation : Except PyErr (Obj α β)) else .ok o
      | none => .error .validation) = .ok o' → o = o' := by
    intro o o' h
    cases hk : tensorOf k o with
    | none => rw [hk] at h; cases h
    | some t =>
      rw [hk] at h
      simp only at h
      by_cases c : t.ndim < 2
      · rw [if_pos c] at h; cases h
      · rw [if_neg c] at h; exact Except.ok.inj h
  have htar : ∀ o : Obj α β, (∃ t, Usable k o t) → (target v = .ok o ↔
      (∃ es, v = .map es ∧ (es.lookup "X" = some o ∨ es.lookup "X" = none ∧ es.lookup "X_u" = some o ∨
      es.lookup "X" = none ∧ es.lookup "X_u" = none ∧ es.lookup "X_l" = some o)) ∨ ∃ t, v = .plain (.arr t) ∧ o = .arr t) := by
    rintro o ⟨t, hu, -⟩
    cases v with
    | map es =>
      unfold target
      cases h1 : es.lookup "X" with
      | some x => simp only [h1, reduceCtorEq, View.map.injEq, Except.ok.injEq, Option.some.injEq, false_and, true_and, and_false, false_or, or_false, exists_false, exists_eq_left']
      | none =>
        cases h2 : es.lookup "X_u" with
        | some x => simp only [h1, h2, reduceCtorEq, View.map.injEq, Except.ok.injEq, Option.some.injEq, false_and, true_and, and_false, false_or, or_false, exists_false, exists_eq_left']
        | none =>
          cases h3 : es.lookup "X_l" with
          | some x => simp only [h1, h2, h3, reduceCtorEq, View.map.injEq, Except.ok.injEq, Option.some.injEq, false_and, true_and, and_false, false_or, or_false, exists_false, exists_eq_left']
          | none => simp only [h1, h2, h3, reduceCtorEq, View.map.injEq, Except.ok.injEq, Option.some.injEq, false_and, true_and, and_false, false_or, or_false, exists_false, exists_eq_left']
    | pair a b =>
      simp only [target, Except.ok.injEq, reduceCtorEq, false_and, exists_false, or_self, iff_false]
      rintro rfl
      rcases hu with h | ⟨-, es, rest, h⟩ <;> cases h
    | plain p =>
      cases p with
      | graph g => simp [target]
      | arr t' =>
        constructor
        · intro h
          exact .inr ⟨t', rfl, (Except.ok.inj h).symm⟩
        · rintro (⟨es, e, -⟩ | ⟨t2, e, rfl⟩)
          · cases e
          · cases e; rfl
      | other =>
        simp only [target, Except.ok.injEq, reduceCtorEq, View.plain.injEq, false_and, exists_false, or_self, iff_false]
        rintro rfl
        rcases hu with h | ⟨-, es, rest, h⟩ <;> cases h
  unfold predictView
  rw [ebind_ok]
  constructor
  · rintro ⟨p, h1, h2⟩
    obtain rfl := hval _ _ h2
    have hU := (ht _).mp h2
    exact ⟨(htar _ hU).mp h1, hU⟩
  · rintro ⟨h1, hU⟩
    exact ⟨o, (htar _ hU).mpr h1, (ht _).mpr hU⟩

/-- **C202 (views used again, partial).**  A mapping that was accepted for fitting and has no `X` is accepted for prediction and gives its
unlabeled samples.  Tuples are not (`C202_tuple_violated`). -/
theorem C202_reuse_partial (k : Kind) (es : List (String × Obj α β)) (l u : Obj α β) (h : fitView k (.map es) = .ok (l, u))
    (hX : es.lookup "X" = none) : predictView k (.map es) = .ok u := by
  obtain ⟨h1, tl, tu, -, hu, -⟩ := (C202_fit_view _ _ _ _).mp h
  rcases h1 with ⟨es', e, -, h2⟩ | e
  · obtain rfl := View.map.inj e
    exact (C202_predict_view _ _ _).mpr ⟨.inl ⟨es, rfl, .inr (.inl ⟨hX, h2⟩)⟩, tu, hu⟩
  · cases e

/-- **C202 violated (tuples).**  Every tuple is refused for prediction, also one that a fit accepts. -/
theorem C202_tuple_violated : (∀ (k : Kind) (a b : Obj α β), predictView k (.pair a b) = .error .validation) ∧
    ∃ a b : Obj Nat Nat, fitView .numpy (.pair a b) = .ok (a, b) :=
  ⟨fun k a b => by cases k <;> rfl, .arr ⟨[1], 2, 0⟩, .arr ⟨[2, 3], 2, 0⟩, rfl⟩

/-- **C202 violated (graphs).**  A graph that is itself the view is refused for prediction, where an array is accepted. -/
theorem C202_plain_graph_violated : (∀ (k : Kind) (g : Gr α β), predictView k (.plain (.graph g)) = .error .validation) ∧
    ∀ (k : Kind) (t : Ten α), 2 ≤ t.ndim → predictView k (.plain (.arr t) : View α β) = .ok (.arr t) :=
  ⟨fun k g => by cases k <;> rfl, fun k t ht => (C202_predict_view _ _ _).mpr ⟨.inr ⟨t, rfl, rfl⟩, t, .inl rfl, ht⟩⟩

/-- **C202 (picked samples, arrays).**  The rows at the picked positions follow the training rows. -/
theorem C202_enlarge_array (a u : Ten α) (idx : List Nat) (h : ∀ i ∈ idx, i < u.rows.length) :
    ∃ rows, RowsAt u.rows idx rows ∧ enlarge (.arr a : Obj α β) (.arr u) idx = .ok (.arr ⟨a.rows ++ rows, a.ndim, a.dev⟩) := by
  obtain ⟨r, hr⟩ := takeRows_total u.rows idx h
  refine ⟨r, (takeRows_ok _ _ _).mp hr, ?_⟩
  unfold enlarge takeObj
  simp only
  rw [ebind_of_ok hr]
  rfl

/-- **C202 (picked samples, graphs).**  The training graph is joined with the subgraph of the picked nodes, without edges between them:
the old edges stay, and the new ones are exactly the edges between picked nodes. -/
theorem C202_enlarge_graph (a u : Gr α β) (ea eu : List (Nat × Nat)) (ha : a.edges = some ea) (hu : u.edges = some eu) (idx : List Nat)
    (h : ∀ i ∈ idx, i < u.x.rows.length) : ∃ rows es g, RowsAt u.x.rows idx rows ∧ InducedEdges idx eu es ∧
      enlarge (.graph a) (.graph u) idx = .ok (.graph g) ∧ g.x.rows = a.x.rows ++ rows ∧
      g.edges = some (ea ++ es.map fun e => (e.1 + a.x.rows.length, e.2 + a.x.rows.length)) := by
  obtain ⟨r, hr⟩ := takeRows_total u.x.rows idx h
  refine ⟨r, subgraphEdges idx eu, ⟨⟨a.x.rows ++ r, a.x.ndim, a.x.dev⟩, _, a.rest⟩, (takeRows_ok _ _ _).mp hr, induced idx eu, ?_, rfl, rfl⟩
  unfold enlarge takeObj
  simp only
  rw [ebind_of_ok hr]
  show catObj (.graph a) (.graph ⟨{ u.x with rows := r }, u.edges.map (subgraphEdges idx), u.rest⟩) = _
  simp only [catObj, ha, hu, Option.map_some]

/-- **C202 (refused positions).**  Positions outside the unlabeled samples raise. -/
theorem C202_enlarge_range (a u : Ten α) (idx : List Nat) (i : Nat) (hi : i ∈ idx) (h : u.rows.length ≤ i) :
    ∀ r, enlarge (.arr a : Obj α β) (.arr u) idx ≠ .ok r := by
  intro r hr
  unfold enlarge at hr
  obtain ⟨p, hp, -⟩ := ebind_ok.mp hr
  unfold takeObj at hp
  obtain ⟨rows, hrows, -⟩ := ebind_ok.mp hp
  have := takeRows_ok_range _ _ _ hrows i hi
  omega

end

/-- **C202 violated (weights).**  The other entries of a graph, edge weights among them, stay those of the training graph: after samples
were added there are more edges than weights. -/
theorem C202_weights_violated : ∃ (a u g : Gr Nat Nat), a.edges.map List.length = some 1 ∧ a.rest.lookup "edge_weight" = some [5] ∧
    u.edges.map List.length = some 1 ∧ u.rest.lookup "edge_weight" = some [7] ∧ enlarge (.graph a) (.graph u) [0, 1] = .ok (.graph g) ∧
    g.edges.map List.length = some 2 ∧ g.rest.lookup "edge_weight" = some [5] :=
  ⟨⟨⟨[1, 2], 2, 0⟩, some [(0, 1)], [("edge_weight", [5])]⟩, ⟨⟨[3, 4], 2, 0⟩, some [(1, 0)], [("edge_weight", [7])]⟩,
    ⟨⟨[1, 2, 3, 4], 2, 0⟩, some [(0, 1), (3, 2)], [("edge_weight", [5])]⟩, by decide +kernel, by decide +kernel, by decide +kernel,
    by decide +kernel, by decide +kernel, by decide +kernel, by decide +kernel⟩

/-- **C202 violated (mixed views).**  A view with a graph and an array is accepted, but its samples can never be joined. -/
theorem C202_mixed_violated {α β : Type} (g : Gr α β) (t : Ten α) (hg : 2 ≤ g.x.ndim) (ht : 2 ≤ t.ndim) (hd : g.x.dev = t.dev) :
    fitView .torch (.pair (.graph g) (.arr t)) = .ok (.graph g, .arr t) ∧ fitView .torch (.pair (.arr t) (.graph g)) = .ok (.arr t, .graph g) ∧
    ∀ idx r, enlarge (.graph g) (.arr t : Obj α β) idx ≠ .ok r ∧ enlarge (.arr t : Obj α β) (.graph g) idx ≠ .ok r := by
  refine ⟨(C202_fit_view _ _ _ _).mpr ⟨.inr rfl, g.x, t, ⟨.inr ⟨rfl, _, _, rfl⟩, hg⟩, ⟨.inl rfl, ht⟩, fun _ => hd⟩,
    (C202_fit_view _ _ _ _).mpr ⟨.inr rfl, t, g.x, ⟨.inl rfl, ht⟩, ⟨.inr ⟨rfl, _, _, rfl⟩, hg⟩, fun _ => hd.symm⟩, fun idx r => ⟨?_, ?_⟩⟩
  · intro h
    obtain ⟨p, hp, h2⟩ := ebind_ok.mp h
    obtain ⟨rows, -, e⟩ := ebind_ok.mp hp
    obtain rfl := Except.ok.inj e
    cases h2
  · intro h
    obtain ⟨p, hp, h2⟩ := ebind_ok.mp h
    obtain ⟨rows, -, e⟩ := ebind_ok.mp hp
    obtain rfl := Except.ok.inj e
    cases h2

example : fitView .torch (.map [("X_l", .graph ⟨⟨[1, 2], 2, 0⟩, some [(0, 1)], []⟩), ("X_u", .arr ⟨[3], 2, 0⟩)] : View Nat Nat) =
    .ok (.graph ⟨⟨[1, 2], 2, 0⟩, some [(0, 1)], []⟩, .arr ⟨[3], 2, 0⟩) := by decide +kernel

example : enlarge (.graph ⟨⟨[1, 2], 2, 0⟩, some [(0, 1)], []⟩ : Obj Nat Nat) (.graph ⟨⟨[3, 4, 5], 2, 0⟩, some [(2, 0), (1, 2)], []⟩) [2, 0] =
    .ok (.graph ⟨⟨[1, 2, 5, 3], 2, 0⟩, some [(0, 1), (2, 3)], []⟩) := by decide +kernel

end ModSSC.Inductive.Views
