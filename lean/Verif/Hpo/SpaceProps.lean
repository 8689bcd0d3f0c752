import Verif.Hpo.Lemmas

/-!
# C21 (grid search), C64 (random search)
-/

namespace ModSSC.Hpo
open ModSSC Spec

theorem toStr_eq {v : PyVal} {s : String} (h : v.toStr = s) (hs : s ≠ "?") : v = .str s := by
  cases v <;> simp_all [PyVal.toStr]

/-- What an accepted distribution looks like. -/
theorem distLeaf_pieces {d : List (String × PyVal)} {pre : List String} {leaf : Leaf}
    (h : distLeaf d pre = .ok leaf) :
    ∃ spec values, distValues (Assoc.get d "values") = .ok values ∧
      spec = DistSpec.mk ((Assoc.get d "dist").getD .none).toStr ((Assoc.get d "low").getD .none)
        ((Assoc.get d "high").getD .none) values ∧
      validateDistribution spec = .ok () ∧
      leaf = { path := pre, values := if spec.dist = "choice" then values else none, dist := some spec } := by
  unfold distLeaf at h
  split at h
  · exact absurd h (by simp)
  · split at h
    · exact absurd h (by simp)
    · simp only [ebind_ok] at h
      obtain ⟨values, hv, u, hu, h⟩ := h
      obtain rfl := Except.ok.inj h
      exact ⟨_, values, hv, rfl, hu, rfl⟩

theorem distValues_some {o : Option PyVal} {vs : List PyVal} (h : distValues o = .ok (some vs)) :
    o = some (.list vs) := by
  unfold distValues at h
  split at h <;> simp_all

theorem getD_eq {o : Option PyVal} {v : PyVal} (h : o.getD .none = v) (hv : v ≠ .none) : o = some v := by
  cases o <;> simp_all

/-- The options of a leaf of the model are the options of the node. -/
theorem leafOf_options {leaf : Leaf} {nd : PyVal} (h : LeafOf leaf nd) (vs : List PyVal) :
    leaf.values = some vs ↔ Options nd vs := by
  cases nd with
  | list l =>
    obtain ⟨_, h2, _⟩ := h
    rw [h2]
    constructor
    · intro e; obtain rfl := Option.some.inj e; exact .list l
    · intro e; cases e; rfl
  | dict d =>
    obtain ⟨spec, values, hv, hs, hval, hl⟩ := distLeaf_pieces h
    rw [hl]
    dsimp only
    constructor
    · intro e
      split at e
      · rename_i hc
        subst e
        rw [hs] at hc
        exact .choice d vs (getD_eq (toStr_eq hc (by decide)) (by simp)) (distValues_some hv)
      · exact absurd e (by simp)
    · intro e
      cases e with
      | choice _ _ h1 h2 =>
        have : spec.dist = "choice" := by rw [hs, h1]; rfl
        rw [if_pos this]
        rw [h2] at hv
        simpa [distValues] using hv.symm
  | _ => exact absurd h (by simp [LeafOf])

theorem zipIdx_forall₂ {α β : Type} {R : α × Nat → β → Prop} {l : List α} {r : List β}
    (h : List.Forall₂ R l.zipIdx r) :
    l.length = r.length ∧ ∀ i (h1 : i < l.length) (h2 : i < r.length), R (l[i], i) r[i] := by
  have hl := h.length_eq
  rw [List.length_zipIdx] at hl
  refine ⟨hl, ?_⟩
  intro i h1 h2
  have := List.forall₂_iff_get.mp h
  have h3 := this.2 i (by simpa using h1) h2
  simpa using h3

theorem mkTrial_spec {leaves : List Leaf} (hp : leaves.Pairwise (fun a b => Apart a.path b.path))
    (hne : ∀ leaf ∈ leaves, leaf.path ≠ []) (index : Nat) (combo : List PyVal)
    (hlen : combo.length = leaves.length) :
    ∃ t, mkTrial (leaves.map (·.path)) index combo = .ok t ∧ t.index = index ∧
      (∀ i (h1 : i < leaves.length), getPath (.dict t.patch) leaves[i].path = combo[i]?) ∧
      (∀ q, q ≠ [] → (∀ leaf ∈ leaves, Apart leaf.path q) → getPath (.dict t.patch) q = none) := by
  have hpw : ((leaves.map (·.path)).zip combo).Pairwise (fun a b => Apart a.1 b.1) := by
    have : (((leaves.map (·.path)).zip combo).map Prod.fst).Pairwise Apart := by
      rw [List.map_fst_zip (by simp [hlen])]
      exact List.pairwise_map.mpr hp
    exact List.pairwise_map.mp this
  obtain ⟨d', e, g1, g2⟩ := assignAll_spec ((leaves.map (·.path)).zip combo) [] hpw (by
    intro it hit
    refine ⟨?_, free_nil _⟩
    have := List.of_mem_zip (a := it.1) (b := it.2) hit
    obtain ⟨leaf, hl, he⟩ := List.mem_map.mp this.1
    rw [← he]; exact hne leaf hl)
  refine ⟨{ index := index, patch := d', params := flattenPatch d' }, ?_, rfl, ?_, ?_⟩
  · unfold mkTrial; rw [e]; rfl
  · intro i h1
    have h2 : i < combo.length := by omega
    have hm : (leaves[i].path, combo[i]) ∈ (leaves.map (·.path)).zip combo := by
      have : i < ((leaves.map (·.path)).zip combo).length := by simp; omega
      have h3 := List.getElem_mem this
      simpa using h3
    rw [List.getElem?_eq_getElem h2]
    exact g1 _ hm
  · intro q hq hall
    rw [g2 q]
    · cases q with
      | nil => exact absurd rfl hq
      | cons a q => rw [getPath_dict_cons]; rfl
    · intro it hit
      have := List.of_mem_zip (a := it.1) (b := it.2) hit
      obtain ⟨leaf, hl, he⟩ := List.mem_map.mp this.1
      rw [← he]; exact hall leaf hl

/-- Everything about the trials of a grid search, by position. -/
theorem iterGrid_spec {leaves : List Leaf} (hp : leaves.Pairwise (fun a b => Apart a.path b.path))
    (hne : ∀ leaf ∈ leaves, leaf.path ≠ []) {trials : List Trial} (h : iterGrid leaves = .ok trials) :
    ∃ grids, List.Forall₂ (fun (leaf : Leaf) g => leaf.values = some g) leaves grids ∧
      trials.length = (product grids).length ∧
      ∀ i (h1 : i < trials.length) (h2 : i < (product grids).length), trials[i].index = i ∧
        (∀ j (h3 : j < leaves.length), getPath (.dict trials[i].patch) leaves[j].path
          = (product grids)[i][j]?) ∧
        (∀ q, q ≠ [] → (∀ leaf ∈ leaves, Apart leaf.path q) →
          getPath (.dict trials[i].patch) q = none) := by
  unfold iterGrid at h
  rw [ebind_ok] at h
  obtain ⟨grids, hg, h⟩ := h
  have hg' : List.Forall₂ (fun (leaf : Leaf) g => leaf.values = some g) leaves grids := by
    refine (mapM_ok.mp hg).imp ?_
    intro leaf g e
    unfold leafGrid at e
    split at e
    · exact absurd e (by simp)
    · rename_i vs hvs
      rw [hvs, Except.ok.inj e]
  have hz := zipIdx_forall₂ (mapM_ok.mp h)
  refine ⟨grids, hg', hz.1.symm, ?_⟩
  intro i h1 h2
  have ht := hz.2 i h2 h1
  have hc : (product grids)[i] ∈ product grids := List.getElem_mem h2
  have hlen : (product grids)[i].length = leaves.length := by
    rw [(mem_product.mp hc).length_eq, ← hg'.length_eq]
  obtain ⟨t, e, t1, t2, t3⟩ := mkTrial_spec hp hne i _ hlen
  dsimp only at ht
  rw [e] at ht
  obtain rfl := Except.ok.inj ht
  exact ⟨t1, t2, t3⟩

/-- **C21.** The trials of a grid search over an accepted space: consecutive indices from 0; every
trial gives every leaf one of its options; and every choice of one option per leaf is made by some
trial. -/
theorem C21_grid_complete (d : List (String × PyVal)) (hv : Valid (.dict d)) (leaves : List Leaf)
    (hs : fromDict d = .ok leaves) (trials : List Trial) (hg : iterGrid leaves = .ok trials) :
    (trials.map (·.index) = List.range trials.length) ∧
    (∀ t ∈ trials, ∀ p nd, LeafAt (.dict d) p nd →
      ∃ vs v, Options nd vs ∧ v ∈ vs ∧ getPath (.dict t.patch) p = some v) ∧
    (∀ choice : List String → PyVal,
      (∀ p nd vs, LeafAt (.dict d) p nd → Options nd vs → choice p ∈ vs) →
      ∃ t ∈ trials, ∀ p nd, LeafAt (.dict d) p nd → getPath (.dict t.patch) p = some (choice p)) := by
  obtain ⟨fne, f1, f2, f3⟩ := fromDict_spec hv hs
  obtain ⟨grids, g1, g2, g3⟩ := iterGrid_spec f3 (fun l hl => (f1 l hl).1) hg
  refine ⟨?_, ?_, ?_⟩
  · apply List.ext_getElem (by simp)
    intro i h1 h2
    have h1' : i < trials.length := by simpa using h1
    rw [List.getElem_map, List.getElem_range]
    exact (g3 i h1' (by omega)).1
  · intro t ht p nd hp
    obtain ⟨i, hi, rfl⟩ := List.getElem_of_mem ht
    obtain ⟨leaf, hl, rfl, hL⟩ := f2 p nd hp
    obtain ⟨j, hj, rfl⟩ := List.getElem_of_mem hl
    obtain ⟨_, a2, _⟩ := g3 i hi (by omega)
    have hc := List.forall₂_iff_get.mp (mem_product.mp (List.getElem_mem (show i < (product grids).length by omega)))
    have hjg : j < grids.length := by rw [← g1.length_eq]; exact hj
    have hjc : j < (product grids)[i].length := by rw [hc.1]; exact hjg
    have hgv := (List.forall₂_iff_get.mp g1).2 j hj hjg
    have hmem := hc.2 j hjc hjg
    refine ⟨grids[j], ((product grids)[i]'(by omega))[j], (leafOf_options hL _).mp (by simpa using hgv), ?_, ?_⟩
    · simpa using hmem
    · rw [a2 j hj, List.getElem?_eq_getElem hjc]
  · intro choice hc
    have hmem : leaves.map (fun l => choice l.path) ∈ product grids := by
      rw [mem_product, List.forall₂_map_left_iff]
      have hall : ∀ leaf ∈ leaves, ∀ g, leaf.values = some g → choice leaf.path ∈ g := by
        intro leaf hl g hgv
        obtain ⟨_, nd, hLA, hL⟩ := f1 leaf hl
        exact hc _ _ _ hLA ((leafOf_options hL g).mp hgv)
      clear g3 g2 hg f3 f2 hs f1 fne
      induction g1 with
      | nil => exact .nil
      | cons hab _ ih =>
        exact .cons (hall _ (by simp) _ hab) (ih (fun l hl => hall l (by simp [hl])))
    obtain ⟨i, hi, he⟩ := List.getElem_of_mem hmem
    refine ⟨trials[i]'(by omega), List.getElem_mem _, ?_⟩
    intro p nd hp
    obtain ⟨leaf, hl, rfl, hL⟩ := f2 p nd hp
    obtain ⟨j, hj, rfl⟩ := List.getElem_of_mem hl
    rw [(g3 i (by omega) hi).2.1 j hj]
    rw [List.getElem?_eq_getElem (by rw [he]; simpa using hj)]
    simp [he]

/-- **C21.** No combination is tried twice: if no leaf lists the same option twice, two trials that
agree on every leaf are the same trial.  (With repeated options the number of trials is still the
product of the list lengths, see `C21_grid_count`.) -/
theorem C21_grid_distinct (d : List (String × PyVal)) (hv : Valid (.dict d)) (leaves : List Leaf)
    (hs : fromDict d = .ok leaves) (trials : List Trial) (hg : iterGrid leaves = .ok trials)
    (hn : ∀ p nd vs, LeafAt (.dict d) p nd → Options nd vs → vs.Nodup)
    (i j : Nat) (hi : i < trials.length) (hj : j < trials.length)
    (hsame : ∀ p nd, LeafAt (.dict d) p nd →
      getPath (.dict trials[i].patch) p = getPath (.dict trials[j].patch) p) : i = j := by
  obtain ⟨_, f1, f2, f3⟩ := fromDict_spec hv hs
  obtain ⟨grids, g1, g2, g3⟩ := iterGrid_spec f3 (fun l hl => (f1 l hl).1) hg
  have hnd : (product grids).Nodup := by
    apply nodup_product
    intro g hgm
    obtain ⟨k, hk, rfl⟩ := List.getElem_of_mem hgm
    have hk' : k < leaves.length := by rw [g1.length_eq]; exact hk
    have := (List.forall₂_iff_get.mp g1).2 k hk' hk
    obtain ⟨_, nd, hLA, hL⟩ := f1 leaves[k] (List.getElem_mem _)
    exact hn _ _ _ hLA ((leafOf_options hL _).mp (by simpa using this))
  have hi' : i < (product grids).length := by omega
  have hj' : j < (product grids).length := by omega
  apply (List.Nodup.getElem_inj_iff hnd (hi := hi') (hj := hj')).mp
  have lenI : (product grids)[i].length = leaves.length := by
    rw [(mem_product.mp (List.getElem_mem hi')).length_eq, ← g1.length_eq]
  have lenJ : (product grids)[j].length = leaves.length := by
    rw [(mem_product.mp (List.getElem_mem hj')).length_eq, ← g1.length_eq]
  apply List.ext_getElem (by omega)
  intro k h1 h2
  have hk : k < leaves.length := by omega
  obtain ⟨_, nd, hLA, _⟩ := f1 leaves[k] (List.getElem_mem _)
  have := hsame _ _ hLA
  rw [(g3 i hi hi').2.1 k hk, (g3 j hj hj').2.1 k hk, List.getElem?_eq_getElem h1,
    List.getElem?_eq_getElem h2] at this
  exact Option.some.inj this

/-- **C21.** A patch contains nothing but the leaves: any path present in it is on the way to a leaf
or below one. -/
theorem C21_grid_only_leaves (d : List (String × PyVal)) (hv : Valid (.dict d)) (leaves : List Leaf)
    (hs : fromDict d = .ok leaves) (trials : List Trial) (hg : iterGrid leaves = .ok trials)
    (t : Trial) (ht : t ∈ trials) (q : List String) (v : PyVal)
    (hq : getPath (.dict t.patch) q = some v) :
    ∃ p nd, LeafAt (.dict d) p nd ∧ (q <+: p ∨ p <+: q) := by
  obtain ⟨fne, f1, f2, f3⟩ := fromDict_spec hv hs
  obtain ⟨grids, g1, g2, g3⟩ := iterGrid_spec f3 (fun l hl => (f1 l hl).1) hg
  obtain ⟨i, hi, rfl⟩ := List.getElem_of_mem ht
  obtain ⟨_, _, a3⟩ := g3 i hi (by omega)
  by_contra hcon
  push Not at hcon
  by_cases hq0 : q = []
  · subst hq0
    obtain ⟨leaf, rest, rfl⟩ := List.exists_cons_of_ne_nil fne
    obtain ⟨_, nd, hLA, _⟩ := f1 leaf (by simp)
    exact (hcon _ nd hLA).1 List.nil_prefix
  · rw [a3 q hq0] at hq
    · exact absurd hq (by simp)
    · intro leaf hl
      obtain ⟨_, nd, hLA, _⟩ := f1 leaf hl
      exact ⟨(hcon _ nd hLA).2, (hcon _ nd hLA).1⟩

/-- **C21.** The number of trials is the product of the numbers of options, whether or not options
repeat; the leaves of the model are the leaves of the space, one each. -/
theorem C21_grid_count (d : List (String × PyVal)) (hv : Valid (.dict d)) (leaves : List Leaf)
    (hs : fromDict d = .ok leaves) (trials : List Trial) (hg : iterGrid leaves = .ok trials) :
    ∃ sizes : List (List String × List PyVal),
      (sizes.map (·.1)).Nodup ∧
      (∀ p vs, (p, vs) ∈ sizes ↔ ∃ nd, LeafAt (.dict d) p nd ∧ Options nd vs) ∧
      trials.length = (sizes.map (fun s => s.2.length)).prod := by
  obtain ⟨_, f1, f2, f3⟩ := fromDict_spec hv hs
  obtain ⟨grids, g1, g2, _⟩ := iterGrid_spec f3 (fun l hl => (f1 l hl).1) hg
  have hlen := g1.length_eq
  refine ⟨(leaves.map (·.path)).zip grids, ?_, ?_, ?_⟩
  · rw [List.map_fst_zip (by simp [hlen])]
    rw [List.nodup_iff_pairwise_ne]
    refine (List.pairwise_map.mpr f3).imp ?_
    intro a b hab e
    subst e
    exact hab.1 List.prefix_rfl
  · intro p vs
    constructor
    · intro hm
      obtain ⟨k, hk, he⟩ := List.getElem_of_mem hm
      have hk1 : k < leaves.length := by simp at hk; omega
      have hk2 : k < grids.length := by omega
      simp only [List.getElem_zip, List.getElem_map, Prod.mk.injEq] at he
      obtain ⟨rfl, rfl⟩ := he
      have := (List.forall₂_iff_get.mp g1).2 k hk1 hk2
      obtain ⟨_, nd, hLA, hL⟩ := f1 leaves[k] (List.getElem_mem _)
      exact ⟨nd, hLA, (leafOf_options hL _).mp (by simpa using this)⟩
    · rintro ⟨nd, hLA, hO⟩
      obtain ⟨leaf, hl, rfl, hL⟩ := f2 p nd hLA
      obtain ⟨k, hk, rfl⟩ := List.getElem_of_mem hl
      have hk2 : k < grids.length := by omega
      have h1 := (List.forall₂_iff_get.mp g1).2 k hk hk2
      have h2 := (leafOf_options hL vs).mpr hO
      simp only [List.get_eq_getElem] at h1
      rw [h2] at h1
      obtain rfl := Option.some.inj h1
      have : k < ((leaves.map (·.path)).zip grids).length := by simp; omega
      have h3 := List.getElem_mem this
      simpa using h3
  · rw [g2, length_product]
    congr 1
    have : ((leaves.map (·.path)).zip grids).map (fun s => s.2.length)
        = (((leaves.map (·.path)).zip grids).map Prod.snd).map List.length := by
      rw [List.map_map]; rfl
    rw [this, List.map_snd_zip (by simp [hlen])]

/-- **C21.** Grid search over an accepted space fails only if some leaf has no finite list of
options. -/
theorem C21_grid_total (d : List (String × PyVal)) (hv : Valid (.dict d)) (leaves : List Leaf)
    (hs : fromDict d = .ok leaves) :
    (∃ trials, iterGrid leaves = .ok trials) ↔
      ∀ p nd, LeafAt (.dict d) p nd → ∃ vs, Options nd vs := by
  obtain ⟨_, f1, f2, f3⟩ := fromDict_spec hv hs
  constructor
  · rintro ⟨trials, hg⟩ p nd hLA
    obtain ⟨grids, g1, _, _⟩ := iterGrid_spec f3 (fun l hl => (f1 l hl).1) hg
    obtain ⟨leaf, hl, rfl, hL⟩ := f2 p nd hLA
    obtain ⟨k, hk, rfl⟩ := List.getElem_of_mem hl
    have h1 := (List.forall₂_iff_get.mp g1).2 k hk (by rw [← g1.length_eq]; exact hk)
    exact ⟨_, (leafOf_options hL _).mp (by simpa using h1)⟩
  · intro hall
    obtain ⟨grids, hgr⟩ := mapM_total (f := leafGrid) (l := leaves) (by
      intro leaf hl
      obtain ⟨_, nd, hLA, hL⟩ := f1 leaf hl
      obtain ⟨vs, hO⟩ := hall _ _ hLA
      exact ⟨vs, by unfold leafGrid; rw [(leafOf_options hL vs).mpr hO]⟩)
    have hlen : leaves.length = grids.length := (mapM_ok.mp hgr).length_eq
    obtain ⟨trials, ht⟩ := mapM_total (f := fun (ci : List PyVal × Nat) =>
        mkTrial (leaves.map (·.path)) ci.2 ci.1) (l := (product grids).zipIdx) (by
      intro ci hci
      have hc : ci.1 ∈ product grids := by
        have := List.mem_zipIdx' (x := ci.1) (i := ci.2) hci
        rw [this.2]; exact List.getElem_mem _
      obtain ⟨t, e, _⟩ := mkTrial_spec f3 (fun l hl => (f1 l hl).1) ci.2 ci.1
        (by rw [(mem_product.mp hc).length_eq, hlen])
      exact ⟨t, e⟩)
    exact ⟨trials, by unfold iterGrid; rw [ebind_of_ok hgr]; exact ht⟩

/-- What is assumed of the external draws: results lie in the requested range, and `exp`, `log` are
monotone and inverse to each other (floating-point rounding is not modelled). -/
structure Draw.Lawful {σ : Type} (D : Draw σ) : Prop where
  uniform : ∀ s a b, a < b → a ≤ (D.uniform s a b).1 ∧ (D.uniform s a b).1 ≤ b
  integers : ∀ s a b, a < b → a ≤ (D.integers s a b).1 ∧ (D.integers s a b).1 < b
  exp_mono : ∀ a b, a ≤ b → D.exp a ≤ D.exp b
  log_lt : ∀ a b, 0 < a → a < b → D.log a < D.log b
  exp_log : ∀ a, 0 < a → D.exp (D.log a) = a

theorem sampleFromValues_spec {σ : Type} {D : Draw σ} (hD : D.Lawful) {vs : List PyVal} (hvs : vs ≠ [])
    (s : σ) : ∃ v s', sampleFromValues D vs s = .ok (v, s') ∧ v ∈ vs := by
  unfold sampleFromValues
  rw [if_neg hvs]
  have hpos : 0 < vs.length := List.length_pos_iff.mpr hvs
  have h := hD.integers s 0 (vs.length : Int) (by omega)
  have hlt : (D.integers s 0 (vs.length : Int)).1.toNat < vs.length := by omega
  refine ⟨vs[(D.integers s 0 (vs.length : Int)).1.toNat], (D.integers s 0 (vs.length : Int)).2, ?_,
    List.getElem_mem _⟩
  simp only [List.getElem?_eq_getElem hlt]

theorem requireReal_num {v : PyVal} {q : Rat} (h : requireReal v = .ok q) : num v = some q ∧ v ≠ .none := by
  cases v <;> simp_all [requireReal, num]

theorem requireInt_eq {v : PyVal} {i : Int} (h : requireInt v = .ok i) : v = .int i := by
  cases v <;> simp_all [requireInt]

theorem uif {P : Prop} [Decidable P] {x : Except PyErr Unit} {u : Unit}
    (h : (if P then .error .validation else x) = .ok u) : ¬ P ∧ x = .ok u := by
  split at h
  · exact absurd h (by simp)
  · exact ⟨by assumption, h⟩

theorem drawLeaf_spec {σ : Type} {D : Draw σ} (hD : D.Lawful) {leaf : Leaf} {nd : PyVal}
    (h : LeafOf leaf nd) (s : σ) : ∃ v s', drawLeaf D leaf s = .ok (v, s') ∧ Allowed nd v := by
  cases nd with
  | list l =>
    obtain ⟨h1, h2, h3⟩ := h
    unfold drawLeaf
    rw [h3, h2]
    obtain ⟨v, s', e, hm⟩ := sampleFromValues_spec hD h1 s
    exact ⟨v, s', e, .option _ _ _ (.list l) hm⟩
  | dict d =>
    obtain ⟨spec, values, hv, hs, hval, hl⟩ := distLeaf_pieces h
    unfold drawLeaf
    rw [hl]
    dsimp only
    unfold sampleDistribution
    rw [ebind_of_ok hval]
    have hdist : ∀ w, w ≠ "?" → spec.dist = w → Assoc.get d "dist" = some (.str w) := by
      intro w hw e
      rw [hs] at e
      exact getD_eq (toStr_eq e hw) (by simp)
    have hlow : spec.low = (Assoc.get d "low").getD .none := by rw [hs]
    have hhigh : spec.high = (Assoc.get d "high").getD .none := by rw [hs]
    unfold validateDistribution at hval
    split
    · rename_i hd
      rw [if_pos hd] at hval
      simp only [ebind_ok] at hval
      obtain ⟨a, ha, b, hb, hval⟩ := hval
      obtain ⟨hab, _⟩ := uif hval
      rw [not_le] at hab
      rw [ebind_of_ok ha, ebind_of_ok hb]
      obtain ⟨na, na'⟩ := requireReal_num ha
      obtain ⟨nb, nb'⟩ := requireReal_num hb
      refine ⟨_, _, rfl, .interval d spec.low spec.high a b _ (Or.inl (hdist _ (by decide) hd))
        (getD_eq hlow.symm na') (getD_eq hhigh.symm nb') na nb ?_ ?_⟩
      · exact (hD.uniform s a b hab).1
      · exact (hD.uniform s a b hab).2
    · rename_i hd1
      rw [if_neg hd1] at hval
      split
      · rename_i hd
        rw [if_pos hd] at hval
        simp only [ebind_ok] at hval
        obtain ⟨a, ha, b, hb, hval⟩ := hval
        obtain ⟨h0, hval⟩ := uif hval
        obtain ⟨hab, _⟩ := uif hval
        rw [not_le] at hab h0
        rw [ebind_of_ok ha, ebind_of_ok hb]
        obtain ⟨na, na'⟩ := requireReal_num ha
        obtain ⟨nb, nb'⟩ := requireReal_num hb
        have hu := hD.uniform s _ _ (hD.log_lt a b h0 hab)
        refine ⟨_, _, rfl, .interval d spec.low spec.high a b _ (Or.inr (hdist _ (by decide) hd))
          (getD_eq hlow.symm na') (getD_eq hhigh.symm nb') na nb ?_ ?_⟩
        · have := hD.exp_mono _ _ hu.1
          rwa [hD.exp_log a h0] at this
        · have := hD.exp_mono _ _ hu.2
          rwa [hD.exp_log b (h0.trans hab)] at this
      · rename_i hd2
        rw [if_neg hd2] at hval
        split
        · rename_i hd
          rw [if_pos hd] at hval
          simp only [ebind_ok] at hval
          obtain ⟨a, ha, b, hb, hval⟩ := hval
          obtain ⟨hab, _⟩ := uif hval
          rw [ge_iff_le, not_le] at hab
          rw [ebind_of_ok ha, ebind_of_ok hb]
          have ea := requireInt_eq ha
          have eb := requireInt_eq hb
          rw [hlow] at ea
          rw [hhigh] at eb
          refine ⟨_, _, rfl, .integer d a b _ (hdist _ (by decide) hd) (getD_eq ea (by simp))
            (getD_eq eb (by simp)) ?_ ?_⟩
          · exact (hD.integers s a b hab).1
          · exact (hD.integers s a b hab).2
        · rename_i hd3
          rw [if_neg hd3] at hval
          split at hval
          · rename_i hd
            have hvals : spec.values = values := by rw [hs]
            split at hval
            · exact absurd hval (by simp)
            · rename_i vs hvs
              rw [hvals] at hvs
              obtain ⟨h0, _⟩ := uif hval
              rw [hvals, hvs]
              rw [hvs] at hv
              obtain ⟨v, s', e, hm⟩ := sampleFromValues_spec hD h0 s
              exact ⟨v, s', e, .option _ vs _ (.choice d vs (hdist _ (by decide) hd) (distValues_some hv)) hm⟩
          · exact absurd hval (by simp)
  | _ => exact absurd h (by simp [LeafOf])

theorem drawPatch_spec {σ : Type} {D : Draw σ} (hD : D.Lawful) {space : PyVal} :
    ∀ (leaves : List Leaf) (d : List (String × PyVal)) (s : σ),
    leaves.Pairwise (fun a b => Apart a.path b.path) →
    (∀ leaf ∈ leaves, leaf.path ≠ [] ∧ ∃ nd, LeafAt space leaf.path nd ∧ LeafOf leaf nd) →
    (∀ leaf ∈ leaves, Free d leaf.path) →
    ∃ d' s', drawPatch D d leaves s = .ok (d', s') ∧
      (∀ leaf ∈ leaves, ∃ nd v, LeafAt space leaf.path nd ∧ Allowed nd v ∧
        getPath (.dict d') leaf.path = some v) ∧
      (∀ q, (∀ leaf ∈ leaves, Apart leaf.path q) → getPath (.dict d') q = getPath (.dict d) q)
  | [], d, s, _, _, _ => ⟨d, s, rfl, by simp, fun _ _ => rfl⟩
  | leaf :: leaves, d, s, hp, hl, hf => by
    rw [List.pairwise_cons] at hp
    obtain ⟨hne, nd, hLA, hL⟩ := hl leaf (by simp)
    obtain ⟨v, s1, ev, hv⟩ := drawLeaf_spec hD hL s
    obtain ⟨d1, e1, g1, g2, g3⟩ := assign_spec leaf.path d v hne (hf leaf (by simp))
    obtain ⟨d2, s2, e2, g4, g5⟩ := drawPatch_spec hD leaves d1 s1 hp.2 (fun l h => hl l (by simp [h])) (by
      intro l hlm q hq hqne w hw
      have hap := hp.1 l hlm
      by_cases hpq : leaf.path <+: q
      · exact absurd (hpq.trans hq) hap.1
      · by_cases hqp : q <+: leaf.path
        · obtain ⟨e, he⟩ := g2 q hqp (by rintro rfl; exact hpq List.prefix_rfl)
          rw [he] at hw
          exact ⟨e, (Option.some.inj hw).symm⟩
        · rw [g3 q ⟨hpq, hqp⟩] at hw
          exact hf l (by simp [hlm]) q hq hqne w hw)
    refine ⟨d2, s2, ?_, ?_, ?_⟩
    · unfold drawPatch
      rw [ebind_of_ok ev, ebind_of_ok e1]
      exact e2
    · intro l hlm
      rcases List.mem_cons.mp hlm with rfl | hlm
      · refine ⟨nd, v, hLA, hv, ?_⟩
        rw [g5 _ (fun l' hl' => apart_symm (hp.1 l' hl'))]
        simpa using g1 []
      · exact g4 l hlm
    · intro q hq
      rw [g5 q (fun l h => hq l (by simp [h])), g3 q (hq leaf (by simp))]

theorem randomLoop_spec {σ : Type} {D : Draw σ} (hD : D.Lawful) {space : PyVal} {leaves : List Leaf}
    (hp : leaves.Pairwise (fun a b => Apart a.path b.path))
    (hl : ∀ leaf ∈ leaves, leaf.path ≠ [] ∧ ∃ nd, LeafAt space leaf.path nd ∧ LeafOf leaf nd) :
    ∀ (n i : Nat) (s : σ), ∃ trials, randomLoop D leaves i n s = .ok trials ∧
      trials.map (·.index) = (List.range n).map (fun (k : Nat) => i + k) ∧
      ∀ t ∈ trials, (∀ leaf ∈ leaves, ∃ nd v, LeafAt space leaf.path nd ∧ Allowed nd v ∧
          getPath (.dict t.patch) leaf.path = some v) ∧
        (∀ q, q ≠ [] → (∀ leaf ∈ leaves, Apart leaf.path q) → getPath (.dict t.patch) q = none)
  | 0, i, s => ⟨[], rfl, rfl, by simp⟩
  | n + 1, i, s => by
    obtain ⟨d, s1, e1, g1, g2⟩ := drawPatch_spec hD leaves [] s hp hl (fun l _ => free_nil _)
    obtain ⟨trials, e2, g3, g4⟩ := randomLoop_spec hD hp hl n (i + 1) s1
    refine ⟨{ index := i, patch := d, params := flattenPatch d } :: trials, ?_, ?_, ?_⟩
    · unfold randomLoop
      rw [ebind_of_ok e1, ebind_of_ok e2]
    · rw [List.map_cons, g3, List.range_succ_eq_map, List.map_cons, List.map_map]
      simp only [Nat.add_zero, List.cons.injEq, true_and]
      apply List.map_congr_left
      intro k _
      simp only [Function.comp]
      omega
    · intro t ht
      rcases List.mem_cons.mp ht with rfl | ht
      · refine ⟨g1, ?_⟩
        intro q hq hall
        rw [g2 q hall]
        cases q with
        | nil => exact absurd rfl hq
        | cons a q => rw [getPath_dict_cons]; rfl
      · exact g4 t ht

/-- **C64.** Random search over an accepted space never fails for a positive number of trials, yields
exactly that many, numbered from 0, and every trial gives every leaf a value the leaf allows (one of
the options, or a number in the stated range) and contains nothing else. -/
theorem C64_random_inside {σ : Type} (D : Draw σ) (hD : D.Lawful) (d : List (String × PyVal))
    (hv : Valid (.dict d)) (leaves : List Leaf) (hs : fromDict d = .ok leaves) (s : σ) (n : Int)
    (hn : 0 < n) :
    ∃ trials, iterRandom D leaves s n = .ok trials ∧
      trials.map (·.index) = List.range n.toNat ∧
      ∀ t ∈ trials,
        (∀ p nd, LeafAt (.dict d) p nd → ∃ v, Allowed nd v ∧ getPath (.dict t.patch) p = some v) ∧
        (∀ q v, getPath (.dict t.patch) q = some v →
          ∃ p nd, LeafAt (.dict d) p nd ∧ (q <+: p ∨ p <+: q)) := by
  obtain ⟨fne, f1, f2, f3⟩ := fromDict_spec hv hs
  obtain ⟨trials, e, g1, g2⟩ := randomLoop_spec hD f3 f1 n.toNat 0 s
  refine ⟨trials, ?_, ?_, ?_⟩
  · unfold iterRandom
    rw [if_neg (by omega)]
    exact e
  · rw [g1]
    simp
  · intro t ht
    obtain ⟨a1, a2⟩ := g2 t ht
    refine ⟨?_, ?_⟩
    · intro p nd hLA
      obtain ⟨leaf, hl, rfl, _⟩ := f2 p nd hLA
      obtain ⟨nd', v, hLA', hA, hg⟩ := a1 leaf hl
      rw [leafAt_unique hLA hLA']
      exact ⟨v, hA, hg⟩
    · intro q v hq
      by_contra hcon
      push Not at hcon
      by_cases hq0 : q = []
      · subst hq0
        obtain ⟨leaf, rest, rfl⟩ := List.exists_cons_of_ne_nil fne
        obtain ⟨_, nd, hLA, _⟩ := f1 leaf (by simp)
        exact (hcon _ nd hLA).1 List.nil_prefix
      · rw [a2 q hq0] at hq
        · exact absurd hq (by simp)
        · intro leaf hl
          obtain ⟨_, nd, hLA, _⟩ := f1 leaf hl
          exact ⟨(hcon _ nd hLA).2, (hcon _ nd hLA).1⟩

/-- **C64.** A non-positive number of trials is rejected. -/
theorem C64_random_rejects {σ : Type} (D : Draw σ) (leaves : List Leaf) (s : σ) (n : Int) (hn : n ≤ 0) :
    iterRandom D leaves s n = .error .validation := by
  unfold iterRandom; rw [if_pos hn]

/-! ### The hypotheses are met -/

/-- A space with a nested list leaf, a `choice` and a plain list. -/
def demoSpace : List (String × PyVal) :=
  [("method", .dict [("params", .dict [("lr", .list [.int 1, .int 2]),
    ("k", .dict [("dist", .str "choice"), ("values", .list [.str "a", .str "b", .str "c"])])])])]

/-- The accepted leaves of a space and its trials. -/
example : ∃ leaves trials, fromDict demoSpace = .ok leaves ∧ iterGrid leaves = .ok trials ∧
    trials.length = 6 ∧ Valid (.dict demoSpace) := by
  have h : (do let l ← fromDict demoSpace; let t ← iterGrid l; .ok t.length : Except PyErr Nat)
      = .ok 6 := by decide +kernel
  simp only [ebind_ok] at h
  obtain ⟨l, hl, t, ht, h6⟩ := h
  refine ⟨l, t, hl, ht, Except.ok.inj h6, ?_⟩
  simp [Valid, ValidDict, ValidList, demoSpace, Assoc.keys]

/-- A lawful source of draws. -/
def Draw.demo : Draw Nat where
  uniform s a b := ((a + b) / 2, s + 1)
  integers s a _ := (a, s + 1)
  exp q := q
  log q := q

theorem Draw.demo_lawful : Draw.demo.Lawful where
  uniform s a b h := by simp only [Draw.demo]; constructor <;> linarith
  integers s a b h := by simp only [Draw.demo]; omega
  exp_mono a b h := h
  log_lt a b _ h := h
  exp_log a _ := rfl

example : ∃ leaves, fromDict [("a", .dict [("dist", .str "loguniform"), ("low", .int 1), ("high", .flt 8)])]
    = .ok leaves ∧ ∃ trials, iterRandom Draw.demo leaves 0 3 = .ok trials ∧ trials.length = 3 := by
  have h : (do
      let l ← fromDict [("a", .dict [("dist", .str "loguniform"), ("low", .int 1), ("high", .flt 8)])]
      let t ← iterRandom Draw.demo l 0 3
      .ok t.length : Except PyErr Nat) = .ok 3 := by decide +kernel
  simp only [ebind_ok] at h
  obtain ⟨l, hl, t, ht, h3⟩ := h
  exact ⟨l, hl, t, ht, Except.ok.inj h3⟩

end ModSSC.Hpo
