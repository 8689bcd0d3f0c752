import Verif.Hpo.Model
import Verif.Hpo.Spec
import Verif.ExceptLemmas

/-!
# Helper lemmas: paths, assignment, products, the leaves of a space
-/

namespace ModSSC.Hpo
open ModSSC Spec

theorem getPath_dict_cons (d : List (String × PyVal)) (k : String) (ks : List String) :
    getPath (.dict d) (k :: ks) = (Assoc.get d k).bind (fun v => getPath v ks) := by
  simp only [getPath]
  cases Assoc.get d k <;> rfl

@[simp] theorem getPath_nil (v : PyVal) : getPath v [] = some v := by
  cases v <;> rfl

theorem getPath_append : ∀ (p q : List String) (v : PyVal),
    getPath v (p ++ q) = (getPath v p).bind (fun w => getPath w q)
  | [], q, v => by simp
  | k :: p, q, .dict d => by
    rw [List.cons_append, getPath_dict_cons, getPath_dict_cons]
    cases Assoc.get d k with
    | none => rfl
    | some w => simp [getPath_append p q w]
  | k :: p, q, .none => rfl
  | k :: p, q, .bool _ => rfl
  | k :: p, q, .int _ => rfl
  | k :: p, q, .flt _ => rfl
  | k :: p, q, .str _ => rfl
  | k :: p, q, .list _ => rfl

theorem getPath_not_dict {v : PyVal} (h : ¬ IsDict v) (k : String) (ks : List String) :
    getPath v (k :: ks) = none := by
  cases v <;> first | rfl | exact absurd ⟨_, rfl⟩ h

/-- A path can be assigned: everything strictly above it is a mapping or absent. -/
def Free (d : List (String × PyVal)) (p : List String) : Prop :=
  ∀ q, q <+: p → q ≠ p → ∀ v, getPath (.dict d) q = some v → IsDict v

theorem apart_cons {k : String} {p q : List String} : Apart (k :: p) (k :: q) ↔ Apart p q := by
  unfold Apart
  rw [List.cons_prefix_cons, List.cons_prefix_cons]
  simp

theorem assign_spec : ∀ (p : List String) (d : List (String × PyVal)) (v : PyVal), p ≠ [] → Free d p →
    ∃ d', assign d p v = .ok d' ∧
      (∀ r, getPath (.dict d') (p ++ r) = getPath v r) ∧
      (∀ q, q <+: p → q ≠ p → ∃ e, getPath (.dict d') q = some (.dict e)) ∧
      (∀ q, Apart p q → getPath (.dict d') q = getPath (.dict d) q)
  | [], _, _, hne, _ => absurd rfl hne
  | [k], d, v, _, _ => by
    refine ⟨Assoc.set d k v, rfl, ?_, ?_, ?_⟩
    · intro r
      rw [List.cons_append, List.nil_append, getPath_dict_cons, Assoc.get_set_self]; rfl
    · intro q hq hne
      have : q = [] := by
        obtain ⟨t, ht⟩ := hq
        cases q with
        | nil => rfl
        | cons a q =>
          exfalso
          simp only [List.cons_append, List.cons.injEq] at ht
          obtain ⟨rfl, h⟩ := ht
          have := List.append_eq_nil_iff.mp h
          apply hne; rw [this.1]
      subst this
      exact ⟨_, rfl⟩
    · intro q hq
      cases q with
      | nil => exact absurd (List.nil_prefix) hq.2
      | cons a q =>
        have : a ≠ k := by
          rintro rfl
          exact hq.1 ⟨q, rfl⟩
        rw [getPath_dict_cons, getPath_dict_cons, Assoc.get_set_other _ _ this]
  | k :: k' :: ks, d, v, _, hf => by
    have main : ∀ s : List (String × PyVal), Free s (k' :: ks) →
        (∀ q, Apart (k' :: ks) q → q ≠ [] → getPath (.dict s) q = (Assoc.get d k).bind (fun w => getPath w q)) →
        ∃ d', (do let s' ← assign s (k' :: ks) v; .ok (Assoc.set d k (.dict s')) : Except PyErr _) = .ok d' ∧
          (∀ r, getPath (.dict d') (k :: k' :: ks ++ r) = getPath v r) ∧
          (∀ q, q <+: k :: k' :: ks → q ≠ k :: k' :: ks → ∃ e, getPath (.dict d') q = some (.dict e)) ∧
          (∀ q, Apart (k :: k' :: ks) q → getPath (.dict d') q = getPath (.dict d) q) := by
      intro s hs hsame
      obtain ⟨s', h1, h2, h3, h4⟩ := assign_spec (k' :: ks) s v (by simp) hs
      refine ⟨Assoc.set d k (.dict s'), by rw [h1]; rfl, ?_, ?_, ?_⟩
      · intro r
        rw [List.cons_append, getPath_dict_cons, Assoc.get_set_self]
        exact h2 r
      · intro q hq hne
        cases q with
        | nil => exact ⟨_, rfl⟩
        | cons a q =>
          rw [List.cons_prefix_cons] at hq
          obtain ⟨rfl, hq⟩ := hq
          rw [getPath_dict_cons, Assoc.get_set_self]
          exact h3 q hq (fun e => hne (by rw [e]))
      · intro q hq
        cases q with
        | nil => exact absurd (List.nil_prefix) hq.2
        | cons a q =>
          by_cases ha : a = k
          · subst ha
            rw [apart_cons] at hq
            have hq0 : q ≠ [] := by rintro rfl; exact hq.2 List.nil_prefix
            rw [getPath_dict_cons, getPath_dict_cons, Assoc.get_set_self]
            show getPath (.dict s') q = _
            rw [h4 q hq, hsame q hq hq0]
          · rw [getPath_dict_cons, getPath_dict_cons, Assoc.get_set_other _ _ ha]
    unfold assign
    cases hk : Assoc.get d k with
    | none =>
      apply main []
      · intro q hq _ w hw
        cases q with
        | nil => simp at hw; exact ⟨_, hw.symm⟩
        | cons a q => rw [getPath_dict_cons] at hw; simp at hw
      · intro q _ hq0
        cases q with
        | nil => exact absurd rfl hq0
        | cons a q => rw [getPath_dict_cons, hk]; simp
    | some w =>
      have hw : IsDict w := hf [k] ⟨k' :: ks, rfl⟩ (by simp) w (by rw [getPath_dict_cons, hk]; simp)
      obtain ⟨s, rfl⟩ := hw
      apply main s
      · intro q hq hne x hx
        refine hf (k :: q) ?_ (by simpa using hne) x ?_
        · rw [List.cons_prefix_cons]; exact ⟨rfl, hq⟩
        · rw [getPath_dict_cons, hk]; exact hx
      · intro q _ _
        rw [hk]; rfl

theorem free_nil (p : List String) : Free [] p := by
  intro q _ _ w hw
  cases q with
  | nil => simp at hw; exact ⟨_, hw.symm⟩
  | cons a q => rw [getPath_dict_cons] at hw; simp at hw

theorem apart_symm {p q : List String} (h : Apart p q) : Apart q p := ⟨h.2, h.1⟩

theorem assignAll_spec : ∀ (items : List (List String × PyVal)) (d : List (String × PyVal)),
    items.Pairwise (fun a b => Apart a.1 b.1) → (∀ it ∈ items, it.1 ≠ [] ∧ Free d it.1) →
    ∃ d', assignAll d items = .ok d' ∧
      (∀ it ∈ items, getPath (.dict d') it.1 = some it.2) ∧
      (∀ q, (∀ it ∈ items, Apart it.1 q) → getPath (.dict d') q = getPath (.dict d) q)
  | [], d, _, _ => ⟨d, rfl, by simp, fun _ _ => rfl⟩
  | (p, v) :: items, d, hp, hf => by
    rw [List.pairwise_cons] at hp
    obtain ⟨d1, e1, g1, g2, g3⟩ := assign_spec p d v (hf (p, v) (by simp)).1 (hf (p, v) (by simp)).2
    obtain ⟨d2, e2, g4, g5⟩ := assignAll_spec items d1 hp.2 (by
      intro it hit
      refine ⟨(hf it (by simp [hit])).1, ?_⟩
      intro q hq hne w hw
      have hap := hp.1 it hit
      by_cases hpq : p <+: q
      · exact absurd (hpq.trans hq) hap.1
      · by_cases hqp : q <+: p
        · obtain ⟨e, he⟩ := g2 q hqp (by rintro rfl; exact hpq List.prefix_rfl)
          rw [he] at hw
          exact ⟨e, (Option.some.inj hw).symm⟩
        · rw [g3 q ⟨hpq, hqp⟩] at hw
          exact (hf it (by simp [hit])).2 q hq hne w hw)
    refine ⟨d2, ?_, ?_, ?_⟩
    · unfold assignAll; rw [e1]; exact e2
    · intro it hit
      rcases List.mem_cons.mp hit with rfl | hit
      · rw [g5 p (fun jt hjt => apart_symm (hp.1 jt hjt))]
        have := g1 []
        simpa using this
      · exact g4 it hit
    · intro q hq
      rw [g5 q (fun it hit => hq it (by simp [hit])), g3 q (hq (p, v) (by simp))]

/-! ### `itertools.product` -/

theorem mem_product {α : Type} : ∀ {gs : List (List α)} {c : List α},
    c ∈ product gs ↔ List.Forall₂ (fun x g => x ∈ g) c gs
  | [], c => by simp [product]
  | g :: gs, c => by
    simp only [product, List.mem_flatMap, List.mem_map]
    constructor
    · rintro ⟨x, hx, c', hc', rfl⟩
      exact .cons hx (mem_product.mp hc')
    · intro h
      cases h with
      | cons hx hc => exact ⟨_, hx, _, mem_product.mpr hc, rfl⟩

theorem nodup_product {α : Type} : ∀ {gs : List (List α)}, (∀ g ∈ gs, g.Nodup) → (product gs).Nodup
  | [], _ => by simp [product]
  | g :: gs, h => by
    have ih := nodup_product (gs := gs) (fun g' hg' => h g' (by simp [hg']))
    have hg : g.Nodup := h g (by simp)
    simp only [product]
    rw [List.nodup_flatMap]
    refine ⟨fun x _ => ih.map (fun a b hab => by simpa using hab), ?_⟩
    refine hg.imp ?_
    intro a b hab x hx hy
    simp only [List.mem_map] at hx hy
    obtain ⟨c, _, rfl⟩ := hx
    obtain ⟨c', _, e⟩ := hy
    simp only [List.cons.injEq] at e
    exact hab e.1.symm

theorem length_product {α : Type} : ∀ (gs : List (List α)),
    (product gs).length = (gs.map List.length).prod
  | [] => rfl
  | g :: gs => by
    simp only [product, List.length_flatMap, List.length_map, List.map_cons, List.prod_cons,
      List.map_const', List.sum_replicate, length_product gs]
    rfl

/-! ### The leaves of a space -/

theorem byKey_perm {α : Type} (l : List (String × α)) : (byKey l).Perm l := List.perm_insertionSort _ _

/-- What a leaf of the model records about the node of the space it comes from. -/
def LeafOf (leaf : Leaf) (node : PyVal) : Prop :=
  match node with
  | .list vs => vs ≠ [] ∧ leaf.values = some vs ∧ leaf.dist = none
  | .dict d => distLeaf d leaf.path = .ok leaf
  | _ => False

theorem distLeaf_path {d : List (String × PyVal)} {pre : List String} {leaf : Leaf}
    (h : distLeaf d pre = .ok leaf) : leaf.path = pre ∧ pre ≠ [] := by
  unfold distLeaf at h
  split at h
  · exact absurd h (by simp)
  · rename_i h0
    split at h
    · exact absurd h (by simp)
    · simp only [ebind_ok] at h
      obtain ⟨_, _, _, _, h⟩ := h
      obtain rfl := Except.ok.inj h
      exact ⟨rfl, h0⟩

mutual
theorem walk_spec : ∀ (node : PyVal) (pre : List String) (leaves : List Leaf), Valid node →
    walk node pre = .ok leaves →
    (∀ leaf ∈ leaves, ∃ p nd, leaf.path = pre ++ p ∧ LeafAt node p nd ∧ LeafOf leaf nd) ∧
    (∀ p nd, LeafAt node p nd → ∃ leaf ∈ leaves, leaf.path = pre ++ p ∧ LeafOf leaf nd) ∧
    leaves.Pairwise (fun a b => Apart a.path b.path)
  | .list l, pre, leaves, _, h => by
    unfold walk at h
    split at h
    · exact absurd h (by simp)
    · rename_i hl
      obtain rfl := Except.ok.inj h
      refine ⟨?_, ?_, by simp⟩
      · intro leaf hleaf
        obtain rfl := List.mem_singleton.mp hleaf
        exact ⟨[], .list l, by simp, .list l, hl, rfl, rfl⟩
      · intro p nd hp
        cases hp
        exact ⟨_, List.mem_singleton.mpr rfl, by simp, hl, rfl, rfl⟩
  | .dict d, pre, leaves, hv, h => by
    unfold walk at h
    split at h
    · exact absurd h (by simp)
    · split at h
      · rename_i hd
        rw [ebind_ok] at h
        obtain ⟨leaf, hleaf, h⟩ := h
        obtain rfl := Except.ok.inj h
        have hp := (distLeaf_path hleaf).1
        have hL : LeafOf leaf (.dict d) := by
          show distLeaf d leaf.path = .ok leaf
          rw [hp]; exact hleaf
        refine ⟨?_, ?_, by simp⟩
        · intro l hl
          obtain rfl := List.mem_singleton.mp hl
          exact ⟨[], .dict d, by simp [hp], .dist d (Assoc.has_iff.mp hd), hL⟩
        · intro p nd hpn
          cases hpn with
          | dist => exact ⟨leaf, by simp, by simp [hp], hL⟩
          | child _ k v p _ hnd => exact absurd (Assoc.has_iff.mp hd) hnd
      · rename_i hd
        rw [ebind_ok] at h
        obtain ⟨rs, hrs, h⟩ := h
        obtain rfl := Except.ok.inj h
        unfold Valid at hv
        obtain ⟨a1, a2, a3⟩ := walkEntries_spec d pre rs hv.1 hv.2 hrs
        have hperm : ((byKey rs).flatMap (·.2)).Perm (rs.flatMap (·.2)) := (byKey_perm rs).flatMap_right _
        refine ⟨?_, ?_, ?_⟩
        · intro leaf hleaf
          obtain ⟨k, v, p, nd, hk, hp, hLA, hL⟩ := a1 leaf (hperm.mem_iff.mp hleaf)
          exact ⟨k :: p, nd, hp, .child d k v p nd (fun hc => hd (Assoc.has_iff.mpr hc))
            (Assoc.get_of_mem hv.1 hk) hLA, hL⟩
        · intro p nd hpn
          cases hpn with
          | dist => exact absurd (Assoc.has_iff.mpr (by assumption)) hd
          | child _ k v p _ hnd hg hLA =>
            obtain ⟨leaf, hl, hp, hL⟩ := a2 k v p nd (Assoc.mem_of_get hg) hLA
            exact ⟨leaf, hperm.mem_iff.mpr hl, hp, hL⟩
        · rw [hperm.pairwise_iff (fun {_ _} h => apart_symm h)]
          exact a3
  | .none, _, _, _, h => by simp [walk] at h
  | .bool _, _, _, _, h => by simp [walk] at h
  | .int _, _, _, _, h => by simp [walk] at h
  | .flt _, _, _, _, h => by simp [walk] at h
  | .str _, _, _, _, h => by simp [walk] at h

theorem walkEntries_spec : ∀ (d : List (String × PyVal)) (pre : List String)
    (rs : List (String × List Leaf)), (Assoc.keys d).Nodup → ValidDict d →
    walkEntries d pre = .ok rs →
    (∀ leaf ∈ rs.flatMap (·.2), ∃ k v p nd, (k, v) ∈ d ∧ leaf.path = pre ++ (k :: p) ∧
      LeafAt v p nd ∧ LeafOf leaf nd) ∧
    (∀ k v p nd, (k, v) ∈ d → LeafAt v p nd → ∃ leaf ∈ rs.flatMap (·.2),
      leaf.path = pre ++ (k :: p) ∧ LeafOf leaf nd) ∧
    (rs.flatMap (·.2)).Pairwise (fun a b => Apart a.path b.path)
  | [], pre, rs, _, _, h => by
    unfold walkEntries at h
    obtain rfl := Except.ok.inj h
    simp
  | (k, v) :: d, pre, rs, hn, hv, h => by
    unfold walkEntries at h
    split at h
    · exact absurd h (by simp)
    · simp only [ebind_ok] at h
      obtain ⟨r, hr, rs', hrs', h⟩ := h
      obtain rfl := Except.ok.inj h
      unfold ValidDict at hv
      unfold Assoc.keys at hn
      rw [List.map_cons, List.nodup_cons] at hn
      obtain ⟨b1, b2, b3⟩ := walk_spec v (pre ++ [k]) r hv.1 hr
      obtain ⟨c1, c2, c3⟩ := walkEntries_spec d pre rs' hn.2 hv.2 hrs'
      simp only [List.flatMap_cons, List.mem_append]
      refine ⟨?_, ?_, ?_⟩
      · rintro leaf (hl | hl)
        · obtain ⟨p, nd, hp, hLA, hL⟩ := b1 leaf hl
          exact ⟨k, v, p, nd, by simp, by simpa using hp, hLA, hL⟩
        · obtain ⟨k', v', p, nd, hm, hp, hLA, hL⟩ := c1 leaf hl
          exact ⟨k', v', p, nd, by simp [hm], hp, hLA, hL⟩
      · intro k' v' p nd hm hLA
        rcases List.mem_cons.mp hm with he | hm
        · obtain ⟨rfl, rfl⟩ := Prod.mk.inj he
          obtain ⟨leaf, hl, hp, hL⟩ := b2 p nd hLA
          exact ⟨leaf, Or.inl hl, by simpa using hp, hL⟩
        · obtain ⟨leaf, hl, hp, hL⟩ := c2 k' v' p nd hm hLA
          exact ⟨leaf, Or.inr hl, hp, hL⟩
      · rw [List.pairwise_append]
        refine ⟨b3, c3, ?_⟩
        intro a ha b hb
        obtain ⟨p, nd, hp, _, _⟩ := b1 a ha
        obtain ⟨k', v', p', nd', hm, hp', _, _⟩ := c1 b hb
        have hne : k ≠ k' := by
          rintro rfl
          exact hn.1 (List.mem_map.mpr ⟨_, hm, rfl⟩)
        rw [hp, hp', List.append_assoc]
        unfold Apart
        rw [List.prefix_append_right_inj, List.prefix_append_right_inj]
        simp only [List.cons_append, List.nil_append, List.cons_prefix_cons]
        exact ⟨fun h => hne h.1, fun h => hne h.1.symm⟩
end

theorem leafAt_ne_nil {d : List (String × PyVal)} {p : List String} {nd : PyVal}
    (h : LeafAt (.dict d) p nd) (hd : "dist" ∉ Assoc.keys d) : p ≠ [] := by
  cases h with
  | dist _ hc => exact absurd hc hd
  | child => simp

theorem fromDict_spec {d : List (String × PyVal)} {leaves : List Leaf} (hv : Valid (.dict d))
    (h : fromDict d = .ok leaves) :
    leaves ≠ [] ∧
    (∀ leaf ∈ leaves, leaf.path ≠ [] ∧ ∃ nd, LeafAt (.dict d) leaf.path nd ∧ LeafOf leaf nd) ∧
    (∀ p nd, LeafAt (.dict d) p nd → ∃ leaf ∈ leaves, leaf.path = p ∧ LeafOf leaf nd) ∧
    leaves.Pairwise (fun a b => Apart a.path b.path) := by
  unfold fromDict at h
  split at h
  · exact absurd h (by simp)
  · rw [ebind_ok] at h
    obtain ⟨ls, hls, h⟩ := h
    split at h
    · exact absurd h (by simp)
    · rename_i hne
      obtain rfl := Except.ok.inj h
      obtain ⟨a1, a2, a3⟩ := walk_spec _ _ _ hv hls
      refine ⟨hne, ?_, by simpa using a2, a3⟩
      intro leaf hleaf
      obtain ⟨p, nd, hp, hLA, hL⟩ := a1 leaf hleaf
      rw [List.nil_append] at hp
      subst hp
      refine ⟨?_, nd, hLA, hL⟩
      intro h0
      rw [h0] at hLA
      cases hLA with
      | dist =>
        have := (distLeaf_path hL).2
        exact this h0

/-- Two entries of a space found at the same path are the same. -/
theorem leafAt_unique {s : PyVal} {p : List String} {nd nd' : PyVal} (h : LeafAt s p nd)
    (h' : LeafAt s p nd') : nd = nd' := by
  induction h with
  | list vs => cases h'; rfl
  | dist d hd => cases h' with
    | dist => rfl
  | child d k v p nd hd hg _ ih =>
    cases h' with
    | child _ _ v' _ _ _ hg' hl' =>
      rw [hg] at hg'
      obtain rfl := Option.some.inj hg'
      exact ih hl'

end ModSSC.Hpo
