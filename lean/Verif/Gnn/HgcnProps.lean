import Verif.Gnn.HgcnModel
import Verif.Gnn.CoarsenProps
import Verif.Gnn.NetProps

/-!
# C188 — H-GCN: the hierarchy, and what predictions depend on
-/

namespace ModSSC.Gnn.Hgcn
open ModSSC ModSSC.Transductive ModSSC.Gnn ModSSC.Gnn.Nets

variable {K : Type} [Field K] [LinearOrder K] [IsStrictOrderedRing K]

namespace Spec

/-- The group a node belongs to. -/
def home (groups : List (List Nat)) (i : Nat) : Nat := groups.findIdx fun g => decide (i ∈ g)

/-- The node of level `l` that stands for an original node. -/
def standsFor (sqrt : K → K) (L : Level K) : Nat → Nat → Nat
  | 0, i => i
  | l + 1, i => home ((level sqrt L l).groups sqrt) (standsFor sqrt L l i)

/-- No adjacency between the nodes inside and those outside. -/
def Apart (L : Level K) (S : Nat → Prop) : Prop := ∀ i < L.n, ∀ j < L.n, L.adj i j ≠ 0 → (S i ↔ S j)

/-- Every node has a neighbour. -/
def NoIsolated (L : Level K) : Prop := ∀ i < L.n, ∃ j < L.n, j ≠ i ∧ L.adj i j ≠ 0

/-- Whether an edge list leads from `i` to `v`. -/
inductive Leads (es : List (WEdge K)) : Nat → Nat → Prop
  | refl (v : Nat) : Leads es v v
  | step {i v : Nat} (e : WEdge K) : e ∈ es → e.src = i → Leads es e.dst v → Leads es i v

/-- The degree of a node, at least `eps`; a self-loop counts one. -/
def degreeOf (eps : K) (loops : Bool) (n : Nat) (adj : Nat → Nat → K) (i : Nat) : K :=
  max eps ((List.range n).map fun j => if loops ∧ i = j then adj i j + 1 else adj i j).sum

end Spec

open Spec

/-! ### Acceptance -/

/-- **C188 (acceptance).**  `fit` accepts exactly an odd number of layers from three on, at least one channel, an embedding of at least
one number, and a graph with nodes. -/
theorem C188_accept (sqrt : K → K) (s : Settings) (d : Data K) :
    (∃ f, fit sqrt s d = .ok f) ↔ (3 ≤ s.numLayers ∧ s.numLayers % 2 = 1 ∧ 1 ≤ s.channels ∧ 1 ≤ s.embedDim ∧ 0 < d.n) := by
  unfold fit
  by_cases h1 : s.numLayers < 3 ∨ s.numLayers % 2 = 0
  · rw [if_pos h1]
    exact ⟨fun ⟨f, h⟩ => (by cases h), fun h => by omega⟩
  · rw [if_neg h1]
    by_cases h2 : s.channels < 1
    · rw [if_pos h2]
      exact ⟨fun ⟨f, h⟩ => (by cases h), fun h => by omega⟩
    · rw [if_neg h2]
      by_cases h3 : s.embedDim < 1
      · rw [if_pos h3]
        exact ⟨fun ⟨f, h⟩ => (by cases h), fun h => by omega⟩
      · rw [if_neg h3]
        by_cases h4 : d.n = 0
        · rw [if_pos h4]
          exact ⟨fun ⟨f, h⟩ => (by cases h), fun h => by omega⟩
        · rw [if_neg h4]
          exact ⟨fun _ => by omega, fun _ => ⟨_, rfl⟩⟩

/-- What `fit` stores. -/
theorem fit_ok {sqrt : K → K} {s : Settings} {d : Data K} {f : Fitted K} (h : fit sqrt s d = .ok f) :
    0 < d.n ∧ f = ⟨d.n, ((s.numLayers - 1) / 2).toNat, ⟨d.n, dense s.symmetrize d.edges, fun _ => 1⟩, s.loops,
      maxWeight sqrt ⟨d.n, dense s.symmetrize d.edges, fun _ => 1⟩ ((s.numLayers - 1) / 2).toNat⟩ := by
  have hn : 0 < d.n := ((C188_accept sqrt s d).mp ⟨f, h⟩).2.2.2.2
  unfold fit at h
  split at h
  · cases h
  · split at h
    · cases h
    · split at h
      · cases h
      · split at h
        · cases h
        · cases h
          exact ⟨hn, rfl⟩

/-! ### The hierarchy -/

theorem degreeOrder_perm (L : Level K) : (degreeOrder L).Perm (List.range L.n) := List.perm_insertionSort _ _

theorem groups_perm (sqrt : K → K) (L : Level K) : (L.groups sqrt).flatten.Perm (List.range L.n) :=
  (C145_partition L.n L.adj _ _ (degreeOrder_perm L)).1

theorem groups_good (sqrt : K → K) (L : Level K) : ∀ g ∈ L.groups sqrt, GoodGroup L.n L.adj g :=
  (C145_partition L.n L.adj _ _ (degreeOrder_perm L)).2.1

theorem home_spec : ∀ (gs : List (List Nat)), gs.flatten.Nodup → ∀ x ∈ gs.flatten, home gs x < gs.length ∧
    ∀ g, x ∈ gs[g]?.getD [] ↔ home gs x = g := by
  intro gs
  induction gs with
  | nil => intro _ x hx; simp at hx
  | cons a gs ih =>
    intro hnd x hx
    rw [List.flatten_cons, List.nodup_append] at hnd
    unfold home at ih ⊢
    rw [List.findIdx_cons]
    by_cases ha : x ∈ a
    · have hgs : x ∉ gs.flatten := fun hc => hnd.2.2 x ha x hc rfl
      simp only [ha, decide_true, cond_true, List.length_cons]
      refine ⟨by omega, fun g => ?_⟩
      cases g with
      | zero => simp [ha]
      | succ g =>
        simp only [List.getElem?_cons_succ]
        constructor
        · intro h
          exfalso
          cases hg : gs[g]? with
          | none => rw [hg] at h; simp at h
          | some l =>
            rw [hg] at h
            exact hgs (List.mem_flatten.mpr ⟨l, List.mem_of_getElem? hg, h⟩)
        · omega
    · rw [List.flatten_cons, List.mem_append] at hx
      obtain ⟨h1, h2⟩ := ih hnd.2.1 x (hx.resolve_left ha)
      simp only [ha, decide_false, cond_false, List.length_cons]
      refine ⟨by omega, fun g => ?_⟩
      cases g with
      | zero => simp [ha]
      | succ g => simp only [List.getElem?_cons_succ, h2 g]; omega

theorem groups_home (sqrt : K → K) (L : Level K) (x : Nat) (hx : x < L.n) : home (L.groups sqrt) x < (L.next sqrt).n ∧
    ∀ g, x ∈ (L.groups sqrt)[g]?.getD [] ↔ home (L.groups sqrt) x = g :=
  home_spec _ ((groups_perm sqrt L).nodup_iff.mpr List.nodup_range) x ((groups_perm sqrt L).mem_iff.mpr (List.mem_range.mpr hx))

theorem standsFor_lt (sqrt : K → K) (L : Level K) (i : Nat) (hi : i < L.n) : ∀ l, standsFor sqrt L l i < (level sqrt L l).n
  | 0 => hi
  | l + 1 => (groups_home sqrt _ _ (standsFor_lt sqrt L i hi l)).1

theorem count_groups (f : Nat → Nat) (R : List Nat) : ∀ G : List Nat, G.Nodup →
    (G.map fun h => (R.filter fun i => f i = h).length).sum = (R.filter fun i => f i ∈ G).length := by
  intro G
  induction G with
  | nil => intro _; simp
  | cons h G ih =>
    intro hnd
    rw [List.nodup_cons] at hnd
    rw [List.map_cons, List.sum_cons, ih hnd.2]
    clear ih
    induction R with
    | nil => rfl
    | cons r R ihR =>
      simp only [List.filter_cons]
      by_cases h1 : f r = h
      · have : f r ∉ G := by rw [h1]; exact hnd.1
        simp [h1, hnd.1] at *
        omega
      · by_cases h2 : f r ∈ G
        · simp [h1, h2] at *
          omega
        · simp [h1, h2] at *
          omega

theorem group_mem {sqrt : K → K} {L : Level K} {g x : Nat} (h : x ∈ (L.groups sqrt)[g]?.getD []) : x < L.n ∧ g < (L.groups sqrt).length := by
  cases hg : (L.groups sqrt)[g]? with
  | none => rw [hg] at h; simp at h
  | some l =>
    rw [hg] at h
    have h' : x ∈ l := h
    refine ⟨List.mem_range.mp ((groups_perm sqrt L).mem_iff.mp (List.mem_flatten.mpr ⟨l, List.mem_of_getElem? hg, h'⟩)), ?_⟩
    exact (List.getElem?_eq_some_iff.mp hg).1

/-- **C188 (the hierarchy).**  On every level, every original node is stood for by a node of the level, and the weight of a node is the
number of original nodes it stands for: at least one. -/
theorem C188_weights (sqrt : K → K) (n : Nat) (adj : Nat → Nat → K) (l : Nat) :
    (∀ i < n, standsFor sqrt ⟨n, adj, fun _ => 1⟩ l i < (level sqrt ⟨n, adj, fun _ => 1⟩ l).n) ∧
    (∀ g < (level sqrt ⟨n, adj, fun _ => 1⟩ l).n, (level sqrt ⟨n, adj, fun _ => 1⟩ l).w g =
      ((List.range n).filter fun i => standsFor sqrt ⟨n, adj, fun _ => 1⟩ l i = g).length ∧
      0 < (level sqrt ⟨n, adj, fun _ => 1⟩ l).w g) ∧
    (level sqrt ⟨n, adj, fun _ => 1⟩ l).n ≤ n := by
  refine ⟨fun i hi => standsFor_lt sqrt ⟨n, adj, fun _ => 1⟩ i hi l, ?_⟩
  induction l with
  | zero =>
    refine ⟨fun g hg => ?_, Nat.le_refl _⟩
    have hg : g < n := hg
    refine ⟨?_, Nat.one_pos⟩
    show 1 = ((List.range n).filter fun i => decide (i = g)).length
    rw [← List.countP_eq_length_filter, show (fun i => decide (i = g)) = (· == g) from rfl, ← List.count_eq_countP',
      List.count_eq_one_of_mem List.nodup_range (List.mem_range.mpr hg)]
  | succ l ih =>
    obtain ⟨ihw, ihn⟩ := ih
    set L0 : Level K := ⟨n, adj, fun _ => 1⟩ with hL0
    set L := level sqrt L0 l with hL
    have hnd : (L.groups sqrt).flatten.Nodup := (groups_perm sqrt L).nodup_iff.mpr List.nodup_range
    refine ⟨fun g hg => ?_, ?_⟩
    · have hg' : g < (L.groups sqrt).length := hg
      have hgrp : (L.groups sqrt)[g]? = some (L.groups sqrt)[g] := List.getElem?_eq_getElem hg'
      have hw : (level sqrt L0 (l + 1)).w g = ((L.groups sqrt)[g].map L.w).sum := by
        show (weightsNext (L.groups sqrt) L.w).getD g 0 = _
        unfold weightsNext
        rw [List.getD_eq_getElem?_getD, List.getElem?_map, hgrp]
        rfl
      have hmemlt : ∀ h ∈ (L.groups sqrt)[g], h < L.n := fun h hh => (group_mem (sqrt := sqrt) (g := g) (by rw [hgrp]; exact hh)).1
      have hsum : ((L.groups sqrt)[g].map L.w).sum =
          ((L.groups sqrt)[g].map fun h => ((List.range n).filter fun i => standsFor sqrt L0 l i = h).length).sum := by
        congr 1
        exact List.map_congr_left fun h hh => (ihw h (hmemlt h hh)).1
      have hgnd : (L.groups sqrt)[g].Nodup := (List.nodup_flatten.mp hnd).1 _ (List.getElem_mem hg')
      refine ⟨?_, ?_⟩
      · rw [hw, hsum, count_groups _ _ _ hgnd]
        congr 1
        refine List.filter_congr fun i hi => ?_
        have hlt := standsFor_lt sqrt L0 i (List.mem_range.mp hi) l
        have := (groups_home sqrt L _ hlt).2 g
        rw [hgrp] at this
        exact decide_eq_decide.mpr this
      · rw [hw]
        have hgood := groups_good sqrt L _ (List.getElem_mem hg')
        rcases hgood with ⟨v, hv⟩ | ⟨a, b, hab, -⟩
        · have := (ihw v (hmemlt v (by rw [hv]; simp))).2
          rw [hv]
          simpa using this
        · have := (ihw a (hmemlt a (by rw [hab]; simp))).2
          rw [hab]
          simp only [List.map_cons, List.sum_cons]
          omega
    · exact (C145_size L.n L.adj _ _ (degreeOrder_perm L)).1.trans ihn

theorem le_foldl_max : ∀ (l : List Nat) (a : Nat), a ≤ l.foldl max a ∧ ∀ x ∈ l, x ≤ l.foldl max a
  | [], a => ⟨Nat.le_refl a, by simp⟩
  | b :: l, a => by
    obtain ⟨h1, h2⟩ := le_foldl_max l (max a b)
    rw [List.foldl_cons]
    refine ⟨(le_max_left a b).trans h1, fun x hx => ?_⟩
    rcases List.mem_cons.mp hx with rfl | hx
    · exact (le_max_right a x).trans h1
    · exact h2 x hx

/-- **C188 (predictions exist).**  A fitted H-GCN predicts, for every dataset with as many nodes: no embedding index is ever beyond the
table.  For any other number of nodes it raises `ValueError`. -/
theorem C188_total (exp sqrt : K → K) (eps : K) (classes : Nat) (p : Params K) (s : Settings) (d d' : Data K) (f : Fitted K)
    (h : fit sqrt s d = .ok f) : (d'.n = d.n → ∃ q, predict exp sqrt eps classes p f d' = .ok q) ∧
    (d'.n ≠ d.n → predict exp sqrt eps classes p f d' = .error .valueError) := by
  obtain ⟨-, rfl⟩ := fit_ok h
  refine ⟨fun hn => ?_, fun hn => ?_⟩
  · unfold predict
    rw [if_neg (not_not.mpr hn), if_neg ?_]
    · exact ⟨_, rfl⟩
    · rw [List.any_eq_true]
      rintro ⟨i, hi, hc⟩
      rw [List.any_eq_true] at hc
      obtain ⟨g, hg, hlt⟩ := hc
      have hlt := of_decide_eq_true hlt
      dsimp only at hlt hi hg
      have := (le_foldl_max ((List.range (((s.numLayers - 1) / 2).toNat + 1)).flatMap fun i =>
        (List.range (level sqrt ⟨d.n, dense s.symmetrize d.edges, fun _ => 1⟩ i).n).map
          (level sqrt ⟨d.n, dense s.symmetrize d.edges, fun _ => 1⟩ i).w) 0).2
        _ (List.mem_flatMap.mpr ⟨i, hi, List.mem_map.mpr ⟨g, hg, rfl⟩⟩)
      unfold maxWeight at hlt
      omega
  · unfold predict
    rw [if_pos hn]

/-! ### What predictions depend on -/

/-- The groups touching a set. -/
def lift (sqrt : K → K) (L : Level K) (S : Nat → Prop) (g : Nat) : Prop := ∃ i ∈ (L.groups sqrt)[g]?.getD [], S i

/-- The set on every level. -/
def lifts (sqrt : K → K) (L : Level K) (S : Nat → Prop) : Nat → Nat → Prop
  | 0 => S
  | l + 1 => lift sqrt (level sqrt L l) (lifts sqrt L S l)

theorem group_same {sqrt : K → K} {L : Level K} {S : Nat → Prop} (hA : Apart L S) (hI : NoIsolated L) {g i j : Nat}
    (hi : i ∈ (L.groups sqrt)[g]?.getD []) (hj : j ∈ (L.groups sqrt)[g]?.getD []) : S i ↔ S j := by
  have hin := (group_mem hi).1
  have hjn := (group_mem hj).1
  cases hg : (L.groups sqrt)[g]? with
  | none => rw [hg] at hi; simp at hi
  | some G =>
    rw [hg] at hi hj
    have hi : i ∈ G := hi
    have hj : j ∈ G := hj
    rcases groups_good sqrt L G (List.mem_of_getElem? hg) with ⟨v, rfl⟩ | ⟨a, b, rfl, hab⟩
    · rw [List.mem_singleton.mp hi, List.mem_singleton.mp hj]
    · have haG : a < L.n := (group_mem (sqrt := sqrt) (g := g) (by rw [hg]; simp)).1
      have hbG : b < L.n := (group_mem (sqrt := sqrt) (g := g) (by rw [hg]; simp)).1
      have key : S a ↔ S b := by
        rcases hab with hab | hab
        · obtain ⟨k, hk, hka, hadj⟩ := hI a haG
          have h1 : k ∈ nbrs L.n L.adj a := mem_nbrs.mpr ⟨hk, hadj, hka⟩
          have h2 := hab ▸ h1
          exact (hA a haG k hk hadj).trans (hA b hbG k hk (mem_nbrs.mp h2).2.1).symm
        · exact hA a haG b hbG (mem_nbrs.mp hab).2.1
      have cases2 : ∀ x, x ∈ [a, b] → (S x ↔ S a) := by
        intro x hx
        rcases List.mem_cons.mp hx with rfl | hx
        · exact Iff.rfl
        · rw [List.mem_singleton.mp hx]; exact key.symm
      exact (cases2 i hi).trans (cases2 j hj).symm

theorem lift_iff {sqrt : K → K} {L : Level K} {S : Nat → Prop} (hA : Apart L S) (hI : NoIsolated L) {g i : Nat}
    (hi : i ∈ (L.groups sqrt)[g]?.getD []) : lift sqrt L S g ↔ S i :=
  ⟨fun ⟨_, hj, hs⟩ => (group_same hA hI hj hi).mp hs, fun hs => ⟨i, hi, hs⟩⟩

theorem apart_next {sqrt : K → K} {L : Level K} {S : Nat → Prop} (hA : Apart L S) (hI : NoIsolated L) :
    Apart (L.next sqrt) (lift sqrt L S) := by
  intro g _ h _ hne
  have hform := (C145_adjacency L.n L.adj (fun v u => L.adj v u / sqrt ((L.w v : K) * (L.w u : K))) _ (degreeOrder_perm L)).1 g h
  have hne' : adjNext L.n (L.groups sqrt) L.adj g h ≠ 0 := hne
  unfold Level.groups at hne'
  rw [hform] at hne'
  obtain ⟨i, hi, hne1⟩ := Finset.exists_ne_zero_of_sum_ne_zero hne'
  obtain ⟨j, hj, hne2⟩ := Finset.exists_ne_zero_of_sum_ne_zero hne1
  have hi' := Finset.mem_filter.mp hi
  have hj' := Finset.mem_filter.mp hj
  exact (lift_iff (sqrt := sqrt) hA hI hi'.2).trans ((hA i (Finset.mem_range.mp hi'.1) j (Finset.mem_range.mp hj'.1) hne2).trans
    (lift_iff (sqrt := sqrt) hA hI hj'.2).symm)

theorem apart_level {sqrt : K → K} {L : Level K} {S : Nat → Prop} (hA : Apart L S) (c : Nat)
    (hI : ∀ l < c, NoIsolated (level sqrt L l)) : ∀ l ≤ c, Apart (level sqrt L l) (lifts sqrt L S l)
  | 0, _ => hA
  | l + 1, h => apart_next (apart_level hA c hI l (by omega)) (hI l (by omega))

/-- Equal rows inside a set. -/
def Agree (n : Nat) (S : Nat → Prop) (X Y : Feat K) : Prop := ∀ i < n, S i → X i = Y i

theorem agree_mul {n m : Nat} {S T : Nat → Prop} {A : Nat → Nat → K} {X Y : Feat K} (h : Agree n S X Y)
    (hA : ∀ i < m, T i → ∀ j < n, A i j ≠ 0 → S j) : Agree m T (mul n A X) (mul n A Y) := by
  intro i hi hT
  funext c
  unfold mul
  congr 1
  refine List.map_congr_left fun j hj => ?_
  by_cases h0 : A i j = 0
  · rw [h0, zero_mul, zero_mul]
  · rw [h j (List.mem_range.mp hj) (hA i hi hT j (List.mem_range.mp hj) h0)]

theorem agree_row {n : Nat} {S : Nat → Prop} {X Y : Feat K} (h : Agree n S X Y) (F : Feat K → Feat K)
    (hF : ∀ (X Y : Feat K) i, X i = Y i → F X i = F Y i) : Agree n S (F X) (F Y) := fun i hi hS => hF X Y i (h i hi hS)

theorem norm_ne {sqrt : K → K} {eps : K} {loops : Bool} {L : Level K} {S : Nat → Prop} (hA : Apart L S) {i j : Nat} (hi : i < L.n)
    (hj : j < L.n) (hS : S i) (h : normAdj sqrt eps loops L.n L.adj i j ≠ 0) : S j := by
  by_cases hij : i = j
  · rw [← hij]; exact hS
  · refine (hA i hi j hj ?_).mp hS
    intro h0
    apply h
    unfold normAdj looped
    rw [if_neg (by rintro ⟨-, h⟩; exact hij h), h0, mul_zero, zero_mul]

theorem agree_layer {exp sqrt : K → K} {eps : K} {embed : Nat → Nat → K} {loops : Bool} (ly : Layer K) {L : Level K} {S : Nat → Prop}
    (hA : Apart L S) {X Y : Feat K} (h : Agree L.n S X Y) :
    Agree L.n S (ly.forward exp sqrt eps embed loops L X) (ly.forward exp sqrt eps embed loops L Y) := by
  unfold Layer.forward
  refine agree_row (agree_mul (agree_row h _ ?_) fun i hi hS j hj hne => norm_ne hA hi hj hS hne) _ ?_
  · intro X Y i hXY
    funext c
    unfold withWeight
    rw [hXY]
  · intro X Y i hXY
    funext c
    unfold mixChannels relu Linear.app
    simp only [hXY]

theorem mat_ne {groups : List (List Nat)} {i g : Nat} (h : (groupMat groups i g : K) ≠ 0) : i ∈ groups[g]?.getD [] := by
  by_contra hc
  exact h (by unfold groupMat; rw [if_neg hc])

/-- The kept outputs agree, level by level from `l - 1` down to `0`. -/
inductive Skips (sqrt : K → K) (L : Level K) (S : Nat → Prop) : Nat → List (Nat × Feat K) → List (Nat × Feat K) → Prop
  | nil : Skips sqrt L S 0 [] []
  | cons {i s s' G G'} : Agree (level sqrt L i).n (lifts sqrt L S i) G G' → Skips sqrt L S i s s' →
      Skips sqrt L S (i + 1) ((i, G) :: s) ((i, G') :: s')

theorem agree_down {exp sqrt : K → K} {eps : K} (p : Params K) {loops : Bool} {L : Level K} {S : Nat → Prop} (hA : Apart L S) (c : Nat)
    (hI : ∀ l < c, NoIsolated (level sqrt L l)) : ∀ (r i : Nat) (H H' : Feat K) (s s' : List (Nat × Feat K)), i + r = c →
    Agree (level sqrt L i).n (lifts sqrt L S i) H H' → Skips sqrt L S i s s' →
    Agree (level sqrt L c).n (lifts sqrt L S c) (down exp sqrt eps p loops L r i H s).1 (down exp sqrt eps p loops L r i H' s').1 ∧
    Skips sqrt L S c (down exp sqrt eps p loops L r i H s).2 (down exp sqrt eps p loops L r i H' s').2
  | 0, i, H, H', s, s', hic, hH, hs => by
    rw [Nat.add_zero] at hic
    subst hic
    exact ⟨hH, hs⟩
  | r + 1, i, H, H', s, s', hic, hH, hs => by
    have hAi := apart_level hA c hI i (by omega)
    have hG := agree_layer (exp := exp) (sqrt := sqrt) (eps := eps) (embed := p.embed) (loops := loops) (p.layers i) hAi hH
    refine agree_down p hA c hI r (i + 1) _ _ _ _ (by omega) ?_ (.cons hG hs)
    refine agree_mul (m := (level sqrt L (i + 1)).n) (T := lifts sqrt L S (i + 1)) hG ?_
    intro g _ hg j _ hne
    exact (lift_iff hAi (hI i (by omega)) (mat_ne hne)).mp hg

theorem agree_up {exp sqrt : K → K} {eps : K} (p : Params K) {loops : Bool} {L : Level K} {S : Nat → Prop} (hA : Apart L S) (c : Nat)
    (hI : ∀ l < c, NoIsolated (level sqrt L l)) : ∀ (l : Nat) (s s' : List (Nat × Feat K)) (k : Nat) (H H' : Feat K), l ≤ c →
    Skips sqrt L S l s s' → Agree (level sqrt L l).n (lifts sqrt L S l) H H' →
    Agree L.n S (up exp sqrt eps p loops L s k H) (up exp sqrt eps p loops L s' k H') := by
  intro l s s' k H H' hl hs
  induction hs generalizing k H H' with
  | nil => exact fun h => h
  | @cons i s s' G G' hG _ ih =>
    intro hH
    have hAi := apart_level hA c hI i (by omega)
    have hAn := apart_level hA c hI (i + 1) hl
    refine ih (k + 1) _ _ (by omega) ?_
    have h1 := agree_layer (exp := exp) (sqrt := sqrt) (eps := eps) (embed := p.embed) (loops := loops) (p.layers k) hAn hH
    have h2 := agree_mul (m := (level sqrt L i).n) (T := lifts sqrt L S i) (A := groupMat ((level sqrt L i).groups sqrt)) h1
      (fun v _ hv g _ hne => (lift_iff (sqrt := sqrt) hAi (hI i (by omega)) (mat_ne hne)).mpr hv)
    intro v hv hS
    funext o
    show mul _ _ _ v o + G v o = mul _ _ _ v o + G' v o
    rw [h2 v hv hS, hG v hv hS]

theorem insert_lex (key : Nat → Nat) (a : Nat) : ∀ s : List Nat, (∀ b ∈ s, a < b) →
    s.Pairwise (fun a b => key a < key b ∨ (key a = key b ∧ a < b)) →
    (s.orderedInsert (fun a b => key a ≤ key b) a).Pairwise fun a b => key a < key b ∨ (key a = key b ∧ a < b)
  | [], _, _ => List.pairwise_singleton _ _
  | b :: s, hlt, hp => by
    rw [List.orderedInsert_cons]
    have hb := List.pairwise_cons.mp hp
    by_cases h : key a ≤ key b
    · rw [if_pos h]
      refine List.pairwise_cons.mpr ⟨fun c hc => ?_, hp⟩
      have hac := hlt c hc
      rcases List.mem_cons.mp hc with rfl | hc
      · omega
      · have := hb.1 c hc
        omega
    · rw [if_neg h]
      refine List.pairwise_cons.mpr ⟨fun c hc => ?_, insert_lex key a s (fun c hc => hlt c (List.mem_cons_of_mem _ hc)) hb.2⟩
      rcases List.mem_cons.mp ((List.perm_orderedInsert _ a s).mem_iff.mp hc) with rfl | hc
      · omega
      · exact hb.1 c hc

theorem sort_lex (key : Nat → Nat) : ∀ l : List Nat, l.Pairwise (· < ·) →
    (l.insertionSort fun a b => key a ≤ key b).Pairwise fun a b => key a < key b ∨ (key a = key b ∧ a < b)
  | [], _ => List.Pairwise.nil
  | a :: l, h => by
    rw [List.insertionSort_cons]
    have h := List.pairwise_cons.mp h
    exact insert_lex key a _ (fun b hb => h.1 b ((List.perm_insertionSort _ l).mem_iff.mp hb)) (sort_lex key l h.2)

/-- The coarsening visits the nodes by increasing number of neighbours, and equal ones by their number. -/
theorem C188_order (L : Level K) : (degreeOrder L).Pairwise fun a b =>
    (nbrs L.n L.adj a).length < (nbrs L.n L.adj b).length ∨
      ((nbrs L.n L.adj a).length = (nbrs L.n L.adj b).length ∧ a < b) :=
  sort_lex (fun a => (nbrs L.n L.adj a).length) _ List.pairwise_lt_range

example : degreeOrder (⟨3, fun i j => if i ≠ j ∧ (i = 0 ∨ j = 0) then 1 else 0, fun _ => 1⟩ : Level Rat) = [1, 2, 0] := by decide +kernel

/-- **C188 (adjacency).**  The matrix the layers use has no loops of its own; with `symmetrize` it is symmetric, and without it an entry is the
sum of the weights of the edges. -/
theorem C188_adjacency (es : List (WEdge K)) (i j : Nat) :
    dense true es i i = 0 ∧ dense false es i i = 0 ∧ dense true es i j = dense true es j i ∧
    (i ≠ j → dense false es i j = ((es.filter fun e => e.src = i ∧ e.dst = j).map (·.w)).sum ∧
      dense true es i j = max (dense false es i j) (dense false es j i)) := by
  refine ⟨if_pos rfl, if_pos rfl, ?_, fun h => ⟨?_, ?_⟩⟩
  · unfold dense
    by_cases h : i = j
    · rw [h]
    · rw [if_neg h, if_neg (Ne.symm h), if_pos rfl, if_pos rfl, max_comm]
  · unfold dense entry
    rw [if_neg h, if_neg (by simp), if_neg h]
  · unfold dense
    rw [if_neg h, if_neg h, if_neg (Ne.symm h), if_pos rfl, if_neg (by simp), if_neg (by simp)]

/-- The weight of a neighbour is its entry, with a self-loop, over the square roots of the two degrees. -/
theorem C188_coefficient (sqrt : K → K) (hs : ∀ x, 0 < x → 0 < sqrt x) (eps : K) (he : 0 < eps)
    (loops : Bool) (n : Nat) (adj : Nat → Nat → K) (i j : Nat) :
    normAdj sqrt eps loops n adj i j * (sqrt (degreeOf eps loops n adj i) * sqrt (degreeOf eps loops n adj j)) =
      if loops ∧ i = j then adj i j + 1 else adj i j := by
  have hd : ∀ i, dinv sqrt eps loops n adj i * sqrt (degreeOf eps loops n adj i) = 1 := by
    intro i
    exact one_div_mul_cancel (hs _ (lt_of_lt_of_le he (le_max_left _ _))).ne'
  unfold normAdj
  rw [show ∀ a b c d e : K, a * b * c * (d * e) = b * (a * d) * (c * e) from fun _ _ _ _ _ => by ring, hd, hd, mul_one, mul_one]
  rfl

/-- **C188 (layers).**  A layer averages its channels with positive weights that sum to one and are in proportion to the exponentials of the
logits.  A channel applies its linear layer to the weighted sum of the neighbours' inputs; the input of a node are its features followed by the
embedding of its weight. -/
theorem C188_layer (exp sqrt : K → K) (E : Nets.Spec.ExpLaw exp) (eps : K) (embed : Nat → Nat → K) (loops : Bool)
    (ly : Layer K) (hc : ly.channels ≠ []) (L : Level K) (X : Feat K) :
    ∃ share : K × Linear K → K, (∀ ch ∈ ly.channels, 0 < share ch) ∧ (ly.channels.map share).sum = 1 ∧
      (∀ a ∈ ly.channels, ∀ b ∈ ly.channels, share a * exp b.1 = share b * exp a.1) ∧
      ∃ inp agg : Feat K, (∀ v c, c < ly.baseIn → inp v c = X v c) ∧ (∀ v c, inp v (ly.baseIn + c) = embed (L.w v) c) ∧
        (∀ v c, agg v c = ((List.range L.n).map fun j => normAdj sqrt eps loops L.n L.adj v j * inp j c).sum) ∧
        (∀ v o, ly.forward exp sqrt eps embed loops L X v o = (ly.channels.map fun ch => share ch * max (ch.2.app agg v o) 0).sum) := by
  have hpos : 0 < (ly.channels.map fun c => exp c.1).sum := by
    cases hl : ly.channels with
    | nil => exact absurd hl hc
    | cons a l =>
      rw [List.map_cons, List.sum_cons]
      exact add_pos_of_pos_of_nonneg (E a.1) (List.sum_nonneg fun x hx => by
        obtain ⟨c, -, rfl⟩ := List.mem_map.mp hx
        exact (E c.1).le)
  refine ⟨fun ch => exp ch.1 / (ly.channels.map fun c => exp c.1).sum, fun ch _ => div_pos (E _) hpos, ?_, ?_,
    withWeight embed ly.baseIn L.w X, mul L.n (normAdj sqrt eps loops L.n L.adj) (withWeight embed ly.baseIn L.w X), ?_, ?_, fun v c => rfl,
    fun v o => rfl⟩
  · rw [show (ly.channels.map fun ch => exp ch.1 / (ly.channels.map fun c => exp c.1).sum) =
        (ly.channels.map fun c => exp c.1).map fun x => x * (ly.channels.map fun c => exp c.1).sum⁻¹ by
          rw [List.map_map]; exact List.map_congr_left fun x _ => div_eq_mul_inv _ _, List.sum_map_mul_right, List.map_id',
      mul_inv_cancel₀ hpos.ne']
  · intro a _ b _
    ring
  · intro v c h
    exact if_pos h
  · intro v c
    unfold withWeight
    rw [if_neg (by omega), Nat.add_sub_cancel_left]

/-- **C188 (components).**  If no graph of the hierarchy that is coarsened has an isolated node, the prediction for a node depends only on
the features of its part of the graph: on those of any set of nodes around it without adjacency to the rest. -/
theorem C188_components_partial (exp sqrt : K → K) (eps : K) (classes : Nat) (p : Params K) (f : Fitted K) (hb : f.base.n = f.n)
    (S : Nat → Prop) (hA : Apart f.base S) (hI : ∀ l < f.c, NoIsolated (level sqrt f.base l)) (d d' : Data K) (hn : d.n = d'.n)
    (hX : ∀ i < f.n, S i → d.X i = d'.X i) (q q' : Nat → Nat → K) (hq : predict exp sqrt eps classes p f d = .ok q)
    (hq' : predict exp sqrt eps classes p f d' = .ok q') (v : Nat) (hv : v < f.n) (hS : S v) : q v = q' v := by
  have hfwd : forward exp sqrt eps p f d.X v = forward exp sqrt eps p f d'.X v := by
    unfold forward
    have h1 := agree_down (exp := exp) (eps := eps) (loops := f.loops) p hA f.c hI f.c 0 d.X d'.X [] [] (by omega)
      (by intro i hi; exact hX i (by rw [← hb]; exact hi)) .nil
    have h2 := agree_up (exp := exp) (eps := eps) (loops := f.loops) p hA f.c hI f.c _ _ f.c _ _ (Nat.le_refl _) h1.2 h1.1
    have h3 : Agree f.n S (relu (p.out.app (mul f.n (normAdj sqrt eps f.loops f.n f.base.adj)
        (up exp sqrt eps p f.loops f.base (down exp sqrt eps p f.loops f.base f.c 0 d.X []).2 f.c
          (down exp sqrt eps p f.loops f.base f.c 0 d.X []).1))))
        (relu (p.out.app (mul f.n (normAdj sqrt eps f.loops f.n f.base.adj)
        (up exp sqrt eps p f.loops f.base (down exp sqrt eps p f.loops f.base f.c 0 d'.X []).2 f.c
          (down exp sqrt eps p f.loops f.base f.c 0 d'.X []).1)))) := by
      rw [← hb]
      refine agree_row (agree_mul (A := normAdj sqrt eps f.loops f.base.n f.base.adj) h2
        fun i hi hSi j hj hne => norm_ne hA hi hj hSi hne) (fun Z => relu (p.out.app Z)) ?_
      intro X Y i hXY
      funext c
      unfold relu Linear.app
      simp only [hXY]
    exact h3 v hv hS
  unfold predict at hq hq'
  rw [← hn] at hq'
  split at hq
  · cases hq
  · split at hq
    · cases hq
    · rename_i h1 h2
      rw [if_neg h1, if_neg h2] at hq'
      cases hq
      cases hq'
      dsimp only
      rw [hfwd]

/-- Two paths of three nodes. -/
def twoPaths : List (WEdge Rat) := [⟨0, 1, 1⟩, ⟨1, 2, 1⟩, ⟨3, 4, 1⟩, ⟨4, 5, 1⟩]

example : Apart (⟨6, dense true twoPaths, fun _ => 1⟩ : Level Rat) (fun i => i < 3) ∧
    NoIsolated (⟨6, dense true twoPaths, fun _ => 1⟩ : Level Rat) := by
  unfold Apart NoIsolated
  decide +kernel

/-- A network of one channel that looks at the first feature only. -/
def plain : Params Rat :=
  ⟨fun _ _ => 0, fun _ => ⟨1, [(0, ⟨2, fun o j => if o = 0 ∧ j = 0 then 1 else 0, fun _ => 0⟩)]⟩,
    ⟨1, fun o _ => if o = 0 then 1 else 0, fun _ => 0⟩⟩

/-- The predictions after `fit` on one dataset and `predict_proba` on another, as a list. -/
def run (s : Settings) (d d' : Data Rat) : Except PyErr (List (List Rat)) :=
  match fit id s d with
  | .error e => .error e
  | .ok f => match predict (fun x => 1 + x * x) id 1 2 plain f d' with
    | .error e => .error e
    | .ok q => .ok ((List.range d'.n).map fun v => (List.range 2).map (q v))

theorem runs_differ (a b : Except PyErr (List (List Rat))) (pick : List (List Rat) → Option (List Rat))
    (h : (match a, b with | .ok q, .ok q' => decide (pick q ≠ pick q') | _, _ => false) = true) :
    ∃ q q', a = .ok q ∧ b = .ok q' ∧ pick q ≠ pick q' := by
  cases a with
  | error e => cases h
  | ok q =>
    cases b with
    | error e => cases h
    | ok q' => exact ⟨q, q', rfl, rfl, of_decide_eq_true h⟩

/-- **C188 violated (components).**  Nodes without edges are grouped as "equivalent": the prediction for a node without any edge changes
with the features of another node without any edge. -/
theorem C188_components_violated : ¬ ∀ (s : Settings) (n : Nat) (es : List (WEdge Rat)) (X X' : Feat Rat) (v : Nat) (q q' : List (List Rat)),
    (∀ i, Leads es i v ∨ Leads es v i → X i = X' i) → run s ⟨n, es, X⟩ ⟨n, es, X⟩ = .ok q → run s ⟨n, es, X⟩ ⟨n, es, X'⟩ = .ok q' →
    q[v]? = q'[v]? := by
  intro h
  have hlead : ∀ i v, Leads ([] : List (WEdge Rat)) i v → i = v := by
    intro i v hl
    cases hl with
    | refl => rfl
    | step e he => cases he
  have hex : ∃ q q', run ⟨3, 1, 1, true, true⟩ ⟨2, [], fun _ _ => 1⟩ ⟨2, [], fun _ _ => 1⟩ = .ok q ∧
      run ⟨3, 1, 1, true, true⟩ ⟨2, [], fun _ _ => 1⟩ ⟨2, [], fun i _ => if i = 1 then 5 else 1⟩ = .ok q' ∧ q[0]? ≠ q'[0]? :=
    runs_differ _ _ (fun q => q[0]?) (by decide +kernel)
  obtain ⟨q, q', h1, h2, h3⟩ := hex
  refine h3 (h ⟨3, 1, 1, true, true⟩ 2 [] (fun _ _ => 1) (fun i _ => if i = 1 then 5 else 1) 0 q q' ?_ h1 h2)
  intro i hi
  have : i = 0 := by
    rcases hi with hi | hi
    · exact hlead _ _ hi
    · exact (hlead _ _ hi).symm
  rw [this]
  rfl

/-- **C188 violated (direction).**  Without symmetrization features flow against the edges: with the one edge from 0 to 1, the prediction
for 0 changes with the features of 1, from which no edge leads to 0. -/
theorem C188_direction_violated : ¬ ∀ (s : Settings) (n : Nat) (es : List (WEdge Rat)) (X X' : Feat Rat) (v : Nat) (q q' : List (List Rat)),
    s.symmetrize = false → (∀ i < n, ∃ e ∈ es, e.src = i ∨ e.dst = i) → (∀ i, Leads es i v → X i = X' i) →
    run s ⟨n, es, X⟩ ⟨n, es, X⟩ = .ok q → run s ⟨n, es, X⟩ ⟨n, es, X'⟩ = .ok q' → q[v]? = q'[v]? := by
  intro h
  have hlead : ∀ i v, Leads ([⟨0, 1, 1⟩] : List (WEdge Rat)) i v → v = 0 → i = 0 := by
    intro i v hl
    induction hl with
    | refl => exact fun h => h
    | step e he hs _ ih =>
      intro hv
      have := ih hv
      rw [List.mem_singleton.mp he] at this
      cases this
  have hex : ∃ q q', run ⟨3, 1, 1, true, false⟩ ⟨2, [⟨0, 1, 1⟩], fun _ _ => 1⟩ ⟨2, [⟨0, 1, 1⟩], fun _ _ => 1⟩ = .ok q ∧
      run ⟨3, 1, 1, true, false⟩ ⟨2, [⟨0, 1, 1⟩], fun _ _ => 1⟩ ⟨2, [⟨0, 1, 1⟩], fun i _ => if i = 1 then 5 else 1⟩ = .ok q' ∧
      q[0]? ≠ q'[0]? :=
    runs_differ _ _ (fun q => q[0]?) (by decide +kernel)
  obtain ⟨q, q', h1, h2, h3⟩ := hex
  refine h3 (h ⟨3, 1, 1, true, false⟩ 2 [⟨0, 1, 1⟩] (fun _ _ => 1) (fun i _ => if i = 1 then 5 else 1) 0 q q' rfl ?_ ?_ h1 h2)
  · intro i hi
    refine ⟨_, List.mem_singleton.mpr rfl, ?_⟩
    dsimp only
    omega
  · intro i hi
    rw [hlead i 0 hi rfl]
    rfl

/-! ### Predictions -/

/-- **C188 (predictions).**  Predictions are distributions over the classes. -/
theorem C188_distribution (exp sqrt : K → K) (E : Nets.Spec.ExpLaw exp) (eps : K) (classes : Nat) (hk : 0 < classes) (p : Params K) (f : Fitted K)
    (d : Data K) (q : Nat → Nat → K) (h : predict exp sqrt eps classes p f d = .ok q) (v : Nat) :
    (∀ c, 0 < q v c) ∧ ((List.range classes).map (q v)).sum = 1 := by
  unfold predict at h
  split at h
  · cases h
  · split at h
    · cases h
    · cases h
      exact probOf_distribution exp E classes hk _

/-- **C188 violated (the data that is given).**  Asked about a dataset with other edges, H-GCN predicts as for the graph of `fit`. -/
theorem C188_data_violated : ¬ ∀ (s : Settings) (d d' : Data Rat) (q q' : List (List Rat)), d.n = d'.n →
    run s d d' = .ok q → run s d' d' = .ok q' → q = q' := by
  intro h
  have hex : ∃ q q', run ⟨3, 1, 1, true, true⟩ ⟨2, [⟨0, 1, 3⟩], fun i _ => if i = 1 then 5 else 1⟩ ⟨2, [], fun i _ => if i = 1 then 5 else 1⟩ = .ok q ∧
      run ⟨3, 1, 1, true, true⟩ ⟨2, [], fun i _ => if i = 1 then 5 else 1⟩ ⟨2, [], fun i _ => if i = 1 then 5 else 1⟩ = .ok q' ∧ q[1]? ≠ q'[1]? :=
    runs_differ _ _ (fun q => q[1]?) (by decide +kernel)
  obtain ⟨q, q', h1, h2, h3⟩ := hex
  exact h3 (congrArg (fun q : List (List Rat) => q[1]?) (h _ ⟨2, [⟨0, 1, 3⟩], fun i _ => if i = 1 then 5 else 1⟩ ⟨2, [], fun i _ => if i = 1 then 5 else 1⟩ q q' rfl h1 h2))

/-- **C188 (the data that is given).**  Precisely: of the data given only the features and the number of nodes matter. -/
theorem C188_features_only (exp sqrt : K → K) (eps : K) (classes : Nat) (p : Params K) (f : Fitted K) (n : Nat) (es es' : List (WEdge K))
    (X : Feat K) : predict exp sqrt eps classes p f ⟨n, es, X⟩ = predict exp sqrt eps classes p f ⟨n, es', X⟩ := rfl

end ModSSC.Gnn.Hgcn
