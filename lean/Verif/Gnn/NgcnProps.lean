import Verif.Gnn.NgcnModel
import Verif.Gnn.NetProps

/-!
# C189 — N-GCN: powers, reach, symmetry
-/

namespace ModSSC.Gnn.Ngcn
open ModSSC ModSSC.Transductive ModSSC.Gnn ModSSC.Gnn.Nets

variable {K : Type} [Field K] [LinearOrder K] [IsStrictOrderedRing K]

namespace Spec

/-- An edge between two nodes as the network sees it: from `i` to `j`, or either way when symmetrizing. -/
def Linked (sym : Bool) (es : List (WEdge K)) (i j : Nat) : Prop :=
  ∃ e ∈ es, (e.src = i ∧ e.dst = j) ∨ (sym = true ∧ e.src = j ∧ e.dst = i)

/-- At most `k` links from `v` to `i`. -/
def Hops (sym : Bool) (es : List (WEdge K)) (v : Nat) : Nat → Nat → Prop
  | 0, i => i = v
  | k + 1, i => Hops sym es v k i ∨ ∃ w, Hops sym es v k w ∧ Linked sym es w i

/-- The edge the other way. -/
def flip (e : WEdge K) : WEdge K := ⟨e.dst, e.src, e.w⟩

end Spec

open Spec

/-- **C189 (acceptance).** -/
theorem C189_accept (sqrt : K → K) (eps : K) (s : Settings) (d : Data K) : (∃ f, fit sqrt eps s d = .ok f) ↔
    (1 ≤ s.powers ∧ 1 ≤ s.r ∧ 1 ≤ s.layers ∧ (s.classifier = "fc" ∨ s.classifier = "attention")) := by
  unfold fit
  by_cases h1 : s.powers < 1
  · rw [if_pos h1]
    exact ⟨fun ⟨f, h⟩ => (by cases h), fun h => by omega⟩
  · rw [if_neg h1]
    by_cases h2 : s.r < 1
    · rw [if_pos h2]
      exact ⟨fun ⟨f, h⟩ => (by cases h), fun h => by omega⟩
    · rw [if_neg h2]
      by_cases h3 : s.layers < 1
      · rw [if_pos h3]
        exact ⟨fun ⟨f, h⟩ => (by cases h), fun h => by omega⟩
      · rw [if_neg h3]
        by_cases h4 : s.classifier ≠ "fc" ∧ s.classifier ≠ "attention"
        · rw [if_pos h4]
          refine ⟨fun ⟨f, h⟩ => (by cases h), fun h => ?_⟩
          rcases h.2.2.2 with h | h
          · exact absurd h h4.1
          · exact absurd h h4.2
        · rw [if_neg h4]
          refine ⟨fun _ => ⟨by omega, by omega, by omega, ?_⟩, fun _ => ⟨_, rfl⟩⟩
          by_contra hc
          exact h4 (not_or.mp hc)

/-! ### Reach -/

theorem entry_ne {es : List (WEdge K)} {i j : Nat} (h : entry es i j ≠ 0) : ∃ e ∈ es, e.src = i ∧ e.dst = j := by
  unfold entry at h
  by_contra hc
  apply h
  have : (es.filter fun e => e.src ≠ e.dst ∧ e.src = i ∧ e.dst = j) = [] := by
    rw [List.filter_eq_nil_iff]
    intro e he hd
    exact hc ⟨e, he, (of_decide_eq_true hd).2⟩
  rw [this]
  rfl

theorem dense_ne {sym loops : Bool} {es : List (WEdge K)} {i j : Nat} (h : dense sym loops es i j ≠ 0) : i = j ∨ Linked sym es i j := by
  by_cases hij : i = j
  · exact .inl hij
  · right
    unfold dense at h
    rw [if_neg (c := loops = true ∧ i = j) (fun hc => hij hc.2), add_zero] at h
    cases sym with
    | false =>
      obtain ⟨e, he, h1⟩ := entry_ne h
      exact ⟨e, he, .inl h1⟩
    | true =>
      simp only [if_true] at h
      by_cases h1 : entry es i j = 0
      · by_cases h2 : entry es j i = 0
        · rw [h1, h2, max_self] at h
          exact absurd rfl h
        · obtain ⟨e, he, h3⟩ := entry_ne h2
          exact ⟨e, he, .inr ⟨rfl, h3⟩⟩
      · obtain ⟨e, he, h3⟩ := entry_ne h1
        exact ⟨e, he, .inl h3⟩

theorem norm_ne {sqrt : K → K} {eps : K} {n : Nat} {adj : Nat → Nat → K} {i j : Nat} (h : normAdj sqrt eps n adj i j ≠ 0) : adj i j ≠ 0 := by
  intro h0
  apply h
  unfold normAdj
  rw [h0, mul_zero, zero_mul]

theorem hops_trans {sym : Bool} {es : List (WEdge K)} {v w : Nat} {a : Nat} (h : Hops sym es v a w) :
    ∀ b i, Hops sym es w b i → Hops sym es v (a + b) i
  | 0, i, hi => by rw [show i = w from hi]; exact h
  | b + 1, i, hi => by
    rcases hi with hi | ⟨u, hu, he⟩
    · exact .inl (hops_trans h b i hi)
    · exact .inr ⟨u, hops_trans h b u hu, he⟩

theorem hops_mono {sym : Bool} {es : List (WEdge K)} {v i : Nat} {a b : Nat} (h : a ≤ b) (hw : Hops sym es v a i) : Hops sym es v b i := by
  induction h with
  | refl => exact hw
  | step _ ih => exact .inl ih

omit [LinearOrder K] [IsStrictOrderedRing K] in
theorem power_succ (n : Nat) (A : Nat → Nat → K) (k i j : Nat) :
    power n A (k + 1) i j = ((List.range n).map fun m => A i m * power n A k m j).sum := rfl

/-- **C189 (powers).**  An entry of the `k`-th power is nonzero only between nodes at most `k` links apart; powers add up when
multiplied. -/
theorem C189_powers (sqrt : K → K) (eps : K) (n : Nat) (sym loops : Bool) (es : List (WEdge K)) :
    (∀ k i j, power n (normAdj sqrt eps n (dense sym loops es)) k i j ≠ 0 → Hops sym es i k j) ∧
    ∀ a b i j, i < n → power n (normAdj sqrt eps n (dense sym loops es)) (a + b) i j =
      ((List.range n).map fun m => power n (normAdj sqrt eps n (dense sym loops es)) a i m *
        power n (normAdj sqrt eps n (dense sym loops es)) b m j).sum := by
  set A := normAdj sqrt eps n (dense sym loops es) with hA
  constructor
  · intro k
    induction k with
    | zero =>
      intro i j h
      unfold power at h
      by_contra hc
      exact h (if_neg fun hij => hc hij.symm)
    | succ k ih =>
      intro i j h
      unfold power at h
      obtain ⟨m, -, hm⟩ : ∃ m ∈ List.range n, A i m * power n A k m j ≠ 0 := by
        by_contra hc
        apply h
        push Not at hc
        exact List.sum_eq_zero fun x hx => by obtain ⟨m, hm, rfl⟩ := List.mem_map.mp hx; exact hc m hm
      have h1 : A i m ≠ 0 := left_ne_zero_of_mul hm
      have h2 := ih m j (right_ne_zero_of_mul hm)
      rcases dense_ne (norm_ne h1) with him | him
      · rw [him]; exact .inl h2
      · have h3 : Hops sym es i 1 m := .inr ⟨i, rfl, him⟩
        rw [Nat.add_comm]
        exact hops_trans h3 k j h2
  · intro a b i j
    have hdist : ∀ (l : List Nat) (f : Nat → K) (c : K), c * (l.map f).sum = (l.map fun m => c * f m).sum := by
      intro l f c
      induction l with
      | nil => simp
      | cons x l ih => simp only [List.map_cons, List.sum_cons, mul_add, ih]
    have hdist' : ∀ (l : List Nat) (f : Nat → K) (c : K), (l.map f).sum * c = (l.map fun m => f m * c).sum := by
      intro l f c
      rw [mul_comm, hdist]
      congr 1
      exact List.map_congr_left fun m _ => mul_comm _ _
    have hadd : ∀ (l : List Nat) (f g : Nat → K), (l.map fun m => f m + g m).sum = (l.map f).sum + (l.map g).sum := by
      intro l f g
      induction l with
      | nil => simp
      | cons x l ih => simp only [List.map_cons, List.sum_cons, ih]; ring
    have hswap : ∀ (l l' : List Nat) (f : Nat → Nat → K),
        (l.map fun m => (l'.map fun m' => f m m').sum).sum = (l'.map fun m' => (l.map fun m => f m m').sum).sum := by
      intro l l' f
      induction l with
      | nil => simp
      | cons x l ih => simp only [List.map_cons, List.sum_cons, ih, hadd]
    induction a generalizing i with
    | zero =>
      intro hi
      rw [Nat.zero_add]
      have : ∀ (l : List Nat), l.Nodup → (l.map fun m => power n A 0 i m * power n A b m j).sum = if i ∈ l then power n A b i j else 0 := by
        intro l
        induction l with
        | nil => simp
        | cons x l ih =>
          intro hnd
          rw [List.nodup_cons] at hnd
          rw [List.map_cons, List.sum_cons, ih hnd.2]
          by_cases hx : i = x
          · subst hx
            simp [power, hnd.1]
          · simp [power, hx]
      rw [this _ List.nodup_range, if_pos (List.mem_range.mpr hi)]
    | succ a ih =>
      intro hi
      rw [show a + 1 + b = (a + b) + 1 by omega]
      simp only [power_succ]
      have h1 : ((List.range n).map fun m => A i m * power n A (a + b) m j) =
          (List.range n).map fun m => ((List.range n).map fun m' => A i m * (power n A a m m' * power n A b m' j)).sum := by
        refine List.map_congr_left fun m hm => ?_
        rw [ih m (List.mem_range.mp hm), hdist]
      rw [h1, hswap]
      congr 1
      refine List.map_congr_left fun m' _ => ?_
      rw [hdist']
      congr 1
      exact List.map_congr_left fun m _ => by ring

theorem mul_local {n : Nat} {A : Nat → Nat → K} {X X' : Feat K} {v : Nat} (h : ∀ j, A v j ≠ 0 → X j = X' j) :
    Hgcn.mul n A X v = Hgcn.mul n A X' v := by
  funext c
  unfold Hgcn.mul
  congr 1
  refine List.map_congr_left fun j _ => ?_
  by_cases h0 : A v j = 0
  · rw [h0, zero_mul, zero_mul]
  · rw [h j h0]

theorem app_row (L : Linear K) {X X' : Feat K} {v v' : Nat} (h : X v = X' v') : L.app X v = L.app X' v' := by
  funext o
  unfold Linear.app
  rw [h]

theorem relu_row {X X' : Feat K} {v v' : Nat} (h : X v = X' v') : relu X v = relu X' v' := by
  funext o
  unfold relu
  rw [h]

theorem gcn_local {sym : Bool} {es : List (WEdge K)} {n k : Nat} {A : Nat → Nat → K} (hA : ∀ i j, A i j ≠ 0 → Hops sym es i k j) :
    ∀ (Ls : List (Linear K)) (X X' : Feat K) (v : Nat), (∀ j, Hops sym es v (k * Ls.length) j → X j = X' j) →
      gcn n A Ls X v = gcn n A Ls X' v
  | [], X, X', v, h => h v rfl
  | [L], X, X', v, h => by
    unfold gcn
    exact app_row L (mul_local fun j hj => h j (by simpa using hA v j hj))
  | L :: L' :: rest, X, X', v, h => by
    unfold gcn
    refine gcn_local hA (L' :: rest) _ _ v fun j hj => ?_
    refine relu_row (app_row L (mul_local fun m hm => h m ?_))
    rw [List.length_cons (as := L' :: rest), Nat.mul_succ]
    exact hops_trans hj k m (hA j m hm)

theorem head_row (exp : K → K) (H : Head K) {outs outs' : List (Feat K)} {v v' : Nat} (h : (outs.map fun o => o v) = outs'.map fun o => o v') :
    H.app exp outs v = H.app exp outs' v' := by
  cases H with
  | fc width L =>
    unfold Head.app
    refine app_row L ?_
    funext c
    rw [h]
  | attention logits L =>
    unfold Head.app
    cases L with
    | none =>
      funext c
      dsimp only
      rw [h]
    | some L =>
      refine app_row L ?_
      funext c
      rw [h]

/-- **C189 (reach).**  With `p` powers and networks of at most `layers` layers the prediction for a node depends only on the features of
nodes at most `(p - 1) * layers` links away: with one power it depends on its own features alone and the graph does not matter. -/
theorem C189_reach (exp sqrt : K → K) (eps : K) (classes layers : Nat) (N : Net K) (s : Settings) (d : Data K) (f : Fitted K)
    (hf : fit sqrt eps s d = .ok f) (hN : ∀ i, (N.gcns i).length ≤ layers) (d1 d2 : Data K) (h1 : d1.n = d.n) (h2 : d2.n = d.n) (v : Nat)
    (hX : ∀ i, Hops s.symmetrize d.edges v ((s.powers.toNat - 1) * layers) i → d1.X i = d2.X i) :
    ∃ q1 q2, predict exp classes N f d1 = .ok q1 ∧ predict exp classes N f d2 = .ok q2 ∧ q1 v = q2 v := by
  have hfe : f = ⟨d.n, s.powers.toNat, s.r.toNat, normAdj sqrt eps d.n (dense s.symmetrize s.loops d.edges)⟩ := by
    unfold fit at hf
    split at hf
    · cases hf
    · split at hf
      · cases hf
      · split at hf
        · cases hf
        · split at hf
          · cases hf
          · cases hf; rfl
  subst hfe
  unfold predict
  rw [if_neg (not_not.mpr h1), if_neg (not_not.mpr h2)]
  refine ⟨_, _, rfl, rfl, ?_⟩
  dsimp only
  congr 1
  refine head_row exp N.head ?_
  unfold outputs
  rw [List.map_flatMap, List.map_flatMap]
  refine List.flatMap_congr fun k hk => ?_
  rw [List.map_map, List.map_map]
  refine List.map_congr_left fun t _ => ?_
  refine gcn_local (sym := s.symmetrize) (es := d.edges) (k := k)
    (fun i j hne => (C189_powers sqrt eps d.n s.symmetrize s.loops d.edges).1 k i j hne) _ _ _ v fun j hj => hX j (hops_mono ?_ hj)
  have := List.mem_range.mp hk
  exact Nat.mul_le_mul (by omega) (hN _)

/-- One number in, one out. -/
def one : Linear Rat := ⟨1, fun _ _ => 1, fun _ => 0⟩

/-- A network with single layers whose scores are the sum of its outputs. -/
def sums : Net Rat := ⟨fun _ => [one], .fc 1 ⟨2, fun o _ => if o = 0 then 1 else 0, fun _ => 0⟩⟩

/-- The predictions after `fit` on one dataset and `predict_proba` on another. -/
def run (s : Settings) (d d' : Data Rat) : Option (List Rat) :=
  match fit id 1 s d with
  | .error _ => none
  | .ok f => match predict (fun x => 1 + x * x) 2 sums f d' with
    | .error _ => none
    | .ok q => some ((List.range d'.n).map fun v => q v 0)

/-- The reach is exact: two powers see one link away, not two. -/
example : run ⟨2, 1, 1, "fc", true, true⟩ ⟨3, [⟨0, 1, 1⟩, ⟨1, 2, 1⟩], fun _ _ => 1⟩ ⟨3, [], fun i _ => if i = 1 then 5 else 1⟩ ≠
    run ⟨2, 1, 1, "fc", true, true⟩ ⟨3, [⟨0, 1, 1⟩, ⟨1, 2, 1⟩], fun _ _ => 1⟩ ⟨3, [], fun _ _ => 1⟩ ∧
    (run ⟨2, 1, 1, "fc", true, true⟩ ⟨3, [⟨0, 1, 1⟩, ⟨1, 2, 1⟩], fun _ _ => 1⟩ ⟨3, [], fun i _ => if i = 2 then 5 else 1⟩).map (·[0]?) =
    (run ⟨2, 1, 1, "fc", true, true⟩ ⟨3, [⟨0, 1, 1⟩, ⟨1, 2, 1⟩], fun _ _ => 1⟩ ⟨3, [], fun _ _ => 1⟩).map (·[0]?) := by
  decide +kernel

/-- **C189 violated (direction).**  Without symmetrization features flow against the edges: with the one edge from 0 to 1, the features of
0 do not reach 1 but those of 1 reach 0. -/
theorem C189_direction_violated :
    (run ⟨2, 1, 1, "fc", true, false⟩ ⟨2, [⟨0, 1, 1⟩], fun _ _ => 1⟩ ⟨2, [⟨0, 1, 1⟩], fun i _ => if i = 1 then 5 else 1⟩).map (·[0]?) ≠
      (run ⟨2, 1, 1, "fc", true, false⟩ ⟨2, [⟨0, 1, 1⟩], fun _ _ => 1⟩ ⟨2, [⟨0, 1, 1⟩], fun _ _ => 1⟩).map (·[0]?) ∧
    (run ⟨2, 1, 1, "fc", true, false⟩ ⟨2, [⟨0, 1, 1⟩], fun _ _ => 1⟩ ⟨2, [⟨0, 1, 1⟩], fun i _ => if i = 0 then 5 else 1⟩).map (·[1]?) =
      (run ⟨2, 1, 1, "fc", true, false⟩ ⟨2, [⟨0, 1, 1⟩], fun _ _ => 1⟩ ⟨2, [⟨0, 1, 1⟩], fun _ _ => 1⟩).map (·[1]?) := by
  decide +kernel

/-! ### Names of nodes -/

theorem entry_rename (σ : Equiv.Perm Nat) (es : List (WEdge K)) (i j : Nat) :
    entry (es.map (Nets.Spec.rename σ)) (σ i) (σ j) = entry es i j := by
  unfold entry
  rw [List.filter_map, List.map_map]
  have : es.filter ((fun e : WEdge K => decide (e.src ≠ e.dst ∧ e.src = σ i ∧ e.dst = σ j)) ∘ Nets.Spec.rename σ) =
      es.filter fun e => decide (e.src ≠ e.dst ∧ e.src = i ∧ e.dst = j) := by
    refine List.filter_congr fun e _ => ?_
    simp [Nets.Spec.rename]
  rw [this]
  rfl

theorem sum_range_perm {n : Nat} (σ : Equiv.Perm Nat) (hn : ∀ i, σ i < n ↔ i < n) (f : Nat → K) :
    ((List.range n).map f).sum = ((List.range n).map fun i => f (σ i)).sum := by
  have h := (range_rename σ hn).map f
  rw [List.map_map] at h
  exact h.sum_eq

theorem dense_rename (σ : Equiv.Perm Nat) (sym loops : Bool) (es : List (WEdge K)) (i j : Nat) :
    dense sym loops (es.map (Nets.Spec.rename σ)) (σ i) (σ j) = dense sym loops es i j := by
  unfold dense
  rw [entry_rename, entry_rename]
  simp

theorem norm_rename (sqrt : K → K) (eps : K) {n : Nat} (σ : Equiv.Perm Nat) (hn : ∀ i, σ i < n ↔ i < n) {A B : Nat → Nat → K}
    (h : ∀ i j, B (σ i) (σ j) = A i j) (i j : Nat) : normAdj sqrt eps n B (σ i) (σ j) = normAdj sqrt eps n A i j := by
  unfold normAdj
  rw [sum_range_perm σ hn (B (σ i)), sum_range_perm σ hn (B (σ j))]
  simp only [h]

theorem power_rename {n : Nat} (σ : Equiv.Perm Nat) (hn : ∀ i, σ i < n ↔ i < n) {A B : Nat → Nat → K} (h : ∀ i j, B (σ i) (σ j) = A i j) :
    ∀ k i j, power n B k (σ i) (σ j) = power n A k i j
  | 0, i, j => by simp [power]
  | k + 1, i, j => by
    unfold power
    rw [sum_range_perm σ hn]
    simp only [h, power_rename σ hn h k]

theorem mul_rename {n : Nat} (σ : Equiv.Perm Nat) (hn : ∀ i, σ i < n ↔ i < n) {A B : Nat → Nat → K} (h : ∀ i j, B (σ i) (σ j) = A i j)
    {X Y : Feat K} (hX : ∀ i, Y (σ i) = X i) (v : Nat) : Hgcn.mul n B Y (σ v) = Hgcn.mul n A X v := by
  funext c
  unfold Hgcn.mul
  rw [sum_range_perm σ hn]
  simp only [h, hX]

theorem gcn_rename {n : Nat} (σ : Equiv.Perm Nat) (hn : ∀ i, σ i < n ↔ i < n) {A B : Nat → Nat → K} (h : ∀ i j, B (σ i) (σ j) = A i j) :
    ∀ (Ls : List (Linear K)) (X Y : Feat K), (∀ i, Y (σ i) = X i) → ∀ v, gcn n B Ls Y (σ v) = gcn n A Ls X v
  | [], _, _, hX, v => hX v
  | [L], X, Y, hX, v => app_row L (mul_rename σ hn h hX v)
  | L :: L' :: rest, X, Y, hX, v => by
    unfold gcn
    exact gcn_rename σ hn h (L' :: rest) _ _ (fun i => relu_row (app_row L (mul_rename σ hn h hX i))) v

/-- **C189 (names of nodes).**  Renaming the nodes, in the graph and in the features, renames the predictions. -/
theorem C189_relabel (exp sqrt : K → K) (eps : K) (classes : Nat) (N : Net K) (s : Settings) (n : Nat) (σ : Equiv.Perm Nat)
    (hn : ∀ i, σ i < n ↔ i < n) (es : List (WEdge K)) (X Y : Feat K) (hX : ∀ i, Y (σ i) = X i) (f g : Fitted K)
    (hf : fit sqrt eps s ⟨n, es, X⟩ = .ok f) (hg : fit sqrt eps s ⟨n, es.map (Nets.Spec.rename σ), Y⟩ = .ok g) :
    ∃ q q', predict exp classes N f ⟨n, es, X⟩ = .ok q ∧ predict exp classes N g ⟨n, es.map (Nets.Spec.rename σ), Y⟩ = .ok q' ∧
      ∀ v, q' (σ v) = q v := by
  have key : ∀ (d : Data K) (f : Fitted K), fit sqrt eps s d = .ok f →
      f = ⟨d.n, s.powers.toNat, s.r.toNat, normAdj sqrt eps d.n (dense s.symmetrize s.loops d.edges)⟩ := by
    intro d f hf
    unfold fit at hf
    split at hf
    · cases hf
    · split at hf
      · cases hf
      · split at hf
        · cases hf
        · split at hf
          · cases hf
          · cases hf; rfl
  have hfe := key _ f hf
  have hge := key _ g hg
  subst hfe
  subst hge
  unfold predict
  rw [if_neg (by simp), if_neg (by simp)]
  refine ⟨_, _, rfl, rfl, fun v => ?_⟩
  dsimp only
  congr 1
  refine head_row exp N.head ?_
  unfold outputs
  rw [List.map_flatMap, List.map_flatMap]
  refine List.flatMap_congr fun k _ => ?_
  rw [List.map_map, List.map_map]
  refine List.map_congr_left fun t _ => ?_
  exact gcn_rename σ hn (power_rename σ hn (norm_rename sqrt eps σ hn (dense_rename σ s.symmetrize s.loops es)) k) _ X Y hX v

/-! ### Undirected graphs -/

theorem entry_append (es es' : List (WEdge K)) (i j : Nat) : entry (es ++ es') i j = entry es i j + entry es' i j := by
  unfold entry
  rw [List.filter_append, List.map_append, List.sum_append]

theorem entry_flip (es : List (WEdge K)) (i j : Nat) : entry (es.map Spec.flip) i j = entry es j i := by
  unfold entry
  rw [List.filter_map, List.map_map]
  have : es.filter ((fun e : WEdge K => decide (e.src ≠ e.dst ∧ e.src = i ∧ e.dst = j)) ∘ Spec.flip) =
      es.filter fun e => decide (e.src ≠ e.dst ∧ e.src = j ∧ e.dst = i) := by
    refine List.filter_congr fun e _ => ?_
    simp only [Function.comp_apply, Spec.flip]
    exact decide_eq_decide.mpr ⟨fun h => ⟨fun hc => h.1 hc.symm, h.2.2, h.2.1⟩, fun h => ⟨fun hc => h.1 hc.symm, h.2.2, h.2.1⟩⟩
  rw [this]
  rfl

theorem entry_nonneg {es : List (WEdge K)} (h : ∀ e ∈ es, 0 ≤ e.w) (i j : Nat) : 0 ≤ entry es i j := by
  unfold entry
  refine List.sum_nonneg fun x hx => ?_
  obtain ⟨e, he, rfl⟩ := List.mem_map.mp hx
  exact h e (List.mem_filter.mp he).1

/-- **C189 (undirected graphs).**  With symmetrization and weights that are not negative it makes no difference whether every edge is
listed once or in both directions. -/
theorem C189_undirected (sqrt : K → K) (eps : K) (s : Settings) (hs : s.symmetrize = true) (n : Nat) (es : List (WEdge K)) (X X' : Feat K)
    (hw : ∀ e ∈ es, 0 ≤ e.w) (hone : ∀ e ∈ es, ∀ e' ∈ es, e.src ≠ e.dst → ¬ (e.src = e'.dst ∧ e.dst = e'.src)) :
    fit sqrt eps s ⟨n, es ++ es.map Spec.flip, X⟩ = fit sqrt eps s ⟨n, es, X'⟩ := by
  have hd : dense true s.loops (es ++ es.map Spec.flip) = dense true s.loops es := by
    funext i j
    unfold dense
    simp only [if_true]
    congr 1
    rw [entry_append, entry_append, entry_flip, entry_flip]
    have hzero : entry es i j = 0 ∨ entry es j i = 0 := by
      by_contra hc
      push Not at hc
      obtain ⟨e, he, h1, h2⟩ := entry_ne hc.1
      obtain ⟨e', he', h3, h4⟩ := entry_ne hc.2
      refine hone e he e' he' (fun hloop => ?_) ⟨by rw [h1, h4], by rw [h2, h3]⟩
      have hij : i = j := by rw [← h1, ← h2, hloop]
      subst hij
      apply hc.1
      unfold entry
      have : (es.filter fun e : WEdge K => e.src ≠ e.dst ∧ e.src = i ∧ e.dst = i) = [] := by
        rw [List.filter_eq_nil_iff]
        intro a _ ha
        obtain ⟨h5, h6, h7⟩ := of_decide_eq_true ha
        exact h5 (h6.trans h7.symm)
      rw [this]
      rfl
    have hi := entry_nonneg hw i j
    have hj := entry_nonneg hw j i
    rcases hzero with h | h
    · rw [h, zero_add, add_zero, max_self, max_eq_right hj]
    · rw [h, zero_add, add_zero, max_self, max_eq_left hi]
  unfold fit
  rw [hs, hd]

example : (∀ e ∈ ([⟨0, 1, 1⟩, ⟨1, 2, 3⟩] : List (WEdge Rat)), 0 ≤ e.w) ∧
    ∀ e ∈ ([⟨0, 1, 1⟩, ⟨1, 2, 3⟩] : List (WEdge Rat)), ∀ e' ∈ ([⟨0, 1, 1⟩, ⟨1, 2, 3⟩] : List (WEdge Rat)), e.src ≠ e.dst →
      ¬ (e.src = e'.dst ∧ e.dst = e'.src) := by decide +kernel

/-- **C189 violated (undirected graphs).**  An edge of negative weight that is listed once disappears. -/
theorem C189_undirected_violated : ¬ ∀ (s : Settings) (n : Nat) (es : List (WEdge Rat)) (X : Feat Rat), s.symmetrize = true →
    (∀ e ∈ es, ∀ e' ∈ es, e.src ≠ e.dst → ¬ (e.src = e'.dst ∧ e.dst = e'.src)) →
    run s ⟨n, es ++ es.map Spec.flip, X⟩ ⟨n, [], X⟩ = run s ⟨n, es, X⟩ ⟨n, [], X⟩ := by
  intro h
  have := h ⟨2, 1, 1, "fc", true, true⟩ 2 [⟨0, 1, -1⟩] (fun i _ => if i = 1 then 5 else 1) rfl (by decide +kernel)
  revert this
  decide +kernel

/-! ### One network for each power and replica -/

/-- **C189 (which network sees which power).**  There are as many outputs as powers times replicas; output number `k r + s` is what network
number `k r + s` makes of the features with the `k`-th power of the graph, so each network is used once and each power by `r` networks. -/
theorem C189_outputs (n powers r : Nat) (N : Net K) (A : Nat → Nat → K) (X : Feat K) :
    (outputs n powers r N A X).length = powers * r ∧ ∀ k < powers, ∀ s < r,
      (outputs n powers r N A X)[k * r + s]? = some (gcn n (power n A k) (N.gcns (k * r + s)) X) := by
  have key : ∀ p, (outputs n p r N A X).length = p * r ∧ ∀ k < p, ∀ s < r,
      (outputs n p r N A X)[k * r + s]? = some (gcn n (power n A k) (N.gcns (k * r + s)) X) := by
    intro p
    induction p with
    | zero => exact ⟨by simp [outputs], fun k hk => absurd hk (Nat.not_lt_zero k)⟩
    | succ p ih =>
      have e : outputs n (p + 1) r N A X = outputs n p r N A X ++
          (List.range r).map fun s => gcn n (power n A p) (N.gcns (p * r + s)) X := by
        unfold outputs
        rw [List.range_succ, List.flatMap_append]
        simp
      refine ⟨by rw [e, List.length_append, ih.1]; simp; ring, fun k hk s hs => ?_⟩
      rw [e]
      rcases Nat.lt_succ_iff_lt_or_eq.mp hk with h | rfl
      · have hb : k * r + s < p * r := by
          have := Nat.mul_le_mul_right r (Nat.succ_le_of_lt h)
          rw [Nat.succ_mul] at this
          omega
        rw [List.getElem?_append_left (by rw [ih.1]; exact hb)]
        exact ih.2 k h s hs
      · rw [List.getElem?_append_right (by rw [ih.1]; omega), ih.1, Nat.add_sub_cancel_left, List.getElem?_map,
          List.getElem?_range hs]
        rfl
  exact key powers

/-! ### Predictions -/

/-- **C189 (predictions).**  Predictions exist for as many nodes and are distributions; for another number of nodes `ValueError`. -/
theorem C189_distribution (exp : K → K) (E : Nets.Spec.ExpLaw exp) (classes : Nat) (hk : 0 < classes) (N : Net K) (f : Fitted K)
    (d : Data K) : (d.n = f.n → ∃ q, predict exp classes N f d = .ok q ∧
      ∀ v, (∀ c, 0 < q v c) ∧ ((List.range classes).map (q v)).sum = 1) ∧
    (d.n ≠ f.n → predict exp classes N f d = .error .valueError) := by
  unfold predict
  constructor
  · intro h
    rw [if_neg (not_not.mpr h)]
    exact ⟨_, rfl, fun v => probOf_distribution exp E classes hk _⟩
  · intro h
    rw [if_pos h]

/-- **C189 violated (the data that is given).**  Asked about a dataset with other edges, N-GCN predicts as for the graph of `fit`. -/
theorem C189_data_violated : ¬ ∀ (s : Settings) (d d' : Data Rat), d.n = d'.n → run s d d' = run s d' d' := by
  intro h
  have := h ⟨2, 1, 1, "fc", true, true⟩ ⟨2, [⟨0, 1, 3⟩], fun i _ => if i = 1 then 5 else 1⟩ ⟨2, [], fun i _ => if i = 1 then 5 else 1⟩ rfl
  revert this
  decide +kernel

end ModSSC.Gnn.Ngcn
