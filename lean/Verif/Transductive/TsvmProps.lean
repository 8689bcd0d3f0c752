import Verif.Transductive.TsvmModel
import Verif.Transductive.FitProps
import Verif.ExceptLemmas
import Mathlib.Tactic.Linarith
import Mathlib.Tactic.FieldSimp
import Mathlib.Tactic.Positivity

/-!
# The transductive SVM (C144)
-/

namespace ModSSC.Tsvm
open ModSSC ModSSC.Inductive

/-- `v` is a label (not negative) of a node in the mask. -/
def Spec.LabelOf (y : List Int) (train : List Bool) (v : Int) : Prop :=
  0 ≤ v ∧ ∃ i : Nat, train[i]? = some true ∧ y[i]? = some v

theorem mem_labeled {y : List Int} {train : List Bool} {v : Int} :
    v ∈ (((y.zip train).filter (·.2)).map (·.1)).filter (0 ≤ ·) ↔ Spec.LabelOf y train v := by
  simp only [List.mem_filter, List.mem_map, Prod.exists, exists_and_right, exists_eq_right, decide_eq_true_eq]
  constructor
  · rintro ⟨hm, h0⟩
    obtain ⟨i, hi, he⟩ := List.mem_iff_getElem.mp hm
    simp only [List.getElem_zip, Prod.mk.injEq] at he
    rw [List.length_zip] at hi
    exact ⟨h0, i, by rw [List.getElem?_eq_getElem (by omega), he.2], by rw [List.getElem?_eq_getElem (by omega), he.1]⟩
  · rintro ⟨h0, i, ht, hy⟩
    obtain ⟨h1, h1'⟩ := List.getElem?_eq_some_iff.mp ht
    obtain ⟨h2, h2'⟩ := List.getElem?_eq_some_iff.mp hy
    refine ⟨?_, h0⟩
    rw [List.mem_iff_getElem]
    exact ⟨i, by rw [List.length_zip]; omega, by rw [List.getElem_zip, h1', h2']⟩

theorem unique_eq_pair {l : List Int} {a b : Int} (hab : a < b) (h : ∀ v, v ∈ l ↔ v = a ∨ v = b) : npUnique l = [a, b] := by
  have hp : (npUnique l).Perm [a, b] := by
    rw [List.perm_ext_iff_of_nodup (nodup_npUnique l) (by simp; omega)]
    intro v
    rw [mem_npUnique, h]; simp
  exact hp.eq_of_pairwise (le := (· ≤ ·)) (fun a b _ _ h1 h2 => Int.le_antisymm h1 h2) (npUnique_sorted l) (by simp; omega)

/-- C144: the coding.  When the labeled nodes have exactly two labels `a < b`, these are the classes, `a` becomes `-1`, `b`
becomes `+1`, and no other label of the dataset matters. -/
theorem C144_encode (y : List Int) (train : List Bool) (a b : Int) (hab : a < b)
    (h : ∀ v, Spec.LabelOf y train v ↔ v = a ∨ v = b) (full : List Int) :
    binaryClasses y train full = .ok (a, b) ∧ encode (a, b) a = -1 ∧ encode (a, b) b = 1 ∧
    ∀ v, v ≠ a → v ≠ b → encode (a, b) v = 0 := by
  refine ⟨?_, ?_, ?_, ?_⟩
  · unfold binaryClasses
    simp only
    rw [unique_eq_pair hab fun v => mem_labeled.trans (h v)]
  · simp [encode, hab.ne]
  · simp [encode]
  · intro v h1 h2; simp [encode, h1, h2]

/-- C144: whenever the classes are found they are two different labels in order; otherwise `fit` raises `ValueError`. -/
theorem C144_binary (y : List Int) (train : List Bool) (full : List Int) :
    (∀ e, binaryClasses y train full = .error e → e = .valueError) ∧
    ∀ a b, binaryClasses y train full = .ok (a, b) → a < b ∧ 0 ≤ a := by
  unfold binaryClasses
  have key : ∀ (l : List Int) (a b : Int), npUnique (l.filter (0 ≤ ·)) = [a, b] → a < b ∧ 0 ≤ a := by
    intro l a b h
    have hs := npUnique_sorted (l.filter (0 ≤ ·))
    have hn := nodup_npUnique (l.filter (0 ≤ ·))
    have ha : a ∈ npUnique (l.filter (0 ≤ ·)) := by rw [h]; simp
    rw [h] at hs hn
    rw [mem_npUnique] at ha
    simp at hs hn ha
    omega
  simp only
  constructor
  · intro e he
    split at he
    · cases he
    · split at he
      · cases he
      · cases he; rfl
  · intro a b hab
    split at hab
    · rename_i h; cases hab; exact key _ _ _ h
    · split at hab
      · rename_i h; cases hab; exact key _ _ _ h
      · cases hab

/-! ### Labels of nodes outside the training mask -/

theorem labeled_congr {y y' : List Int} {train : List Bool} (h : ∀ i : Nat, train[i]? = some true → y[i]? = y'[i]?) (v : Int) :
    Spec.LabelOf y train v ↔ Spec.LabelOf y' train v := by
  unfold Spec.LabelOf
  refine and_congr_right fun _ => exists_congr fun i => and_congr_right fun ht => ?_
  rw [h i ht]

theorem lab_congr {V : Type} (f : Int → Int) (X : List V) (y y' : List Int) (train : List Bool) (hl : y.length = y'.length)
    (h : ∀ i : Nat, train[i]? = some true → y[i]? = y'[i]?) :
    (((X.zip y).zip train).filter (·.2)).map (fun q => (q.1.1, f q.1.2)) =
    (((X.zip y').zip train).filter (·.2)).map (fun q => (q.1.1, f q.1.2)) := by
  induction X generalizing y y' train with
  | nil => simp
  | cons x X ih =>
    cases y with
    | nil =>
      cases y' with
      | nil => rfl
      | cons _ _ => simp at hl
    | cons v y =>
      cases y' with
      | nil => simp at hl
      | cons v' y' =>
        cases train with
        | nil => simp
        | cons t train =>
          have ih := ih y y' train (by simpa using hl) fun i hi => by simpa using h (i + 1) (by simpa using hi)
          simp only [List.zip_cons_cons, List.filter_cons]
          cases t with
          | false => simpa using ih
          | true =>
            have : v = v' := by simpa using h 0 rfl
            subst this
            simpa using ih

/-- C144 (partial: two labels among the labeled nodes): the whole of `fit` depends on the labels of the training nodes only;
neither the labels of other nodes nor `meta["y_true"]` matter. -/
theorem C144_fit_labels_partial {σ W V : Type} (c : Cfg σ W V) (X : List V) (y y' : List Int) (train : List Bool)
    (unl : Option (List Bool)) (t t' : Option (List Int)) (w0 : W) (s0 : σ) (hl : y.length = y'.length)
    (hs : ∀ i : Nat, train[i]? = some true → y[i]? = y'[i]?) (a b : Int) (hab : a < b)
    (h : ∀ v, Spec.LabelOf y train v ↔ v = a ∨ v = b) :
    fit c X y train unl t w0 s0 = fit c X y' train unl t' w0 s0 := by
  unfold fit
  rw [(C144_encode y train a b hab h _).1,
    (C144_encode y' train a b hab (fun v => (labeled_congr hs v).symm.trans (h v)) _).1]
  change (if _ then _ else _) = (if _ then _ else _)
  split
  · rfl
  simp only [bind, Except.bind]
  rw [lab_congr (encode (a, b)) X y y' train hl hs]

/-- C144 is violated when the labeled nodes have one label only: then `meta["y_true"]`, the true labels of the unlabeled
nodes, decides whether `fit` succeeds and which side of the boundary the labeled nodes are on. -/
theorem C144_leak_violated :
    binaryClasses [1, -1, -1] [true, false, false] [1, 0, 0] = .ok (0, 1) ∧
    binaryClasses [1, -1, -1] [true, false, false] [1, 2, 2] = .ok (1, 2) ∧
    binaryClasses [1, -1, -1] [true, false, false] [1, 1, 1] = .error .valueError ∧
    encode (0, 1) 1 = 1 ∧ encode (1, 2) 1 = -1 := by
  refine ⟨?_, ?_, ?_, ?_, ?_⟩ <;> decide +kernel

/-! ### Batches -/

theorem slices_flatten {α : Type} (bs : Nat) (hb : 0 < bs) (l : List α) : (slices bs l).flatten = l := by
  have key : ∀ m : Nat, ((List.range m).map fun j => (l.drop (j * bs)).take bs).flatten = l.take (m * bs) := by
    intro m
    induction m with
    | zero => simp
    | succ m ih =>
      rw [List.range_succ, List.map_append, List.flatten_append, ih]
      simp only [List.map_cons, List.map_nil, List.flatten_cons, List.flatten_nil, List.append_nil]
      rw [Nat.succ_mul, List.take_add]
  unfold slices
  rw [key, List.take_of_length_le]
  have := Nat.div_add_mod (l.length + bs - 1) bs
  have hm := Nat.mod_lt (l.length + bs - 1) hb
  rw [Nat.mul_comm]
  omega

theorem gather_range {D : Type} (data : List D) : (List.range data.length).filterMap (data[·]?) = data := by
  induction data using List.reverseRecOn with
  | nil => rfl
  | append_singleton l a ih =>
    rw [List.length_append, List.length_singleton, List.range_succ, List.filterMap_append]
    congr 1
    · calc (List.range l.length).filterMap ((l ++ [a])[·]?) = (List.range l.length).filterMap (l[·]?) := by
            apply List.filterMap_congr
            intro i hi
            rw [List.getElem?_append_left (List.mem_range.mp hi)]
        _ = l := ih
    · simp

/-- C144: one epoch.  With a positive batch size the batches hold every row exactly once, in a random order, each batch at
most `batch_size` rows and none empty; with batch size zero and at least one row it is a `ValueError`; with a negative one
nothing is learned. -/
theorem C144_epoch {σ W D : Type} (R : Rng σ) (hR : R.Lawful) (step : W → List D → W) (data : List D) (bs : Int) (w : W) (s : σ) :
    (0 < bs → ∃ (batches : List (List D)) (s' : σ), epoch R step data bs (w, s) = .ok (batches.foldl step w, s') ∧ batches.flatten.Perm data ∧
      ∀ b ∈ batches, 0 < b.length ∧ (b.length : Int) ≤ bs) ∧
    (bs = 0 → data ≠ [] → epoch R step data bs (w, s) = .error .valueError) ∧
    (bs < 0 → ∃ s', epoch R step data bs (w, s) = .ok (w, s')) := by
  have hempty : ∀ d : List D, (List.range d.length).isEmpty = d.isEmpty := by intro d; cases d <;> simp [List.range_succ]
  refine ⟨?_, ?_, ?_⟩
  · intro hb
    unfold epoch batchIndices
    rw [hempty]
    cases hd : data.isEmpty with
    | true =>
      have : data = [] := List.isEmpty_iff.mp hd
      subst this
      exact ⟨[], s, rfl, List.Perm.refl _, by simp⟩
    | false =>
      simp only [Bool.false_eq_true, if_false, if_neg (show ¬ bs = 0 by omega), if_neg (show ¬ bs < 0 by omega), ebind_ok]
      obtain ⟨n, hn⟩ : ∃ n : Nat, bs = (n : Int) := ⟨bs.toNat, by omega⟩
      subst hn
      rw [Int.toNat_natCast]
      have hn0 : 0 < n := by omega
      have hp := hR.perm s (List.range data.length)
      generalize hr : R.permutation s (List.range data.length) = r at hp
      refine ⟨(slices n r.1).map fun idx => idx.filterMap (data[·]?), r.2, ?_, ?_, ?_⟩
      · rw [List.foldl_map]
        exact ⟨_, rfl, rfl⟩
      · have hfl : ((slices n r.1).map fun idx => idx.filterMap (data[·]?)).flatten = r.1.filterMap (data[·]?) := by
          conv_rhs => rw [← slices_flatten n hn0 r.1]
          generalize slices n r.1 = L
          induction L with
          | nil => rfl
          | cons a L ih => rw [List.map_cons, List.flatten_cons, ih, List.flatten_cons, List.filterMap_append]
        rw [hfl]
        exact (hp.filterMap _).trans (by rw [gather_range])
      · intro b hb'
        obtain ⟨idx, hidx, rfl⟩ := List.mem_map.mp hb'
        have hlen : (idx.filterMap (data[·]?)).length = idx.length := by
          have hin : ∀ i ∈ idx, i < data.length := by
            intro i hi
            have : i ∈ r.1 := by
              rw [← slices_flatten n hn0 r.1]
              exact List.mem_flatten.mpr ⟨idx, hidx, hi⟩
            exact List.mem_range.mp (hp.mem_iff.mp this)
          clear hidx hb'
          induction idx with
          | nil => rfl
          | cons i idx ih =>
            rw [List.filterMap_cons, List.getElem?_eq_getElem (hin i List.mem_cons_self)]
            simp [ih fun j hj => hin j (List.mem_cons_of_mem _ hj)]
        rw [hlen]
        unfold slices at hidx
        obtain ⟨j, hj, rfl⟩ := List.mem_map.mp hidx
        have hj := List.mem_range.mp hj
        rw [List.length_take, List.length_drop]
        have h1 : j * n + n ≤ r.1.length + n - 1 := by
          have := Nat.div_mul_le_self (r.1.length + n - 1) n
          have h2 : (j + 1) * n ≤ (r.1.length + n - 1) / n * n := Nat.mul_le_mul_right n hj
          rw [Nat.succ_mul] at h2
          omega
        omega
  · intro hb hd
    unfold epoch batchIndices
    rw [hempty, if_neg (by simpa using hd)]
    simp only [hb, if_true]
    rfl
  · intro hb
    unfold epoch batchIndices
    rw [hempty]
    cases hd : data.isEmpty with
    | true => exact ⟨s, rfl⟩
    | false =>
      simp only [Bool.false_eq_true, if_false, if_neg (show ¬ bs = 0 by omega), if_pos hb, ebind_ok]
      exact ⟨_, _, rfl, rfl⟩

/-! ### Pseudo-labels -/

theorem signs_get (scores : List Rat) (i : Nat) (x : Rat) (h : scores[i]? = some x) :
    (signs scores)[i]? = some (if 0 ≤ x then 1 else -1) := by simp [signs, h]

/-- C144: without `balance`, or when both signs occur, an unlabeled node has the label `+1` exactly if its score is not
negative, else `-1`. -/
theorem C144_pseudo_sign (argsort : List Rat → List Nat) (balance : Bool) (scores : List Rat)
    (h : balance = true → (∃ x ∈ scores, 0 ≤ x) ∧ ∃ x ∈ scores, x < 0) (i : Nat) (x : Rat) (hx : scores[i]? = some x) :
    (pseudo argsort balance scores)[i]? = some (if 0 ≤ x then 1 else -1) := by
  unfold pseudo
  simp only
  rw [if_neg, signs_get _ _ _ hx]
  intro hc
  rw [Bool.and_eq_true, Bool.or_eq_true] at hc
  obtain ⟨hb, hc⟩ := hc
  obtain ⟨⟨p, hp, hp0⟩, q, hq, hq0⟩ := h hb
  have m1 : (1 : Int) ∈ signs scores := List.mem_map.mpr ⟨p, hp, by rw [if_pos hp0]⟩
  have m2 : (-1 : Int) ∈ signs scores := List.mem_map.mpr ⟨q, hq, by rw [if_neg (not_le.mpr hq0)]⟩
  rcases hc with hc | hc
  · simp [m1] at hc
  · simp [m2] at hc

/-- One of the two signs does not occur. -/
def Spec.OneSided (scores : List Rat) : Prop := (∀ x ∈ scores, 0 ≤ x) ∨ ∀ x ∈ scores, x < 0

theorem pseudo_balanced (argsort : List Rat → List Nat) (scores : List Rat) (h : Spec.OneSided scores) :
    pseudo argsort true scores = balanced (argsort (scores.map fun x => |x|)) scores.length := by
  unfold pseudo
  simp only
  rw [if_pos]
  rw [Bool.true_and, Bool.or_eq_true]
  rcases h with h | h
  · right
    have : (-1 : Int) ∉ signs scores := by
      intro hm
      obtain ⟨x, hx, he⟩ := List.mem_map.mp hm
      rw [if_pos (h x hx)] at he
      omega
    simpa using this
  · left
    have : (1 : Int) ∉ signs scores := by
      intro hm
      obtain ⟨x, hx, he⟩ := List.mem_map.mp hm
      rw [if_neg (not_le.mpr (h x hx))] at he
      omega
    simpa using this

theorem count_filter_mem {p : List Nat} {n : Nat} (hn : p.Nodup) (hb : ∀ i ∈ p, i < n) :
    ((List.range n).filter (· ∈ p)).length = p.length := by
  apply List.Perm.length_eq
  rw [List.perm_ext_iff_of_nodup (List.nodup_range.filter _) hn]
  intro i
  simp only [List.mem_filter, List.mem_range, decide_eq_true_eq]
  exact ⟨fun h => h.2, fun h => ⟨hb i h, h⟩⟩

/-- C144: with `balance` a one-sided prediction is split in halves: of `n` unlabeled nodes `n / 2` get `-1`, all others get
`+1`; and the nodes with `-1` are those with the smallest distances from the boundary. -/
theorem C144_balance (argsort : List Rat → List Nat) (hs : IsArgsortQ argsort) (scores : List Rat) (h : Spec.OneSided scores) :
    (pseudo argsort true scores).length = scores.length ∧
    (pseudo argsort true scores).count (-1) = scores.length / 2 ∧
    (∀ v ∈ pseudo argsort true scores, v = 1 ∨ v = -1) ∧
    ∀ (i j : Nat) (a b : Rat), scores[i]? = some a → scores[j]? = some b →
      (pseudo argsort true scores)[i]? = some (-1) → (pseudo argsort true scores)[j]? = some 1 → |a| ≤ |b| := by
  rw [pseudo_balanced _ _ h]
  obtain ⟨hp, ho⟩ := hs (scores.map fun x => |x|)
  generalize argsort (scores.map fun x => |x|) = order at hp ho
  rw [List.length_map] at hp
  have hlen : order.length = scores.length := by rw [hp.length_eq, List.length_range]
  have hnd : order.Nodup := hp.nodup_iff.mpr List.nodup_range
  have hget : ∀ (i : Nat) (v : Int), (balanced order scores.length)[i]? = some v →
      i < scores.length ∧ v = if i ∈ order.take (order.length / 2) then -1 else 1 := by
    intro i v hv
    unfold balanced at hv
    rw [List.getElem?_map] at hv
    by_cases hi : i < scores.length
    · simp only [List.getElem?_range hi, Option.map_some, Option.some.injEq] at hv
      exact ⟨hi, hv.symm⟩
    · rw [List.getElem?_eq_none (by rw [List.length_range]; omega)] at hv
      simp at hv
  refine ⟨by simp [balanced], ?_, ?_, ?_⟩
  · unfold balanced
    rw [List.count_eq_countP, List.countP_map, List.countP_eq_length_filter]
    have : ((List.range scores.length).filter ((fun x => x == (-1 : Int)) ∘ fun i => if i ∈ order.take (order.length / 2) then -1 else 1)) =
        (List.range scores.length).filter (· ∈ order.take (order.length / 2)) := by
      apply List.filter_congr
      intro i _
      by_cases hi : i ∈ order.take (order.length / 2) <;> simp [hi]
    rw [this, count_filter_mem (hnd.sublist (List.take_sublist _ _)), List.length_take, hlen]
    · omega
    · intro i hi
      exact List.mem_range.mp (hp.mem_iff.mp (List.mem_of_mem_take hi))
  · intro v hv
    obtain ⟨i, hi, rfl⟩ := List.mem_map.mp hv
    split <;> simp
  · intro i j a b ha hb h1 h2
    obtain ⟨hi, e1⟩ := hget i _ h1
    obtain ⟨hj, e2⟩ := hget j _ h2
    have mi : i ∈ order.take (order.length / 2) := by
      by_contra hc
      rw [if_neg hc] at e1
      omega
    have mj : j ∈ order.drop (order.length / 2) := by
      have hmem : j ∈ order := hp.mem_iff.mpr (List.mem_range.mpr hj)
      rw [← List.take_append_drop (order.length / 2) order, List.mem_append] at hmem
      rcases hmem with hm | hm
      · rw [if_pos hm] at e2; omega
      · exact hm
    rw [← List.take_append_drop (order.length / 2) order, List.pairwise_append] at ho
    have := ho.2.2 i mi j mj
    simpa [List.getD_eq_getElem?_getD, ha, hb] using this

/-- C144 (partial: all scores on the positive side): balancing respects the scores: a node labeled `-1` never has a larger
score than one labeled `+1`. -/
theorem C144_balance_order_partial (argsort : List Rat → List Nat) (hs : IsArgsortQ argsort) (scores : List Rat)
    (h : ∀ x ∈ scores, 0 ≤ x) (i j : Nat) (a b : Rat) (ha : scores[i]? = some a) (hb : scores[j]? = some b)
    (h1 : (pseudo argsort true scores)[i]? = some (-1)) (h2 : (pseudo argsort true scores)[j]? = some 1) : a ≤ b := by
  have := (C144_balance argsort hs scores (.inl h)).2.2.2 i j a b ha hb h1 h2
  rwa [abs_of_nonneg (h a (List.mem_of_getElem? ha)), abs_of_nonneg (h b (List.mem_of_getElem? hb))] at this

/-- C144 is violated when all scores are negative: the order is turned round, a node labeled `-1` never has a smaller score
than one labeled `+1` — the nodes furthest on the negative side become the positive ones. -/
theorem C144_balance_order_violated (argsort : List Rat → List Nat) (hs : IsArgsortQ argsort) (scores : List Rat)
    (h : ∀ x ∈ scores, x < 0) (i j : Nat) (a b : Rat) (ha : scores[i]? = some a) (hb : scores[j]? = some b)
    (h1 : (pseudo argsort true scores)[i]? = some (-1)) (h2 : (pseudo argsort true scores)[j]? = some 1) : b ≤ a := by
  have := (C144_balance argsort hs scores (.inr h)).2.2.2 i j a b ha hb h1 h2
  rw [abs_of_neg (h a (List.mem_of_getElem? ha)), abs_of_neg (h b (List.mem_of_getElem? hb))] at this
  linarith

/-! ### Weights -/

/-- C144: the weight of the unlabeled nodes: it starts at 1/1000 and grows tenfold each iteration up to `C_u_max`. -/
theorem C144_weight (cMax : Rat) (h : 0 ≤ cMax) (k : Nat) : weightU cMax (k + 1) = min cMax (10 ^ (k + 1) / 1000) := by
  induction k with
  | zero => simp [weightU]; norm_num
  | succ k ih =>
    rw [weightU, ih, pow_succ (10 : Rat) (k + 1)]
    have hp : (0 : Rat) < 10 ^ (k + 1) := by positivity
    rcases le_total cMax (10 ^ (k + 1) / 1000) with h1 | h1
    · rw [min_eq_left h1, min_eq_left (by linarith), min_eq_left (by linarith)]
    · rw [min_eq_right h1]
      congr 1
      ring

/-- C144 (partial: `C_u_max` at least 1/1000): the weight never exceeds `C_u_max` and never decreases. -/
theorem C144_weight_bound_partial (cMax : Rat) (h : 1 / 1000 ≤ cMax) (k : Nat) :
    weightU cMax k ≤ cMax ∧ weightU cMax k ≤ weightU cMax (k + 1) ∧ 0 < weightU cMax k := by
  have hpos : ∀ k, 0 < weightU cMax k := by
    intro k
    induction k with
    | zero => simp [weightU]
    | succ k ih => rw [weightU]; exact lt_min (by linarith) (by linarith)
  have hle : ∀ k, weightU cMax k ≤ cMax := by
    intro k
    cases k with
    | zero => exact h
    | succ k => exact min_le_left _ _
  refine ⟨hle k, ?_, hpos k⟩
  rw [weightU]
  exact le_min (hle k) (by linarith [hpos k])

/-- C144 is violated for smaller values: the first iteration always uses 1/1000. -/
theorem C144_weight_bound_violated : weightU 0 0 = 1 / 1000 ∧ ¬ weightU 0 0 ≤ 0 := by
  constructor
  · rfl
  · norm_num [weightU]

/-- C144: with no unlabeled node the method is the SVM on the labeled nodes, whatever the number of iterations. -/
theorem C144_no_unlabeled {σ W V : Type} (c : Cfg σ W V) (lab : List (V × Int)) (k n : Nat) (ws : W × σ) :
    loop c lab [] k n ws = .ok ws := by
  cases n <;> rfl

/-- C144: repeating the labeled rows: every row as often, in order. -/
theorem C144_repeat {D : Type} [DecidableEq D] (cL cU : Rat) (l : List D) (d : D) :
    1 ≤ repeats cL cU ∧ (repeatEach (repeats cL cU) l).count d = repeats cL cU * l.count d := by
  constructor
  · unfold repeats; omega
  · generalize repeats cL cU = r
    unfold repeatEach
    induction l with
    | nil => simp
    | cons a l ih =>
      rw [List.flatMap_cons, List.count_append, ih, List.count_cons, List.count_replicate]
      split
      · ring
      · ring

/-! ### Probabilities -/

/-- C144: the rows of `predict_proba` are distributions over two columns, and the second column has at least one half exactly
if the score is not negative (`exp` positive, strictly increasing, `exp 0 = 1`). -/
theorem C144_proba (exp : Rat → Rat) (hpos : ∀ x, 0 < exp x) (hmono : StrictMono exp) (h0 : exp 0 = 1) (score : Rat) :
    (probaRow exp score).sum = 1 ∧ (∀ p ∈ probaRow exp score, 0 < p ∧ p < 1) ∧
    ∃ p q, probaRow exp score = [p, q] ∧ (p ≤ q ↔ 0 ≤ score) := by
  have hp := hpos (-score)
  have hd : (0 : Rat) < 1 + exp (-score) := by linarith
  have hq : 0 < 1 / (1 + exp (-score)) := by positivity
  have hq1 : 1 / (1 + exp (-score)) < 1 := by rw [div_lt_one hd]; linarith
  refine ⟨?_, ?_, _, _, rfl, ?_⟩
  · simp [probaRow]
  · intro p hpm
    simp only [probaRow, List.mem_cons, List.not_mem_nil, or_false] at hpm
    rcases hpm with rfl | rfl
    · constructor <;> linarith
    · exact ⟨hq, hq1⟩
  · have : (1 - 1 / (1 + exp (-score)) ≤ 1 / (1 + exp (-score))) ↔ exp (-score) ≤ 1 := by
      rw [show (1 - 1 / (1 + exp (-score)) ≤ 1 / (1 + exp (-score))) ↔ 1 ≤ 2 * (1 / (1 + exp (-score))) from
        ⟨fun h => by linarith, fun h => by linarith⟩, mul_one_div, le_div_iff₀ hd]
      constructor <;> intro h <;> linarith
    rw [this, ← h0, hmono.le_iff_le]
    constructor <;> intro h <;> linarith

/-- C144 is violated for labels other than 0 and 1: `predict_proba` has columns 0 and 1 whatever the classes are.  With labels
1 and 2 a positive score makes column 1 the largest, which is the label of the negative class. -/
theorem C144_columns_violated :
    binaryClasses [1, 2, -1] [true, true, false] [1, 2, -1] = .ok (1, 2) ∧ encode (1, 2) 2 = 1 ∧
    encode (1, 2) 1 = -1 ∧ ∀ exp s, (probaRow exp s).length = 2 := by
  refine ⟨by decide +kernel, rfl, rfl, fun _ _ => rfl⟩

example : slices 2 [1, 2, 3, 4, 5] = [[1, 2], [3, 4], [5]] := by decide +kernel
example : pseudo (fun _ => [1, 0, 2, 3]) true [2, 1, 3, 4] = [-1, -1, 1, 1] := by decide +kernel
example : pseudo (fun _ => [1, 0, 2, 3]) true [-2, -1, -3, -4] = [-1, -1, 1, 1] := by decide +kernel
example : pseudo (fun _ => []) true [-2, 1] = [-1, 1] := by decide +kernel
example : (List.range 5).map (weightU 1) = [1 / 1000, 1 / 100, 1 / 10, 1, 1] := by decide +kernel
example : repeats 1 (1 / 1000) = 1000 ∧ repeats 1 2 = 1 := by decide +kernel
example : Spec.LabelOf [0, 1, -1] [true, true, false] 1 := ⟨by decide, 1, rfl, rfl⟩

/-- A function on the rationals with the properties of `exp` used above. -/
def demoExp (x : Rat) : Rat := if 0 ≤ x then 1 + x else 1 / (1 - x)

example : probaRow demoExp 1 = [1 / 3, 2 / 3] := by decide +kernel

def demoCfg : Cfg Nat Int Int :=
  { R := Rng.demo, argsort := fun l => List.range l.length, score := fun w x => (w * x : Int), step := fun _ w b => b.foldl (fun w q => w + q.1 * q.2) w,
    maxIter := 2, epochs := 1, batchSize := 2, cL := 1 / 500, cUMax := 1, balance := true }

example : (match fit demoCfg [-1, 2, 3] [0, 1, 5] [true, true, false] none (some [9, 9, 9]) 0 0 with
    | .ok r => decide (r.2 = (0, 1)) | .error _ => false) = true := by decide +kernel

end ModSSC.Tsvm
