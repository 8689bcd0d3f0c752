import Verif.Deep.TrinetTrainModel
import Verif.Deep.BatchProps
import Verif.ExceptLemmas
import Mathlib.Tactic.Linarith
import Mathlib.Tactic.FieldSimp
import Mathlib.Algebra.BigOperators.Group.List.Basic

/-!
# The training of Tri-Net (C200)
-/

namespace ModSSC.Trinet
open ModSSC ModSSC.Deep

section
variable {K : Type} [Field K] [LinearOrder K]

/-- **C200 (bundles).**  The networks are accepted exactly if there are a shared one and three heads of which no two have a parameter in
common; they are then used as given. -/
theorem C200_bundles (shared : Option (List Nat)) (heads : Option (List (List Nat))) (r : List Nat × List (List Nat)) :
    validateBundles shared heads = .ok r ↔ shared = some r.1 ∧ heads = some r.2 ∧ r.2.length = 3 ∧
      (∀ h ∈ r.2, ∀ p ∈ r.1, p ∉ h) ∧ r.2.Pairwise fun h h' => ∀ p ∈ h, p ∉ h' := by
  obtain ⟨s0, hs0⟩ := r
  unfold validateBundles
  cases shared with
  | none => simp
  | some s =>
    cases heads with
    | none => simp
    | some hs =>
      dsimp only
      by_cases h1 : hs.length = 3
      · rw [if_neg (not_not.mpr h1)]
        have hA : (hs.any fun h => s.any fun p => decide (p ∈ h)) = true ↔ ¬ ∀ h ∈ hs, ∀ p ∈ s, p ∉ h := by
          simp
        have hB : ((List.range hs.length).any fun i => (List.range hs.length).any fun j =>
            decide (i < j) && (hs.getD i []).any fun p => decide (p ∈ hs.getD j [])) = true ↔
            ¬ hs.Pairwise fun h h' => ∀ p ∈ h, p ∉ h' := by
          rw [List.pairwise_iff_getElem]
          simp only [List.any_eq_true, List.mem_range, Bool.and_eq_true, decide_eq_true_eq]
          constructor
          · rintro ⟨i, hi, j, hj, hij, p, hp, hpj⟩ h
            rw [List.getD_eq_getElem _ _ hi] at hp
            rw [List.getD_eq_getElem _ _ hj] at hpj
            exact h i j hi hj hij p hp hpj
          · intro h
            push Not at h
            obtain ⟨i, j, hi, hj, hij, p, hp, hpj⟩ := h
            exact ⟨i, hi, j, hj, hij, p, by rw [List.getD_eq_getElem _ _ hi]; exact hp, by rw [List.getD_eq_getElem _ _ hj]; exact hpj⟩
        by_cases h2 : (hs.any fun h => s.any fun p => decide (p ∈ h)) = true
        · rw [if_pos h2]
          refine ⟨fun h => (by cases h), fun ⟨e1, e2, _, h, _⟩ => ?_⟩
          obtain rfl := Option.some.inj e1
          obtain rfl := Option.some.inj e2
          exact absurd h (hA.mp h2)
        · rw [if_neg h2]
          by_cases h3 : ((List.range hs.length).any fun i => (List.range hs.length).any fun j =>
            decide (i < j) && (hs.getD i []).any fun p => decide (p ∈ hs.getD j [])) = true
          · rw [if_pos h3]
            refine ⟨fun h => (by cases h), fun ⟨e1, e2, _, _, h⟩ => ?_⟩
            obtain rfl := Option.some.inj e1
            obtain rfl := Option.some.inj e2
            exact absurd h (hB.mp h3)
          · rw [if_neg h3]
            constructor
            · intro h
              obtain ⟨rfl, rfl⟩ := Prod.mk.inj (Except.ok.inj h)
              exact ⟨rfl, rfl, h1, not_not.mp (mt hA.mpr h2), not_not.mp (mt hB.mpr h3)⟩
            · rintro ⟨e1, e2, _⟩
              rw [Option.some.inj e1, Option.some.inj e2]
      · rw [if_pos h1]
        refine ⟨fun h => (by cases h), fun ⟨_, e2, h, _⟩ => ?_⟩
        obtain rfl := Option.some.inj e2
        exact absurd h h1

example : validateBundles (some [1, 2]) (some [[3], [4, 5], [6]]) = .ok ([1, 2], [[3], [4, 5], [6]]) ∧
    validateBundles (some [1, 2]) (some [[3], [4, 5], [3]]) = .error .validation := by decide

/-- **C200 (parameters).**  The parameters are accepted exactly in these ranges. -/
theorem C200_parameters (s : TrainSpec K) : checkSpec s = .ok () ↔
    0 < s.poolBase ∧ 0 < s.maxRounds ∧ 0 < s.batchSize ∧ 0 < s.initEpochs ∧ 0 < s.trainEpochs ∧ 0 < s.desPasses ∧ 0 < s.stability ∧
    0 ≤ s.std ∧ (0 ≤ s.sigma0 ∧ s.sigma0 ≤ 1) ∧ 0 ≤ s.sigmaOs ∧ 0 ≤ s.decay ∧ 0 ≤ s.dropFraction ∧ s.dropFraction ≤ 1 := by
  have step : ∀ (p : Prop) [Decidable p] (x : Except PyErr Unit) (Q R : Prop), (¬ p ↔ Q) → (x = .ok () ↔ R) →
      ((if p then .error .validation else x) = .ok () ↔ Q ∧ R) := by
    intro p _ x Q R h1 h2
    by_cases hp : p
    · rw [if_pos hp]
      exact ⟨fun h => (by cases h), fun h => absurd hp (h1.mpr h.1)⟩
    · rw [if_neg hp, h2]
      exact ⟨fun h => ⟨h1.mp hp, h⟩, fun h => h.2⟩
  unfold checkSpec
  refine step _ _ _ _ not_le (step _ _ _ _ not_le (step _ _ _ _ not_le (step _ _ _ _ not_le (step _ _ _ _ not_le (step _ _ _ _ not_le
    (step _ _ _ _ not_le (step _ _ _ _ not_lt (step _ _ _ _ (by rw [not_or, not_lt, not_lt]) (step _ _ _ _ not_lt (step _ _ _ _ not_lt ?_))))))))))
  by_cases h : 0 ≤ s.dropFraction ∧ s.dropFraction ≤ 1
  · rw [if_neg (not_not.mpr h)]
    exact ⟨fun _ => h, fun _ => rfl⟩
  · rw [if_pos h]
    exact ⟨fun h => (by cases h), fun h' => absurd h' h⟩

example : checkSpec (K := Rat) ⟨1000, 30, 16, 1, 1, 6, 1, 1/20, 19/20, 1/4, 1/20, 1/3⟩ = .ok () := by decide +kernel

end

section
variable {R P σ : Type}

/-! ### One run of the optimizer -/

theorem cycleFrom_pending (G : TorchGen σ) (n b : Nat) (pending : List (List Nat)) (g : σ) :
    cycleFrom G n b pending.length pending g = .ok (pending, g) := by
  induction pending with
  | nil => rfl
  | cons B rest ih =>
    simp only [List.length_cons, cycleFrom, cycleNext, ih]

/-- With as many steps as there are batches, an epoch is one pass over a permutation. -/
theorem cycle_once (G : TorchGen σ) (n b : Nat) (hn : 0 < n) (hb : 0 < b) (g : σ) :
    cycleBatchIndices G n b (numBatches n b) g = .ok (iterBatchIndices n b (G.randperm g n).1, (G.randperm g n).2) := by
  have hpos : 0 < (n + b - 1) / b := Nat.div_pos (by omega) hb
  have hlen : (iterBatchIndices n b (G.randperm g n).1).length = numBatches n b := by
    rw [iter_length]
    unfold numBatches
    omega
  cases hi : iterBatchIndices n b (G.randperm g n).1 with
  | nil =>
    rw [hi] at hlen
    unfold numBatches at hlen
    simp at hlen
    omega
  | cons B rest =>
    rw [hi, List.length_cons] at hlen
    unfold cycleBatchIndices
    rw [← hlen]
    simp only [cycleFrom, cycleNext, hi, cycleFrom_pending]

/-- An epoch over `n` rows with batches of at most `b`: every row once. -/
structure Spec.OneEpoch (n b : Nat) (bs : List (List Nat)) : Prop where
  once : bs.flatten.Perm (List.range n)
  size : ∀ B ∈ bs, 0 < B.length ∧ B.length ≤ b

theorem headEpochs_spec (G : TorchGen σ) (hG : G.Lawful) (L : Learner R P) (upd : Bool) (b : Nat) (hb : 0 < b) (data : List R) (hd : data ≠ [])
    (e : Nat) (n : P × P) (g : σ) : ∃ eps : List (List (List Nat)), ∃ rows : List (List R), eps.length = e ∧
      (∀ ep ∈ eps, Spec.OneEpoch data.length b ep) ∧ List.Forall₂ (fun B r => Deep.Spec.RowsAt data B r) eps.flatten rows ∧
      headEpochs G L upd b data e n g = (rows.foldl (stepOn L upd) n, none) := by
  have hn : 0 < data.length := List.length_pos_iff.mpr hd
  induction e generalizing n g with
  | zero => exact ⟨[], [], rfl, fun ep h => absurd h List.not_mem_nil, .nil, rfl⟩
  | succ e ih =>
    have hperm := hG g data.length
    have hl : (G.randperm g data.length).1.length = data.length := by rw [hperm.length_eq, List.length_range]
    have hone : Spec.OneEpoch data.length b (iterBatchIndices data.length b (G.randperm g data.length).1) := by
      refine ⟨by rw [iter_flatten _ _ _ hb hl]; exact hperm, fun B hB => ?_⟩
      have := iter_mem data.length b _ hb hl B hB
      exact ⟨List.length_pos_iff.mpr this.1, this.2.1⟩
    have hrange : ∀ B ∈ iterBatchIndices data.length b (G.randperm g data.length).1, ∀ i ∈ B, i < data.length := by
      intro B hB i hi
      have : i ∈ (iterBatchIndices data.length b (G.randperm g data.length).1).flatten := List.mem_flatten.mpr ⟨B, hB, hi⟩
      exact List.mem_range.mp (hone.once.mem_iff.mp this)
    obtain ⟨rows, hrows⟩ : ∃ rows, (iterBatchIndices data.length b (G.randperm g data.length).1).mapM (takeRows data) = .ok rows :=
      mapM_total fun B hB => takeRows_total data B (hrange B hB)
    obtain ⟨eps, rows', h1, h2, h3, h4⟩ := ih (rows.foldl (stepOn L upd) n) (G.randperm g data.length).2
    refine ⟨iterBatchIndices data.length b (G.randperm g data.length).1 :: eps, rows ++ rows', by rw [List.length_cons, h1], ?_, ?_, ?_⟩
    · intro ep hep
      rcases List.mem_cons.mp hep with rfl | hep
      · exact hone
      · exact h2 ep hep
    · rw [List.flatten_cons]
      exact List.rel_append ((mapM_ok.mp hrows).imp fun B r h => (takeRows_ok _ _ _).mp h) h3
    · unfold headEpochs
      rw [cycle_once G data.length b hn hb g]
      dsimp only
      rw [hrows]
      dsimp only
      rw [h4, List.foldl_append]

/-- **C200 (one run).**  A training run of a head never fails.  It goes through the rows in the given number of epochs, in each of which
every row is in exactly one batch, of at most the given size; without rows nothing changes. -/
theorem C200_run (G : TorchGen σ) (hG : G.Lawful) (L : Learner R P) (upd : Bool) (b : Nat) (hb : 0 < b) (epochs : Nat) (seed : Int)
    (data : List R) (n : P × P) : (data = [] → trainHead G L upd b epochs seed data n = (n, none)) ∧
    (data ≠ [] → ∃ eps : List (List (List Nat)), ∃ rows : List (List R), eps.length = epochs ∧
      (∀ ep ∈ eps, Spec.OneEpoch data.length b ep) ∧ List.Forall₂ (fun B r => Deep.Spec.RowsAt data B r) eps.flatten rows ∧
      trainHead G L upd b epochs seed data n = (rows.foldl (stepOn L upd) n, none)) := by
  unfold trainHead
  refine ⟨fun h => if_pos h, fun h => ?_⟩
  rw [if_neg h]
  exact headEpochs_spec G hG L upd b hb data h epochs n _

theorem foldl_shared (L : Learner R P) (rows : List (List R)) (n : P × P) : (rows.foldl (stepOn L false) n).1 = n.1 := by
  induction rows generalizing n with
  | nil => rfl
  | cons B rows ih => rw [List.foldl_cons, ih]; rfl

/-- **C200 (frozen).**  Unless asked to, a training run leaves the shared network as it was. -/
theorem C200_frozen (G : TorchGen σ) (hG : G.Lawful) (L : Learner R P) (b : Nat) (hb : 0 < b) (epochs : Nat) (seed : Int) (data : List R)
    (n : P × P) : (trainHead G L false b epochs seed data n).1.1 = n.1 := by
  by_cases h : data = []
  · rw [(C200_run G hG L false b hb epochs seed data n).1 h]
  · obtain ⟨-, rows, -, -, -, e⟩ := (C200_run G hG L false b hb epochs seed data n).2 h
    rw [e]
    exact foldl_shared L rows n

/-- **C200 (single rows).**  A step never sees a batch of one row: such a batch is taken twice.  An average over the batch is the same. -/
theorem C200_single {K : Type} [Field K] [CharZero K] (B : List R) (hB : B ≠ []) (loss : R → K) : 2 ≤ (effective B).length ∧
    (2 ≤ B.length → effective B = B) ∧
    ((effective B).map loss).sum / ((effective B).length : K) = (B.map loss).sum / (B.length : K) := by
  have hpos := List.length_pos_iff.mpr hB
  unfold effective
  by_cases h : B.length = 1
  · rw [if_pos h]
    refine ⟨by rw [List.length_append]; omega, fun h' => absurd h' (by omega), ?_⟩
    rw [List.map_append, List.sum_append, List.length_append, h]
    push_cast
    ring
  · rw [if_neg h]
    exact ⟨by omega, fun _ => rfl, rfl⟩

/-- Optimizer steps on one batch after the other.  Head and, if asked for, shared network are updated together, both from the networks
before the step; a single row is taken twice. -/
inductive Spec.Steps (L : Learner R P) (upd : Bool) : List (List R) → P × P → P × P → Prop
  | done (n : P × P) : Spec.Steps L upd [] n n
  | single (r : R) (rest : List (List R)) (s h : P) (n : P × P) :
    Spec.Steps L upd rest (if upd then L.shared s h [r, r] else s, L.head upd s h [r, r]) n → Spec.Steps L upd ([r] :: rest) (s, h) n
  | several (B : List R) (rest : List (List R)) (s h : P) (n : P × P) : 2 ≤ B.length →
    Spec.Steps L upd rest (if upd then L.shared s h B else s, L.head upd s h B) n → Spec.Steps L upd (B :: rest) (s, h) n

theorem steps_foldl (L : Learner R P) (upd : Bool) (rows : List (List R)) (hr : ∀ B ∈ rows, B ≠ []) (n : P × P) :
    Spec.Steps L upd rows n (rows.foldl (stepOn L upd) n) := by
  induction rows generalizing n with
  | nil => exact .done n
  | cons B rest ih =>
    have h := ih (fun B' hB' => hr B' (List.mem_cons_of_mem _ hB')) (stepOn L upd n B)
    rw [List.foldl_cons]
    obtain ⟨s, hd⟩ := n
    match B, hr B List.mem_cons_self, h with
    | [r], _, h => exact .single r rest s hd _ h
    | a :: b :: t, _, h =>
      have he : effective (a :: b :: t) = a :: b :: t := by
        unfold effective
        rw [if_neg (by simp)]
      refine .several _ rest s hd _ (by simp) ?_
      unfold stepOn at h ⊢
      rw [he] at h
      exact h

/-- **C200 (steps).**  What a run leaves is what the optimizer steps on its batches make of the networks, in order. -/
theorem C200_steps (G : TorchGen σ) (hG : G.Lawful) (L : Learner R P) (upd : Bool) (b : Nat) (hb : 0 < b) (epochs : Nat) (seed : Int)
    (data : List R) (hd : data ≠ []) (n : P × P) : ∃ eps : List (List (List Nat)), ∃ rows : List (List R), eps.length = epochs ∧
      (∀ ep ∈ eps, Spec.OneEpoch data.length b ep) ∧ List.Forall₂ (fun B r => Deep.Spec.RowsAt data B r) eps.flatten rows ∧
      Spec.Steps L upd rows n (trainHead G L upd b epochs seed data n).1 := by
  obtain ⟨eps, rows, h1, h2, h3, h4⟩ := (C200_run G hG L upd b hb epochs seed data n).2 hd
  refine ⟨eps, rows, h1, h2, h3, ?_⟩
  rw [h4]
  refine steps_foldl L upd rows ?_ n
  have key : ∀ (bs : List (List Nat)) (rs : List (List R)), List.Forall₂ (fun B r => Deep.Spec.RowsAt data B r) bs rs →
      (∀ B ∈ bs, 0 < B.length) → ∀ r ∈ rs, r ≠ [] := by
    intro bs rs h
    induction h with
    | nil => exact fun _ r hr => absurd hr List.not_mem_nil
    | @cons B r bs rs hB _ ih =>
      intro hpos r' hr'
      rcases List.mem_cons.mp hr' with rfl | hr'
      · rintro rfl
        have e : B = [] := by
          have := congrArg List.length hB
          simp only [List.map_nil, List.length_nil, List.length_map] at this
          exact List.eq_nil_of_length_eq_zero this.symm
        have := hpos B List.mem_cons_self
        rw [e] at this
        cases this
      · exact ih (fun B' hB' => hpos B' (List.mem_cons_of_mem _ hB')) r' hr'
  refine key _ _ h3 ?_
  intro B hB
  obtain ⟨ep, hep, hBe⟩ := List.mem_flatten.mp hB
  exact ((h2 ep hep).size B hBe).1

/-! ### The rounds -/

theorem trainHead_ok (G : TorchGen σ) (hG : G.Lawful) (L : Learner R P) (upd : Bool) (b : Nat) (hb : 0 < b) (epochs : Nat) (seed : Int)
    (data : List R) (n : P × P) : (trainHead G L upd b epochs seed data n).2 = none := by
  by_cases h : data = []
  · rw [(C200_run G hG L upd b hb epochs seed data n).1 h]
  · obtain ⟨-, rows, -, -, -, e⟩ := (C200_run G hG L upd b hb epochs seed data n).2 h
    rw [e]

/-- **C200 (a round).**  If the pseudo-labeling does not raise, a round with pseudo labels trains the heads in order, each on the labeled
rows and on those labeled by the two other heads as they are then.  Only the training of the first head changes the shared network. -/
theorem C200_round (G : TorchGen σ) (hG : G.Lawful) (L : Learner R P) (b : Nat) (hb : 0 < b) (epochs : Nat) (seed : Int) (j : Job R P) (t : Nat)
    (N N' : Nets P) (h : forHeads (labelHead G L b epochs seed j t) [0, 1, 2] N = (N', none)) :
    ∃ p0 p1 p2, j.pseudo t N.shared (N.heads 1) (N.heads 2) = .ok p0 ∧ j.pseudo t N'.shared (N'.heads 0) (N.heads 2) = .ok p1 ∧
      j.pseudo t N'.shared (N'.heads 0) (N'.heads 1) = .ok p2 ∧
      trainHead G L true b epochs (seed + 4000 + t * 10) (j.labeled ++ p0) (N.shared, N.heads 0) = ((N'.shared, N'.heads 0), none) ∧
      trainHead G L false b epochs (seed + 4000 + t * 10 + 1) (j.labeled ++ p1) (N'.shared, N.heads 1) = ((N'.shared, N'.heads 1), none) ∧
      trainHead G L false b epochs (seed + 4000 + t * 10 + 2) (j.labeled ++ p2) (N'.shared, N.heads 2) = ((N'.shared, N'.heads 2), none) ∧
      ∀ i, 3 ≤ i → N'.heads i = N.heads i := by
  have hpair : ∀ upd s data n, trainHead G L upd b epochs s data n = ((trainHead G L upd b epochs s data n).1, none) := fun upd s data n =>
    Prod.ext rfl (trainHead_ok G hG L upd b hb epochs s data n)
  have one : ∀ v M, labelHead G L b epochs seed j t v M = match j.pseudo t M.shared (M.heads (others v).1) (M.heads (others v).2) with
      | .error e => (M, some e)
      | .ok ps => (⟨(trainHead G L (v == 0) b epochs ((Use.train t v).seed seed) (j.labeled ++ ps) (M.shared, M.heads v)).1.1,
          fun i => if i = v then (trainHead G L (v == 0) b epochs ((Use.train t v).seed seed) (j.labeled ++ ps) (M.shared, M.heads v)).1.2
            else M.heads i⟩, none) := by
    intro v M
    unfold labelHead trainAt
    cases j.pseudo t M.shared (M.heads (others v).1) (M.heads (others v).2) with
    | error e => rfl
    | ok ps =>
      dsimp only
      rw [trainHead_ok G hG L _ b hb epochs _ _ _]
  unfold forHeads at h
  rw [one 0 N] at h
  simp only [others, if_true] at h
  cases h0 : j.pseudo t N.shared (N.heads 1) (N.heads 2) with
  | error e => rw [h0] at h; simp at h
  | ok p0 =>
    rw [h0] at h
    simp only [beq_self_eq_true, Use.seed, Nat.cast_zero, add_zero] at h
    set r0 := trainHead G L true b epochs (seed + 4000 + t * 10) (j.labeled ++ p0) (N.shared, N.heads 0) with hr0
    unfold forHeads at h
    rw [one 1] at h
    simp only [others, one_ne_zero, if_false, if_true, OfNat.ofNat_ne_zero, show ((1 : Nat) == 0) = false from rfl, Use.seed, Nat.cast_one] at h
    cases h1 : j.pseudo t r0.1.1 r0.1.2 (N.heads 2) with
    | error e => rw [h1] at h; simp at h
    | ok p1 =>
      rw [h1] at h
      simp only at h
      have f1 := C200_frozen G hG L b hb epochs (seed + 4000 + t * 10 + 1) (j.labeled ++ p1) (r0.1.1, N.heads 1)
      set r1 := trainHead G L false b epochs (seed + 4000 + t * 10 + 1) (j.labeled ++ p1) (r0.1.1, N.heads 1) with hr1
      unfold forHeads at h
      rw [one 2] at h
      simp only [others, one_ne_zero, zero_ne_one, if_false, if_true, OfNat.ofNat_ne_zero, OfNat.ofNat_ne_one,
        show ((2 : Nat) == 0) = false from rfl, Use.seed, Nat.cast_ofNat] at h
      rw [f1] at h
      cases h2 : j.pseudo t r0.1.1 r0.1.2 r1.1.2 with
      | error e => rw [h2] at h; simp at h
      | ok p2 =>
        rw [h2] at h
        simp only at h
        have f2 := C200_frozen G hG L b hb epochs (seed + 4000 + t * 10 + 2) (j.labeled ++ p2) (r0.1.1, N.heads 2)
        set r2 := trainHead G L false b epochs (seed + 4000 + t * 10 + 2) (j.labeled ++ p2) (r0.1.1, N.heads 2) with hr2
        unfold forHeads at h
        simp only [Prod.mk.injEq, and_true] at h
        rw [f2] at h
        subst h
        refine ⟨p0, p1, p2, rfl, h1, h2, ?_, ?_, ?_, ?_⟩
        · rw [hpair]; rfl
        · rw [hpair]
          exact Prod.ext (Prod.ext f1 rfl) rfl
        · rw [hpair]
          exact Prod.ext (Prod.ext f2 rfl) rfl
        · intro i hi
          show (if i = 2 then _ else if i = 1 then _ else if i = 0 then _ else N.heads i) = N.heads i
          rw [if_neg (by omega), if_neg (by omega), if_neg (by omega)]

/-- **C200 (smeared labels).**  At the start, and when the heads are trained again, the heads are trained in order on the labeled rows with
their own smeared targets, and every one of them changes the shared network that the next is trained with. -/
theorem C200_smeared (G : TorchGen σ) (hG : G.Lawful) (L : Learner R P) (b : Nat) (hb : 0 < b) (epochs : Nat) (seed : Int) (j : Job R P) (t : Nat)
    (N : Nets P) : ∃ s0 s1 : P, ∃ N' : Nets P, forHeads (smearedHead G L b epochs seed j t) [0, 1, 2] N = (N', none) ∧
      trainHead G L true b epochs (if t = 0 then seed + 10 else seed + 2000 + t * 10) (j.smeared t 0) (N.shared, N.heads 0) =
        ((s0, N'.heads 0), none) ∧
      trainHead G L true b epochs (if t = 0 then seed + 11 else seed + 2000 + t * 10 + 1) (j.smeared t 1) (s0, N.heads 1) =
        ((s1, N'.heads 1), none) ∧
      trainHead G L true b epochs (if t = 0 then seed + 12 else seed + 2000 + t * 10 + 2) (j.smeared t 2) (s1, N.heads 2) =
        ((N'.shared, N'.heads 2), none) ∧ ∀ i, 3 ≤ i → N'.heads i = N.heads i := by
  have hpair : ∀ upd s data n, trainHead G L upd b epochs s data n = ((trainHead G L upd b epochs s data n).1, none) := fun upd s data n =>
    Prod.ext rfl (trainHead_ok G hG L upd b hb epochs s data n)
  have hseed : ∀ v : Nat, (if t = 0 then Use.init v else Use.retrain t v).seed seed = if t = 0 then seed + 10 + v else seed + 2000 + t * 10 + v := by
    intro v
    by_cases h : t = 0
    · rw [if_pos h, if_pos h]; rfl
    · rw [if_neg h, if_neg h]; rfl
  have one : ∀ v M, smearedHead G L b epochs seed j t v M =
      (⟨(trainHead G L true b epochs (if t = 0 then seed + 10 + v else seed + 2000 + t * 10 + v) (j.smeared t v) (M.shared, M.heads v)).1.1,
        fun i => if i = v then (trainHead G L true b epochs (if t = 0 then seed + 10 + v else seed + 2000 + t * 10 + v) (j.smeared t v)
          (M.shared, M.heads v)).1.2 else M.heads i⟩, none) := by
    intro v M
    unfold smearedHead trainAt
    rw [hseed]
    dsimp only
    rw [trainHead_ok G hG L _ b hb epochs _ _ _]
  have e0 : (if t = 0 then seed + 10 + ((0 : Nat) : Int) else seed + 2000 + t * 10 + ((0 : Nat) : Int)) =
      if t = 0 then seed + 10 else seed + 2000 + t * 10 := by simp
  have e1 : (if t = 0 then seed + 10 + ((1 : Nat) : Int) else seed + 2000 + t * 10 + ((1 : Nat) : Int)) =
      if t = 0 then seed + 11 else seed + 2000 + t * 10 + 1 := by congr 1; push_cast; ring
  have e2 : (if t = 0 then seed + 10 + ((2 : Nat) : Int) else seed + 2000 + t * 10 + ((2 : Nat) : Int)) =
      if t = 0 then seed + 12 else seed + 2000 + t * 10 + 2 := by congr 1; push_cast; ring
  simp only [forHeads, one, e0, e1, e2, one_ne_zero, if_false, OfNat.ofNat_ne_zero, OfNat.ofNat_ne_one]
  set r0 := trainHead G L true b epochs (if t = 0 then seed + 10 else seed + 2000 + t * 10) (j.smeared t 0) (N.shared, N.heads 0) with hr0
  set r1 := trainHead G L true b epochs (if t = 0 then seed + 11 else seed + 2000 + t * 10 + 1) (j.smeared t 1) (r0.1.1, N.heads 1) with hr1
  refine ⟨r0.1.1, r1.1.1, _, rfl, ?_, ?_, ?_, ?_⟩
  · rw [hr0, hpair]; rfl
  · rw [← hr1, hr1, hpair]; rfl
  · rw [hpair]; rfl
  · intro i hi
    show (if i = 2 then _ else if i = 1 then _ else if i = 0 then _ else N.heads i) = N.heads i
    rw [if_neg (by omega), if_neg (by omega), if_neg (by omega)]

/-- **C200 (exceptions).**  `fit` raises exactly what the pseudo-labeling raises: if it never does, neither does `fit`. -/
theorem C200_total (G : TorchGen σ) (hG : G.Lawful) (L : Learner R P) (b : Nat) (hb : 0 < b) (initE trainE : Nat) (seed : Int) (j : Job R P)
    (hj : ∀ t s a c, ∃ ps, j.pseudo t s a c = .ok ps) (kinds : List Bool) (N : Nets P) :
    (fitNets G L b initE trainE seed j kinds N).2 = none := by
  have hfor : ∀ f : Nat → Nets P → Nets P × Option PyErr, (∀ v M, (f v M).2 = none) → ∀ vs M, (forHeads f vs M).2 = none := by
    intro f hf vs
    induction vs with
    | nil => exact fun _ => rfl
    | cons v vs ih =>
      intro M
      unfold forHeads
      have := hf v M
      rcases hfv : f v M with ⟨M', o⟩
      rw [hfv] at this
      dsimp only at this
      subst this
      exact ih M'
  have hs : ∀ t v M, (smearedHead G L b initE seed j t v M).2 = none := fun t v M => trainHead_ok G hG L true b hb initE _ _ _
  have hl : ∀ t v M, (labelHead G L b trainE seed j t v M).2 = none := by
    intro t v M
    unfold labelHead
    obtain ⟨ps, hps⟩ := hj t M.shared (M.heads (others v).1) (M.heads (others v).2)
    rw [hps]
    exact trainHead_ok G hG L _ b hb trainE _ _ _
  have hr : ∀ kinds t M, (netRounds G L b initE trainE seed j kinds t M).2 = none := by
    intro kinds
    induction kinds with
    | nil => exact fun _ _ => rfl
    | cons k kinds ih =>
      intro t M
      unfold netRounds
      have : (forHeads (if k = true then smearedHead G L b initE seed j t else labelHead G L b trainE seed j t) [0, 1, 2] M).2 = none := by
        cases k
        · exact hfor _ (hl t) _ _
        · exact hfor _ (hs t) _ _
      rcases hfv : forHeads (if k = true then smearedHead G L b initE seed j t else labelHead G L b trainE seed j t) [0, 1, 2] M with ⟨M', o⟩
      rw [hfv] at this
      dsimp only at this
      subst this
      exact ih (t + 1) M'
  unfold fitNets
  have := hfor _ (hs 0) [0, 1, 2] N
  rcases hfv : forHeads (smearedHead G L b initE seed j 0) [0, 1, 2] N with ⟨M', o⟩
  rw [hfv] at this
  dsimp only at this
  subst this
  exact hr kinds 1 M'

/-! ### Examples and violations -/

namespace TrainDemo

/-- A generator that permutes nothing. -/
def gen : TorchGen Unit := ⟨fun _ => (), fun _ n => (List.range n, ())⟩

/-- A network that counts the rows it has seen. -/
def learner : Learner Nat Nat := ⟨fun s _ B => s + B.length, fun _ _ h B => h + B.length⟩

/-- Three labeled rows; the round `bad` cannot be labeled. -/
def job (bad : Nat) : Job Nat Nat :=
  ⟨[1, 2, 3], fun _ _ => [1, 2, 3], fun t _ _ _ => if t = bad then .error .runtimeError else .ok [4]⟩

/-- New networks. -/
def nets : Nets Nat := ⟨0, fun _ => 0⟩

end TrainDemo

open TrainDemo

/-- What can be seen of networks. -/
def seen (r : Nets Nat × Option PyErr) : Nat × List Nat × Option PyErr := (r.1.shared, [r.1.heads 0, r.1.heads 1, r.1.heads 2], r.2)

theorem gen_lawful : gen.Lawful := fun _ n => List.Perm.refl (List.range n)

example : seen (fitNets gen learner 2 1 1 0 (job 9) [false, true] nets) = (28, [12, 12, 12], none) := by decide +kernel

/-- **C200 violated (failed fit).**  When the pseudo labels of a round cannot be used, `fit` raises but the networks of the specification,
which an earlier fit predicts with, have been trained by then. -/
theorem C200_failed_fit_violated : seen (fitNets gen learner 2 1 1 0 (job 1) [false] nets) = (12, [4, 4, 4], some .runtimeError) := by
  decide +kernel

/-- **C200 violated (repeated fit).**  A second fit with the same data and seed goes on from the networks of the first. -/
theorem C200_refit_violated : seen (fitNets gen learner 2 1 1 0 (job 9) [false] nets) = (16, [8, 8, 8], none) ∧
    seen (fitNets gen learner 2 1 1 0 (job 9) [false] (fitNets gen learner 2 1 1 0 (job 9) [false] nets).1) = (32, [16, 16, 16], none) := by
  decide +kernel

end

end ModSSC.Trinet
