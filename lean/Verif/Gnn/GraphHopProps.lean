import Verif.Gnn.GraphHopModel
import Verif.Gnn.HopProps
import Verif.Gnn.NetProps
import Mathlib.Tactic.IntervalCases

/-!
# C190 — GraphHop: acceptance, probabilities, labels, graph, stored predictions
-/

namespace ModSSC.Gnn.GraphHop
open ModSSC ModSSC.Transductive ModSSC.Gnn ModSSC.Gnn.Nets ModSSC.Gnn.Nets.Spec

variable {K : Type} [Field K] [LinearOrder K] [IsStrictOrderedRing K] {G : Type}

namespace Spec

/-- The mean over the training nodes of the log probability given to their true class. -/
def trueFit (exp log : K → K) (classes : Nat) (d : Input K) (Z : Feat K) (L : Linear K) : K :=
  (((List.range d.n).filter d.train).map fun i => log (Grafn.probOf exp classes (L.app Z i) (d.y i).toNat)).sum /
    (((List.range d.n).filter d.train).length : K)

/-- The log probabilities of the other nodes weighted by `labels`, over the number of these nodes and classes. -/
def others (exp log : K → K) (classes : Nat) (d : Input K) (labels : Feat K) (Z : Feat K) (L : Linear K) : K :=
  (((List.range d.n).filter fun i => !d.train i).map fun i => ((List.range classes).map fun c =>
    labels i c * log (Grafn.probOf exp classes (L.app Z i) c)).sum).sum /
    ((max (((List.range d.n).filter fun i => !d.train i).length * classes) 1 : Nat) : K)

/-- What a call of the optimization minimizes at first: the true classes of the training nodes. -/
def FirstLoss (exp log : K → K) (classes : Nat) (d : Input K) (c : Call K) (Z : Feat K) : Prop :=
  ∀ L, c.loss L = -trueFit exp log classes d Z L

/-- What it minimizes later: also pseudo labels and the entropy of the other nodes. -/
def LaterLoss (exp log : K → K) (alpha beta : K) (classes : Nat) (d : Input K) (c : Call K) (Z : Feat K) : Prop :=
  ∃ labels : Feat K, ∀ L, c.loss L = -(trueFit exp log classes d Z L + alpha * others exp log classes d labels Z L +
    beta * others exp log classes d (fun i => Grafn.probOf exp classes (L.app Z i)) Z L)

/-- The validation loss: the true classes of the validation nodes, if there are any. -/
def ValLoss (exp log : K → K) (classes : Nat) (d : Input K) (c : Call K) (Z : Feat K) : Prop :=
  (c.valLoss = none ↔ ∀ m, d.val = some m → ∀ i < d.n, m i = false) ∧
  ∀ m vl, d.val = some m → c.valLoss = some vl → (∀ i < d.n, m i = true → 0 ≤ d.y i) →
    ∀ L, vl L = -(((List.range d.n).filter m).map fun i => log (Grafn.probOf exp classes (L.app Z i) (d.y i).toNat)).sum

/-- The first `w` columns are those of `X`, the next `w` their averages over the nodes at distance one, and so on for `count` distances;
zero where there is no node at the distance. -/
def Stack (d : Input K) (sym : Bool) (count w : Nat) (X Z : Feat K) : Prop :=
  (∀ i, ∀ c < w, Z i c = X i c) ∧
  ∀ h < count, ∀ i < d.n, ∀ c < w, ∃ l : List Nat, l.Nodup ∧ (∀ u, u ∈ l ↔ Gnn.Spec.AtDist (Gnn.Spec.Joined d.n sym d.edges) i (h + 1) u) ∧
    Z i ((h + 1) * w + c) * (l.length : K) = (l.map fun u => X u c).sum ∧ (l = [] → Z i ((h + 1) * w + c) = 0)

/-- The same data with other labels. -/
def relabel (d : Input K) (y : Nat → Int) : Input K := { d with y := y }

/-- The same data with other edges. -/
def rewire (d : Input K) (es : List (Int × Int)) : Input K := { d with edges := es }

/-- The node is a training or validation node. -/
def Visible (d : Input K) (i : Nat) : Prop := d.train i = true ∨ ∃ m, d.val = some m ∧ m i = true

/-- The number of weights is the number of hops. -/
def GoodWeights (hops : Int) (w : Option (List K)) : Prop := ∀ l, w = some l → (l.length : Int) = hops

end Spec

open Spec

theorem mem_nodesOf (n : Nat) (m : Nat → Bool) (i : Nat) : i ∈ nodesOf n m ↔ i < n ∧ m i = true := by
  unfold nodesOf
  rw [List.mem_filter, List.mem_range]

theorem foldl_max (l : List Int) (a : Int) : (l.foldl max a = a ∨ l.foldl max a ∈ l) ∧ a ≤ l.foldl max a ∧ ∀ x ∈ l, x ≤ l.foldl max a := by
  induction l generalizing a with
  | nil => exact ⟨.inl rfl, le_refl _, fun x hx => absurd hx List.not_mem_nil⟩
  | cons b l ih =>
    obtain ⟨h1, h2, h3⟩ := ih (max a b)
    simp only [List.foldl_cons]
    refine ⟨?_, le_trans (le_max_left a b) h2, ?_⟩
    · rcases h1 with h1 | h1
      · rcases max_choice a b with h | h
        · left; rw [h1, h]
        · right; rw [h1, h]; exact List.mem_cons_self
      · right; exact List.mem_cons_of_mem _ h1
    · intro x hx
      rcases List.mem_cons.mp hx with rfl | hx
      · exact le_trans (le_max_right _ _) h2
      · exact h3 x hx

theorem classesOf_spec (n : Nat) (hn : 0 < n) (y : Nat → Int) :
    (∃ i < n, classesOf n y = y i + 1) ∧ ∀ i < n, y i < classesOf n y := by
  obtain ⟨h1, h2, h3⟩ := foldl_max ((List.range n).map y) (y 0)
  unfold classesOf
  refine ⟨?_, fun i hi => ?_⟩
  · rcases h1 with h1 | h1
    · exact ⟨0, hn, by rw [h1]⟩
    · obtain ⟨i, hi, hy⟩ := List.mem_map.mp h1
      exact ⟨i, List.mem_range.mp hi, by rw [hy]⟩
  · have := h3 (y i) (List.mem_map.mpr ⟨i, List.mem_range.mpr hi, rfl⟩)
    omega

/-- What `fit` works with. -/
def envOf (s : Settings K) (d : Input K) : Env K :=
  { d := d, s := s, classes := (classesOf d.n d.y).toNat, hops := s.hops.toNat
    adj := hopAdj d.n s.symmetrize d.edges
    valNodes := d.val.bind fun m => if (nodesOf d.n m).isEmpty then none else some (nodesOf d.n m)
    wTemp := weights s.hops.toNat s.weightTemp, wPred := weights s.hops.toNat s.weightPred }

/-- What `fit` accepts. -/
def Ok (s : Settings K) (d : Input K) : Prop :=
  1 ≤ s.hops ∧ 0 < s.temperature ∧ (∃ i < d.n, d.train i = true) ∧ (∀ i < d.n, d.train i = true → 0 ≤ d.y i) ∧
    (∀ c < (classesOf d.n d.y).toNat, ∃ i < d.n, d.train i = true ∧ d.y i = c) ∧
    (∀ i < d.n, -((classesOf d.n d.y).toNat : Int) ≤ d.y i) ∧
    (envOf s d).wTemp.length = s.hops.toNat ∧ (envOf s d).wPred.length = s.hops.toNat

theorem fit_iff (exp log : K → K) (train : Trainer K G) (s : Settings K) (d : Input K) (g : G) (f : Fitted K) :
    fit exp log train s d g = .ok f ↔ Ok s d ∧
      f = ⟨(rounds exp log train (envOf s d) s.maxIter.toNat (start exp log train (envOf s d) g)).H, d.n, (classesOf d.n d.y).toNat,
        (rounds exp log train (envOf s d) s.maxIter.toNat (start exp log train (envOf s d) g)).calls⟩ := by
  unfold fit Ok
  by_cases h1 : s.hops < 1
  · rw [if_pos h1]
    exact ⟨fun h => (by cases h), fun h => absurd h.1.1 (by omega)⟩
  rw [if_neg h1]
  by_cases h2 : s.temperature ≤ 0
  · rw [if_pos h2]
    exact ⟨fun h => (by cases h), fun h => absurd h.1.2.1 (not_lt.mpr h2)⟩
  rw [if_neg h2]
  by_cases h3 : (nodesOf d.n d.train).isEmpty = true
  · rw [if_pos h3]
    refine ⟨fun h => (by cases h), fun h => ?_⟩
    obtain ⟨i, hi, ht⟩ := h.1.2.2.1
    have := (mem_nodesOf d.n d.train i).mpr ⟨hi, ht⟩
    rw [List.isEmpty_iff.mp h3] at this
    exact absurd this List.not_mem_nil
  rw [if_neg h3]
  have h3' : ∃ i < d.n, d.train i = true := by
    cases hl : nodesOf d.n d.train with
    | nil => rw [hl] at h3; exact absurd rfl h3
    | cons i l =>
      have : i ∈ nodesOf d.n d.train := by rw [hl]; exact List.mem_cons_self
      exact ⟨i, (mem_nodesOf d.n d.train i).mp this⟩
  by_cases h4 : ((nodesOf d.n d.train).any fun i => decide (d.y i < 0)) = true
  · rw [if_pos h4]
    refine ⟨fun h => (by cases h), fun h => ?_⟩
    obtain ⟨i, hi, hy⟩ := List.any_eq_true.mp h4
    obtain ⟨a, b⟩ := (mem_nodesOf d.n d.train i).mp hi
    have := h.1.2.2.2.1 i a b
    have := of_decide_eq_true hy
    omega
  rw [if_neg h4]
  have h4' : ∀ i < d.n, d.train i = true → 0 ≤ d.y i := by
    intro i hi ht
    by_contra hc
    exact h4 (List.any_eq_true.mpr ⟨i, (mem_nodesOf d.n d.train i).mpr ⟨hi, ht⟩, decide_eq_true (by omega)⟩)
  dsimp only
  by_cases h5 : ((List.range (classesOf d.n d.y).toNat).any fun c => !(nodesOf d.n d.train).any fun i => decide (d.y i = c)) = true
  · rw [if_pos h5]
    refine ⟨fun h => (by cases h), fun h => ?_⟩
    obtain ⟨c, hc, hn⟩ := List.any_eq_true.mp h5
    obtain ⟨i, hi, ht, hy⟩ := h.1.2.2.2.2.1 c (List.mem_range.mp hc)
    rw [Bool.not_eq_true', List.any_eq_false] at hn
    exact absurd (decide_eq_true hy) (hn i ((mem_nodesOf d.n d.train i).mpr ⟨hi, ht⟩))
  rw [if_neg h5]
  have h5' : ∀ c < (classesOf d.n d.y).toNat, ∃ i < d.n, d.train i = true ∧ d.y i = c := by
    intro c hc
    by_contra hn
    apply h5
    refine List.any_eq_true.mpr ⟨c, List.mem_range.mpr hc, ?_⟩
    rw [Bool.not_eq_true', List.any_eq_false]
    intro i hi hy
    obtain ⟨a, b⟩ := (mem_nodesOf d.n d.train i).mp hi
    exact hn ⟨i, a, b, of_decide_eq_true hy⟩
  by_cases h6 : ((List.range d.n).any fun i => decide (d.y i < -((classesOf d.n d.y).toNat : Int))) = true
  · rw [if_pos h6]
    refine ⟨fun h => (by cases h), fun h => ?_⟩
    obtain ⟨i, hi, hy⟩ := List.any_eq_true.mp h6
    have := h.1.2.2.2.2.2.1 i (List.mem_range.mp hi)
    have := of_decide_eq_true hy
    omega
  rw [if_neg h6]
  have h6' : ∀ i < d.n, -((classesOf d.n d.y).toNat : Int) ≤ d.y i := by
    intro i hi
    by_contra hc
    exact h6 (List.any_eq_true.mpr ⟨i, List.mem_range.mpr hi, decide_eq_true (by omega)⟩)
  by_cases h7 : (weights s.hops.toNat s.weightTemp).length ≠ s.hops.toNat
  · rw [if_pos h7]
    exact ⟨fun h => (by cases h), fun h => absurd h.1.2.2.2.2.2.2.1 h7⟩
  rw [if_neg h7]
  by_cases h8 : (weights s.hops.toNat s.weightPred).length ≠ s.hops.toNat
  · rw [if_pos h8]
    exact ⟨fun h => (by cases h), fun h => absurd h.1.2.2.2.2.2.2.2 h8⟩
  rw [if_neg h8]
  constructor
  · intro h
    injection h with h
    exact ⟨⟨by omega, not_le.mp h2, h3', h4', h5', h6', not_not.mp h7, not_not.mp h8⟩, h.symm⟩
  · rintro ⟨-, h⟩
    rw [h]
    rfl

/-- The error `fit` raises. -/
def errOf (s : Settings K) (d : Input K) : Option PyErr :=
  if s.hops < 1 then some .valueError
  else if s.temperature ≤ 0 then some .valueError
  else if (nodesOf d.n d.train).isEmpty then some .valueError
  else if (nodesOf d.n d.train).any fun i => decide (d.y i < 0) then some .valueError
  else if (List.range (classesOf d.n d.y).toNat).any fun c => !(nodesOf d.n d.train).any fun i => decide (d.y i = c) then some .valueError
  else if (List.range d.n).any fun i => decide (d.y i < -((classesOf d.n d.y).toNat : Int)) then some .indexError
  else if (weights s.hops.toNat s.weightTemp).length ≠ s.hops.toNat then some .valueError
  else if (weights s.hops.toNat s.weightPred).length ≠ s.hops.toNat then some .valueError
  else none

theorem fit_eq (exp log : K → K) (train : Trainer K G) (s : Settings K) (d : Input K) (g : G) :
    fit exp log train s d g = match errOf s d with
      | some e => .error e
      | none => .ok ⟨(rounds exp log train (envOf s d) s.maxIter.toNat (start exp log train (envOf s d) g)).H, d.n,
        (classesOf d.n d.y).toNat, (rounds exp log train (envOf s d) s.maxIter.toNat (start exp log train (envOf s d) g)).calls⟩ := by
  unfold fit errOf
  dsimp only
  by_cases h1 : s.hops < 1
  · rw [if_pos h1, if_pos h1]
  rw [if_neg h1, if_neg h1]
  by_cases h2 : s.temperature ≤ 0
  · rw [if_pos h2, if_pos h2]
  rw [if_neg h2, if_neg h2]
  by_cases h3 : (nodesOf d.n d.train).isEmpty = true
  · rw [if_pos h3, if_pos h3]
  rw [if_neg h3, if_neg h3]
  by_cases h4 : ((nodesOf d.n d.train).any fun i => decide (d.y i < 0)) = true
  · rw [if_pos h4, if_pos h4]
  rw [if_neg h4, if_neg h4]
  by_cases h5 : ((List.range (classesOf d.n d.y).toNat).any fun c => !(nodesOf d.n d.train).any fun i => decide (d.y i = c)) = true
  · rw [if_pos h5, if_pos h5]
  rw [if_neg h5, if_neg h5]
  by_cases h6 : ((List.range d.n).any fun i => decide (d.y i < -((classesOf d.n d.y).toNat : Int))) = true
  · rw [if_pos h6, if_pos h6]
  rw [if_neg h6, if_neg h6]
  by_cases h7 : (weights s.hops.toNat s.weightTemp).length ≠ s.hops.toNat
  · rw [if_pos h7, if_pos h7]
  rw [if_neg h7, if_neg h7]
  by_cases h8 : (weights s.hops.toNat s.weightPred).length ≠ s.hops.toNat
  · rw [if_pos h8, if_pos h8]
  rw [if_neg h8, if_neg h8]
  rfl

theorem weights_length (hops : Int) (h : 1 ≤ hops) (w : Option (List K)) :
    (weights hops.toNat w).length = hops.toNat ↔ GoodWeights hops w := by
  cases w with
  | none =>
    unfold weights GoodWeights
    rw [List.length_replicate]
    exact ⟨fun _ l hl => (by cases hl), fun _ => rfl⟩
  | some l =>
    unfold weights GoodWeights
    dsimp only
    constructor
    · intro hl l' hl'
      injection hl' with hl'
      subst hl'
      omega
    · intro hl
      have := hl l rfl
      omega

/-- **C190 (acceptance).**  Fitting is accepted exactly when there is at least one hop, a positive temperature, a training node, no
training node with a negative label, a training node for every class up to the largest label of any node, no label further below zero than
there are classes, and one weight for each hop. -/
theorem C190_accept (exp log : K → K) (train : Trainer K G) (s : Settings K) (d : Input K) (g : G) :
    (∃ f, fit exp log train s d g = .ok f) ↔
      1 ≤ s.hops ∧ 0 < s.temperature ∧ (∃ i < d.n, d.train i = true) ∧ (∀ i < d.n, d.train i = true → 0 ≤ d.y i) ∧
      (∀ c : Int, 0 ≤ c → (∃ j < d.n, c ≤ d.y j) → ∃ i < d.n, d.train i = true ∧ d.y i = c) ∧
      (∀ i < d.n, ∃ j < d.n, -(d.y j + 1) ≤ d.y i) ∧ GoodWeights s.hops s.weightTemp ∧ GoodWeights s.hops s.weightPred := by
  have key : (∃ f, fit exp log train s d g = .ok f) ↔ Ok s d :=
    ⟨fun ⟨f, h⟩ => ((fit_iff exp log train s d g f).mp h).1, fun h => ⟨_, (fit_iff exp log train s d g _).mpr ⟨h, rfl⟩⟩⟩
  rw [key]
  unfold Ok
  constructor
  · rintro ⟨a, b, c, e, f, h, i, j⟩
    obtain ⟨i0, hi0, ht0⟩ := c
    obtain ⟨⟨k, hk, hck⟩, hmax⟩ := classesOf_spec d.n (by omega) d.y
    have hpos := hmax i0 hi0
    have h0 := e i0 hi0 ht0
    refine ⟨a, b, ⟨i0, hi0, ht0⟩, e, ?_, ?_, (weights_length s.hops a _).mp i, (weights_length s.hops a _).mp j⟩
    · rintro c hc ⟨j, hj, hcj⟩
      have := hmax j hj
      obtain ⟨i, hi, ht, hy⟩ := f c.toNat (by omega)
      exact ⟨i, hi, ht, by omega⟩
    · intro i hi
      have := h i hi
      exact ⟨k, hk, by omega⟩
  · rintro ⟨a, b, c, e, f, h, i, j⟩
    obtain ⟨i0, hi0, ht0⟩ := c
    obtain ⟨⟨k, hk, hck⟩, hmax⟩ := classesOf_spec d.n (by omega) d.y
    have hpos := hmax i0 hi0
    have h0 := e i0 hi0 ht0
    refine ⟨a, b, ⟨i0, hi0, ht0⟩, e, ?_, ?_, (weights_length s.hops a _).mpr i, (weights_length s.hops a _).mpr j⟩
    · intro c hc
      exact f c (by omega) ⟨k, hk, by omega⟩
    · intro i hi
      obtain ⟨j, hj, hji⟩ := h i hi
      have := hmax j hj
      omega

/-! ### Probabilities -/

theorem classes_pos {s : Settings K} {d : Input K} (h : Ok s d) : 0 < (classesOf d.n d.y).toNat := by
  obtain ⟨i, hi, ht⟩ := h.2.2.1
  have := (classesOf_spec d.n (by omega) d.y).2 i hi
  have := h.2.2.2.1 i hi ht
  omega

theorem sum_add_map {α : Type} (l : List α) (f g : α → K) : (l.map fun a => f a + g a).sum = (l.map f).sum + (l.map g).sum := by
  induction l with
  | nil => simp
  | cons a l ih => simp only [List.map_cons, List.sum_cons, ih]; ring

theorem sum_mul_map {α : Type} (l : List α) (k : K) (f : α → K) : (l.map fun a => k * f a).sum = k * (l.map f).sum := by
  induction l with
  | nil => simp
  | cons a l ih => simp only [List.map_cons, List.sum_cons, ih]; ring

theorem mix_sum (classes : Nat) (i : Nat) (w : List K) (ps : List (Feat K)) (hl : w.length = ps.length)
    (h : ∀ p ∈ ps, ((List.range classes).map (p i)).sum = 1) : ((List.range classes).map (mix w ps i)).sum = w.sum := by
  induction w generalizing ps with
  | nil => unfold mix; simp
  | cons a w ih =>
    cases ps with
    | nil => cases hl
    | cons p ps =>
      have e : (mix (a :: w) (p :: ps) i) = fun c => a * p i c + mix w ps i c := by
        funext c
        unfold mix
        simp
      rw [e, sum_add_map, sum_mul_map, h p List.mem_cons_self, mul_one, List.sum_cons,
        ih ps (by simpa using hl) fun q hq => h q (List.mem_cons_of_mem _ hq)]

theorem mix_nonneg (i c : Nat) (w : List K) (ps : List (Feat K)) (hw : ∀ a ∈ w, 0 ≤ a) (h : ∀ p ∈ ps, 0 ≤ p i c) : 0 ≤ mix w ps i c := by
  induction w generalizing ps with
  | nil => unfold mix; simp
  | cons a w ih =>
    cases ps with
    | nil => unfold mix; simp
    | cons p ps =>
      have e : mix (a :: w) (p :: ps) i c = a * p i c + mix w ps i c := by
        unfold mix
        simp
      rw [e]
      exact add_nonneg (mul_nonneg (hw a List.mem_cons_self) (h p List.mem_cons_self))
        (ih ps (fun b hb => hw b (List.mem_cons_of_mem _ hb)) fun q hq => h q (List.mem_cons_of_mem _ hq))

theorem trainHops_length (exp log : K → K) (train : Trainer K G) (e : Env K) (step : Nat) (H pseudo : Feat K)
    (prev : Nat → Option (Linear K)) (ms : List Nat) (g : G) (calls : List (Call K)) :
    (trainHops exp log train e step H pseudo prev ms g calls).1.length = ms.length := by
  induction ms generalizing g calls with
  | nil => rfl
  | cons m ms ih =>
    unfold trainHops
    dsimp only
    rw [List.length_cons, List.length_cons, ih]

theorem rounds_row (exp log : K → K) (E : ExpLaw exp) (train : Trainer K G) (e : Env K) (hc : 0 < e.classes)
    (hw : e.wPred.length = e.hops) (g : G) (k v : Nat) :
    ((List.range e.classes).map ((rounds exp log train e k (start exp log train e g)).H v)).sum = (if k = 0 then 1 else e.wPred.sum) ∧
    ((∀ a ∈ e.wPred, 0 ≤ a) → ∀ c, 0 ≤ (rounds exp log train e k (start exp log train e g)).H v c) := by
  cases k with
  | zero =>
    rw [if_pos rfl]
    unfold rounds start
    dsimp only
    unfold soft
    exact ⟨(probOf_distribution exp E e.classes hc _).2, fun _ c => ((probOf_distribution exp E e.classes hc _).1 c).le⟩
  | succ k =>
    rw [if_neg (Nat.succ_ne_zero k)]
    unfold rounds round
    dsimp only
    refine ⟨mix_sum e.classes v e.wPred _ ?_ ?_, fun hn c => mix_nonneg v c e.wPred _ hn ?_⟩
    · rw [List.length_map, trainHops_length, List.length_range, hw]
    · intro p hp
      obtain ⟨q, -, rfl⟩ := List.mem_map.mp hp
      exact (probOf_distribution exp E e.classes hc _).2
    · intro p hp
      obtain ⟨q, -, rfl⟩ := List.mem_map.mp hp
      exact ((probOf_distribution exp E e.classes hc _).1 c).le

theorem default_sum (hops : Nat) (h : 0 < hops) : (weights (K := K) hops none).sum = 1 := by
  unfold weights
  rw [List.sum_replicate, nsmul_eq_mul]
  have : (hops : K) ≠ 0 := Nat.cast_ne_zero.mpr (by omega)
  field_simp

/-- **C190 (sums).**  The predictions for a node add up to one when no iteration is made or the prediction weights are left to their
default, and to the sum of the prediction weights otherwise. -/
theorem C190_sum (exp log : K → K) (E : ExpLaw exp) (train : Trainer K G) (s : Settings K) (d : Input K) (g : G) (f : Fitted K)
    (h : fit exp log train s d g = .ok f) (v : Nat) :
    ((List.range f.classes).map (f.proba v)).sum = match s.weightPred with
      | none => 1
      | some w => if s.maxIter ≤ 0 then 1 else w.sum := by
  obtain ⟨ok, rfl⟩ := (fit_iff exp log train s d g f).mp h
  have hr := (rounds_row exp log E train (envOf s d) (classes_pos ok) ok.2.2.2.2.2.2.2 g s.maxIter.toNat v).1
  refine hr.trans ?_
  have hh := ok.1
  cases hw : s.weightPred with
  | none =>
    have : (envOf s d).wPred = weights s.hops.toNat none := by unfold envOf; rw [hw]
    rw [this, default_sum _ (by omega)]
    simp
  | some w =>
    have : (envOf s d).wPred = w := by unfold envOf; rw [hw]; rfl
    rw [this]
    dsimp only
    by_cases hm : s.maxIter ≤ 0
    · rw [if_pos hm, if_pos (by omega)]
    · rw [if_neg hm, if_neg (by omega)]

/-- **C190 (distributions).**  With the default prediction weights, or with weights that are not negative and add up to one, the
predictions for every node are a distribution over the classes.  Missing: other weights are accepted, see
`C190_distribution_violated`. -/
theorem C190_distribution_partial (exp log : K → K) (E : ExpLaw exp) (train : Trainer K G) (s : Settings K) (d : Input K) (g : G)
    (f : Fitted K) (h : fit exp log train s d g = .ok f)
    (hw : ∀ w, s.weightPred = some w → (∀ a ∈ w, 0 ≤ a) ∧ w.sum = 1) (v : Nat) :
    (∀ c, 0 ≤ f.proba v c) ∧ ((List.range f.classes).map (f.proba v)).sum = 1 := by
  refine ⟨?_, ?_⟩
  · obtain ⟨ok, rfl⟩ := (fit_iff exp log train s d g f).mp h
    refine (rounds_row exp log E train (envOf s d) (classes_pos ok) ok.2.2.2.2.2.2.2 g s.maxIter.toNat v).2 ?_
    cases hp : s.weightPred with
    | none =>
      have : (envOf s d).wPred = weights s.hops.toNat none := by unfold envOf; rw [hp]
      rw [this]
      intro a ha
      unfold weights at ha
      rw [(List.mem_replicate.mp ha).2]
      positivity
    | some w =>
      have : (envOf s d).wPred = w := by unfold envOf; rw [hp]; rfl
      rw [this]
      exact (hw w hp).1
  · rw [C190_sum exp log E train s d g f h v]
    cases hp : s.weightPred with
    | none => rfl
    | some w =>
      dsimp only
      rw [(hw w hp).2, ite_self]

/-! ### The graph -/

/-- **C190 (the graph).**  Only which pairs of different nodes are joined matters: not the order of the edges, repeated edges, self-loops,
edges to numbers outside the graph or, when symmetrizing, the directions. -/
theorem C190_graph (exp log : K → K) (train : Trainer K G) (s : Settings K) (d : Input K) (g : G) (es : List (Int × Int)) :
    ((∀ i j, Gnn.Spec.Joined d.n s.symmetrize d.edges i j ↔ Gnn.Spec.Joined d.n s.symmetrize es i j) →
      fit exp log train s (rewire d es) g = fit exp log train s d g) ∧
    (s.symmetrize = true → fit exp log train s (rewire d (d.edges.map fun e => (e.2, e.1))) g = fit exp log train s d g) := by
  have key : ∀ es, (∀ i j, Gnn.Spec.Joined d.n s.symmetrize d.edges i j ↔ Gnn.Spec.Joined d.n s.symmetrize es i j) →
      fit exp log train s (rewire d es) g = fit exp log train s d g := by
    intro es h
    have hadj : hopAdj d.n s.symmetrize es = hopAdj d.n s.symmetrize d.edges := by
      funext i
      have e1 : ∀ es', hopAdj d.n s.symmetrize es' i = (List.range d.n).filter fun j => decide (j ∈ hopAdj d.n s.symmetrize es' i) := by
        intro es'
        conv_lhs => unfold hopAdj
        apply List.filter_congr
        intro j hj
        unfold hopAdj
        rw [Bool.eq_iff_iff, decide_eq_true_iff, List.mem_filter]
        exact ⟨fun h => ⟨hj, h⟩, fun h => h.2⟩
      rw [e1 es, e1 d.edges]
      apply List.filter_congr
      intro j _
      rw [Bool.eq_iff_iff, decide_eq_true_iff, decide_eq_true_iff, mem_hopAdj, mem_hopAdj]
      exact (h i j).symm
    have henv : ∀ k, (rounds exp log train (envOf s (rewire d es)) k (start exp log train (envOf s (rewire d es)) g)) =
        (rounds exp log train (envOf s d) k (start exp log train (envOf s d) g)) := by
      have hstack : ∀ m w X, stacked d.n (hopAdj d.n s.symmetrize es) s.hops.toNat m w X =
          stacked (K := K) d.n (hopAdj d.n s.symmetrize d.edges) s.hops.toNat m w X := by
        intro m w X; rw [hadj]
      have htr : ∀ step H pseudo prev ms g calls, trainHops exp log train (envOf s (rewire d es)) step H pseudo prev ms g calls =
          trainHops exp log train (envOf s d) step H pseudo prev ms g calls := by
        intro step H pseudo prev ms
        induction ms with
        | nil => intro g calls; rfl
        | cons m ms ih =>
          intro g calls
          unfold trainHops
          have hz : stacked (envOf s (rewire d es)).d.n (envOf s (rewire d es)).adj (envOf s (rewire d es)).hops m
              (envOf s (rewire d es)).classes H = stacked (envOf s d).d.n (envOf s d).adj (envOf s d).hops m (envOf s d).classes H :=
            hstack m _ H
          dsimp only
          rw [hz, ih]
          rfl
      intro k
      induction k with
      | zero =>
        have hz : stacked (envOf s (rewire d es)).d.n (envOf s (rewire d es)).adj (envOf s (rewire d es)).hops
            ((envOf s (rewire d es)).hops - 1) (envOf s (rewire d es)).d.width (envOf s (rewire d es)).d.X =
            stacked (envOf s d).d.n (envOf s d).adj (envOf s d).hops ((envOf s d).hops - 1) (envOf s d).d.width (envOf s d).d.X :=
          hstack _ _ _
        unfold rounds start
        dsimp only
        rw [hz]
        rfl
      | succ k ih =>
        unfold rounds
        rw [ih]
        unfold round
        dsimp only
        rw [htr]
        rfl
    rw [fit_eq, fit_eq, henv]
    rfl
  refine ⟨key es, fun hs => key _ fun i j => ?_⟩
  unfold Gnn.Spec.Joined
  have hm : ∀ a b : Int, (a, b) ∈ d.edges.map (fun e => (e.2, e.1)) ↔ (b, a) ∈ d.edges := by
    intro a b
    rw [List.mem_map]
    constructor
    · rintro ⟨e, he, h⟩
      injection h with h1 h2
      subst h1; subst h2
      exact he
    · intro h
      exact ⟨_, h, rfl⟩
  rw [hm, hm, hs]
  constructor
  · rintro ⟨a, b, c, h | ⟨-, h⟩⟩
    · exact ⟨a, b, c, .inr ⟨rfl, h⟩⟩
    · exact ⟨a, b, c, .inl h⟩
  · rintro ⟨a, b, c, h | ⟨-, h⟩⟩
    · exact ⟨a, b, c, .inr ⟨rfl, h⟩⟩
    · exact ⟨a, b, c, .inl h⟩

/-! ### Labels -/

theorem cross_congr (exp log : K → K) (classes : Nat) (nodes : List Nat) (labels labels' Z : Feat K) (L : Linear K)
    (h : ∀ i ∈ nodes, labels i = labels' i) : cross exp log classes nodes labels Z L = cross exp log classes nodes labels' Z L := by
  unfold cross
  congr 1
  apply List.map_congr_left
  intro i hi
  rw [h i hi]

theorem oneHot_congr (classes : Nat) (y y' : Nat → Int) (i : Nat) (h : y i = y' i) :
    oneHot (K := K) classes y i = oneHot classes y' i := by
  unfold oneHot
  rw [h]

theorem mem_valNodes {s : Settings K} {d : Input K} {nodes : List Nat} (h : (envOf s d).valNodes = some nodes) :
    ∃ m, d.val = some m ∧ nodes = nodesOf d.n m ∧ nodes ≠ [] := by
  unfold envOf at h
  dsimp only at h
  cases hv : d.val with
  | none => rw [hv] at h; cases h
  | some m =>
    rw [hv, Option.bind_some] at h
    by_cases he : (nodesOf d.n m).isEmpty = true
    · rw [if_pos he] at h; cases h
    · rw [if_neg he] at h
      injection h with h
      refine ⟨m, rfl, h.symm, ?_⟩
      rintro rfl
      rw [h] at he
      exact he rfl

/-- **C190 (hidden labels).**  Between accepted data, the labels of nodes that are neither training nor validation nodes change nothing.
Missing: they decide whether the data is accepted, see `C190_hidden_violated`. -/
theorem C190_hidden_partial (exp log : K → K) (train : Trainer K G) (s : Settings K) (d : Input K) (g : G) (y' : Nat → Int)
    (hy : ∀ i, Visible d i → d.y i = y' i) (f f' : Fitted K) (h : fit exp log train s d g = .ok f)
    (h' : fit exp log train s (relabel d y') g = .ok f') : f' = f := by
  obtain ⟨ok, rfl⟩ := (fit_iff exp log train s d g f).mp h
  obtain ⟨ok', rfl⟩ := (fit_iff exp log train s (relabel d y') g f').mp h'
  have hle : ∀ (a b : Nat → Int), (∀ i, d.train i = true → a i = b i) → 0 < (classesOf d.n a).toNat →
      (∀ c < (classesOf d.n a).toNat, ∃ i < d.n, d.train i = true ∧ a i = c) → (classesOf d.n a).toNat ≤ (classesOf d.n b).toNat := by
    intro a b hab hp hc
    obtain ⟨i, hi, ht, hv⟩ := hc ((classesOf d.n a).toNat - 1) (by omega)
    have := (classesOf_spec d.n (by omega) b).2 i hi
    rw [← hab i ht] at this
    omega
  have hcl : (classesOf d.n y').toNat = (classesOf d.n d.y).toNat :=
    le_antisymm (hle y' d.y (fun i ht => (hy i (.inl ht)).symm) (classes_pos ok') ok'.2.2.2.2.1)
      (hle d.y y' (fun i ht => hy i (.inl ht)) (classes_pos ok) ok.2.2.2.2.1)
  have hcl' : (envOf s (relabel d y')).classes = (envOf s d).classes := hcl
  have hval : ∀ (Z : Feat K), ((envOf s (relabel d y')).valNodes.map fun nodes => fun L =>
      -(cross exp log (envOf s (relabel d y')).classes nodes (oneHot (envOf s (relabel d y')).classes (envOf s (relabel d y')).d.y) Z L)) =
      ((envOf s d).valNodes.map fun nodes => fun L =>
      -(cross exp log (envOf s d).classes nodes (oneHot (envOf s d).classes (envOf s d).d.y) Z L)) := by
    intro Z
    rw [hcl']
    have : (envOf s (relabel d y')).valNodes = (envOf s d).valNodes := rfl
    rw [this]
    cases hn : (envOf s d).valNodes with
    | none => rfl
    | some nodes =>
      obtain ⟨m, hm, rfl, -⟩ := mem_valNodes hn
      simp only [Option.map_some, Option.some.injEq]
      funext L
      congr 1
      apply cross_congr
      intro i hi
      exact oneHot_congr _ _ _ i (hy i (.inr ⟨m, hm, ((mem_nodesOf d.n m i).mp hi).2⟩)).symm
  have hcall : ∀ step m w Z labels labels' prev, (∀ i, d.train i = true → labels' i = labels i) → (step ≠ 0 → labels' = labels) →
      mkCall exp log (envOf s (relabel d y')) step m w Z labels' prev = mkCall exp log (envOf s d) step m w Z labels prev := by
    intro step m w Z labels labels' prev ht hs
    unfold mkCall
    rw [hval Z]
    congr 1
    rw [hcl']
    funext L
    unfold loss
    dsimp only
    by_cases h0 : step = 0
    · rw [if_pos h0, if_pos h0]
      have hx : cross exp log (envOf s d).classes (nodesOf (envOf s (relabel d y')).d.n (envOf s (relabel d y')).d.train) labels' Z L =
          cross exp log (envOf s d).classes (nodesOf (envOf s d).d.n (envOf s d).d.train) labels Z L :=
        cross_congr exp log _ _ _ _ Z L fun i hi => ht i ((mem_nodesOf _ _ i).mp hi).2
      rw [hx]
      rfl
    · rw [if_neg h0, if_neg h0, hs h0]
      rfl
  have hpin : ∀ l : Feat K, pin d.train (oneHot (envOf s d).classes y') l = pin d.train (oneHot (envOf s d).classes d.y) l := by
    intro l
    funext i
    unfold pin
    by_cases ht : d.train i = true
    · rw [if_pos ht, if_pos ht]
      exact oneHot_congr _ _ _ i (hy i (.inl ht)).symm
    · rw [if_neg ht, if_neg ht]
  have htr : ∀ step, step ≠ 0 → ∀ H pseudo prev ms g calls,
      trainHops exp log train (envOf s (relabel d y')) step H pseudo prev ms g calls =
      trainHops exp log train (envOf s d) step H pseudo prev ms g calls := by
    intro step hs H pseudo prev ms
    induction ms with
    | nil => intro g calls; rfl
    | cons m ms ih =>
      intro g calls
      unfold trainHops
      dsimp only
      rw [hcl', hcall step m _ _ pseudo pseudo (prev m) (fun _ _ => rfl) (fun _ => rfl), ih]
      rfl
  have hr : ∀ k, rounds exp log train (envOf s (relabel d y')) k (start exp log train (envOf s (relabel d y')) g) =
      rounds exp log train (envOf s d) k (start exp log train (envOf s d) g) := by
    intro k
    induction k with
    | zero =>
      unfold rounds start
      dsimp only
      rw [hcl', hcall 0 _ _ _ (oneHot (envOf s d).classes (envOf s d).d.y) (oneHot (envOf s d).classes (envOf s (relabel d y')).d.y) none
        (fun i ht => oneHot_congr _ _ _ i (hy i (.inl ht)).symm) (fun h => absurd rfl h)]
      congr 1
      exact hpin _
    | succ k ih =>
      unfold rounds
      rw [ih]
      unfold round
      dsimp only
      rw [hcl', htr (k + 1) (Nat.succ_ne_zero k)]
      congr 1
      exact hpin _
  rw [hr]
  congr 1

theorem onehot_sum (classes : Nat) (y : Int) (h0 : 0 ≤ y) (h1 : y < classes) (g : Nat → K) :
    ((List.range classes).map fun (c : Nat) => (if column classes y = (c : Int) then (1 : K) else 0) * g c).sum = g y.toNat := by
  have hcol : column classes y = y := by unfold column; rw [if_neg (by omega)]
  rw [hcol]
  have key : ∀ m : Nat, ((List.range m).map fun (c : Nat) => (if y = (c : Int) then (1 : K) else 0) * g c).sum =
      if y < m then g y.toNat else 0 := by
    intro m
    induction m with
    | zero => rw [if_neg (by omega)]; rfl
    | succ m ih =>
      rw [List.range_succ, List.map_append, List.sum_append, ih]
      simp only [List.map_cons, List.map_nil, List.sum_cons, List.sum_nil, add_zero]
      by_cases h : y = (m : Int)
      · rw [if_neg (by omega), if_pos h, if_pos (by omega), one_mul, zero_add]
        congr 1
        omega
      · rw [if_neg h, zero_mul, add_zero]
        by_cases h2 : y < m
        · rw [if_pos h2, if_pos (by omega)]
        · rw [if_neg h2, if_neg (by omega)]
  rw [key, if_pos h1]

/-- The calls the recorded history consists of. -/
def GoodCall (exp log : K → K) (e : Env K) (first : Bool) (c : Call K) : Prop :=
  ∃ step m w X labels prev, (step = 0 ↔ first = true) ∧ (∀ i, e.d.train i = true → labels i = oneHot e.classes e.d.y i) ∧
    (first = true → m = e.hops - 1 ∧ w = e.d.width ∧ X = e.d.X) ∧ (first = false → m < e.hops ∧ w = e.classes) ∧
    c = mkCall exp log e step m w (stacked e.d.n e.adj e.hops m w X) labels prev

theorem trainHops_calls (exp log : K → K) (train : Trainer K G) (e : Env K) (step : Nat) (hs : step ≠ 0) (H pseudo : Feat K)
    (hp : ∀ i, e.d.train i = true → pseudo i = oneHot e.classes e.d.y i)
    (prev : Nat → Option (Linear K)) (ms : List Nat) (hms : ∀ m ∈ ms, m < e.hops) (g : G) (calls : List (Call K)) :
    ∃ cs, (trainHops exp log train e step H pseudo prev ms g calls).2.2 = calls ++ cs ∧ cs.length = ms.length ∧
      ∀ c ∈ cs, GoodCall exp log e false c := by
  induction ms generalizing g calls with
  | nil => exact ⟨[], by unfold trainHops; simp, rfl, fun c hc => absurd hc List.not_mem_nil⟩
  | cons m ms ih =>
    unfold trainHops
    dsimp only
    obtain ⟨cs, h1, h2, h3⟩ := ih (fun m hm => hms m (List.mem_cons_of_mem _ hm)) (train (mkCall exp log e step m e.classes (stacked e.d.n e.adj e.hops m e.classes H) pseudo (prev m)) g).2
      (calls ++ [mkCall exp log e step m e.classes (stacked e.d.n e.adj e.hops m e.classes H) pseudo (prev m)])
    refine ⟨mkCall exp log e step m e.classes (stacked e.d.n e.adj e.hops m e.classes H) pseudo (prev m) :: cs, ?_, ?_, ?_⟩
    · rw [h1, List.append_assoc]; rfl
    · rw [List.length_cons, List.length_cons, h2]
    · intro c hc
      rcases List.mem_cons.mp hc with rfl | hc
      · exact ⟨step, m, _, H, pseudo, prev m, by simp [hs], hp, fun h => (by cases h), fun _ => ⟨hms m List.mem_cons_self, rfl⟩, rfl⟩
      · exact h3 c hc

theorem rounds_calls (exp log : K → K) (train : Trainer K G) (e : Env K) (g : G) (k : Nat) :
    (∀ i, e.d.train i = true → (rounds exp log train e k (start exp log train e g)).pseudo i = oneHot e.classes e.d.y i) ∧
    ∃ c cs, (rounds exp log train e k (start exp log train e g)).calls = c :: cs ∧ cs.length = k * e.hops ∧
      GoodCall exp log e true c ∧ ∀ c ∈ cs, GoodCall exp log e false c := by
  induction k with
  | zero =>
    unfold rounds start
    dsimp only
    refine ⟨fun i hi => ?_, _, [], rfl, by simp,
      ⟨0, _, _, _, _, none, by simp, fun _ _ => rfl, fun _ => ⟨rfl, rfl, rfl⟩, fun h => (by cases h), rfl⟩, fun c hc => absurd hc List.not_mem_nil⟩
    unfold pin
    rw [if_pos hi]
  | succ k ih =>
    obtain ⟨hp, c, cs, h1, h2, h3, h4⟩ := ih
    unfold rounds round
    dsimp only
    obtain ⟨cs', a, b, hc⟩ := trainHops_calls exp log train e (k + 1) (Nat.succ_ne_zero k)
      (rounds exp log train e k (start exp log train e g)).H (rounds exp log train e k (start exp log train e g)).pseudo hp
      (rounds exp log train e k (start exp log train e g)).prev (List.range e.hops)
      (fun m hm => List.mem_range.mp hm) (rounds exp log train e k (start exp log train e g)).rng (rounds exp log train e k (start exp log train e g)).calls
    refine ⟨fun i hi => ?_, c, cs ++ cs', ?_, ?_, h3, ?_⟩
    · unfold pin
      rw [if_pos hi]
    · rw [a, h1]; rfl
    · rw [List.length_append, h2, b, List.length_range]; ring
    · intro c' hc'
      rcases List.mem_append.mp hc' with h | h
      · exact h4 c' h
      · exact hc c' h

theorem cross_true (exp log : K → K) (classes : Nat) (nodes : List Nat) (y : Nat → Int) (labels Z : Feat K) (L : Linear K)
    (hl : ∀ i ∈ nodes, labels i = oneHot classes y i) (hy : ∀ i ∈ nodes, 0 ≤ y i ∧ y i < classes) :
    cross exp log classes nodes labels Z L = (nodes.map fun i => log (Grafn.probOf exp classes (L.app Z i) (y i).toNat)).sum := by
  unfold cross
  congr 1
  apply List.map_congr_left
  intro i hi
  rw [hl i hi]
  exact onehot_sum classes (y i) (hy i hi).1 (hy i hi).2 fun c => log (soft exp classes L Z i c)

theorem stacked_spec (d : Input K) (sym : Bool) (hops m w : Nat) (X : Feat K) (hm : m + 1 ≤ hops) :
    Stack d sym (m + 1) w X (stacked d.n (hopAdj d.n sym d.edges) hops m w X) := by
  refine ⟨fun i c hc => ?_, fun h hh i hi c hc => ?_⟩
  · unfold stacked concat
    rw [Nat.div_eq_of_lt hc, Nat.mod_eq_of_lt hc]
    rfl
  · obtain ⟨l, h1, h2, h3, h4⟩ := C143_average d.n sym d.edges hops h (by omega) X i hi c
    have e : stacked d.n (hopAdj d.n sym d.edges) hops m w X i ((h + 1) * w + c) = hopFeatures d.n (hopAdj d.n sym d.edges) hops h X i c := by
      unfold stacked concat
      have hd : ((h + 1) * w + c) / w = h + 1 := by
        rw [Nat.add_comm, Nat.add_mul_div_right _ _ (by omega), Nat.div_eq_of_lt hc]
        omega
      have hmod : ((h + 1) * w + c) % w = c := by
        rw [Nat.add_comm, Nat.add_mul_mod_self_right, Nat.mod_eq_of_lt hc]
      rw [hd, hmod, List.getD_cons_succ, List.getD_eq_getElem?_getD, List.getElem?_map, List.getElem?_range hh]
      rfl
    exact ⟨l, h1, h2, by rw [e]; exact h3, fun hl => by rw [e]; exact h4 hl⟩

/-- **C190 (what is optimized).**  There is one optimization at the start and one for each hop in each iteration.  The first fits the true
classes of the training nodes; the later ones fit the true classes of the training nodes, pseudo labels of all other nodes and their
entropy.  Every one is judged on the true classes of the validation nodes, if there are any.  The inputs are the features side by side
with their averages over the nodes at each distance; later the features are replaced by one number for each class. -/
theorem C190_losses (exp log : K → K) (train : Trainer K G) (s : Settings K) (d : Input K) (g : G) (f : Fitted K)
    (h : fit exp log train s d g = .ok f) : ∃ c cs, f.calls = c :: cs ∧ cs.length = s.maxIter.toNat * s.hops.toNat ∧
      c.width = (s.hops.toNat + 1) * d.width ∧
      (∃ Z, Stack d s.symmetrize s.hops.toNat d.width d.X Z ∧ FirstLoss exp log f.classes d c Z ∧ ValLoss exp log f.classes d c Z) ∧
      ∀ c ∈ cs, ∃ m H Z, m < s.hops.toNat ∧ c.width = (m + 2) * f.classes ∧ Stack d s.symmetrize (m + 1) f.classes H Z ∧
        LaterLoss exp log s.alpha s.beta f.classes d c Z ∧ ValLoss exp log f.classes d c Z := by
  obtain ⟨ok, rfl⟩ := (fit_iff exp log train s d g f).mp h
  obtain ⟨-, c, cs, h1, h2, h3, h4⟩ := rounds_calls exp log train (envOf s d) g s.maxIter.toNat
  have hn : 0 < d.n := by obtain ⟨i, hi, -⟩ := ok.2.2.1; omega
  have hmax := (classesOf_spec d.n hn d.y).2
  have hclass : ∀ i < d.n, 0 ≤ d.y i → d.y i < ((envOf s d).classes : Int) := by
    intro i hi _
    have := hmax i hi
    have e : (envOf s d).classes = (classesOf d.n d.y).toNat := rfl
    omega
  have htrainlen : (max (nodesOf d.n d.train).length 1 : Nat) = (nodesOf d.n d.train).length := by
    obtain ⟨i, hi, ht⟩ := ok.2.2.1
    have := List.length_pos_of_mem ((mem_nodesOf d.n d.train i).mpr ⟨hi, ht⟩)
    omega
  have htrue : ∀ (Z : Feat K) (labels : Feat K) L, (∀ i, d.train i = true → labels i = oneHot (envOf s d).classes d.y i) →
      cross exp log (envOf s d).classes (nodesOf d.n d.train) labels Z L / ((max (nodesOf d.n d.train).length 1 : Nat) : K) =
        trueFit exp log (envOf s d).classes d Z L := by
    intro Z labels L hl
    rw [htrainlen, cross_true exp log _ (nodesOf d.n d.train) d.y labels Z L (fun i hi => hl i ((mem_nodesOf _ _ i).mp hi).2)
      fun i hi => ?_]
    · rfl
    · obtain ⟨a, b⟩ := (mem_nodesOf _ _ i).mp hi
      have := ok.2.2.2.1 i a b
      exact ⟨this, hclass i a this⟩
  have hval : ∀ step m w Z labels prev, ValLoss exp log (envOf s d).classes d (mkCall exp log (envOf s d) step m w Z labels prev) Z := by
    intro step m w Z labels prev
    unfold mkCall
    refine ⟨?_, ?_⟩
    · dsimp only
      rw [Option.map_eq_none_iff]
      constructor
      · intro hv m' hm' i hi
        by_contra hc
        have hmem := (mem_nodesOf d.n m' i).mpr ⟨hi, by simpa using hc⟩
        unfold envOf at hv
        dsimp only at hv
        rw [hm', Option.bind_some] at hv
        by_cases he : (nodesOf d.n m').isEmpty = true
        · rw [List.isEmpty_iff.mp he] at hmem
          exact absurd hmem List.not_mem_nil
        · rw [if_neg he] at hv
          cases hv
      · intro hv
        by_contra hc
        obtain ⟨nodes, hnodes⟩ := Option.ne_none_iff_exists'.mp hc
        obtain ⟨m', hm', rfl, hne⟩ := mem_valNodes hnodes
        obtain ⟨i, l, hl⟩ := List.exists_cons_of_ne_nil hne
        have : i ∈ nodesOf d.n m' := by rw [hl]; exact List.mem_cons_self
        obtain ⟨a, b⟩ := (mem_nodesOf _ _ i).mp this
        rw [hv m' hm' i a] at b
        cases b
    · intro m' vl hm' hvl hy L
      dsimp only at hvl
      rw [Option.map_eq_some_iff] at hvl
      obtain ⟨nodes, hnodes, rfl⟩ := hvl
      obtain ⟨m'', hm'', rfl, -⟩ := mem_valNodes hnodes
      rw [hm'] at hm''
      injection hm'' with hm''
      subst hm''
      dsimp only
      rw [cross_true exp log _ (nodesOf d.n m') (envOf s d).d.y (oneHot (envOf s d).classes (envOf s d).d.y) Z L (fun i _ => rfl)
        fun i hi => ?_]
      · rfl
      · obtain ⟨a, b⟩ := (mem_nodesOf _ _ i).mp hi
        exact ⟨hy i a b, hclass i a (hy i a b)⟩
  have hh := ok.1
  have hcl : (envOf s d).hops = s.hops.toNat := rfl
  refine ⟨c, cs, h1, h2, ?_, ?_, ?_⟩
  · obtain ⟨step, m, w, X, labels, prev, hs, hl, hf, -, rfl⟩ := h3
    obtain ⟨rfl, rfl, rfl⟩ := hf rfl
    unfold mkCall
    dsimp only
    have : (envOf s d).hops - 1 + 2 = s.hops.toNat + 1 := by omega
    rw [this]
    rfl
  · obtain ⟨step, m, w, X, labels, prev, hs, hl, hf, -, rfl⟩ := h3
    obtain ⟨rfl, rfl, rfl⟩ := hf rfl
    refine ⟨stacked d.n (hopAdj d.n s.symmetrize d.edges) s.hops.toNat ((envOf s d).hops - 1) d.width d.X, ?_, fun L => ?_, hval _ _ _ _ _ _⟩
    · have := stacked_spec d s.symmetrize s.hops.toNat ((envOf s d).hops - 1) d.width d.X (by omega)
      have e : (envOf s d).hops - 1 + 1 = s.hops.toNat := by omega
      rw [e] at this
      exact this
    · unfold mkCall loss
      dsimp only
      rw [if_pos (hs.mpr rfl), neg_div]
      congr 1
      exact htrue _ labels L hl
  · intro c hc
    obtain ⟨step, m, w, X, labels, prev, hs, hl, -, hf, rfl⟩ := h4 c hc
    obtain ⟨hm, rfl⟩ := hf rfl
    refine ⟨m, X, stacked d.n (hopAdj d.n s.symmetrize d.edges) s.hops.toNat m (envOf s d).classes X, hm, rfl,
      stacked_spec d s.symmetrize s.hops.toNat m (envOf s d).classes X (by omega), ⟨labels, fun L => ?_⟩, hval _ _ _ _ _ _⟩
    unfold mkCall loss
    dsimp only
    rw [if_neg (fun h => by have := hs.mp h; cases this)]
    have := htrue (stacked d.n (hopAdj d.n s.symmetrize d.edges) s.hops.toNat m (envOf s d).classes X) labels L hl
    refine congrArg Neg.neg ?_
    refine congrArg₂ _ (congrArg₂ _ this rfl) rfl

/-! ### Temperature and warm start -/

/-- **C190 (temperature).**  The pseudo labels a model gives at temperature `t` are distributions in which two classes are related as the
exponentials of their scores divided by `t`; at temperature one they are its predictions. -/
theorem C190_temperature (exp : K → K) (E : ExpLaw exp) (classes : Nat) (hk : 0 < classes) (t : K) (L : Linear K) (Z : Feat K) (i : Nat) :
    (∀ c, 0 < softTemp exp classes t L Z i c) ∧ ((List.range classes).map (softTemp exp classes t L Z i)).sum = 1 ∧
    (∀ c c', softTemp exp classes t L Z i c * exp (L.app Z i c' / t) = softTemp exp classes t L Z i c' * exp (L.app Z i c / t)) ∧
    softTemp exp classes 1 L Z i = soft exp classes L Z i := by
  have h := probOf_distribution exp E classes hk fun c => L.app Z i c / t
  refine ⟨h.1, h.2, fun c c' => ?_, ?_⟩
  · unfold softTemp Grafn.probOf
    ring
  · unfold softTemp soft
    simp only [div_one]

theorem trainHops_warm (exp log : K → K) (train : Trainer K G) (e : Env K) (step : Nat) (H pseudo : Feat K)
    (prev : Nat → Option (Linear K)) (ms : List Nat) (g : G) (calls : List (Call K)) :
    ∃ cs, (trainHops exp log train e step H pseudo prev ms g calls).2.2 = calls ++ cs ∧ cs.length = ms.length ∧
      ∀ j m : Nat, ms[j]? = some m → ∃ c g', cs[j]? = some c ∧ c.prev = (if step ≤ 1 then none else prev m) ∧
        ((trainHops exp log train e step H pseudo prev ms g calls).1[j]?).map (fun p : Nat × Linear K × Feat K => p.2.1) = some (train c g').1 := by
  induction ms generalizing g calls with
  | nil => exact ⟨[], by unfold trainHops; simp, rfl, fun j m h => absurd h (by simp)⟩
  | cons m ms ih =>
    unfold trainHops
    dsimp only
    obtain ⟨cs, h1, h2, h3⟩ := ih (train (mkCall exp log e step m e.classes (stacked e.d.n e.adj e.hops m e.classes H) pseudo (prev m)) g).2
      (calls ++ [mkCall exp log e step m e.classes (stacked e.d.n e.adj e.hops m e.classes H) pseudo (prev m)])
    refine ⟨mkCall exp log e step m e.classes (stacked e.d.n e.adj e.hops m e.classes H) pseudo (prev m) :: cs, ?_, ?_, ?_⟩
    · rw [h1, List.append_assoc]; rfl
    · rw [List.length_cons, List.length_cons, h2]
    · intro j m' hj
      cases j with
      | zero =>
        obtain rfl := Option.some.inj hj
        exact ⟨_, g, rfl, rfl, rfl⟩
      | succ j => exact h3 j m' hj

theorem rounds_warm (exp log : K → K) (train : Trainer K G) (e : Env K) (g : G) (k : Nat) :
    (rounds exp log train e k (start exp log train e g)).calls.length = 1 + k * e.hops ∧
    (∀ m < e.hops, 0 < k → ∃ c g', (rounds exp log train e k (start exp log train e g)).calls[1 + (k - 1) * e.hops + m]? = some c ∧
      (rounds exp log train e k (start exp log train e g)).prev m = some (train c g').1) ∧
    (∀ i ≤ e.hops, ∀ c, (rounds exp log train e k (start exp log train e g)).calls[i]? = some c → c.prev = none) ∧
    ∀ r m, r + 1 < k → m < e.hops → ∃ c c' g', (rounds exp log train e k (start exp log train e g)).calls[1 + r * e.hops + m]? = some c ∧
      (rounds exp log train e k (start exp log train e g)).calls[1 + (r + 1) * e.hops + m]? = some c' ∧ c'.prev = some (train c g').1 := by
  induction k with
  | zero =>
    refine ⟨by simp [rounds, start], fun m _ h => absurd h (lt_irrefl 0), ?_, fun r m h => absurd h (Nat.not_lt_zero _)⟩
    intro i _ c hc
    unfold rounds start at hc
    dsimp only at hc
    cases i with
    | zero => obtain rfl := Option.some.inj hc; rfl
    | succ i => simp at hc
  | succ k ih =>
    obtain ⟨h1, h2, h3, h4⟩ := ih
    unfold rounds round
    dsimp only
    set st := rounds exp log train e k (start exp log train e g)
    obtain ⟨cs, a, b, hc⟩ := trainHops_warm exp log train e (k + 1) st.H st.pseudo st.prev (List.range e.hops) st.rng st.calls
    rw [List.length_range] at b
    have hleft : ∀ i, i < 1 + k * e.hops → (st.calls ++ cs)[i]? = st.calls[i]? := fun i hi =>
      List.getElem?_append_left (by omega)
    have hright : ∀ m, (st.calls ++ cs)[1 + k * e.hops + m]? = cs[m]? := fun m => by
      rw [List.getElem?_append_right (by omega), h1, Nat.add_sub_cancel_left]
    have hm : ∀ m < e.hops, (List.range e.hops)[m]? = some m := fun m hm => List.getElem?_range hm
    rw [a]
    refine ⟨by rw [List.length_append, h1, b]; ring, fun m hlt _ => ?_, fun i hi c hic => ?_, fun r m hr hlt => ?_⟩
    · obtain ⟨c, g', x, -, z⟩ := hc m m (hm m hlt)
      exact ⟨c, g', by rw [Nat.add_sub_cancel, hright]; exact x, z⟩
    · by_cases hik : i < 1 + k * e.hops
      · rw [hleft i hik] at hic
        exact h3 i hi c hic
      · obtain ⟨j, rfl⟩ := Nat.exists_eq_add_of_le (not_lt.mp hik)
        rw [hright] at hic
        have hj : j < e.hops := by
          have := (List.getElem?_eq_some_iff.mp hic).1
          omega
        have hk0 : k = 0 := by
          by_contra hk
          have := Nat.le_mul_of_pos_left e.hops (Nat.pos_of_ne_zero hk)
          omega
        obtain ⟨c', g', x, y, -⟩ := hc j j (hm j hj)
        obtain rfl := Option.some.inj (hic.symm.trans x)
        rw [y, if_pos (by omega)]
    · have hle : ∀ r', r' < k → 1 + r' * e.hops + m < 1 + k * e.hops := by
        intro r' hr'
        have := Nat.mul_le_mul_right e.hops (Nat.succ_le_of_lt hr')
        rw [Nat.succ_mul] at this
        omega
      rcases Nat.lt_or_ge (r + 1) k with h | h
      · obtain ⟨c, c', g', x, y, z⟩ := h4 r m h hlt
        exact ⟨c, c', g', by rw [hleft _ (hle r (by omega))]; exact x, by rw [hleft _ (hle (r + 1) h)]; exact y, z⟩
      · have hk : k = r + 1 := by omega
        obtain ⟨c, g', x, y⟩ := h2 m hlt (by omega)
        obtain ⟨c', _, x', y', _⟩ := hc m m (hm m hlt)
        refine ⟨c, c', g', ?_, ?_, ?_⟩
        · rw [hleft _ (hle r (by omega))]
          rw [show k - 1 = r by omega] at x
          exact x
        · rw [← hk, hright]; exact x'
        · rw [y', if_neg (by omega), y]

/-- **C190 (warm start).**  The first optimization and those of the first iteration start from new weights; each later one starts from the
weights that the optimization for the same hop found one iteration before. -/
theorem C190_warm (exp log : K → K) (train : Trainer K G) (s : Settings K) (d : Input K) (g : G) (f : Fitted K)
    (h : fit exp log train s d g = .ok f) :
    (∀ i ≤ s.hops.toNat, ∀ c, f.calls[i]? = some c → c.prev = none) ∧
    ∀ r m, r + 1 < s.maxIter.toNat → m < s.hops.toNat → ∃ c c' g', f.calls[1 + r * s.hops.toNat + m]? = some c ∧
      f.calls[1 + (r + 1) * s.hops.toNat + m]? = some c' ∧ c'.prev = some (train c g').1 := by
  obtain ⟨ok, rfl⟩ := (fit_iff exp log train s d g f).mp h
  obtain ⟨-, -, h3, h4⟩ := rounds_warm exp log train (envOf s d) g s.maxIter.toNat
  exact ⟨h3, h4⟩

/-- **C190 violated (validation nodes without label).**  A validation node with a negative label is judged on a class all the same: the one
that many places from the end, so that the marker `-1` stands for the last class. -/
theorem C190_validation_violated (exp log : K → K) (train : Trainer K G) (s : Settings K) (d : Input K) (g : G) (f : Fitted K)
    (h : fit exp log train s d g = .ok f) (m : Nat → Bool) (hm : d.val = some m) (c : Call K) (hc : c ∈ f.calls) (vl : Linear K → K)
    (hv : c.valLoss = some vl) : ∃ Z : Feat K, ∀ L, vl L = -(((List.range d.n).filter m).map fun i =>
      log (Grafn.probOf exp f.classes (L.app Z i) (if d.y i < 0 then d.y i + f.classes else d.y i).toNat)).sum := by
  obtain ⟨ok, rfl⟩ := (fit_iff exp log train s d g f).mp h
  obtain ⟨-, c0, cs, h1, -, h3, h4⟩ := rounds_calls exp log train (envOf s d) g s.maxIter.toNat
  have hgood : ∃ step m w Z labels prev, c = mkCall exp log (envOf s d) step m w Z labels prev := by
    have hc' : c ∈ c0 :: cs := by rw [← h1]; exact hc
    rcases List.mem_cons.mp hc' with rfl | hc'
    · obtain ⟨step, m, w, X, labels, prev, -, -, -, -, e⟩ := h3
      exact ⟨_, _, _, _, _, _, e⟩
    · obtain ⟨step, m, w, X, labels, prev, -, -, -, -, e⟩ := h4 c hc'
      exact ⟨_, _, _, _, _, _, e⟩
  obtain ⟨step, m', w, Z, labels, prev, rfl⟩ := hgood
  have hn : 0 < d.n := by obtain ⟨i, hi, -⟩ := ok.2.2.1; omega
  have hmax := (classesOf_spec d.n hn d.y).2
  refine ⟨Z, fun L => ?_⟩
  unfold mkCall at hv
  dsimp only at hv
  rw [Option.map_eq_some_iff] at hv
  obtain ⟨nodes, hnodes, rfl⟩ := hv
  obtain ⟨m'', hm'', rfl, -⟩ := mem_valNodes hnodes
  obtain rfl := Option.some.inj (hm.symm.trans hm'')
  dsimp only
  congr 1
  unfold cross
  refine congrArg List.sum (List.map_congr_left fun i hi => ?_)
  obtain ⟨hin, -⟩ := (mem_nodesOf _ _ i).mp hi
  have hlo := ok.2.2.2.2.2.1 i hin
  have hhi := hmax i hin
  set y' : Int := if d.y i < 0 then d.y i + ((classesOf d.n d.y).toNat : Int) else d.y i with hy'
  have hcol : column (classesOf d.n d.y).toNat (d.y i) = column (classesOf d.n d.y).toNat y' := by
    unfold column
    by_cases hneg : d.y i < 0
    · rw [if_pos hneg, hy', if_pos hneg, if_neg (by omega)]
    · rw [if_neg hneg, hy', if_neg hneg, if_neg hneg]
  have hb : 0 ≤ y' ∧ y' < ((classesOf d.n d.y).toNat : Int) := by
    rw [hy']
    split <;> omega
  have := onehot_sum (classesOf d.n d.y).toNat y' hb.1 hb.2 fun c => log (soft exp (classesOf d.n d.y).toNat L Z i c)
  rw [← hcol] at this
  exact this

/-! ### Stored predictions -/

/-- **C190 (stored predictions).**  After any sequence of calls of `fit`, the predictions are those of the last one that was accepted, for
any data with as many nodes; without one, or with another number of nodes, `predict_proba` raises. -/
theorem C190_history (exp log : K → K) (train : Trainer K G) (s : Settings K) (runs : List (Input K × G)) (d : Input K) :
    predict (runs.foldl (fun f r => fitOn exp log train s f r.1 r.2) none) d =
      match (runs.filterMap fun r => (fit exp log train s r.1 r.2).toOption).getLast? with
      | none => .error .runtimeError
      | some f => if d.n = f.n then .ok f.proba else .error .valueError := by
  have hor : ∀ (o : Option (Fitted K)) (f : Fitted K) (old : Option (Fitted K)), o.or (some f) = (some (o.getD f)).or old := by
    intro o f old
    cases o <;> rfl
  have key : ∀ old : Option (Fitted K), runs.foldl (fun f r => fitOn exp log train s f r.1 r.2) old =
      ((runs.filterMap fun r => (fit exp log train s r.1 r.2).toOption).getLast?.or old) := by
    induction runs with
    | nil => intro old; simp
    | cons r runs ih =>
      intro old
      rw [List.foldl_cons, ih]
      unfold fitOn
      cases h : fit exp log train s r.1 r.2 with
      | error e => simp [h, Except.toOption]
      | ok f =>
        simp only [List.filterMap_cons, h, Except.toOption]
        rw [List.getLast?_cons]
        exact hor _ f old
  rw [key none, Option.or_none]
  cases (runs.filterMap fun r => (fit exp log train s r.1 r.2).toOption).getLast? with
  | none => rfl
  | some f =>
    unfold predict
    dsimp only
    by_cases h : d.n = f.n
    · rw [if_neg (not_not.mpr h), if_pos h]
    · rw [if_pos h, if_neg h]

/-! ### Violations and concrete cases -/

namespace Demo

/-- A path of three nodes, the last one neither training nor validation node. -/
def data (y2 : Int) : Input Rat where
  n := 3
  edges := [(0, 1), (1, 2)]
  X := fun i _ => i
  width := 1
  y := fun i => if i = 0 then 0 else if i = 1 then 1 else y2
  train := fun i => decide (i < 2)
  val := none

/-- Two hops, one iteration. -/
def settings (w : Option (List Rat)) : Settings Rat := ⟨2, 1, 1 / 10, 1, 1, none, w, true⟩

/-- An optimization that gives all classes the same score. -/
def trainer : Trainer Rat Unit := fun c _ => (⟨c.width, fun _ _ => 0, fun _ => 0⟩, ())

/-- A stand-in for the exponential function. -/
def exp : Rat → Rat := fun _ => 1

end Demo

open Demo

theorem demo_accept (w : Option (List Rat)) (hw : GoodWeights 2 w) (y2 : Int) (h0 : -2 ≤ y2) (h1 : y2 ≤ 1) :
    ∃ f, fit Demo.exp id trainer (settings w) (data y2) () = .ok f := by
  rw [C190_accept]
  refine ⟨(by decide : (1 : Int) ≤ 2), (by decide +kernel : (0 : Rat) < 1 / 10), ⟨0, (by decide : 0 < 3), rfl⟩, ?_, ?_, ?_,
    fun l hl => (by cases hl), hw⟩
  · intro i hi ht
    have : i < 2 := of_decide_eq_true ht
    interval_cases i
    · exact (by decide : (0 : Int) ≤ 0)
    · exact (by decide : (0 : Int) ≤ 1)
  · rintro c hc ⟨j, hj, hcj⟩
    have hj' : j < 3 := hj
    have hc1 : c ≤ 1 := by
      interval_cases j
      · have : c ≤ 0 := hcj
        omega
      · exact hcj
      · have : c ≤ y2 := hcj
        omega
    have : c = 0 ∨ c = 1 := by omega
    rcases this with rfl | rfl
    · exact ⟨0, (by decide : 0 < 3), rfl, rfl⟩
    · exact ⟨1, (by decide : 1 < 3), rfl, rfl⟩
  · intro i hi
    have hi' : i < 3 := hi
    refine ⟨1, (by decide : 1 < 3), ?_⟩
    interval_cases i
    · exact (by decide : -((1 : Int) + 1) ≤ 0)
    · exact (by decide : -((1 : Int) + 1) ≤ 1)
    · exact h0

/-- Violation: prediction weights that do not add up to one are accepted, and the predictions for every node then add up to two. -/
theorem C190_distribution_violated : ∃ f, fit Demo.exp id trainer (settings (some [1, 1])) (data 0) () = .ok f ∧
    ∀ v, ((List.range f.classes).map (f.proba v)).sum = 2 := by
  obtain ⟨f, hf⟩ := demo_accept (some [1, 1]) (fun l hl => by injection hl with hl; subst hl; rfl) 0 (by decide) (by decide)
  refine ⟨f, hf, fun v => ?_⟩
  rw [C190_sum Demo.exp id (fun _ => (zero_lt_one : (0 : Rat) < 1)) trainer _ _ () f hf v]
  show (if (1 : Int) ≤ 0 then (1 : Rat) else [1, 1].sum) = 2
  decide +kernel

/-- Violation: a hidden label of a class without training node makes the same data refused. -/
theorem C190_hidden_violated : (∃ f, fit Demo.exp id trainer (settings none) (data 1) () = .ok f) ∧
    ¬ (∃ f, fit Demo.exp id trainer (settings none) (relabel (data 1) (data 2).y) () = .ok f) ∧
    ∀ i, Visible (data 1) i → (data 1).y i = (data 2).y i := by
  refine ⟨demo_accept none (fun l hl => by cases hl) 1 (by decide) (by decide), ?_, ?_⟩
  · rw [C190_accept]
    rintro ⟨-, -, -, -, h, -⟩
    obtain ⟨i, hi, ht, hy⟩ := h 2 (by decide) ⟨2, (by decide : 2 < 3), (by decide : (2 : Int) ≤ 2)⟩
    have : i < 2 := of_decide_eq_true ht
    interval_cases i
    · exact absurd hy (by decide)
    · exact absurd hy (by decide)
  · rintro i (h | ⟨m, hm, -⟩)
    · have : i < 2 := of_decide_eq_true h
      interval_cases i <;> rfl
    · cases hm

/-- Violation: the data given to `predict_proba` is not looked at, nor is a refused `fit` noticed: after refitting on data that is refused,
the predictions for it are those of the data before. -/
theorem C190_given_data_violated : ∃ f, fit Demo.exp id trainer (settings none) (data 1) () = .ok f ∧
    predict (fitOn Demo.exp id trainer (settings none) (some f) (data 2) ()) (data 2) = .ok f.proba := by
  obtain ⟨h1, h2, -⟩ := C190_hidden_violated
  obtain ⟨f, hf⟩ := h1
  refine ⟨f, hf, ?_⟩
  unfold fitOn
  cases h : fit Demo.exp id trainer (settings none) (data 2) () with
  | ok f' => exact absurd ⟨f', h⟩ h2
  | error e =>
    unfold predict
    dsimp only
    have : f.n = 3 := by
      obtain ⟨-, rfl⟩ := (fit_iff Demo.exp id trainer (settings none) (data 1) () f).mp hf
      rfl
    rw [if_neg (by rw [this]; exact fun hc => hc rfl)]

example : ∃ f, fit Demo.exp id trainer (settings (some [1 / 4, 3 / 4])) (data (-1)) () = .ok f ∧ f.calls.length = 3 := by
  obtain ⟨f, hf⟩ := demo_accept (some [1 / 4, 3 / 4]) (fun l hl => by injection hl with hl; subst hl; rfl) (-1) (by decide) (by decide)
  obtain ⟨c, cs, h1, h2, -⟩ := C190_losses _ _ _ _ _ _ f hf
  refine ⟨f, hf, ?_⟩
  rw [h1, List.length_cons, h2]
  rfl

/-- A fit with a validation node that has no label. -/
example : ∃ f, fit Demo.exp id trainer (settings none) { data (-1) with val := some fun i => decide (i = 2) } () = .ok f :=
  (C190_accept Demo.exp id trainer (settings none) { data (-1) with val := some fun i => decide (i = 2) } ()).mpr
    ((C190_accept Demo.exp id trainer (settings none) (data (-1)) ()).mp
      (demo_accept none (fun l hl => by cases hl) (-1) (by decide) (by decide)))

example : Visible (data 1) 1 ∧ ¬ Visible (data 1) 2 :=
  ⟨.inl rfl, fun h => by rcases h with h | ⟨m, hm, -⟩; exacts [absurd h (by decide), by cases hm]⟩

example : ∃ es, es ≠ (data 1).edges ∧ ∀ i j, Gnn.Spec.Joined 3 true (data 1).edges i j ↔ Gnn.Spec.Joined 3 true es i j := by
  refine ⟨[(1, 2), (0, 1), (0, 1), (2, 2)], by decide, fun i j => ?_⟩
  unfold Gnn.Spec.Joined data
  simp only [List.mem_cons, Prod.mk.injEq, List.not_mem_nil, or_false]
  constructor
  · rintro ⟨a, b, c, h⟩
    refine ⟨a, b, c, ?_⟩
    rcases h with (h | h) | ⟨-, h | h⟩
    · exact .inl (.inr (.inl h))
    · exact .inl (.inl h)
    · exact .inr ⟨trivial, .inr (.inl h)⟩
    · exact .inr ⟨trivial, .inl h⟩
  · rintro ⟨a, b, c, h⟩
    refine ⟨a, b, c, ?_⟩
    rcases h with (h | h | h | h) | ⟨-, h | h | h | h⟩
    · exact .inl (.inr h)
    · exact .inl (.inl h)
    · exact .inl (.inl h)
    · exact absurd (by have := h.1; have := h.2; omega) c
    · exact .inr ⟨trivial, .inr h⟩
    · exact .inr ⟨trivial, .inl h⟩
    · exact .inr ⟨trivial, .inl h⟩
    · exact absurd (by have := h.1; have := h.2; omega) c

end ModSSC.Gnn.GraphHop
