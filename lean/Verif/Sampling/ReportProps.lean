import Verif.Sampling.ReportModel
import Verif.Sampling.SampleProps

/-!
# C192 — The statistics of a split count what is in it, and missing classes are reported
-/

namespace ModSSC.Sampling.Report
open ModSSC ModSSC.Sampling

namespace Spec

/-- The number of indices with the label. -/
def labelCount (y : List Int) (idx : List Nat) (c : Int) : Nat := (idx.filter fun i => decide (y.getD i 0 = c)).length

/-- A report counts the indices, lists the labels that occur, each once and in increasing order, and counts each. -/
def Counts (y : List Int) (idx : List Nat) (d : Dist) : Prop :=
  d.n = idx.length ∧ (d.classes.map (·.1)).Pairwise (· < ·) ∧ (∀ c, c ∈ d.classes.map (·.1) ↔ ∃ i ∈ idx, y.getD i 0 = c) ∧
  (∀ p ∈ d.classes, p.2 = labelCount y idx p.1) ∧ (d.classes.map (·.2)).sum = d.n

end Spec

open Spec

theorem count_eq (y : List Int) (idx : List Nat) (c : Int) : (idx.map fun i => y.getD i 0).count c = labelCount y idx c := by
  unfold labelCount
  induction idx with
  | nil => rfl
  | cons i l ih =>
    rw [List.map_cons, List.count_cons, ih, List.filter_cons]
    by_cases h : y.getD i 0 = c
    · rw [if_pos (by simpa using h), if_pos (by simpa using h), List.length_cons]
    · rw [if_neg (by simpa using h), if_neg (by simpa using h), Nat.add_zero]

theorem counts_dist (y : List Int) (idx : List Nat) : Counts y idx (classDistribution y idx) := by
  unfold classDistribution
  by_cases h : idx.isEmpty = true
  · rw [if_pos h]
    have : idx = [] := List.isEmpty_iff.mp h
    subst this
    exact ⟨rfl, List.Pairwise.nil, fun c => by simp, fun p hp => absurd hp List.not_mem_nil, rfl⟩
  · rw [if_neg h]
    obtain ⟨classes, hnd, hs, hm, hc⟩ := classCounts_spec (idx.map fun i => y.getD i 0)
    have hfst : (classCounts (idx.map fun i => y.getD i 0)).map (·.1) = classes := by
      rw [hc, List.map_map]
      exact List.map_id' classes
    refine ⟨rfl, ?_, ?_, ?_, ?_⟩
    · dsimp only
      rw [hfst]
      exact (hs.and hnd).imp fun h => lt_of_le_of_ne h.1 h.2
    · intro c
      dsimp only
      rw [hfst, hm, List.mem_map]
    · intro p hp
      dsimp only at hp
      rw [hc] at hp
      obtain ⟨c, -, rfl⟩ := List.mem_map.mp hp
      exact count_eq y idx c
    · dsimp only
      rw [hc, List.map_map]
      have := sum_counts (idx.map fun i => y.getD i 0) classes hnd hm
      rw [List.length_map] at this
      exact this

/-- **C192 (counts).**  The statistics of an index result count the samples of each part and of each class in it, the test part in the labels
it refers to. -/
theorem C192_counts (y yTest : List Int) (r : IndResult) :
    Counts y r.train (indStats y (some yTest) r).train ∧ Counts y r.val (indStats y (some yTest) r).val ∧
    Counts y r.labeled (indStats y (some yTest) r).labeled ∧ (indStats y (some yTest) r).unlabeled = r.unlabeled.length ∧
    (r.testRef = .train → Counts y r.test (indStats y (some yTest) r).test) ∧
    (r.testRef = .test → Counts yTest r.test (indStats y (some yTest) r).test) := by
  refine ⟨counts_dist _ _, counts_dist _ _, counts_dist _ _, rfl, fun h => ?_, fun h => ?_⟩
  · unfold indStats
    rw [h]
    exact counts_dist _ _
  · unfold indStats
    rw [h]
    exact counts_dist _ _

/-- The statistics of a drawn split add up: the labeled and unlabeled samples are the training samples. -/
theorem C192_sum {σ : Type} {R : Rng σ} (hR : R.Lawful) {argsort : List Int → List Nat} (hA : IsArgsort argsort) (y yTest : List Int)
    (nTest : Option Nat) (plan : SamplingPlan) (seeds : Seeds σ) (r : IndResult)
    (h : sampleInductive R argsort y nTest plan seeds = .ok r) :
    (indStats y (some yTest) r).labeled.n + (indStats y (some yTest) r).unlabeled = (indStats y (some yTest) r).train.n := by
  obtain ⟨ht, -, hl, hu, -, hs, -, -⟩ := C11_sample_partition hR hA y nTest plan seeds r h
  have h1 : (indStats y (some yTest) r).labeled.n = r.labeled.length := (counts_dist y r.labeled).1
  have h2 : (indStats y (some yTest) r).train.n = r.train.length := (counts_dist y r.train).1
  have nd : ∀ {l : List Nat}, Sampling.Spec.StrictlyIncreasing l → l.Nodup := fun h => h.imp fun h => h.ne
  rw [h1, h2, show (indStats y (some yTest) r).unlabeled = r.unlabeled.length from rfl, ← List.length_append]
  refine List.Perm.length_eq ((List.perm_ext_iff_of_nodup ?_ (nd ht.1)).mpr fun x => ?_)
  · exact List.nodup_append.mpr ⟨nd hl.1, nd hu.1, fun a ha b hb hab => hs.1 a ha (hab ▸ hb)⟩
  · rw [List.mem_append, hs.2 x]

theorem filter_id_length (m : List Bool) : maskCount m = (maskToIdx m).length := by
  unfold maskCount maskToIdx
  induction m with
  | nil => rfl
  | cons b m ih =>
    rw [List.length_cons, List.range_succ_eq_map, List.filter_cons, List.filter_cons, List.filter_map]
    have hf : ((fun i => (b :: m).getD i false) ∘ Nat.succ) = fun i => m.getD i false := by
      funext i
      simp
    rw [hf]
    cases b
    · simpa using ih
    · simpa using ih

/-- **C192 (graph counts).** -/
theorem C192_graph_counts (y : List Int) (m : Masks) :
    (graphStats y m).nodes = y.length ∧ (graphStats y m).train = (maskToIdx m.train).length ∧
    (graphStats y m).val = (maskToIdx m.val).length ∧ (graphStats y m).test = (maskToIdx m.test).length ∧
    (graphStats y m).labeled = (maskToIdx m.labeled).length ∧ (graphStats y m).unlabeled = (maskToIdx m.unlabeled).length ∧
    Counts y (maskToIdx m.labeled) (graphStats y m).dist :=
  ⟨rfl, filter_id_length _, filter_id_length _, filter_id_length _, filter_id_length _, filter_id_length _, counts_dist _ _⟩

theorem lookup_counts {y : List Int} {idx : List Nat} {d : Dist} (h : Counts y idx d) (c : Int) :
    (d.classes.lookup c).getD 0 = labelCount y idx c := by
  obtain ⟨-, hlt, hmem, hcnt, -⟩ := h
  by_cases hc : ∃ i ∈ idx, y.getD i 0 = c
  · obtain ⟨p, hp, rfl⟩ := List.mem_map.mp ((hmem c).mpr hc)
    have : d.classes.lookup p.1 = some p.2 := by
      clear hmem hcnt hc
      generalize d.classes = l at hp hlt
      induction l with
      | nil => cases hp
      | cons q l ih =>
        rw [List.map_cons, List.pairwise_cons] at hlt
        rcases List.mem_cons.mp hp with rfl | hp
        · rw [List.lookup_cons_self]
        · have hne : p.1 ≠ q.1 := (hlt.1 p.1 (List.mem_map.mpr ⟨p, hp, rfl⟩)).ne'
          rw [List.lookup_cons, show (p.1 == q.1) = false from beq_false_of_ne hne]
          exact ih hp hlt.2
    rw [this]
    exact hcnt p hp
  · have hn : d.classes.lookup c = none := by
      rw [List.lookup_eq_none_iff]
      intro p hp
      rw [bne_iff_ne]
      rintro rfl
      exact hc ((hmem p.1).mp (List.mem_map.mpr ⟨p, hp, rfl⟩))
    rw [hn]
    unfold labelCount
    symm
    rw [Option.getD_none, List.length_eq_zero_iff, List.filter_eq_nil_iff]
    intro i hi hd
    exact hc ⟨i, hi, of_decide_eq_true hd⟩

/-- **C192 (warnings).**  For index results the warning lists exactly the classes of the training set without labeled sample, and an empty
training or labeled set is reported. -/
theorem C192_warn (y yTest : List Int) (r : IndResult) :
    (∀ c, (∃ cs, .missing cs ∈ indWarnings (indStats y (some yTest) r) r ∧ c ∈ cs) ↔
      (∃ i ∈ r.train, y.getD i 0 = c) ∧ ¬ ∃ i ∈ r.labeled, y.getD i 0 = c) ∧
    (.empty ∈ indWarnings (indStats y (some yTest) r) r ↔ r.train = [] ∨ r.labeled = []) := by
  have hmem : ∀ c, c ∈ (((indStats y (some yTest) r).train.classes.map (·.1)).filter fun k =>
      decide (((indStats y (some yTest) r).labeled.classes.lookup k).getD 0 = 0)) ↔
      (∃ i ∈ r.train, y.getD i 0 = c) ∧ ¬ ∃ i ∈ r.labeled, y.getD i 0 = c := by
    intro c
    rw [show (indStats y (some yTest) r).train = classDistribution y r.train from rfl,
      show (indStats y (some yTest) r).labeled = classDistribution y r.labeled from rfl,
      List.mem_filter, decide_eq_true_iff, (counts_dist y r.train).2.2.1 c, lookup_counts (counts_dist y r.labeled) c]
    refine and_congr_right fun _ => ?_
    unfold labelCount
    rw [List.length_eq_zero_iff, List.filter_eq_nil_iff]
    constructor
    · rintro h ⟨i, hi, hc⟩
      exact h i hi (decide_eq_true hc)
    · intro h i hi hc
      exact h ⟨i, hi, of_decide_eq_true hc⟩
  unfold indWarnings
  dsimp only
  constructor
  · intro c
    rw [← hmem c]
    constructor
    · rintro ⟨cs, hcs, hc⟩
      rcases List.mem_append.mp hcs with h | h
      · split at h
        · cases h
        · rw [List.mem_singleton] at h
          injection h with h
          rw [← h]
          exact hc
      · split at h
        · rw [List.mem_singleton] at h
          cases h
        · cases h
    · intro hc
      refine ⟨_, List.mem_append.mpr (.inl ?_), hc⟩
      rw [if_neg ?_]
      · exact List.mem_singleton.mpr rfl
      · intro h
        rw [List.isEmpty_iff.mp h] at hc
        cases hc
  · rw [List.mem_append]
    constructor
    · rintro (h | h)
      · split at h
        · cases h
        · rw [List.mem_singleton] at h
          cases h
      · split at h
        · rename_i hc
          exact hc.imp List.length_eq_zero_iff.mp List.length_eq_zero_iff.mp
        · cases h
    · intro h
      right
      rw [if_pos (h.imp List.length_eq_zero_iff.mpr List.length_eq_zero_iff.mpr)]
      exact List.mem_singleton.mpr rfl

/-- For graph results no warning is ever given. -/
theorem C192_graph_silent (y : List Int) (m : Masks) : graphWarnings (graphStats y m) = [] := by
  unfold graphWarnings
  have : ((graphStats y m).dist.classes.filter fun p => decide (p.2 = 0)) = [] := by
    rw [List.filter_eq_nil_iff]
    intro p hp hz
    obtain ⟨-, -, hmem, hcnt, -⟩ := counts_dist y (maskToIdx m.labeled)
    obtain ⟨i, hi, hc⟩ := (hmem p.1).mp (List.mem_map.mpr ⟨p, hp, rfl⟩)
    have h0 : p.2 = 0 := of_decide_eq_true hz
    rw [hcnt p hp] at h0
    unfold labelCount at h0
    rw [List.length_eq_zero_iff, List.filter_eq_nil_iff] at h0
    exact h0 i hi (decide_eq_true hc)
  rw [this]
  rfl

/-- Violation: in a graph a class of the training nodes can be without labeled node and no warning is given; nor is one if no node is
labeled. -/
theorem C192_warn_violated : ∃ m, sampleGraph Rng.demo stableArgsort [0, 0, 1, 1, 0, 1] none
      { split := .holdout (1 / 3) 0 true true, labeling := { mode := .count, value := 2, fixedIndices := some [0] } } ⟨0, 0, 0⟩ = .ok m ∧
    (∃ i ∈ maskToIdx m.train, [0, 0, 1, 1, 0, 1].getD i (0 : Int) = 1) ∧
    (¬ ∃ i ∈ maskToIdx m.labeled, [0, 0, 1, 1, 0, 1].getD i (0 : Int) = 1) ∧
    graphWarnings (graphStats [0, 0, 1, 1, 0, 1] m) = [] := by
  refine ⟨⟨[true, true, true, true, false, false], [false, false, false, false, false, false], [false, false, false, false, true, true],
    [true, false, false, false, false, false], [false, true, true, true, false, false]⟩, ?_, ?_, ?_, C192_graph_silent _ _⟩
  · decide +kernel
  · decide +kernel
  · decide +kernel

/-- **C192 (fingerprints).**  The fingerprint given to the call is used if it is not empty, else the entry `dataset_fingerprint`, else
`fingerprint`; without any the call is refused. -/
theorem C192_fingerprint (provided : Option String) (info : Option (List (String × String))) (v : String) :
    resolveFingerprint provided info = .ok v ↔
      (provided = some v ∧ v ≠ "") ∨
      ((provided = none ∨ provided = some "") ∧ ∃ d, info = some d ∧
        (d.lookup "dataset_fingerprint" = some v ∨ (d.lookup "dataset_fingerprint" = none ∧ d.lookup "fingerprint" = some v))) := by
  have hm : resolveFingerprint.fromMeta info = .ok v ↔ ∃ d, info = some d ∧
      (d.lookup "dataset_fingerprint" = some v ∨ (d.lookup "dataset_fingerprint" = none ∧ d.lookup "fingerprint" = some v)) := by
    cases info with
    | none =>
      unfold resolveFingerprint.fromMeta
      exact ⟨fun h => (by cases h), fun ⟨d, h, _⟩ => (by cases h)⟩
    | some d =>
      unfold resolveFingerprint.fromMeta
      dsimp only
      cases h1 : d.lookup "dataset_fingerprint" with
      | some a =>
        dsimp only
        constructor
        · intro h
          injection h with h
          exact ⟨d, rfl, .inl (by rw [h1, h])⟩
        · rintro ⟨d', hd, h | ⟨h, -⟩⟩ <;> injection hd with hd <;> subst hd <;> rw [h1] at h
          · injection h with h
            rw [h]
          · cases h
      | none =>
        dsimp only
        cases h2 : d.lookup "fingerprint" with
        | some a =>
          dsimp only
          constructor
          · intro h
            injection h with h
            exact ⟨d, rfl, .inr ⟨h1, by rw [h2, h]⟩⟩
          · rintro ⟨d', hd, h | ⟨-, h⟩⟩ <;> injection hd with hd <;> subst hd
            · rw [h1] at h
              cases h
            · rw [h2] at h
              injection h with h
              rw [h]
        | none =>
          dsimp only
          refine ⟨fun h => (by cases h), ?_⟩
          rintro ⟨d', hd, h | ⟨-, h⟩⟩ <;> injection hd with hd <;> subst hd
          · rw [h1] at h
            cases h
          · rw [h2] at h
            cases h
  unfold resolveFingerprint
  cases provided with
  | none =>
    dsimp only
    rw [hm]
    constructor
    · intro h
      exact .inr ⟨.inl rfl, h⟩
    · rintro (⟨h, -⟩ | ⟨-, h⟩)
      · cases h
      · exact h
  | some p =>
    dsimp only
    by_cases hp : p ≠ ""
    · rw [if_pos hp]
      constructor
      · intro h
        injection h with h
        subst h
        exact .inl ⟨rfl, hp⟩
      · rintro (⟨h, -⟩ | ⟨h | h, -⟩)
        · injection h with h
          rw [h]
        · cases h
        · injection h with h
          exact absurd h hp
    · rw [if_neg hp, hm]
      rw [not_not] at hp
      subst hp
      constructor
      · intro h
        exact .inr ⟨.inr rfl, h⟩
      · rintro (⟨h, hv⟩ | ⟨-, h⟩)
        · injection h with h
          exact absurd h.symm hv
        · exact h

example : classDistribution [5, 5, 2] [0, 1, 2] = ⟨3, [(2, 1), (5, 2)]⟩ := by decide +kernel
example : indWarnings (indStats [0, 0, 1, 1] (some []) ⟨[0, 1, 2], [], [3], [0], [1, 2], .train⟩) ⟨[0, 1, 2], [], [3], [0], [1, 2], .train⟩ =
    [.missing [1]] := by decide +kernel
example : indWarnings (indStats [0] (some [1]) ⟨[], [], [0], [], [], .test⟩) ⟨[], [], [0], [], [], .test⟩ = [.empty] := by decide +kernel
example : ∃ r, sampleInductive Rng.demo stableArgsort [0, 0, 1, 1, 0, 1] none
      { split := .holdout (1 / 3) 0 true true, labeling := { mode := .count, value := 2 } } ⟨0, 0, 0⟩ = .ok r ∧
    (indStats [0, 0, 1, 1, 0, 1] (some []) r).labeled.n = 2 ∧ (indStats [0, 0, 1, 1, 0, 1] (some []) r).train.n = 4 := by
  refine ⟨(sampleInductive Rng.demo stableArgsort [0, 0, 1, 1, 0, 1] none
      { split := .holdout (1 / 3) 0 true true, labeling := { mode := .count, value := 2 } } ⟨0, 0, 0⟩).toOption.getD
      ⟨[], [], [], [], [], .train⟩, ?_, ?_, ?_⟩ <;> decide +kernel
example : resolveFingerprint (some "") (some [("fingerprint", "b"), ("dataset_fingerprint", "a")]) = .ok "a" := rfl

end ModSSC.Sampling.Report
