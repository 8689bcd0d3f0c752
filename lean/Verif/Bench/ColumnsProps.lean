import Verif.Bench.ProtoProps
import Verif.Supervised.KnnProps

/-!
# Score columns and class ids (C127)

The supervised baseline (`inductive/methods/supervised.py`) with the numpy kNN classifier, run and scored by the
benchmark.
-/

namespace ModSSC.Bench
open ModSSC ModSSC.Bench.Spec

/-- `SupervisedMethod.fit` and `predict_proba` with `classifier_id="knn"` on one-column features
(inductive/methods/supervised.py:52-104): the rows are divided by their sum, a sum of 0 counting as 1. -/
def supervisedKnn (ext : Supervised.KnnExt Rat) (p : Supervised.KnnParams Rat) (d : FitData Rat) :
    PredictInput Rat → Except PyErr (List (List Rat))
  | .rows X => do
    let scores ← Supervised.predictProba ext p (Supervised.fit p (.fresh : Supervised.KnnState Rat Int) (.vec d.Xl) d.yl).1
      (.vec X)
    pure (scores.map Supervised.normRow)
  | .dataset _ _ _ => .error .typeError

/-- `SupervisedMethod.predict` (inductive/methods/supervised.py:112-118). -/
def supervisedKnnPredict (ext : Supervised.KnnExt Rat) (p : Supervised.KnnParams Rat) (d : FitData Rat)
    (X : List Rat) : Except PyErr (List Int) :=
  Supervised.predict ext p (Supervised.fit p (.fresh : Supervised.KnnState Rat Int) (.vec d.Xl) d.yl).1 (.vec X)

theorem npUnique_of_range {y : List Int} {k : Nat} (h : ∀ c : Int, c ∈ y ↔ 0 ≤ c ∧ c < (k : Int)) :
    npUnique y = (List.range k).map (fun j : Nat => (j : Int)) := by
  have hs : ((List.range k).map (fun j : Nat => (j : Int))).Pairwise (· < ·) := by
    rw [List.pairwise_map]
    exact List.pairwise_lt_range.imp (fun h => by omega)
  have hn : ((List.range k).map (fun j : Nat => (j : Int))).Nodup := hs.imp (fun h => by omega)
  refine List.Perm.eq_of_pairwise (le := (· ≤ ·)) (fun a b _ _ h1 h2 => le_antisymm h1 h2) (npUnique_sorted y)
    (hs.imp (fun h => by omega)) ?_
  rw [List.perm_ext_iff_of_nodup (nodup_npUnique y) hn]
  intro c
  rw [mem_npUnique, h c, List.mem_map]
  constructor
  · rintro ⟨h1, h2⟩
    exact ⟨c.toNat, by rw [List.mem_range]; omega, by omega⟩
  · rintro ⟨j, hj, rfl⟩
    rw [List.mem_range] at hj
    omega

/-- C127, proved part: if the labeled samples show every class id 0 to k-1 and no other label, then a model gets
exactly `k` outputs, every label is an output position, and the j-th class in label order (the one column `j` of a
classifier stands for) is `j`, so taking the argmax position for the label is right.  Missing: other label sets
(`C127_outputs_violated`, `C127_columns_violated`). -/
theorem C127_outputs_partial {y : List Int} {k : Nat} (h : ∀ c : Int, c ∈ y ↔ 0 ≤ c ∧ c < (k : Int)) :
    inferNumClasses y = k ∧ (∀ c ∈ y, 0 ≤ c ∧ c < (inferNumClasses y : Int)) ∧
    ∀ j, j < k → (npUnique y)[j]? = some (j : Int) := by
  have hu := npUnique_of_range h
  have h1 : inferNumClasses y = k := by unfold inferNumClasses; rw [hu]; simp
  refine ⟨h1, fun c hc => by rw [h1]; exact (h c).mp hc, fun j hj => ?_⟩
  rw [hu, List.getElem?_map, List.getElem?_range hj]
  rfl

/-- Exactly which label sets get a model with an output for every label: the ones where no id below the largest is
missing. -/
theorem C127_outputs_iff {y : List Int} (h0 : ∀ c ∈ y, 0 ≤ c) :
    (∀ c ∈ y, c < (inferNumClasses y : Int)) ↔ ∃ k : Nat, ∀ c : Int, c ∈ y ↔ 0 ≤ c ∧ c < (k : Int) := by
  constructor
  · intro h
    refine ⟨inferNumClasses y, fun c => ⟨fun hc => ⟨h0 c hc, h c hc⟩, fun hc => ?_⟩⟩
    have hsub : (npUnique y) ⊆ (List.range (inferNumClasses y)).map (fun j : Nat => (j : Int)) := by
      intro a ha
      rw [mem_npUnique] at ha
      have h1 := h0 a ha
      have h2 := h a ha
      exact List.mem_map.mpr ⟨a.toNat, by rw [List.mem_range]; omega, by omega⟩
    have hp := (List.subperm_of_subset (nodup_npUnique y) hsub).perm_of_length_le (by
      rw [List.length_map, List.length_range]; exact le_rfl)
    rw [← mem_npUnique, hp.mem_iff]
    exact List.mem_map.mpr ⟨c.toNat, by rw [List.mem_range]; omega, by omega⟩
  · rintro ⟨k, h⟩ c hc
    exact ((C127_outputs_partial h).2.1 c hc).2

/-- C127 is violated: with labeled samples of classes 0 and 2 the model gets two outputs, none for class 2. -/
theorem C127_outputs_violated : inferNumClasses [0, 2, 2, 0] = 2 ∧ (2 : Int) ∈ [0, 2, 2, 0] ∧
    ¬ ((2 : Int) < (inferNumClasses [0, 2, 2, 0] : Int)) := by decide +kernel

def demoShiftPre : Prepared Rat := ⟨⟨[0, 1, 0, 1], [some 1, some 2, some 1, some 2]⟩, none, none, none⟩

def demoShiftSplit : IndexSplit :=
  ⟨[("train", [0, 1]), ("val", [2]), ("test", [2, 3]), ("train_labeled", [0, 1]), ("train_unlabeled", [])], []⟩

/-- C127 is violated: a classifier trained on classes 1 and 2 that predicts every test sample correctly is reported
with accuracy 0, because the position of its best column is taken for the class. -/
theorem C127_columns_violated :
    ∃ d, fitData false demoShiftPre (.index demoShiftSplit) none "supervised" none none none = .ok d ∧
      supervisedKnnPredict Supervised.demoExt ⟨1, "euclidean", "uniform", 10, 1⟩ d [0, 1] = .ok [1, 2] ∧
      evaluateInductive (supervisedKnn Supervised.demoExt ⟨1, "euclidean", "uniform", 10, 1⟩ d) demoShiftPre
        (.index demoShiftSplit) ["test"] ["accuracy"] "supervised" none = .ok [("test", [("accuracy", some 0)])] := by
  refine ⟨⟨[0, 1], [1, 2], [], none, none, none, [], 4⟩, ?_, ?_, ?_⟩ <;> decide +kernel

example : inferNumClasses [2, 0, 1, 1] = 3 ∧ ∀ c : Int, c ∈ [2, 0, 1, 1] ↔ 0 ≤ c ∧ c < ((3 : Nat) : Int) := by
  refine ⟨by decide +kernel, fun c => ?_⟩
  simp only [List.mem_cons, List.not_mem_nil, or_false]
  omega

end ModSSC.Bench
