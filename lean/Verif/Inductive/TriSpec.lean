import Verif.Inductive.CoSpec

/-!
# Specification of tri-training runs
-/

namespace ModSSC.Inductive.Spec
open scoped List

/-- The other two of the three classifiers, in order. -/
def peers (i : Fin 3) : Fin 3 × Fin 3 :=
  match i with
  | 0 => (1, 2)
  | 1 => (0, 2)
  | 2 => (0, 1)

/-- Classifier `i`'s model was fitted on its bootstrap sample of the labeled data followed by the
pseudo-labeled samples in increasing order. -/
def TriFitted {M α : Type} (C : Clf M α) (X : List α) (y : List Int) (Xu : List α) (boot : List Nat)
    (added : List (Nat × Int)) (m : M) : Prop :=
  ∃ m0 idx labels, idx.Pairwise (· < ·) ∧ idx.zip labels ~ added ∧ labels.length = idx.length ∧
    C.fit m0 (entriesAt X boot ++ entriesAt Xu idx) (entriesAt y boot ++ labels) = .ok m

/-- Both models are confident about sample `p`; `c` is their mean confidence. -/
def BothConfident {M α : Type} (C : Clf M α) (Xu : List α) (threshold : Option Rat) (mj mk : M) (p : Nat)
    (c : Rat) : Prop :=
  ∃ sj sk rj rk vj vk, C.scores mj Xu = .ok sj ∧ C.scores mk Xu = .ok sk ∧ sj.rows[p]? = some rj ∧
    sk.rows[p]? = some rk ∧ IsLargest rj vj ∧ IsLargest rk vk ∧
    (∀ t, threshold = some t → t ≤ vj ∧ t ≤ vk) ∧ c = (vj + vk) / 2

/-- Both models give sample `p` the class label `l`. -/
def SameLabel {M α : Type} (C : Clf M α) (Xu : List α) (mj mk : M) (p : Nat) (l : Int) : Prop :=
  ∃ yj yk, C.predict mj Xu = .ok yj ∧ C.predict mk Xu = .ok yk ∧ yj[p]? = some l ∧ yk[p]? = some l

/-- Both models score the same column of sample `p` highest, and `l` is the number of that column. -/
def SameColumn {M α : Type} (C : Clf M α) (Xu : List α) (mj mk : M) (p : Nat) (l : Int) : Prop :=
  ∃ sj sk rj rk, ∃ c : Nat, C.scores mj Xu = .ok sj ∧ C.scores mk Xu = .ok sk ∧ sj.rows[p]? = some rj ∧
    sk.rows[p]? = some rk ∧ IsFirstMax rj c ∧ IsFirstMax rk c ∧ l = (c : Int)

/-- One round: three models fitted on the current training sets; each classifier receives the most
confident samples, at most `maxNew`, among those it did not receive before and on which its two peers
agree and are confident, with the label they agree on.  `Agree` says what agreeing means. -/
def TriStep {M α : Type} (Agree : M → M → Nat → Int → Prop) (C : Clf M α) (X : List α) (y : List Int)
    (Xu : List α) (boot : Fin 3 → List Nat) (threshold : Option Rat) (maxNew : Option Nat)
    (a a' : Fin 3 → List (Nat × Int)) : Prop :=
  ∃ models : Fin 3 → M, (∀ i, TriFitted C X y Xu (boot i) (a i) (models i)) ∧
    ∀ i, ∃ (new : List (Nat × Int)) (conf : Nat → Rat), a' i = a i ++ new ∧
      (∀ p c, BothConfident C Xu threshold (models (peers i).1) (models (peers i).2) p c → conf p = c) ∧
      IsTopSelection
        (fun p => p ∉ (a i).map (·.1) ∧
          (∃ c, BothConfident C Xu threshold (models (peers i).1) (models (peers i).2) p c) ∧
          ∃ l, Agree (models (peers i).1) (models (peers i).2) p l)
        conf maxNew (new.map (·.1)) ∧
      ∀ x ∈ new, Agree (models (peers i).1) (models (peers i).2) x.1 x.2

/-- The classifier's classes are the distinct labels it was fitted on, in increasing order, and it
predicts the class of the first best column. -/
structure SortedClasses {M α : Type} (C : Clf M α) (classes : M → List Int) : Prop where
  sorted : ∀ m, (classes m).Pairwise (· < ·)
  fitted : ∀ m0 X y m, C.fit m0 X y = .ok m → ∀ l, l ∈ classes m ↔ l ∈ y
  width : ∀ m X s, C.scores m X = .ok s → s.cols = (classes m).length
  predict : ∀ m X s, C.scores m X = .ok s → ∃ labels, C.predict m X = .ok labels ∧
    ∀ (p : Nat) (row : List Rat) (c : Nat), s.rows[p]? = some row → IsFirstMax row c →
      labels[p]? = (classes m)[c]?

end ModSSC.Inductive.Spec
