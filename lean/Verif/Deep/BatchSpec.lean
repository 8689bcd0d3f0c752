import Verif.Deep.BatchModel

/-!
# Specification of mini-batch training

Stated on positions in the data set only.
-/

namespace ModSSC.Deep.Spec
open ModSSC ModSSC.Deep

/-- How often sample `i` occurs in the batches of an epoch. -/
def visits (bs : List (List Nat)) (i : Nat) : Nat := bs.flatten.count i

/-- The batches of one epoch over `n` samples are fair: never empty, never larger than the batch
size, no sample twice in one batch, only existing samples, every sample at least once, and no sample
more than one time more often than another. -/
structure FairEpoch (n b : Nat) (bs : List (List Nat)) : Prop where
  nonempty : ∀ B ∈ bs, B ≠ []
  size : ∀ B ∈ bs, B.length ≤ b
  distinct : ∀ B ∈ bs, B.Nodup
  range : ∀ B ∈ bs, ∀ i ∈ B, i < n
  covers : ∀ i < n, 1 ≤ visits bs i
  balanced : ∀ i < n, ∀ j < n, visits bs i ≤ visits bs j + 1

/-- `rows` are the rows of `X` at the positions `B`, in that order. -/
def RowsAt {α : Type} (X : List α) (B : List Nat) (rows : List α) : Prop :=
  rows.map some = B.map fun i => X[i]?

/-- The epoch `steps` consists of labeled batches at positions `bl` and unlabeled batches at
positions `bu`; labels go with their rows, the two views with each other. -/
structure EpochOf {α β γ δ : Type} (Xl : List α) (yl : List β) (Xw : List γ) (Xs : List δ)
    (bl bu : List (List Nat)) (steps : List (Step α β γ δ)) : Prop where
  len_l : bl.length = steps.length
  len_u : bu.length = steps.length
  rows : ∀ t (h : t < steps.length),
    RowsAt Xl (bl.getD t []) (steps[t]).xl ∧ RowsAt yl (bl.getD t []) (steps[t]).yl ∧
    RowsAt Xw (bu.getD t []) (steps[t]).xw ∧ RowsAt Xs (bu.getD t []) (steps[t]).xs

end ModSSC.Deep.Spec
