import Verif.Inductive.Types
import Verif.Inductive.SelectSpec

/-!
# Specification of self-labelling runs
-/

namespace ModSSC.Inductive.Spec

/-- `n` consecutive steps. -/
inductive Steps {σ : Type} (R : σ → σ → Prop) : Nat → σ → σ → Prop
  | zero (s : σ) : Steps R 0 s s
  | succ {n : Nat} {s s1 s2 : σ} : R s s1 → Steps R n s1 s2 → Steps R (n + 1) s s2

/-- The entries of a list outside the given positions, in order. -/
def without {β : Type} (l : List β) (idx : List Nat) : List β :=
  ((List.range l.length).filter (fun i => i ∉ idx)).filterMap (fun i => l[i]?)

/-- The entries of a list at the given positions. -/
def entriesAt {β : Type} (l : List β) (idx : List Nat) : List β := idx.filterMap (fun i => l[i]?)

/-- One round moves the pool samples at positions `idx` to the end of the training set with the given
labels; everything else stays as it was. -/
structure Moves {α : Type} (s s' : Round α) (idx : List Nat) (labels : List Int) : Prop where
  nodup : idx.Nodup
  range : ∀ i ∈ idx, i < s.pool.length
  count : labels.length = idx.length
  X : s'.X = s.X ++ entriesAt s.pool idx
  y : s'.y = s.y ++ labels
  pool : s'.pool = without s.pool idx

/-- The samples of the two rounds are the same, and the training set of the first is the beginning of
the training set of the second, with the same labels. -/
structure Conserves {α : Type} (s s' : Round α) : Prop where
  same : (s'.X ++ s'.pool).Perm (s.X ++ s.pool)
  prefixX : s.X <+: s'.X
  prefixY : s.y <+: s'.y
  aligned : s'.X.length = s'.y.length

/-- The model was fitted (whatever its state before) on the training set of the round. -/
def FittedOn {M α : Type} (C : Clf M α) (s : Round α) (m : M) : Prop :=
  ∃ m0, C.fit m0 s.X s.y = .ok m

/-- The positions pseudo-labeling picks: the most confident pool samples reaching the threshold, at most
`maxNew` of them. -/
def PicksConfident {M α : Type} (C : Clf M α) (threshold : Rat) (maxNew : Option Nat) (m : M) (pool : List α)
    (idx : List Nat) : Prop :=
  ∃ (s : Scores) (conf : Nat → Rat), C.scores m pool = .ok s ∧
    (∀ (i : Nat) (row : List Rat), s.rows[i]? = some row → IsLargest row (conf i)) ∧
    IsTopSelection (fun i => i < pool.length ∧ threshold ≤ conf i) conf maxNew idx

/-! ### self-training with groups -/

/-- The votes in group `gid`: the given labels of its labeled members with confidence 1, and the
predicted labels of its confident unlabeled members with their confidence. -/
def votes (groupL : Option (List Int)) (y : List Int) (groupU : List Int) (pred : List Int) (conf : Nat → Rat)
    (direct : Nat → Bool) (gid : Int) : List (Int × Rat) :=
  (match groupL with
    | none => []
    | some gl => ((List.range gl.length).filter fun i => gl[i]? = some gid).map fun i => (y.getD i 0, 1)) ++
  ((List.range groupU.length).filter fun i => groupU[i]? = some gid && direct i).map fun i =>
    (pred.getD i 0, conf i)

/-- How many of the votes are for `l`. -/
def votesFor (vs : List (Int × Rat)) (l : Int) : Nat := vs.countP (fun v => v.1 = l)

/-- `l` wins the vote with mean confidence `c`: enough votes, most votes (the smallest label among
equals), a large enough share, and a large enough mean confidence of its votes. -/
structure Wins (vs : List (Int × Rat)) (minCount : Int) (minFraction : Rat) (minConf : Option Rat) (l : Int)
    (c : Rat) : Prop where
  enough : minCount ≤ vs.length
  voted : 0 < votesFor vs l
  most : ∀ l', votesFor vs l' ≤ votesFor vs l
  first : ∀ l', votesFor vs l' = votesFor vs l → l ≤ l'
  share : minFraction * vs.length ≤ votesFor vs l
  mean : c * votesFor vs l = ((vs.filter fun v => v.1 = l).map (·.2)).sum
  confident : ∀ t, minConf = some t → t ≤ c

/-- No threshold, or a confidence that reaches it. -/
def reaches (threshold : Option Rat) (c : Rat) : Bool := threshold.all fun t => t ≤ c

/-- Self-training may give label `l` with confidence `c` to pool sample `i`: either the sample itself is
confident and `l` is its predicted label, or it is not, and `l` wins the vote of its group. -/
def Candidate (P : STSpec) (groupL groupU : Option (List Int)) (y pred : List Int) (conf : Nat → Rat) (n : Nat)
    (i : Nat) (l : Int) (c : Rat) : Prop :=
  i < n ∧
  ((reaches P.threshold (conf i) ∧ pred[i]? = some l ∧ c = conf i) ∨
   (¬ reaches P.threshold (conf i) ∧ P.useGroup = true ∧ ∃ g gid, groupU = some g ∧ g[i]? = some gid ∧
      Wins (votes groupL y g pred conf (fun j => reaches P.threshold (conf j)) gid) P.minCount P.minFraction
        (P.groupThreshold.or P.threshold) l c))

/-- The positions and labels self-training picks: the most confident candidates, at most `maxNew`. -/
def PicksCandidates {M α : Type} (C : Clf M α) (P : STSpec) (maxNew : Option Nat)
    (groupL groupU : Option (List Int)) (m : M) (s : Round α) (idx : List Nat) (labels : List Int) : Prop :=
  ∃ (sc : Scores) (pred : List Int) (conf : Nat → Rat) (cand : Nat → Option (Int × Rat)),
    C.scores m s.pool = .ok sc ∧ C.predict m s.pool = .ok pred ∧
    (∀ (i : Nat) (row : List Rat), sc.rows[i]? = some row → IsLargest row (conf i)) ∧
    (∀ i l c, cand i = some (l, c) ↔ Candidate P groupL groupU s.y pred conf s.pool.length i l c) ∧
    IsTopSelection (fun i => (cand i).isSome) (fun i => ((cand i).map (·.2)).getD 0) maxNew idx ∧
    labels.map some = idx.map (fun i => (cand i).map (·.1))

end ModSSC.Inductive.Spec
