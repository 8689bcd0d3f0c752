import Verif.Inductive.LoopModel

/-!
# Model of `SetredMethod.fit` (inductive/methods/setred.py)

The torch branch converts to numpy for selection and editing and runs the same steps.  Distances are an
arbitrary function of the joined samples; numbers are exact.
-/

namespace ModSSC.Inductive
open ModSSC DataLoader

/-- `for idx in order: if remainder == 0: break; base[idx] += 1; remainder -= 1` (setred.py:120-125). -/
def bump : List Nat → Nat → List Nat → List Nat
  | [], _, b => b
  | _ :: _, 0, b => b
  | i :: order, r + 1, b => bump order r (b.modify i (· + 1))

/-- `_allocate_per_class` (setred.py:107-126). -/
def allocatePerClass (argsort : List Rat → List Nat) (total : Int) (counts : List Nat) : List Nat :=
  if total ≤ 0 then counts.map fun _ => 0
  else if counts.sum = 0 then counts.map fun _ => 0
  else
    let raw := counts.map fun (c : Nat) => (c : Rat) / ((counts.sum : Nat) : Rat) * (total : Rat)
    let base := raw.map fun r => ⌊r⌋.toNat
    let remainder : Int := total - ((base.sum : Nat) : Int)
    if 0 < remainder then
      bump (argsort (List.zipWith (fun (r : Rat) (b : Nat) => r - (b : Rat)) raw base)).reverse remainder.toNat base
    else base

/-- The picks of one class (setred.py:145-155). -/
def setredClass (argsort : List Rat → List Nat) (conf : List Rat) (pred : List Int) (threshold : Option Rat)
    (c : Int × Nat) : List Nat :=
  if c.2 = 0 then []
  else
    let idx := (List.range pred.length).filter fun i =>
      decide (pred.getD i 0 = c.1) && meets threshold (conf.getD i 0)
    if idx = [] then []
    else ((argsort (idx.map fun i => conf.getD i 0)).reverse.take c.2).map fun p => idx.getD p 0

/-- `_select_candidates_by_class` (setred.py:129-158). -/
def selectByClass (argsort : List Rat → List Nat) (s : Scores) (pred : List Int) (classes : List Int)
    (counts : List Nat) (maxNew : Int) (threshold : Option Rat) : Except PyErr (List Nat) := do
  let conf ← confidences s
  let total := min maxNew (s.rows.length : Int)
  if total ≤ 0 then .ok []
  else
    let per := allocatePerClass argsort total counts
    .ok (npSort ((classes.zip per).flatMap (setredClass argsort conf pred threshold)).dedup)

/-- `_build_rng_graph_numpy` (setred.py:52-63). -/
def rngGraph (d : Nat → Nat → Rat) (n : Nat) : List (List Nat) :=
  let pairs := (List.range n).flatMap fun i => (List.range' (i + 1) (n - (i + 1))).map fun j => (i, j)
  let nb := pairs.foldl (fun nb p =>
    if (List.range n).any fun k => decide (d p.1 k < d p.1 p.2) && decide (d p.2 k < d p.1 p.2) then nb
    else (nb.modify p.1 (· ++ [p.2])).modify p.2 (· ++ [p.1])) (List.replicate n ([] : List Nat))
  nb.map npSort

/-- `_build_knn_graph_numpy` (setred.py:66-76): neighbour sets. -/
def knnGraph (argsort : List Rat → List Nat) (k : Int) (d : Nat → Nat → Rat) (n : Nat) : List (List Nat) :=
  let k' := max 1 (min k (max 0 ((n : Int) - 1)))
  let pairs := (List.range n).flatMap fun i =>
    ((argsort ((List.range n).map (d i))).drop 1 |>.take k'.toNat).map fun j => (i, j)
  let nb := pairs.foldl (fun nb p =>
    (nb.modify p.1 (fun l => if p.2 ∈ l then l else l ++ [p.2])).modify p.2
      (fun l => if p.1 ∈ l then l else l ++ [p.1])) (List.replicate n ([] : List Nat))
  nb.map npSort

/-- The decision for one candidate (setred.py:176-191). -/
def editKeeps (T : EditTest) (d : Nat → Nat → Rat) (y : List Int) (prob : Int → Rat) (nbrs : List Nat) (i : Nat) : Bool :=
  if nbrs = [] then true
  else
    let w := fun j => T.weight (d i j)
    let o := ((nbrs.filter fun j => decide (y.getD j 0 ≠ y.getD i 0)).map w).sum
    let sumW := (nbrs.map w).sum
    let sumW2 := (nbrs.map fun j => w j * w j).sum
    let p := prob (y.getD i 0)
    let mu := (1 - p) * sumW
    let sigma2 := p * (1 - p) * sumW2
    let threshold := if sigma2 ≤ 0 then mu else mu + T.z * T.sqrt sigma2
    decide (o ≤ threshold)

/-- `_filter_setred_numpy` (setred.py:161-192) for the candidates `lo .. hi-1`. -/
def filterSetred (T : EditTest) (graph : (Nat → Nat → Rat) → Nat → List (List Nat)) (d : Nat → Nat → Rat)
    (y : List Int) (lo hi : Nat) (prob : Int → Rat) : List Bool :=
  let neighbors := graph d hi
  (List.range' lo (hi - lo)).map fun i => editKeeps T d y prob (neighbors.getD i []) i

/-- `class_probs.get(label, 0.0)` (setred.py:187, 315-318). -/
def classProb (classes : List Int) (counts : List Nat) (l : Int) : Rat :=
  (((classes.zip counts).find? fun p => p.1 = l).map fun p => ((p.2 : Nat) : Rat) / ((counts.sum : Nat) : Rat)).getD 0

/-- `SetredSpec` (setred.py:196-206) without the classifier and the parts in `EditTest`. -/
structure SetredParams where
  maxIter : Int
  poolSize : Option Int
  maxNew : Option Int
  minNew : Int
  threshold : Option Rat
  theta : Rat
  knnK : Int

/-- The pool part looked at in a round (setred.py:279-288). -/
def drawPool {σ : Type} (R : Rng σ) (st : σ) (poolSize : Int) (n : Nat) : List Nat × σ :=
  if poolSize < (n : Int) then R.choice st (List.range n) poolSize.toNat
  else (List.range n, st)

/-- `total_new` (setred.py:294-296). -/
def newLimit (poolSize : Int) (maxNew : Option Int) : Int :=
  match maxNew with
  | none => poolSize
  | some k => min poolSize k

/-- Proposal and editing in one round (setred.py:289-341): the accepted positions of the pool with their
labels, or nothing to stop. -/
def setredPick {M α : Type} (C : Clf M α) (argsort : List Rat → List Nat) (T : EditTest)
    (graph : (Nat → Nat → Rat) → Nat → List (List Nat)) (dist : List α → Nat → Nat → Rat) (P : SetredParams)
    (m : M) (s : Round α) (poolSize : Int) (poolIdx : List Nat) :
    Except PyErr (Option (List α × List Int × List Nat)) := do
  let Xp ← takeIdx s.pool poolIdx
  let sc ← C.scores m Xp
  let pred ← C.predict m Xp
  let classes := npUnique s.y
  let counts := classes.map fun c => s.y.count c
  let sel ← selectByClass argsort sc pred classes counts (newLimit poolSize P.maxNew) P.threshold
  if sel = [] then .ok none
  else do
    let X0 ← takeIdx Xp sel
    let y0 ← takeIdx pred sel
    let keep := filterSetred T graph (dist (s.X ++ X0)) (s.y ++ y0) s.X.length (s.X ++ X0).length
      (classProb classes counts)
    if ((keep.countP id : Nat) : Int) < P.minNew then .ok none
    else do
      let Xk ← boolIndex X0 keep
      let yk ← boolIndex y0 keep
      let acc ← boolIndex sel keep
      let accU ← takeIdx poolIdx acc
      .ok (some (Xk, yk, accU))

/-- The loop (setred.py:274-355). -/
def setredLoop {M α σ : Type} (C : Clf M α) (argsort : List Rat → List Nat) (T : EditTest)
    (graph : (Nat → Nat → Rat) → Nat → List (List Nat)) (dist : List α → Nat → Nat → Rat) (P : SetredParams)
    (R : Rng σ) : Nat → M → Round α → σ → List (List α × List Int) → Nat → Except PyErr (Result M α)
  | 0, m, s, _, calls, t => .ok ⟨m, s, calls, t⟩
  | fuel + 1, m, s, st, calls, t => do
    let n := s.pool.length
    if n = 0 then .ok ⟨m, s, calls, t⟩
    else
      let poolSize := min (P.poolSize.getD (n : Int)) (n : Int)
      if poolSize ≤ 0 then .ok ⟨m, s, calls, t⟩
      else do
        let picked ← setredPick C argsort T graph dist P m s poolSize (drawPool R st poolSize n).1
        match picked with
        | none => .ok ⟨m, s, calls, t⟩
        | some (Xk, yk, accU) => do
          let rest ← boolIndex s.pool (keepMask n accU)
          let m' ← C.fit m (s.X ++ Xk) (s.y ++ yk)
          setredLoop C argsort T graph dist P R fuel m' ⟨s.X ++ Xk, s.y ++ yk, rest⟩ (drawPool R st poolSize n).2
            (calls ++ [(s.X ++ Xk, s.y ++ yk)]) (t + 1)

/-- `SetredMethod.fit` (setred.py:228-361). -/
def setredFit {M α σ : Type} (C : Clf M α) (argsort : List Rat → List Nat) (T : EditTest)
    (graph : (Nat → Nat → Rat) → Nat → List (List Nat)) (dist : List α → Nat → Nat → Rat) (P : SetredParams)
    (R : Rng σ) (m : M) (X : List α) (y : List Int) (Xu : Option (List α)) (st : σ) :
    Except PyErr (Result M α) := do
  if ¬ (0 < P.theta ∧ P.theta < 1) then .error .validation
  else if P.minNew < 0 then .error .validation
  else if P.knnK ≤ 0 then .error .validation
  else do
    checkLabeled X y
    if Xu.getD [] = [] then do
      let m' ← C.fit m X y
      .ok ⟨m', ⟨X, y, []⟩, [(X, y)], 0⟩
    else do
      let m0 ← C.fit m X y
      let r ← setredLoop C argsort T graph dist P R P.maxIter.toNat m0 ⟨X, y, Xu.getD []⟩ st [(X, y)] 0
      let m' ← C.fit r.model r.last.X r.last.y
      .ok ⟨m', r.last, r.calls ++ [(r.last.X, r.last.y)], r.rounds⟩

end ModSSC.Inductive
