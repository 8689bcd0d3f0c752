import Verif.Base
import Verif.Labels.Model
import Mathlib.Algebra.Order.Field.Rat

/-!
# Graph post-processing

`src/modssc/graph/construction/ops/*.py`.

An edge list is a list of pairs of integers (`edge_index`, one pair per column); weights are a
separate list, absent for unweighted graphs.  Floats are exact.
-/

namespace ModSSC.Graph
open ModSSC Labels

/-- A directed edge. -/
abbrev Edge := Int × Int

/-- Lexicographic order on pairs, the key order of `np.lexsort((second, first))`. -/
def lexLe (p q : Edge) : Prop := p.1 < q.1 ∨ (p.1 = q.1 ∧ p.2 ≤ q.2)

instance : DecidableRel lexLe := fun p q => by unfold lexLe; infer_instance

/-- Rows ordered by `np.lexsort` (a stable sort) on their key.  Models external code. -/
def lexsort {β : Type} (l : List (Edge × β)) : List (Edge × β) :=
  l.insertionSort (fun a b => lexLe a.1 b.1)

/-- Runs of consecutive equal keys: the effect of `change`, `starts` and `group_id` in
`symmetrize.py:56-58` and `83-90`. -/
def runs {κ β : Type} [DecidableEq κ] : List (κ × β) → List (κ × List β)
  | [] => []
  | (k, b) :: rest =>
    match runs rest with
    | [] => [(k, [b])]
    | (k', bs) :: more => if k = k' then (k, b :: bs) :: more else (k, [b]) :: (k', bs) :: more

/-- `np.maximum.reduceat` on one run (never empty). -/
def maxOf : List Rat → Rat
  | [] => 0
  | [w] => w
  | w :: ws => max w (maxOf ws)

/-- `symmetrize.py:51-60`: one entry per directed edge with the largest of its weights. -/
def dirEdges (l : List (Edge × Rat)) : List (Edge × Rat) :=
  (runs (lexsort l)).map (fun g => (g.1, maxOf g.2))

/-- `symmetrize.py:97-114` for one unordered pair: the weights found forward and backward (the last
assignment wins) give the weight of the pair, or `none` if the pair is dropped. -/
def pairWeight (both : Bool) (es : List (Bool × Rat)) : Option Rat :=
  match ((es.filter (fun e => e.1)).map (·.2)).getLast?,
      ((es.filter (fun e => !e.1)).map (·.2)).getLast? with
  | some f, some b => some ((f + b) / 2)
  | some f, none => if both then none else some f
  | none, some b => if both then none else some b
  | none, none => none

/-- `symmetrize.py:72-114`: the unordered pairs that are kept, with their weight. -/
def keptPairs (both : Bool) (nl : List (Edge × Rat)) : List (Edge × Rat) :=
  (runs (lexsort (nl.map (fun e => ((min e.1.1 e.1.2, max e.1.1 e.1.2),
    (decide (e.1.1 = min e.1.1 e.1.2), e.2)))))).filterMap
      (fun g => (pairWeight both g.2).map (fun w => (g.1, w)))

/-- `np.clip(x, 0, n - 1)`. -/
def clip (n x : Int) : Int := min (max x 0) (n - 1)

/-- `symmetrize.py:51-144`: both directions of every kept pair, then the loops, then the clipping. -/
def symmetrizeCore (n : Int) (both : Bool) (l : List (Edge × Rat)) : List (Edge × Rat) :=
  let dir := dirEdges l
  let loops := dir.filter (fun e => decide (e.1.1 = e.1.2))
  let kept := keptPairs both (dir.filter (fun e => !decide (e.1.1 = e.1.2)))
  (kept ++ kept.map (fun e => ((e.1.2, e.1.1), e.2)) ++ loops).map
    (fun e => ((clip n e.1.1, clip n e.1.2), e.2))

/-- `symmetrize.py:10-146` `symmetrize_edges`.  Without weights the code does the same index
computations and returns no weights: weight 1 is carried along and dropped here.  Weights of another
length than the edge list are cut to the shorter of the two (lines 39-43), as `zip` does. -/
def symmetrizeEdges (n : Int) (ei : List Edge) (ew : Option (List Rat)) (mode : String) :
    Except PyErr (List Edge × Option (List Rat)) :=
  if mode = "none" then .ok (ei, ew)
  else if mode ≠ "or" ∧ mode ≠ "mutual" then .error .valueError
  else
    match ew with
    | none => .ok ((symmetrizeCore n (mode = "mutual") (ei.map (fun e => (e, 1)))).map (·.1), none)
    | some w =>
      let out := symmetrizeCore n (mode = "mutual") (ei.zip w)
      .ok (out.map (·.1), some (out.map (·.2)))

/-- `self_loops.py:6-32` `add_self_loops`. -/
def addSelfLoops (n : Nat) (ei : List Edge) (ew : Option (List Rat)) (weight : Rat) :
    Except PyErr (List Edge × Option (List Rat)) :=
  match (ei.filter (fun e => decide (e.1 = e.2))).mapM (fun e => npIndex n e.1) with
  | .error e => .error e
  | .ok hasLoop =>
    let missing := (List.range n).filter (fun v => !decide (v ∈ hasLoop))
    if missing.isEmpty then .ok (ei, ew)
    else .ok (ei ++ missing.map (fun (v : Nat) => ((v : Int), (v : Int))),
      ew.map (fun w => w ++ List.replicate missing.length weight))

section Field
variable {K : Type} [Field K] [LinearOrder K]

/-- Sum of the weights of the entries with the given index. -/
def degreeAt (idx : List Nat) (w : List K) (v : Nat) : K :=
  (((idx.zip w).filter (fun p => decide (p.1 = v))).map (·.2)).sum

/-- `normalize.py:34-38`: degrees by source.  `np.bincount` makes room for the largest source;
`np.add.at` takes negative indices from the end and refuses indices out of bounds.  Both refuse
weights of another length. -/
def degrees (n : Nat) (src : List Int) (w : List K) : Except PyErr (List K) :=
  if src.length ≠ w.length then .error .valueError
  else if src ≠ [] ∧ src.all (fun s => decide (0 ≤ s)) then
    .ok ((List.range (max n ((src.map Int.toNat).foldr max 0 + 1))).map
      (degreeAt (src.map Int.toNat) w))
  else
    match src.mapM (npIndex n) with
    | .error e => .error e
    | .ok idx => .ok ((List.range n).map (degreeAt idx w))

/-- `a[i]` for every `i`, with numpy's treatment of negative indices. -/
def npTake {α : Type} (a : List α) (d : α) (idx : List Int) : Except PyErr (List α) :=
  idx.mapM (fun i => (npIndex a.length i).map (fun j => a.getD j d))

/-- `normalize.py:10-48` `normalize_edge_weights`; `sqrt` is the float square root. -/
def normalizeEdgeWeights (sqrt : K → K) (n : Nat) (ei : List Edge) (ew : Option (List K))
    (mode : String) (eps : K) : Except PyErr (Option (List K)) :=
  if mode = "none" then .ok ew
  else
    match ew with
    | none => .ok none
    | some w =>
      match degrees n (ei.map (·.1)) w with
      | .error e => .error e
      | .ok deg =>
        if mode = "rw" then
          match npTake deg 0 (ei.map (·.1)) with
          | .error e => .error e
          | .ok ds => .ok (some ((w.zip ds).map (fun p => p.1 * (1 / max p.2 eps))))
        else if mode = "sym" then
          let inv := deg.map (fun d => 1 / sqrt (max d eps))
          match npTake inv 0 (ei.map (·.1)), npTake inv 0 (ei.map (·.2)) with
          | .ok a, .ok b => .ok (some ((w.zip (a.zip b)).map (fun p => p.1 * p.2.1 * p.2.2)))
          | .error e, _ => .error e
          | _, .error e => .error e
        else .error .valueError

end Field

/-- `weights.py:9-51` `compute_edge_weights`: `kind`, and for heat weights `sigma`. -/
def computeEdgeWeights (exp : Rat → Rat) (kind metric : String) (sigma : Option Rat)
    (d : List Rat) : Except PyErr (List Rat) :=
  if kind = "binary" then .ok (d.map (fun _ => 1))
  else if kind = "heat" then
    let s := sigma.getD 0
    if s ≤ 0 then .error .validation
    else .ok (d.map (fun x => exp (-(x * x) / (2 * s * s))))
  else if kind = "cosine" then
    if metric ≠ "cosine" then .error .validation
    else .ok (d.map (fun x => 1 - x))
  else .error .validation

/-- Post-processing part of a `GraphBuilderSpec`. -/
structure PostSpec where
  weightKind : String
  sigma : Option Rat
  metric : String
  symmetrize : String
  selfLoops : Bool
  normalize : String

/-- A graph artifact (`artifacts.py:19-61`). -/
structure GraphArtifact where
  nNodes : Nat
  edgeIndex : List Edge
  edgeWeight : Option (List Rat)
  directed : Bool
deriving DecidableEq

/-- `artifacts.py:36-48` `GraphArtifact.__post_init__`. -/
def mkArtifact (n : Nat) (ei : List Edge) (ew : Option (List Rat)) (directed : Bool) :
    Except PyErr GraphArtifact :=
  if ei.any (fun e => decide (e.1 < 0 ∨ e.2 < 0 ∨ (n : Int) ≤ e.1 ∨ (n : Int) ≤ e.2)) then
    .error .validation
  else
    match ew with
    | none => .ok ⟨n, ei, none, directed⟩
    | some w => if w.length ≠ ei.length then .error .validation else .ok ⟨n, ei, some w, directed⟩

/-- `service.py:154-160`. -/
def symStage (s : PostSpec) (n : Nat) (ei : List Edge) (w : List Rat) :
    Except PyErr (List Edge × Option (List Rat)) :=
  if s.symmetrize ≠ "none" then symmetrizeEdges n ei (some w) s.symmetrize else .ok (ei, some w)

/-- `service.py:162-165`. -/
def loopStage (s : PostSpec) (n : Nat) (g : List Edge × Option (List Rat)) :
    Except PyErr (List Edge × Option (List Rat)) :=
  if s.selfLoops then addSelfLoops n g.1 g.2 1 else .ok g

/-- `service.py:167-170`. -/
def normStage (sqrt : Rat → Rat) (eps : Rat) (s : PostSpec) (n : Nat)
    (g : List Edge × Option (List Rat)) : Except PyErr (Option (List Rat)) :=
  if s.normalize ≠ "none" then normalizeEdgeWeights sqrt n g.1 g.2 s.normalize eps else .ok g.2

/-- `service.py:148-189`: from raw edges and distances to the artifact.  Weights are exact, so the
check for non-finite weights (172-175) never fires. -/
def postProcess (exp sqrt : Rat → Rat) (eps : Rat) (s : PostSpec) (n : Nat) (ei : List Edge)
    (dist : List Rat) : Except PyErr GraphArtifact := do
  let w ← computeEdgeWeights exp s.weightKind s.metric s.sigma dist
  let g ← symStage s n ei w
  let g ← loopStage s n g
  let ew ← normStage sqrt eps s n g
  mkArtifact n g.1 ew (s.symmetrize = "none")

end ModSSC.Graph
