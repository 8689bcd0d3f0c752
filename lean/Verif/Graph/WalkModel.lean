import Verif.Graph.OpsModel
import Verif.Assoc

/-!
# Model of the random walks and co-occurrence counts of `featurization/views/struct.py`, and of
`utils/seed.py`

`numpy.random.Generator.choice` enters as `Chooser` with the contract `Chooser.Lawful`.
Not modelled: the PPMI matrix and its singular value decomposition (struct.py:195-339).
-/

namespace ModSSC.Graph
open ModSSC

/-- `mix_seed32` (utils/seed.py:4-12).  `& 0xFFFFFFFFFFFFFFFF` is reduction modulo 2^64. -/
def mixStart (seed salt : Int) : Nat :=
  ((seed + 0x9E3779B97F4A7C15 + salt) % (2 ^ 64)).toNat

/-- `x ^= (x >> k) & 0xFFFFFFFFFFFFFFFF` on a 64-bit number (utils/seed.py:7, 9, 11). -/
def xorShift (k x : Nat) : Nat := x ^^^ (x >>> k)

/-- `x = (x * c) & 0xFFFFFFFFFFFFFFFF` (utils/seed.py:8, 10). -/
def mulMask (c x : Nat) : Nat := (x * c) % 2 ^ 64

/-- The 64-bit state before truncation (utils/seed.py:6-11). -/
def mix64 (seed salt : Int) : Nat :=
  xorShift 31 (mulMask 0x94D049BB133111EB (xorShift 27 (mulMask 0xBF58476D1CE4E5B9
    (xorShift 30 (mixStart seed salt)))))

/-- `mix_seed32` (utils/seed.py:4-12). -/
def mixSeed32 (seed salt : Int) : Nat := mix64 seed salt % 2 ^ 32

/-- `np.random.default_rng` and `rng.choice(nbrs)` / `rng.choice(nbrs, p=probs)` (numpy, external). -/
structure Chooser (σ : Type) where
  init : Nat → σ
  choose : σ → List Int → Option (List Rat) → Int × σ

/-- numpy's contract: an item of the array is returned. -/
def Chooser.Lawful {σ : Type} (C : Chooser σ) : Prop :=
  ∀ s l p, l ≠ [] → (C.choose s l p).1 ∈ l

/-- `StructParams` (struct.py:17-26), the part used by the walks. -/
structure WalkParams where
  node2vec : Bool
  walkLength : Nat
  numWalks : Nat
  windowSize : Nat
  p : Rat
  q : Rat

/-- `neighbors[u]` of `_build_neighbors` (struct.py:29-44): targets in edge order; edges with an end
outside the graph are skipped. -/
def neighbors (n : Nat) (edges : List Edge) (u : Int) : List Int :=
  (edges.filter fun e => decide (0 ≤ e.1 ∧ e.1 < (n : Int) ∧ 0 ≤ e.2 ∧ e.2 < (n : Int)) && decide (e.1 = u)).map (·.2)

/-- The node2vec transition weights (struct.py:76-86). -/
def biased (P : WalkParams) (prevSet nbrs : List Int) (prev : Int) : List Rat :=
  nbrs.map fun v => if v = prev then 1 / P.p else if v ∈ prevSet then 1 else 1 / P.q

/-- One step (struct.py:67-93): the next node and the new generator state. -/
def nextNode {σ : Type} (C : Chooser σ) (P : WalkParams) (nb : Int → List Int) (prev cur : Int) (s : σ) :
    Int × σ :=
  if nb cur = [] then (cur, s)
  else if ¬ P.node2vec ∨ prev < 0 then C.choose s (nb cur) none
  else
    let w := biased P (nb prev) (nb cur) prev
    if w.sum ≤ 0 then C.choose s (nb cur) none
    else C.choose s (nb cur) (some (w.map (· / w.sum)))

/-- The rest of a walk (struct.py:66-93). -/
def walkFrom {σ : Type} (C : Chooser σ) (P : WalkParams) (nb : Int → List Int) :
    Nat → Int → Int → σ → List Int
  | 0, _, _, _ => []
  | t + 1, prev, cur, s =>
    let r := nextNode C P nb prev cur s
    r.1 :: walkFrom C P nb t cur r.1 r.2

/-- Walk number `w` from `start` (struct.py:61-94): its generator is seeded with
`mix_seed32(seed, start * 1000003 + w)`. -/
def oneWalk {σ : Type} (C : Chooser σ) (P : WalkParams) (nb : Int → List Int) (seed : Int) (start w : Nat) :
    List Int :=
  (start : Int) :: walkFrom C P nb (P.walkLength - 1) (-1) start
    (C.init (mixSeed32 seed (start * 1000003 + w)))

/-- `_iter_random_walks` (struct.py:47-94). -/
def allWalks {σ : Type} (C : Chooser σ) (P : WalkParams) (n : Nat) (edges : List Edge) (seed : Int) :
    List (List Int) :=
  (List.range n).flatMap fun (start : Nat) => (List.range P.numWalks).map fun (w : Nat) =>
    oneWalk C P (neighbors n edges) seed start w

/-- The pairs `(walk[i], walk[j])` visited by the double loop over a walk (struct.py:154-163):
`j` from `max(0, i - w)` to `min(L, i + w + 1) - 1`, without `i`. -/
def walkPairs (w : Nat) (walk : List Int) : List (Int × Int) :=
  (List.range walk.length).flatMap fun (i : Nat) =>
    ((List.range' (i - w) (min walk.length (i + w + 1) - (i - w))).filter (· ≠ i)).map fun (j : Nat) =>
      (walk.getD i 0, walk.getD j 0)

/-- `counts[(u, v)] += 1` on a `defaultdict(int)`. -/
def bump {κ : Type} [DecidableEq κ] (d : List (κ × Nat)) (k : κ) : List (κ × Nat) :=
  Assoc.set d k ((Assoc.get d k).getD 0 + 1)

/-- The result of `_cooccurrence_counts(walks, window_size, n_nodes)` (struct.py:114-174): the counts
dictionary, row and column sums (as dictionaries rather than arrays of length `n`), and the total. -/
structure Cooc where
  counts : List ((Int × Int) × Nat)
  rowSum : List (Int × Nat)
  colSum : List (Int × Nat)
  total : Nat

/-- Add one pair, if both nodes are in the graph (struct.py:164-168). -/
def Cooc.add (n : Nat) (c : Cooc) (p : Int × Int) : Cooc :=
  if 0 ≤ p.1 ∧ p.1 < (n : Int) ∧ 0 ≤ p.2 ∧ p.2 < (n : Int) then
    ⟨bump c.counts p, bump c.rowSum p.1, bump c.colSum p.2, c.total + 1⟩
  else c

/-- `_cooccurrence_counts` (struct.py:114-174). -/
def cooccurrence (n w : Nat) (walks : List (List Int)) : Cooc :=
  (walks.flatMap (walkPairs w)).foldl (Cooc.add n) ⟨[], [], [], 0⟩

end ModSSC.Graph
