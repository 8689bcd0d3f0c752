import Verif.Transductive.MincutTypes
import Verif.Transductive.FitModel

/-!
# Model of graph mincuts (`methods/classic/graph_mincuts.py`)
-/

namespace ModSSC.Transductive
open ModSSC

/-- The inner loop over one CSR row (graph_mincuts.py:66-71).  A column outside the matrix, impossible in CSR, is
skipped. -/
def scanRow : List (Nat × Int) → List Bool → List Nat → List Bool × List Nat
  | [], visited, stack => (visited, stack)
  | (v, cap) :: row, visited, stack =>
    if 0 < cap ∧ visited.getD v true = false then scanRow row (visited.set v true) (v :: stack)
    else scanRow row visited stack

/-- The outer loop (graph_mincuts.py:62-71).  The bound on the number of rounds is proved sufficient. -/
def dfs (rows : Nat → List (Nat × Int)) : Nat → List Bool → List Nat → List Bool
  | 0, visited, _ => visited
  | _ + 1, visited, [] => visited
  | fuel + 1, visited, u :: stack =>
    let p := scanRow (rows u) visited stack
    dfs rows fuel p.1 p.2

/-- `_reachable_from_source_csr` (graph_mincuts.py:51-73). -/
def reachable (N : Nat) (rows : Nat → List (Nat × Int)) (source : Nat) : List Bool :=
  dfs rows N ((List.replicate N false).set source true) [source]

/-- Row `u` of `capacity - flow` (graph_mincuts.py:210). -/
def residualRow (N : Nat) (net : Net) (f : Flow) (u : Nat) : List (Nat × Int) :=
  ((List.range N).map fun v => (v, netCap net u v - f u v)).filter fun p => decide (p.2 ≠ 0)

/-- The capacity matrix (graph_mincuts.py:162-201). -/
def cutNet (n : Nat) (es : List (WEdge Rat)) (pos neg : List Nat) (scale : Rat) (minCap : Int) : Net :=
  let arcs := es.map fun e => (e.src, e.dst, max (pyRound (e.w * scale)) minCap)
  let inf := (arcs.map (·.2.2)).sum + 1
  arcs ++ pos.map (fun p => (n, p, inf)) ++ neg.map (fun q => (q, n + 1, inf))

/-- The score row of a node (graph_mincuts.py:216-218). -/
def sideRow (b : Bool) : List Rat := if b then [0, 1] else [1, 0]

/-- Cut and sanity check (graph_mincuts.py:203-226). -/
def cutSides (solve : Solver) (n : Nat) (net : Net) (pos neg : List Nat) : Except PyErr (List Bool) :=
  match solve (n + 2) net n (n + 1) with
  | none => .error .runtimeError
  | some f =>
    let side := (reachable (n + 2) (residualRow (n + 2) net f) n).take n
    if pos.all (fun p => side.getD p false) && neg.all (fun q => !side.getD q true) then .ok side
    else .error .runtimeError

/-- `graph_mincuts` (graph_mincuts.py:76-226), scores only.  Weights are finite (rational) here. -/
def graphMincuts (solve : Solver) (n : Int) (ei : List (Int × Int)) (ew : Option (List Rat)) (y : List Int)
    (mask : List Bool) (scale : Rat) (minCap : Int) : Except PyErr (Mat Rat) := do
  let es ← validateGraph n ei ew
  if (y.length : Int) ≠ n then .error .valueError
  else if (mask.length : Int) ≠ n then .error .valueError
  else
    let idx := (List.range y.length).filter fun i => mask.getD i false
    if idx = [] then .error .valueError
    else
      let classes := npUnique (idx.map fun i => y.getD i 0)
      if classes.length ≠ 2 then .error .valueError
      else
        let pos := idx.filter fun i => decide (y.getD i 0 = classes.getD 1 0)
        let neg := idx.filter fun i => decide (y.getD i 0 = classes.getD 0 0)
        if pos = [] ∨ neg = [] then .error .valueError
        else if scale ≤ 0 then .error .valueError
        else do
          let side ← cutSides solve y.length (cutNet y.length es pos neg scale minCap) pos neg
          .ok (side.map sideRow)

/-- `GraphMincutsMethod.fit` followed by `predict_proba` (graph_mincuts.py:244-277). -/
def fitMincuts (solve : Solver) (scale : Rat) (minCap : Int) (d : NodeData Rat) : Except PyErr (Mat Rat) :=
  fitWith (fun n ei ew y mask => graphMincuts solve n ei ew y mask scale minCap) d

end ModSSC.Transductive
