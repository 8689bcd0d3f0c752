import Verif.Transductive.PLaplaceModel
import Verif.Supervised.KnnModel

/-!
# Model of Poisson MBO

`methods/pde/poisson_mbo.py`.
-/

namespace ModSSC.Transductive
open ModSSC

variable {K : Type} [Field K] [LinearOrder K]

/-- `PoissonMBOSpec` (poisson_mbo.py:189-204). -/
structure MboSpec (K : Type) where
  T : Int
  nInner : Int
  nOuter : Int
  mu : K
  dTau : K
  smin : K
  smax : K
  nVolume : Int
  bStrategy : String
  b : Option (List K)
  symmetrize : Bool
  zeroDiagonal : Bool

/-- The edges used (poisson_mbo.py:23-33, 105-110); equal edges are not merged here. -/
def mboEdges (spec : MboSpec K) (es : List (WEdge K)) : List (WEdge K) :=
  let es1 := if spec.symmetrize then es ++ es.map fun e => ⟨e.dst, e.src, e.w⟩ else es
  if spec.zeroDiagonal then es1.filter fun e => e.src ≠ e.dst else es1

/-- `_build_b_matrix` after the one-hot matrix (poisson_mbo.py:52-62): the sources and the class shares. -/
def mboSources (n k : Nat) (Y : Mat K) (mask : List Bool) : Except PyErr ((Nat → Nat → K) × (Nat → K)) :=
  let labeled := (List.range n).filter fun i => mask.getD i false
  if labeled.length = 0 then .error .valueError
  else
    let yBar := fun c => (labeled.map fun j => Y.get j c).sum / (labeled.length : K)
    if (List.range k).any (fun c => decide (yBar c ≤ 0)) then .error .valueError
    else .ok (fun i c => if mask.getD i false then Y.get i c - yBar c else 0, yBar)

/-- `_build_b_prior` (poisson_mbo.py:65-87). -/
def mboPrior (y : List Int) (k : Nat) (strategy : String) (yBar : Nat → K) : Except PyErr (Nat → K) :=
  if strategy = "uniform" then .ok fun _ => 1 / (k : K)
  else if strategy = "labeled" then .ok yBar
  else if strategy = "true" then
    let valid := y.filter fun c => decide (0 ≤ c)
    if valid.length = 0 then .error .valueError
    else .ok fun (c : Nat) => (valid.count (c : Int) : K) / (valid.length : K)
  else .error .valueError

/-- The target volumes (poisson_mbo.py:126-142). -/
def mboVolumes (y : List Int) (k : Nat) (spec : MboSpec K) (yBar : Nat → K) : Except PyErr (Nat → K) :=
  match spec.b with
  | some b =>
    if b.length ≠ k then .error .valueError
    else if b.any (fun x => decide (x < 0)) then .error .valueError
    else if b.sum ≤ 0 then .error .valueError
    else .ok fun c => b.getD c 0 / b.sum
  | none => mboPrior y k spec.bStrategy yBar

/-- `np.max(np.abs(update))`. -/
def maxAbs (n k : Nat) (A : Mat K) : K :=
  ((List.range n).flatMap fun i => (List.range k).map fun c => |A.get i c|).foldl max 0

/-- `deg[:, None] * U - WU` (poisson_mbo.py:157-158, 170-171). -/
def mboLap (n k : Nat) (es : List (WEdge K)) (U : Mat K) : Mat K :=
  tab n k fun i c => degree es i * U.get i c - (spmm n k es U).get i c

/-- The update of the first phase (poisson_mbo.py:148-150, 157-159). -/
def poissonUpdate (n k : Nat) (es : List (WEdge K)) (B : Nat → Nat → K) (U : Mat K) : Mat K :=
  let LU := mboLap n k es U
  tab n k fun i c => (if 0 < degree es i then 1 / degree es i else 0) * (B i c - LU.get i c)

/-- The update of the second phase (poisson_mbo.py:170-172). -/
def heatUpdate (n k : Nat) (es : List (WEdge K)) (B : Nat → Nat → K) (dt mu : K) (U : Mat K) : Mat K :=
  let LU := mboLap n k es U
  tab n k fun i c => - dt * (LU.get i c - mu * B i c)

/-- `for _ in range(...)` with `U = U + update` and the residual of the last update (poisson_mbo.py:156-161, 169-174). -/
def mboLoop (n k : Nat) (upd : Mat K → Mat K) : Nat → Mat K × Option K → Mat K × Option K
  | 0, s => s
  | t + 1, s =>
    let d := upd s.1
    mboLoop n k upd t (tab n k fun i c => s.1.get i c + d.get i c, some (maxAbs n k d))

/-- `_proj_vertices(U * s[None, :])` (poisson_mbo.py:36-40, 178, 183). -/
def projVertices (n k : Nat) (U : Mat K) (s : List K) : Mat K :=
  tab n k fun i c => if Supervised.argmax ((List.range k).map fun c => U.get i c * s.getD c 0) = c then 1 else 0

/-- The volume loop (poisson_mbo.py:177-181). -/
def volumeLoop (n k : Nat) (U : Mat K) (b : Nat → K) (spec : MboSpec K) : Nat → List K → List K
  | 0, s => s
  | t + 1, s =>
    let P := projVertices n k U s
    volumeLoop n k U b spec t ((List.range k).map fun c =>
      min (max (s.getD c 0 + spec.dTau * (b c - ((List.range n).map fun i => P.get i c).sum / (n : K))) spec.smin) spec.smax)

/-- The outer loop (poisson_mbo.py:168-183). -/
def mboOuter (n k : Nat) (es : List (WEdge K)) (B : Nat → Nat → K) (b : Nat → K) (dt : K) (spec : MboSpec K) :
    Nat → Mat K × Option K → Mat K × Option K
  | 0, s => s
  | t + 1, s =>
    let s1 := mboLoop n k (heatUpdate n k es B dt spec.mu) spec.nInner.toNat s
    let vol := volumeLoop n k s1.1 b spec spec.nVolume.toNat (List.replicate k 1)
    mboOuter n k es B b dt spec t (projVertices n k s1.1 vol, s1.2)

/-- `poisson_mbo_numpy` (poisson_mbo.py:90-186). -/
def poissonMbo (n : Int) (ei : List (Int × Int)) (ew : Option (List K)) (y : List Int) (mask : List Bool)
    (spec : MboSpec K) : Except PyErr (Diffusion K) := do
  let es0 ← validateGraph n ei ew
  let es := mboEdges spec es0
  if (y.length : Int) ≠ n then .error .valueError
  else if (mask.length : Int) ≠ n then .error .valueError
  else do
    let k ← plClasses y
    let Y ← seedMatrix y mask k
    let BY ← mboSources y.length k Y mask
    let b ← mboVolumes y k spec BY.2
    let maxDeg := ((List.range y.length).map (degree es)).foldl max 0
    if maxDeg ≤ 0 then .error .valueError
    else
      let s0 := mboLoop y.length k (poissonUpdate y.length k es BY.1) spec.T.toNat (tab y.length k fun _ _ => 0, none)
      let U := tab y.length k fun i c => s0.1.get i c * (b c / BY.2 c)
      let s1 := mboOuter y.length k es BY.1 b (1 / maxDeg) spec spec.nOuter.toNat (U, s0.2)
      .ok ⟨s1.1, spec.T + spec.nOuter * spec.nInner, s1.2⟩

end ModSSC.Transductive
