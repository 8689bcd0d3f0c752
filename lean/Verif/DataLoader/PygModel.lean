import Verif.DataLoader.ProviderModel

/-!
# PyTorch Geometric provider

Models `src/modssc/data_loader/providers/pyg.py`: the reference, the choice of nodes and the subgraph.

Arrays are lists: node features are a list of rows, labels a list (one axis), masks keep their shape since some datasets
have several splits in one mask, edges keep their shape since both orientations occur.  `torch_geometric` is a parameter.
-/

namespace ModSSC.DataLoader.Pyg
open ModSSC ModSSC.DataLoader ModSSC.DataLoader.Provider

variable {F L : Type}

/-- A two-axis array of integers: rows, and the length of each (`shape[1]`). -/
structure Mat where
  /-- the rows -/
  rows : List (List Int)
  /-- `shape[1]` -/
  width : Nat
deriving DecidableEq, Repr

/-- `dataset[0]`, pyg.py l.100-116; a mask is a list of rows (`width` entries each; a mask with one axis has rows of one
entry). -/
structure Graph (F L : Type) where
  /-- `data.x` -/
  x : Option (List F)
  /-- `data.y` -/
  y : Option (List L)
  /-- `data.edge_index` -/
  edges : Option Mat
  /-- `train_mask`, `val_mask`, `test_mask`, those that exist -/
  masks : List (String × List (List Bool))
deriving DecidableEq, Repr

/-- What `load_canonical` returns; edges as sources and targets. -/
structure Loaded (F L : Type) where
  /-- `train.X` -/
  x : Option (List F)
  /-- `train.y` -/
  y : Option (List L)
  /-- `train.edges` -/
  edges : Option (List Int × List Int)
  /-- `train.masks` -/
  masks : Option (List (String × List Bool))
deriving DecidableEq, Repr

/-! ## Naming -/

/-- `rstrip("/")`. -/
def rstripSlash (s : List Char) : List Char := (s.reverse.dropWhile (· == '/')).reverse

/-- What is loaded: canonical URI, class, `name` argument. -/
structure PygNamed where
  /-- `canonical_uri` -/
  canonical : List Char
  /-- `dataset_class` -/
  cls : List Char
  /-- `dataset_kwargs["name"]` -/
  arg : Option (List Char)
deriving DecidableEq, Repr

/-- `resolve`, pyg.py l.21-41 (the naming part): the class is not stripped, the name is; `options["dataset_class"]` wins. -/
def pygResolve (ws : Char → Bool) (ref : List Char) (override : Option (List Char)) : PygNamed :=
  let split : List Char × Option (List Char) :=
    match splitOnce '/' (strip ws ref) with
    | some (c, a) => (c, some (strip ws a))
    | none => (strip ws ref, none)
  let cls := override.getD split.1
  { canonical := "pyg:".toList ++ rstripSlash (cls ++ '/' :: split.2.getD []), cls := cls, arg := split.2 }

/-! ## Loading -/

/-- `DatasetClass(root=…, **kwargs)` and the first graph, pyg.py l.86-100.  `make root` is the constructor call, with or
without `root`; a `TypeError` becomes a `ValueError`. -/
def firstGraph (hasRoot : Bool) (make : Bool → Except PyErr (List (Graph F L))) : Except PyErr (Graph F L) :=
  match make hasRoot with
  | .error .typeError => .error .valueError
  | .error e => .error e
  | .ok [] => .error .valueError
  | .ok (g :: _) => .ok g

/-- `n_nodes`, pyg.py l.122. -/
def nNodes (x : Option (List F)) (y : Option (List L)) : Nat :=
  match x with
  | some x => x.length
  | none => (y.map List.length).getD 0

/-- `_pad_labels`, pyg.py l.166-185; `pad` is NaN, `-1` or `None`, as the type of the labels wants. -/
def padLabels (pad : L) (y : List L) (n : Nat) : List L :=
  if n ≤ y.length then y else y ++ List.replicate (n - y.length) pad

/-- The nodes to keep, pyg.py l.125-133.  `keepLabel` is `np.isin(·, class_filter)`. -/
def keepIdx (shuffle : Int → List Nat → List Nat) (keepLabel : Option (L → Bool)) (maxNodes seed : Option Int)
    (y : Option (List L)) (n : Nat) : List Nat :=
  let idx := match keepLabel, y with
    | some p, some y => (List.range y.length).filter fun i => (y[i]?.map p).getD false
    | _, _ => List.range n
  match maxNodes with
  | none => idx
  | some m =>
    if m < (idx.length : Int) then
      let idx := match seed with
        | some s => shuffle s idx
        | none => idx
      (pySlice idx m).insertionSort (· ≤ ·)
    else idx
where
  /-- `idx[:m]` -/
  pySlice (idx : List Nat) (m : Int) : List Nat :=
    if 0 ≤ m then idx.take m.toNat else idx.take ((idx.length : Int) + m).toNat

/-- Column `k` of a matrix (row `k` of `ei.T`). -/
def Mat.col (m : Mat) (k : Nat) : List Int := m.rows.map fun r => r.getD k 0

/-- `_as_edge_index` and the rows 0 and 1, pyg.py l.188-196 and l.222-224. -/
def endpoints (m : Mat) : Except PyErr (List Int × List Int) :=
  if m.rows.length = 2 then .ok (m.rows.getD 0 [], m.rows.getD 1 [])
  else if m.width = 2 then .ok (m.col 0, m.col 1)
  else
    match m.rows with
    | a :: b :: _ => .ok (a, b)
    | _ => .error .indexError

/-- `mapping[i]`, pyg.py l.217-218: the new number of a node, `-1` if it is not kept; negative numbers count from the end. -/
def newNumber (keep : List Nat) (n : Nat) (i : Int) : Except PyErr Int :=
  let j := if i < 0 then i + n else i
  if j < 0 ∨ (n : Int) ≤ j then .error .indexError
  else .ok (if j.toNat ∈ keep then (keep.idxOf j.toNat : Int) else -1)

/-- The edges between kept nodes, pyg.py l.220-230. -/
def subEdges (keep : List Nat) (n : Nat) (edges : Option Mat) : Except PyErr (Option (List Int × List Int)) :=
  match edges with
  | none => .ok none
  | some m =>
    if m.rows = [] ∨ m.width = 0 then .ok none
    else
      match endpoints m with
      | .error e => .error e
      | .ok (src, dst) =>
        match src.mapM (newNumber keep n), dst.mapM (newNumber keep n) with
        | .ok s, .ok d =>
          let kept := (s.zip d).filter fun p => decide (0 ≤ p.1 ∧ 0 ≤ p.2)
          .ok (some (kept.map (·.1), kept.map (·.2)))
        | .error e, _ => .error e
        | _, .error e => .error e

/-- A mask of the kept nodes, pyg.py l.233-239: flattened, filled up with `False`. -/
def subMask (keep : List Nat) (n : Nat) (mask : List (List Bool)) : Except PyErr (List Bool) :=
  let arr := mask.flatten
  takeIdx (if arr.length < n then arr ++ List.replicate (n - arr.length) false else arr) keep

/-- `a[keep]` of an array that may be missing. -/
def gatherOpt {α : Type} (a : Option (List α)) (keep : List Nat) : Except PyErr (Option (List α)) :=
  match a with
  | none => .ok none
  | some a => (takeIdx a keep).map some

/-- `_subset_graph`, pyg.py l.199-243. -/
def subsetGraph (x : Option (List F)) (y : Option (List L)) (edges : Option Mat) (masks : List (String × List (List Bool)))
    (keep : List Nat) : Except PyErr (Loaded F L) :=
  if keep = [] then .ok ⟨x.map fun _ => [], y.map fun _ => [], none, none⟩
  else
    let n := max ((x.map List.length).getD 0) ((y.map List.length).getD 0)
    match subEdges keep n edges with
    | .error e => .error e
    | .ok edges' =>
      match masks.mapM fun p => (subMask keep n p.2).map fun a => (p.1, a) with
      | .error e => .error e
      | .ok masks' =>
        match gatherOpt x keep with
        | .error e => .error e
        | .ok x' =>
          match gatherOpt y keep with
          | .error e => .error e
          | .ok y' => .ok ⟨x', y', edges', if masks' = [] then none else some masks'⟩

/-- `load_canonical`, pyg.py l.64-151. -/
def pygLoad (shuffle : Int → List Nat → List Nat) (pad : L) (hasClass hasRoot : Bool)
    (make : Bool → Except PyErr (List (Graph F L))) (keepLabel : Option (L → Bool)) (maxNodes seed : Option Int) :
    Except PyErr (Loaded F L) :=
  if hasClass = false then .error .valueError
  else
    match firstGraph hasRoot make with
    | .error e => .error e
    | .ok g =>
      let n := nNodes g.x g.y
      let y := g.y.map fun y => padLabels pad y n
      subsetGraph g.x y g.edges g.masks (keepIdx shuffle keepLabel maxNodes seed y n)

end ModSSC.DataLoader.Pyg
