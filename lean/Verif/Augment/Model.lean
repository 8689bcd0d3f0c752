import Verif.Base

/-!
# Model of data augmentation

`src/modssc/data_augmentation`.  Arrays and tensors are a shape and a function from index vectors; numbers are exact
rationals, so casts between number types are not modelled.  The numpy generator, the global torch generator and the
text functions `str.lower` and `str.split` are parameters.
-/

namespace ModSSC.Augment
open ModSSC

/-- An array or tensor. -/
structure NArr where
  shape : List Nat
  get : List Nat → Rat

/-- `GraphSample` (types.py:37-56), `dict` or object with the same fields.  `edge_index` is a rectangular array. -/
structure GraphS where
  x : NArr
  edgeIndex : List (List Int)
  edgeWeight : Option (List Rat)

/-- A sample: a text, a list of texts, an array (`torch = true`: a tensor) or a graph. -/
inductive Sample where
  | str (s : String)
  | strs (l : List String)
  | arr (torch : Bool) (a : NArr)
  | graph (torch : Bool) (g : GraphS)

/-- `np.random.Generator` with state `σ`. -/
structure Gen (σ : Type) where
  /-- `rng.random()` -/
  random : σ → Rat × σ
  /-- `rng.random(size=shape)` -/
  randomArr : σ → List Nat → (List Nat → Rat) × σ
  /-- `rng.normal(0, 1, size=shape)` -/
  normalArr : σ → List Nat → (List Nat → Rat) × σ
  /-- `rng.integers(lo, hi)` -/
  integers : σ → Int → Int → Int × σ
  /-- `rng.choice(a, size=2, replace=False)` -/
  choice2 : σ → List Nat → (Nat × Nat) × σ

/-- numpy's documented contract. -/
structure Gen.Lawful {σ : Type} (G : Gen σ) : Prop where
  random_range : ∀ s, 0 ≤ (G.random s).1 ∧ (G.random s).1 < 1
  randomArr_range : ∀ s shape idx, 0 ≤ (G.randomArr s shape).1 idx ∧ (G.randomArr s shape).1 idx < 1
  integers_range : ∀ s lo hi, lo < hi → lo ≤ (G.integers s lo hi).1 ∧ (G.integers s lo hi).1 < hi
  choice2_mem : ∀ s l, l.Nodup → 2 ≤ l.length →
    (G.choice2 s l).1.1 ∈ l ∧ (G.choice2 s l).1.2 ∈ l ∧ (G.choice2 s l).1.1 ≠ (G.choice2 s l).1.2

/-- Everything outside: `W` is the state of the process, in particular of torch's global generator. -/
structure Env (σ W : Type) where
  gen : Gen σ
  /-- `np.random.default_rng(seed)` -/
  defaultRng : Nat → σ
  /-- the first eight bytes of `blake2b` of a text, as a number -/
  hash : String → Nat
  lower : String → String
  /-- `s.split()` -/
  split : String → List String
  /-- `torch.rand(shape)` -/
  torchRand : W → List Nat → (List Nat → Rat) × W
  /-- `torch.randn(shape)` -/
  torchRandn : W → List Nat → (List Nat → Rat) × W
  /-- `torch.randn(shape, generator=torch.Generator().manual_seed(seed))` -/
  torchSeeded : Int → List Nat → List Nat → Rat

/-- `AugmentationContext` (types.py:14-34), the parts that are used. -/
structure Ctx where
  seed : Int
  epoch : Int
  sampleId : Int

/-- The text that is hashed (utils.py:31). -/
def payload (c : Ctx) : String := c.seed.repr ++ "|" ++ c.epoch.repr ++ "|" ++ c.sampleId.repr

/-- `make_context_rng` (api.py:26-28), `make_numpy_rng`, `seed_to_rng_seed` (utils.py:29-34). -/
def contextRng {σ W : Type} (E : Env σ W) (c : Ctx) : σ := E.defaultRng (E.hash (payload c) % 2 ^ 32)

section ops
variable {σ W : Type} (E : Env σ W)

/-- `p = float(self.p)`, checked to be in `[0, 1]`. -/
def probOk (p : Rat) : Bool := decide (0 ≤ p) && decide (p ≤ 1)

/-- The kept tokens of word dropout (text.py:63): one draw per token. -/
def keepTokens (p : Rat) : List String → σ → List String × σ
  | [], s => ([], s)
  | t :: ts, s =>
    let d := E.gen.random s
    let r := keepTokens p ts d.2
    (if d.1 ≥ p then t :: r.1 else r.1, r.2)

/-- `WordDropout._apply_one` (text.py:56-66). -/
def wordDropout (p : Rat) (x : String) (s : σ) : Except PyErr (String × σ) :=
  match E.split x with
  | [] => .ok (x, s)
  | t :: ts =>
    if probOk p then
      let k := keepTokens E p (t :: ts) s
      match k.1 with
      | [] =>
        let i := E.gen.integers k.2 0 ((t :: ts).length : Nat)
        .ok (" ".intercalate [(t :: ts).getD i.1.toNat ""], i.2)
      | l => .ok (" ".intercalate l, k.2)
    else .error .valueError

/-- `tokens[i], tokens[j] = tokens[j], tokens[i]`. -/
def swapAt {α : Type} (l : List α) (i j : Nat) : List α :=
  match l[i]?, l[j]? with
  | some a, some b => (l.set i b).set j a
  | _, _ => l

/-- The swaps of random swap (text.py:82-86); the pair of draws is two draws. -/
def swapLoop : Nat → List String → σ → List String × σ
  | 0, l, s => (l, s)
  | n + 1, l, s =>
    let i := E.gen.integers s 0 l.length
    let j := E.gen.integers i.2 0 l.length
    swapLoop n (swapAt l i.1.toNat j.1.toNat) j.2

/-- `RandomSwap._apply_one` (text.py:77-87). -/
def randomSwap (n : Int) (x : String) (s : σ) : Except PyErr (String × σ) :=
  let tokens := E.split x
  if tokens.length < 2 then .ok (x, s)
  else
    let r := swapLoop E n.toNat tokens s
    .ok (" ".intercalate r.1, r.2)

/-- `_PerItemTextOp.apply` (text.py:41-44): the items in order, with one generator. -/
def perItem (f : String → σ → Except PyErr (String × σ)) : List String → σ → Except PyErr (List String × σ)
  | [], s => .ok ([], s)
  | x :: xs, s => do
    let a ← f x s
    let b ← perItem f xs a.2
    pure (a.1 :: b.1, b.2)

/-- A text operation on a sample (`_as_list`, text.py:14-19). -/
def onText (f : String → σ → Except PyErr (String × σ)) (x : Sample) (s : σ) : Except PyErr (Sample × σ) :=
  match x with
  | .str t => do
    let a ← f t s
    pure (.str a.1, a.2)
  | .strs l => do
    let a ← perItem f l s
    pure (.strs a.1, a.2)
  | _ => .error .typeError

/-- `TokenMask.apply` on an array (text.py:118-141). -/
def tokenMask (p : Rat) (mask pad : Int) (a : NArr) (s : σ) : Except PyErr (NArr × σ) :=
  if probOk p then
    if p = 0 then .ok (a, s)
    else
      let d := E.gen.randomArr s a.shape
      .ok (⟨a.shape, fun idx => if d.1 idx < p ∧ a.get idx ≠ (pad : Rat) then (mask : Rat) else a.get idx⟩, d.2)
  else .error .valueError

/-- The non-padding positions of a sequence (text.py:98). -/
def validPositions (row : Nat → Rat) (n : Nat) (pad : Int) : List Nat :=
  (List.range n).filter (fun k => decide (row k ≠ (pad : Rat)))

/-- The swaps of token swap (text.py:101-103). -/
def tokenSwapLoop (valid : List Nat) : Nat → (Nat → Rat) → σ → (Nat → Rat) × σ
  | 0, row, s => (row, s)
  | n + 1, row, s =>
    let c := E.gen.choice2 s valid
    tokenSwapLoop valid n (fun k => if k = c.1.1 then row c.1.2 else if k = c.1.2 then row c.1.1 else row k) c.2

/-- `_swap_token_positions_numpy` (text.py:90-104) for `n_swaps > 0`; the tensor branches (text.py:166-199) do the same. -/
def swapRow (n : Nat) (pad : Int) (len : Nat) (row : Nat → Rat) (s : σ) : (Nat → Rat) × σ :=
  let valid := validPositions row len pad
  if valid.length < 2 then (row, s) else tokenSwapLoop E valid n row s

/-- The rows of a 2-dimensional array one after the other (text.py:208-215). -/
def swapRows (n : Nat) (pad : Int) (len : Nat) : List Nat → (Nat → Nat → Rat) → σ → (Nat → Nat → Rat) × σ
  | [], rows, s => (rows, s)
  | r :: rs, rows, s =>
    let a := swapRow E n pad len (rows r) s
    swapRows n pad len rs (fun i => if i = r then a.1 else rows i) a.2

/-- `TokenSwap.apply` (text.py:158-217). -/
def tokenSwap (n pad : Int) (a : NArr) (s : σ) : Except PyErr (NArr × σ) :=
  if n ≤ 0 then .ok (a, s)
  else
    match a.shape with
    | [len] =>
      let r := swapRow E n.toNat pad len (fun k => a.get [k]) s
      .ok (⟨[len], fun idx => match idx with
        | [k] => r.1 k
        | _ => a.get idx⟩, r.2)
    | [m, len] =>
      let r := swapRows E n.toNat pad len (List.range m) (fun i k => a.get [i, k]) s
      .ok (⟨[m, len], fun idx => match idx with
        | [i, k] => r.1 i k
        | _ => a.get idx⟩, r.2)
    | _ => .error .typeError

/-- `ensure_edge_index_2xE` (utils.py:47-65) on a rectangular array: a pair of rows, or the transpose of rows of two. -/
def edgesOf (ei : List (List Int)) : Except PyErr (List (Int × Int)) :=
  match ei with
  | [a, b] => .ok (a.zip b)
  | rows =>
    if rows.all (fun r => decide (r.length = 2)) && !rows.isEmpty then
      .ok (rows.map (fun r => (r.getD 0 0, r.getD 1 0)))
    else .error .valueError

/-- `EdgeDropout.apply` (graph.py:62-115).  The result has its edges as two rows. -/
def edgeDropout (p : Rat) (g : GraphS) (s : σ) : Except PyErr (GraphS × σ) :=
  if probOk p then
    if p = 0 then .ok (g, s)
    else
      match edgesOf g.edgeIndex with
      | .error e => .error e
      | .ok edges =>
        let d := E.gen.randomArr s [edges.length]
        let keep := (List.range edges.length).filter (fun k => decide (d.1 [k] ≥ p))
        let edges' := keep.map (fun k => edges.getD k (0, 0))
        let ei := [edges'.map (·.1), edges'.map (·.2)]
        match g.edgeWeight with
        | none => .ok (⟨g.x, ei, none⟩, d.2)
        | some w =>
          if keep.all (fun k => decide (k < w.length)) then
            .ok (⟨g.x, ei, some (keep.map (fun k => w.getD k 0))⟩, d.2)
          else .error .indexError
  else .error .valueError

/-- `x * mask` (tabular.py:43-59, graph.py:127-147). -/
def dropEntries (p : Rat) (a : NArr) (s : σ) : Except PyErr (NArr × σ) :=
  if probOk p then
    if p = 0 then .ok (a, s)
    else
      let d := E.gen.randomArr s a.shape
      .ok (⟨a.shape, fun idx => if d.1 idx ≥ p then a.get idx else 0⟩, d.2)
  else .error .valueError

/-- `apply_gaussian_noise` (common.py:8-30), and the vision operation (vision.py:66-84). -/
def gaussianNoise (torch : Bool) (std : Rat) (a : NArr) (s : σ) : Except PyErr (NArr × σ) :=
  if std < 0 then .error .valueError
  else if std = 0 then .ok (a, s)
  else if torch then
    let seed := E.gen.integers s 0 (2 ^ 31)
    .ok (⟨a.shape, fun idx => a.get idx + E.torchSeeded seed.1 a.shape idx * std⟩, seed.2)
  else
    let d := E.gen.normalArr s a.shape
    .ok (⟨a.shape, fun idx => a.get idx + d.1 idx * std⟩, d.2)

/-- `SwapNoise.apply` (tabular.py:71-97): tensors use torch's global generator. -/
def swapNoise (torch : Bool) (p : Rat) (a : NArr) (s : σ) (w : W) : Except PyErr (NArr × σ × W) :=
  if probOk p then
    if p = 0 then .ok (a, s, w)
    else if torch then
      let m := E.torchRand w a.shape
      let n := E.torchRandn m.2 a.shape
      .ok (⟨a.shape, fun idx => if m.1 idx < p then n.1 idx else a.get idx⟩, s, n.2)
    else
      let m := E.gen.randomArr s a.shape
      let n := E.gen.normalArr m.2 a.shape
      .ok (⟨a.shape, fun idx => if m.1 idx < p then n.1 idx else a.get idx⟩, n.2, w)
  else .error .valueError

/-- `np.roll(arr, shift, axis=-1)`. -/
def rollLast (a : NArr) (len : Nat) (shift : Int) : NArr :=
  ⟨a.shape, fun idx => a.get (idx.dropLast ++ [(((idx.getLastD 0 : Nat) : Int) - shift).emod (len : Int) |>.toNat])⟩

/-- `TimeShift.apply` (audio.py:43-57). -/
def timeShift (frac : Rat) (a : NArr) (s : σ) : Except PyErr (NArr × σ) :=
  if probOk frac then
    if frac = 0 then .ok (a, s)
    else
      match a.shape.getLast? with
      | none => .error .indexError
      | some len =>
        let m := pyRound (frac * (len : Rat))
        let d := E.gen.integers s (-m) (m + 1)
        .ok (rollLast a len d.1, d.2)
  else .error .valueError

/-- Image layouts. -/
inductive Layout where
  | hw
  | hwc
  | chw
deriving DecidableEq

/-- `split_image_channels_last` (utils.py:80-90). -/
def numpyLayout (shape : List Nat) : Except PyErr Layout :=
  match shape with
  | [_, _] => .ok .hw
  | [a, _, c] => if a ∈ [1, 3, 4] ∧ c ∉ [1, 3, 4] then .ok .chw else .ok .hwc
  | _ => .error .valueError

/-- `_torch_hw_layout` (vision.py:14-25). -/
def torchLayout (shape : List Nat) : Except PyErr Layout :=
  match shape with
  | [_, _] => .ok .hw
  | [a, _, c] => if c ≤ 4 ∧ a > c then .ok .hwc else .ok .chw
  | _ => .error .valueError

/-- The layout used for a sample. -/
def layoutOf (torch : Bool) (shape : List Nat) : Except PyErr Layout :=
  if torch then torchLayout shape else numpyLayout shape

/-- The axes of height and width (vision.py:22-35). -/
def Layout.rowAxis : Layout → Nat
  | .hw => 0
  | .hwc => 0
  | .chw => 1

/-- The axis of the width: `1` for `hw` and `hwc`, `2` for `chw` (vision.py:51-59). -/
def Layout.colAxis (l : Layout) : Nat := l.rowAxis + 1

/-- `RandomHorizontalFlip.apply` (vision.py:46-60). -/
def hflip (torch : Bool) (p : Rat) (a : NArr) (s : σ) : Except PyErr (NArr × σ) :=
  if probOk p then
    let d := E.gen.random s
    if d.1 < p then
      match layoutOf torch a.shape with
      | .error e => .error e
      | .ok l => .ok (⟨a.shape, fun idx => a.get (idx.modify l.colAxis (fun j => a.shape.getD l.colAxis 0 - 1 - j))⟩, d.2)
    else .ok (a, d.2)
  else .error .valueError

/-- The holes of cutout (vision.py:142-156). -/
def holes (l : Layout) (H W : Nat) (len : Int) (fill : Rat) : Nat → (List Nat → Rat) → σ → (List Nat → Rat) × σ
  | 0, f, s => (f, s)
  | n + 1, f, s =>
    let t := E.gen.integers s 0 (max 1 ((H : Int) - len + 1))
    let c := E.gen.integers t.2 0 (max 1 ((W : Int) - len + 1))
    holes l H W len fill n (fun idx =>
      if t.1 ≤ (idx.getD l.rowAxis 0 : Nat) ∧ ((idx.getD l.rowAxis 0 : Nat) : Int) < t.1 + len ∧
         c.1 ≤ (idx.getD l.colAxis 0 : Nat) ∧ ((idx.getD l.colAxis 0 : Nat) : Int) < c.1 + len then fill else f idx) c.2

/-- `Cutout.apply` (vision.py:104-158). -/
def cutout (torch : Bool) (frac : Option Rat) (nHoles length : Int) (fill : Rat) (a : NArr) (s : σ) :
    Except PyErr (NArr × σ) :=
  let run (len : Layout → Int) : Except PyErr (NArr × σ) :=
    match layoutOf torch a.shape with
    | .error e => .error e
    | .ok l =>
      let r := holes E l (a.shape.getD l.rowAxis 0) (a.shape.getD l.colAxis 0) (len l) fill nHoles.toNat a.get s
      .ok (⟨a.shape, r.1⟩, r.2)
  match frac with
  | some q =>
    if length ≠ 16 ∨ nHoles ≠ 1 then .error .valueError
    else if probOk q then
      if q = 0 then .ok (a, s)
      else run (fun l => max 1 (pyRound (q * ((min (a.shape.getD l.rowAxis 0) (a.shape.getD l.colAxis 0) : Nat) : Rat))))
    else .error .valueError
  | none => if length ≤ 0 ∨ nHoles ≤ 0 then .ok (a, s) else run (fun _ => length)

/-- The position read by reflection padding at position `k` (counted from the start of the image) of an axis of length
`n` (`np.pad(mode="reflect")`). -/
def reflect (n : Nat) (k : Int) : Nat :=
  if n ≤ 1 then 0
  else
    let m := k.emod (2 * ((n : Int) - 1))
    if m < n then m.toNat else (2 * ((n : Int) - 1) - m).toNat

/-- `RandomCropPad.apply` (vision.py:170-232).  An empty axis cannot be padded; torch cannot pad by the length of an
axis or more. -/
def cropPad (torch : Bool) (pad : Option Int) (padding : Int) (a : NArr) (s : σ) : Except PyErr (NArr × σ) :=
  let run (p : Int) : Except PyErr (NArr × σ) :=
    if p < 0 then .error .valueError
    else if p = 0 then .ok (a, s)
    else
      match layoutOf torch a.shape with
      | .error e => .error e
      | .ok l =>
        let H := a.shape.getD l.rowAxis 0
        let W := a.shape.getD l.colAxis 0
        if torch = true ∧ ((H : Int) ≤ p ∨ (W : Int) ≤ p) then .error .runtimeError
        else if H = 0 ∨ W = 0 then .error .valueError
        else
          let t := E.gen.integers s 0 (2 * p + 1)
          let c := E.gen.integers t.2 0 (2 * p + 1)
          .ok (⟨a.shape, fun idx => a.get ((idx.modify l.rowAxis (fun i => reflect H (t.1 + (i : Nat) - p))).modify l.colAxis
            (fun j => reflect W (c.1 + (j : Nat) - p)))⟩, c.2)
  match pad with
  | some p => if padding ≠ 4 then .error .valueError else run p
  | none => run padding

/-- The built-in operations (registry.py:13-48) with their parameters. -/
inductive Op where
  | identity
  | ensureFloat32
  | lowercase
  | wordDropout (p : Rat)
  | randomSwap (n : Int)
  | tokenMask (p : Rat) (mask pad : Int)
  | tokenSwap (n pad : Int)
  | edgeDropout (p : Rat)
  | featureMask (p : Rat)
  | featureDropout (p : Rat)
  | gaussianNoise (std : Rat)
  | swapNoise (p : Rat)
  | timeShift (frac : Rat)
  | hflip (p : Rat)
  | cutout (frac : Option Rat) (nHoles length : Int) (fill : Rat)
  | cropPad (pad : Option Int) (padding : Int)

/-- An array operation on a sample.  Simplification: other samples are refused with `TypeError`. -/
def onArr (f : Bool → NArr → Except PyErr (NArr × σ)) (x : Sample) : Except PyErr (Sample × σ) :=
  match x with
  | .arr t a => do
    let r ← f t a
    pure (.arr t r.1, r.2)
  | _ => .error .typeError

/-- A graph operation on a sample (`_extract_graph`, graph.py:14-26). -/
def onGraph (f : GraphS → Except PyErr (GraphS × σ)) (x : Sample) : Except PyErr (Sample × σ) :=
  match x with
  | .graph t g => do
    let r ← f g
    pure (.graph t r.1, r.2)
  | _ => .error .typeError

/-- Operations that do not use the state of the process. -/
def Op.local (op : Op) (x : Sample) (s : σ) : Except PyErr (Sample × σ) :=
  match op with
  | .identity => .ok (x, s)
  | .ensureFloat32 => onArr (fun _ a => .ok (a, s)) x
  | .lowercase => onText (fun t s => .ok (E.lower t, s)) x s
  | .wordDropout p => onText (Augment.wordDropout E p) x s
  | .randomSwap n => onText (Augment.randomSwap E n) x s
  | .tokenMask p m pad => onArr (fun _ a => Augment.tokenMask E p m pad a s) x
  | .tokenSwap n pad => onArr (fun _ a => Augment.tokenSwap E n pad a s) x
  | .edgeDropout p => onGraph (fun g => Augment.edgeDropout E p g s) x
  | .featureMask p => onGraph (fun g => (dropEntries E p g.x s).map (fun r => ({ g with x := r.1 }, r.2))) x
  | .featureDropout p => onArr (fun _ a => dropEntries E p a s) x
  | .gaussianNoise std => onArr (fun t a => Augment.gaussianNoise E t std a s) x
  | .swapNoise _ => .error .typeError
  | .timeShift q => onArr (fun _ a => Augment.timeShift E q a s) x
  | .hflip p => onArr (fun t a => Augment.hflip E t p a s) x
  | .cutout fr n len fill => onArr (fun t a => Augment.cutout E t fr n len fill a s) x
  | .cropPad pad padding => onArr (fun t a => Augment.cropPad E t pad padding a s) x

/-- `op(out, rng=rng, ctx=ctx)` (types.py:75-80). -/
def Op.run (op : Op) (x : Sample) (s : σ) (w : W) : Except PyErr (Sample × σ × W) :=
  match op, x with
  | .swapNoise p, .arr t a => (Augment.swapNoise E t p a s w).map (fun r => (.arr t r.1, r.2.1, r.2.2))
  | op, x => (op.local E x s).map (fun r => (r.1, r.2, w))

/-- The loop of `AugmentationPipeline.apply` (api.py:41-42). -/
def runOps : List Op → Sample → σ → W → Except PyErr (Sample × W)
  | [], x, _, w => .ok (x, w)
  | op :: ops, x, s, w =>
    match op.run E x s w with
    | .error e => .error e
    | .ok r => runOps ops r.1 r.2.1 r.2.2

/-- `AugmentationPipeline.apply` (api.py:38-43). -/
def applyPipeline (ops : List Op) (x : Sample) (c : Ctx) (w : W) : Except PyErr (Sample × W) :=
  runOps E ops x (contextRng E c) w

/-- `AugmentationStrategy.apply` (api.py:56-59). -/
def applyStrategy (weak strong : List Op) (x : Sample) (c : Ctx) (w : W) : Except PyErr ((Sample × Sample) × W) := do
  let a ← applyPipeline E weak x c w
  let b ← applyPipeline E strong x c a.2
  pure ((a.1, b.1), b.2)

end ops

end ModSSC.Augment
