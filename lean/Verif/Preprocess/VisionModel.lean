import Verif.Base

/-!
# Image preprocessing steps

`src/modssc/preprocess/steps/vision/{layout,channels_order,ensure_num_channels,normalize,resize,squeeze}.py`.

An array is its shape with a total function from positions to values; only positions inside the shape mean anything.
Numbers are exact rationals.  The steps read and write the artifact `raw.X`; the store around them is modelled in
`Model.lean`.
-/

namespace ModSSC.Preprocess.Vision
open ModSSC

/-- An array with four axes. -/
structure Arr4 where
  s0 : Nat
  s1 : Nat
  s2 : Nat
  s3 : Nat
  at4 : Nat → Nat → Nat → Nat → Rat

/-- An array with three axes. -/
structure Arr3 where
  s0 : Nat
  s1 : Nat
  s2 : Nat
  at3 : Nat → Nat → Nat → Rat

/-- What `raw.X` can be: an array with three or four axes, or anything else. -/
inductive Raw (β : Type) where
  | other (x : β)
  | d3 (a : Arr3)
  | d4 (a : Arr4)

/-- `Layout4D`, layout.py l.7. -/
inductive Layout where
  | nchw
  | nhwc
deriving DecidableEq, Repr

/-- `_infer_layout_3d`, layout.py l.10-22; `CHW` is reported as `nchw`, `HWC` as `nhwc` (l.55). -/
def inferLayout3 (a : Arr3) : Option Layout :=
  let first := a.s0 ∈ [1, 3, 4]
  let last := a.s2 ∈ [1, 2, 3, 4]
  if first ∧ ¬ last then some .nchw
  else if last ∧ ¬ first then some .nhwc
  else if first ∧ last then some .nhwc
  else none

/-- `_infer_layout_4d`, layout.py l.25-37. -/
def inferLayout4 (a : Arr4) : Option Layout :=
  let first := a.s1 ∈ [1, 2, 3, 4]
  let last := a.s3 ∈ [1, 2, 3, 4]
  if first ∧ ¬ last then some .nchw
  else if last ∧ ¬ first then some .nhwc
  else if first ∧ last then some .nhwc
  else none

/-- `prepare_image_array`, layout.py l.40-61. -/
def prepare {β : Type} : Raw β → Option (Arr4 × Bool × Layout)
  | .d4 a => (inferLayout4 a).map fun l => (a, false, l)
  | .d3 a =>
    match inferLayout3 a with
    | some l => some (⟨1, a.s0, a.s1, a.s2, fun _ i j k => a.at3 i j k⟩, true, l)
    | none => some (⟨a.s0, 1, a.s1, a.s2, fun n _ i j => a.at3 n i j⟩, false, .nchw)
  | .other _ => none

/-- `out[0] if single else out`, channels_order.py l.37-38 and the same lines of the other steps. -/
def finish {β : Type} (single : Bool) (a : Arr4) : Raw β :=
  if single then .d3 ⟨a.s1, a.s2, a.s3, a.at4 0⟩ else .d4 a

/-- `np.transpose(a, (0, 3, 1, 2))`. -/
def toNchw (a : Arr4) : Arr4 := ⟨a.s0, a.s3, a.s1, a.s2, fun n c h w => a.at4 n h w c⟩

/-- `np.transpose(a, (0, 2, 3, 1))`. -/
def toNhwc (a : Arr4) : Arr4 := ⟨a.s0, a.s2, a.s3, a.s1, fun n h w c => a.at4 n c h w⟩

/-- `ChannelsOrderStep.transform`, channels_order.py l.17-39; `desired` is `self.order.upper()`, `none` an unknown order. -/
def channelsOrder {β : Type} (desired : Option Layout) (X : Raw β) : Raw β :=
  match prepare X with
  | none => X
  | some (a, single, cur) =>
    match desired with
    | none => X
    | some d =>
      let out := if cur ≠ d then (match d with | .nchw => toNchw a | .nhwc => toNhwc a) else a
      finish single out

/-- Size of the channel axis, ensure_num_channels.py l.25-27. -/
def channels (l : Layout) (a : Arr4) : Nat := match l with | .nchw => a.s1 | .nhwc => a.s3

/-- The array with `k` channels whose channel `c` is `f c` applied to the image: `f c = none` is the constant 0.  Common
shape of `np.repeat`, slicing and `np.pad` along the channel axis. -/
def pickChannels (l : Layout) (a : Arr4) (k : Nat) (f : Nat → Option Nat) : Arr4 :=
  match l with
  | .nchw => ⟨a.s0, k, a.s2, a.s3, fun n c h w => (f c).elim 0 fun c' => a.at4 n c' h w⟩
  | .nhwc => ⟨a.s0, a.s1, a.s2, k, fun n h w c => (f c).elim 0 fun c' => a.at4 n h w c'⟩

/-- `slice(0, target)` of an axis of size `C`: a negative end counts from the back. -/
def sliceEnd (C : Nat) (target : Int) : Nat :=
  if target < 0 then ((C : Int) + target).toNat else target.toNat

/-- `EnsureNumChannelsStep.transform`, ensure_num_channels.py l.17-48. -/
def ensureNumChannels {β : Type} (target : Int) (X : Raw β) : Raw β :=
  match prepare X with
  | none => X
  | some (a, single, l) =>
    let C := channels l a
    let out :=
      if target = C then a
      else if C = 1 ∧ 1 < target then pickChannels l a target.toNat fun _ => some 0
      else if target < C then pickChannels l a (sliceEnd C target) some
      else pickChannels l a target.toNat fun c => if c < C then some c else none
    finish single out

/-- `NormalizeStep.transform`, normalize.py l.18-40: `(arr4 - mean_b) / std_b` with numpy broadcasting along the channel
axis.  `mean` and `std` must have as many entries as each other (l.34, the second `reshape`) and, unless one of the two sizes
is 1, as many as there are channels. -/
def normalize {β : Type} (mean std : List Rat) (X : Raw β) : Except PyErr (Raw β) :=
  match prepare X with
  | none => .ok X
  | some (a, single, l) =>
    let C := channels l a
    let m := mean.length
    if std.length ≠ m then .error .valueError
    else if C ≠ m ∧ C ≠ 1 ∧ m ≠ 1 then .error .valueError
    else
      let src := fun c => if C = 1 then 0 else c
      let par := fun (v : List Rat) c => v.getD (if m = 1 then 0 else c) 0
      let b := pickChannels l a (if C = 1 then m else C) fun c => some (src c)
      let out : Arr4 := match l with
        | .nchw => { b with at4 := fun n c h w => (b.at4 n c h w - par mean c) / par std c }
        | .nhwc => { b with at4 := fun n h w c => (b.at4 n h w c - par mean c) / par std c }
      .ok (finish single out)

/-- `np.linspace(0, size - 1, k).astype(np.int64)`, resize.py l.17-18, in exact arithmetic. -/
def sample (size k i : Nat) : Nat := if k ≤ 1 then 0 else i * (size - 1) / (k - 1)

/-- `_resize_nhwc`, resize.py l.13-20.  A negative size is refused by `np.linspace`; there is nothing to pick from an empty
axis. -/
def resizeNhwc (a : Arr4) (H W : Int) : Except PyErr Arr4 :=
  if (a.s1 : Int) = H ∧ (a.s2 : Int) = W then .ok a
  else if H < 0 ∨ W < 0 then .error .valueError
  else if (a.s1 = 0 ∧ 0 < H) ∨ (a.s2 = 0 ∧ 0 < W) then .error .indexError
  else .ok ⟨a.s0, H.toNat, W.toNat, a.s3,
    fun n i j c => a.at4 n (sample a.s1 H.toNat i) (sample a.s2 W.toNat j) c⟩

/-- `.astype(np.uint8)`: the fraction is cut off, integers wrap around.  (For floats outside `[0, 256)` the result is up to
the machine; nothing is claimed about them.) -/
def toU8 (v : Rat) : Rat := ((pyInt v % 256 : Int) : Rat)

/-- `out.astype(np.uint8)` of an array. -/
def castU8 (a : Arr4) : Arr4 := { a with at4 := fun i j k l => toU8 (a.at4 i j k l) }

/-- `ResizeStep.transform`, resize.py l.28-44. -/
def resize {β : Type} (H W : Int) (X : Raw β) : Except PyErr (Raw β) :=
  match prepare X with
  | none => .ok X
  | some (a, single, l) => do
    let nhwc := match l with | .nchw => toNhwc a | .nhwc => a
    let r ← resizeNhwc nhwc H W
    let out := match l with | .nchw => toNchw r | .nhwc => r
    .ok (finish single (castU8 out))

/-- `SqueezeStep.transform`, squeeze.py l.17-28.  `list(out)` (as_list) holds the same images and is not distinguished. -/
def squeeze {β : Type} (dim : Int) (X : Raw β) : Except PyErr (Raw β) :=
  match X with
  | .d4 a =>
    if dim < -4 ∨ 3 < dim then .error .indexError
    else
      let ax := if dim < 0 then dim + 4 else dim
      if ax = 0 then .ok (if a.s0 = 1 then .d3 ⟨a.s1, a.s2, a.s3, fun i j k => a.at4 0 i j k⟩ else X)
      else if ax = 1 then .ok (if a.s1 = 1 then .d3 ⟨a.s0, a.s2, a.s3, fun i j k => a.at4 i 0 j k⟩ else X)
      else if ax = 2 then .ok (if a.s2 = 1 then .d3 ⟨a.s0, a.s1, a.s3, fun i j k => a.at4 i j 0 k⟩ else X)
      else .ok (if a.s3 = 1 then .d3 ⟨a.s0, a.s1, a.s2, fun i j k => a.at4 i j k 0⟩ else X)
  | _ => .ok X

end ModSSC.Preprocess.Vision
