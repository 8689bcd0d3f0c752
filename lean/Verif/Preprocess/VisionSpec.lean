import Verif.Preprocess.VisionModel

/-!
# Specification of the image steps

A batch of images: number of images, channels, rows, columns, and the value of every pixel.  The ways to store a batch or a
single image in an array are definitions here; the steps must act on the pixels the same way whichever way is used.
-/

namespace ModSSC.Preprocess.Vision.Spec
open ModSSC ModSSC.Preprocess.Vision

/-- `px n c h w`: image `n`, channel `c`, row `h`, column `w`. -/
structure Batch where
  n : Nat
  c : Nat
  h : Nat
  w : Nat
  px : Nat → Nat → Nat → Nat → Rat

variable {β : Type}

/-- Channels before rows and columns. -/
def Batch.nchw (b : Batch) : Raw β := .d4 ⟨b.n, b.c, b.h, b.w, b.px⟩
/-- Channels last. -/
def Batch.nhwc (b : Batch) : Raw β := .d4 ⟨b.n, b.h, b.w, b.c, fun n h w c => b.px n c h w⟩
/-- The first image alone, channels first. -/
def Batch.chw (b : Batch) : Raw β := .d3 ⟨b.c, b.h, b.w, b.px 0⟩
/-- The first image alone, channels last. -/
def Batch.hwc (b : Batch) : Raw β := .d3 ⟨b.h, b.w, b.c, fun h w c => b.px 0 c h w⟩
/-- Grey images without a channel axis. -/
def Batch.grey (b : Batch) : Raw β := .d3 ⟨b.n, b.h, b.w, fun n h w => b.px n 0 h w⟩

/-- Same shape and same values at all positions. -/
def Same : Raw β → Raw β → Prop
  | .other x, .other y => x = y
  | .d3 a, .d3 b => a.s0 = b.s0 ∧ a.s1 = b.s1 ∧ a.s2 = b.s2 ∧
      ∀ i j k, i < a.s0 → j < a.s1 → k < a.s2 → a.at3 i j k = b.at3 i j k
  | .d4 a, .d4 b => a.s0 = b.s0 ∧ a.s1 = b.s1 ∧ a.s2 = b.s2 ∧ a.s3 = b.s3 ∧
      ∀ i j k l, i < a.s0 → j < a.s1 → k < a.s2 → l < a.s3 → a.at4 i j k l = b.at4 i j k l
  | _, _ => False

/-- Number of samples in an array: size of the first axis. -/
def samples : Raw β → Option Nat
  | .d3 a => some a.s0
  | .d4 a => some a.s0
  | .other _ => none

/-- Between one and four channels. -/
def Few (c : Nat) : Prop := 1 ≤ c ∧ c ≤ 4

/-- Storage of a batch with the given channel order. -/
def batchIn : Layout → Batch → Raw β
  | .nchw => Batch.nchw
  | .nhwc => Batch.nhwc

/-- Storage of a single image with the given channel order. -/
def imageIn : Layout → Batch → Raw β
  | .nchw => Batch.chw
  | .nhwc => Batch.hwc

/-- `X` stores the batch `b` with channel order `l` in a way that the code reads correctly: channels last (any sizes),
channels first (unless the width looks like a number of channels), or grey images (unless their number or width does; these
come back with a channel axis).  `store` tells how results are stored. -/
inductive Reads (b : Batch) : Layout → Raw β → (Layout → Batch → Raw β) → Prop
  | nhwc : Few b.c → Reads b .nhwc b.nhwc batchIn
  | nchw : Few b.c → ¬ Few b.w → Reads b .nchw b.nchw batchIn
  | hwc : Few b.c → Reads b .nhwc b.hwc imageIn
  | chw : Few b.c → b.c ≠ 2 → ¬ Few b.w → Reads b .nchw b.chw imageIn
  | grey : b.c = 1 → b.n ≠ 1 → b.n ≠ 3 → b.n ≠ 4 → ¬ Few b.w → Reads b .nchw b.grey batchIn

/-- The batch with `k` channels: one channel is repeated, surplus ones are dropped, missing ones are black. -/
def Batch.withChannels (b : Batch) (k : Nat) : Batch :=
  { b with c := k, px := fun n c h w => if b.c = 1 then b.px n 0 h w else if c < b.c then b.px n c h w else 0 }

/-- The batch with pixels taken from row `rows i` and column `cols j` and passed through `f`. -/
def Batch.sampled (b : Batch) (H W : Nat) (rows cols : Nat → Nat) (f : Rat → Rat) : Batch :=
  { b with h := H, w := W, px := fun n c i j => f (b.px n c (rows i) (cols j)) }

/-- `g` spreads `k` sample points evenly over `0, …, size - 1`: the point `i` is the integer part of `i (size - 1) / (k - 1)`. -/
def IsGrid (size k : Nat) (g : Nat → Nat) : Prop :=
  (∀ i < k, g i < size) ∧ (∀ i j, i ≤ j → j < k → g i ≤ g j) ∧ (0 < k → g 0 = 0) ∧ (2 ≤ k → g (k - 1) = size - 1) ∧
    (2 ≤ k → ∀ i < k, (g i : Rat) ≤ (i : Rat) * ((size : Rat) - 1) / ((k : Rat) - 1) ∧
      (i : Rat) * ((size : Rat) - 1) / ((k : Rat) - 1) < (g i : Rat) + 1)

/-- The batch with `(x - mean) / std` per channel. -/
def Batch.standardized (b : Batch) (mean std : Nat → Rat) : Batch :=
  { b with px := fun n c h w => (b.px n c h w - mean c) / std c }

end ModSSC.Preprocess.Vision.Spec
