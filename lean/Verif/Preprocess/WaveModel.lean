import Verif.Base

/-!
# Model of `preprocess/steps/audio/load_waveform.py`

Samples are exact rationals.  Reading a file and resampling (torchaudio, scipy) are parameters.
-/

namespace ModSSC.Wave
open ModSSC

/-- A waveform array: one dimension, two (channels × time), or another number of dimensions. -/
inductive Arr where
  | one (w : List Rat)
  | two (chans : List (List Rat))
  | other

/-- The mean over the channels at time `t`. -/
def chanMean (chans : List (List Rat)) (t : Nat) : Rat := (chans.map fun c => c.getD t 0).sum / chans.length

/-- `_as_numpy_waveform` (load_waveform.py:26-35): `mono` makes no difference. -/
def asWave (_mono : Bool) : Arr → Except PyErr (List Rat)
  | .one w => .ok w
  | .two [] => .ok []
  | .two (c :: cs) => .ok ((List.range c.length).map (chanMean (c :: cs)))
  | .other => .error .validation

/-- `_trim_waveform` (load_waveform.py:38-47). -/
def trimWave (maxLen : Nat) (trim : String) (w : List Rat) : List Rat :=
  if w.length ≤ maxLen then w
  else if trim = "center" then (w.drop ((w.length - maxLen) / 2)).take maxLen
  else if trim = "end" then w.drop (w.length - maxLen)
  else w.take maxLen

/-- `_pad_waveform` (load_waveform.py:50-56). -/
def padWave (maxLen : Nat) (pad : Rat) (w : List Rat) : List Rat :=
  if maxLen ≤ w.length then w else w ++ List.replicate (maxLen - w.length) pad

/-- One item of `raw.X`: a path, or an array. -/
inductive Item (P : Type) where
  | path (p : P)
  | arr (a : Arr)

/-- Reading files (external): samples and sample rate, or an error; resampling from one rate to another. -/
structure Io (P : Type) where
  load : P → Except PyErr (List (List Rat) × Int)
  resample : List (List Rat) → Int → Int → List (List Rat)

/-- The settings of `LoadWaveformStep` (load_waveform.py:60-68). -/
structure Cfg where
  rate : Option Int
  maxLen : Option Int
  pad : Rat
  mono : Bool
  trim : String

/-- `_load_path` (load_waveform.py:70-121), after reading. -/
def loadPath {P : Type} (io : Io P) (c : Cfg) (p : P) : Except PyErr (List Rat × Option Int) := do
  let r ← io.load p
  match c.rate with
  | some t => if r.2 = t then (asWave c.mono (.two r.1)).map (·, some r.2) else (asWave c.mono (.two (io.resample r.1 r.2 t))).map (·, some t)
  | none => (asWave c.mono (.two r.1)).map (·, some r.2)

/-- One turn of the loop over the items (load_waveform.py:144-152). -/
def loadItem {P : Type} (io : Io P) (c : Cfg) : Item P → Except PyErr (List Rat × Option Int)
  | .path p => loadPath io c p
  | .arr a => (asWave c.mono a).map (·, none)

/-- `transform` after the items are loaded (load_waveform.py:154-184): the rows of `features.X`. -/
def batch (c : Cfg) (ws : List (List Rat × Option Int)) : Except PyErr (List (List Rat)) :=
  if ws.isEmpty then .ok []
  else if ¬ (c.trim = "start" ∨ c.trim = "center" ∨ c.trim = "end") then .error .validation
  else do
    let rows ← (match c.maxLen with
      | some m => if m ≤ 0 then .error .validation
          else .ok (ws.map fun w => padWave m.toNat c.pad (trimWave m.toNat c.trim w.1))
      | none => if ws.all (fun w => w.1.length = (ws.headD ([], none)).1.length) then .ok (ws.map (·.1)) else .error .validation :
        Except PyErr (List (List Rat)))
    if c.rate.isSome && ws.any (fun w => w.2.isNone) then .error .validation
    else .ok rows

/-- `transform` for a list of items (load_waveform.py:127-184); a numeric table is the list of its rows, each of one
dimension. -/
def transform {P : Type} (io : Io P) (c : Cfg) (items : List (Item P)) : Except PyErr (List (List Rat)) := do
  let ws ← items.mapM (loadItem io c)
  batch c ws

end ModSSC.Wave
