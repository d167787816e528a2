import Mathlib.Data.Rat.Floor
import Verif.Py.Err
import Verif.Py.Num

/-!
# Resampling

Models `resample` of the reader (`shepherd_data/shepherd_data/reader.py` l.354-455) on datasets, as it is: for samples the code that would compute them is commented out (l.423-448).

Simplifications: numbers are exact (no rounding of floats); the first and the last sample are given by natural numbers; the destination is a dataset that can be resized or nothing, not an array; the values are not converted to the number format of the destination.
-/

namespace Verif.Model
open Verif.Py

/-- `np.arange(start, stop, step)` for a positive step (reader.py l.417-419). -/
def arangeQ (start stop step : ℚ) : List ℚ := (List.range ⌈(stop - start) / step⌉.toNat).map fun (k : ℕ) => start + k * step

/-- `data_dst[a:b] = values` with `b = a + len(values)` (reader.py l.420-421): the destination must be long enough. -/
def putSlice (dst : List ℚ) (a : ℕ) (values : List ℚ) : Except PyErr (List ℚ) :=
  if a + values.length ≤ dst.length then .ok (dst.take a ++ values ++ dst.drop (a + values.length)) else .error .valueError

/-- The loop over blocks of time stamps (reader.py l.407-422): the blocks left, the position in the source and in the destination. -/
def resampleTimes (src : List ℚ) (dataLen block : ℕ) (step : ℚ) : ℕ → ℕ → ℕ → List ℚ → Except PyErr (ℕ × List ℚ)
  | 0, _, outNow, dst => .ok (outNow, dst)
  | k + 1, inNow, outNow, dst => do
    let tmin := src.getD inNow 0
    let tmax := src.getD (min (inNow + block) (dataLen - 1)) 0
    let out := arangeQ tmin tmax step
    let dst ← putSlice dst outNow out
    resampleTimes src dataLen block step k (inNow + block) (outNow + out.length) dst

/-- `data_dst.resize((n,))` of a dataset: cut off or filled with zeros (reader.py l.401, l.453). -/
def resizeDest (dst : List ℚ) (n : ℕ) : List ℚ := dst.take n ++ List.replicate (n - dst.length) 0

/-- What resampling needs to know about the reader (reader.py l.375, l.388, l.391). -/
structure ResampleCfg where
  ivcurve : Bool
  samplerate : ℚ
  maxElements : ℕ

/-- Length of a block of the source (reader.py l.390-395). -/
def resampleBlock (c : ResampleCfg) (dataLen : ℕ) (ratio : ℚ) : ℕ :=
  if ratio ≤ 1 then min c.maxElements dataLen else (pyRound (min (c.maxElements : ℚ) (dataLen * ratio) / ratio)).toNat

/-- The end of the range that is resampled (reader.py l.378-381). -/
def resampleEnd (n : ℕ) : Option ℕ → ℕ
  | some e => min n e
  | none => n

/-- `resample` (reader.py l.354-455). -/
def resample (c : ResampleCfg) (src : List ℚ) (dst : Option (List ℚ)) (startN : ℕ) (endN : Option ℕ) (rate : ℚ) (isTime : Bool) : Except PyErr (Option (List ℚ)) :=
  if c.ivcurve then .ok dst
  else
    let last := resampleEnd src.length endN
    let first := min last startN
    let dataLen := last - first
    if dataLen = 0 then .ok dst
    else
      let ratio := rate / c.samplerate
      let destLen := ⌊dataLen * ratio⌋.toNat + 1
      let block := resampleBlock c dataLen ratio
      if block = 0 then .error .zeroDivisionError
      else
        let iterations := (dataLen + block - 1) / block
        let dest := resizeDest (dst.getD []) destLen
        if isTime then
          match resampleTimes src dataLen block (10 ^ 9 / rate) iterations first 0 dest with
          | .error e => .error e
          | .ok (n, d) => .ok (some (resizeDest d n))
        else .ok (some (resizeDest dest 0))

end Verif.Model
