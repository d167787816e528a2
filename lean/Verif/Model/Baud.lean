import Verif.Model.Uart
import Mathlib.Data.List.Sort

/-!
# Detection of the baud rate

Models `detect_baud_rate` of `shepherd_core/shepherd_core/decoder_waveform/uart.py` (l.171-179) and its use in `Uart.__init__` (l.89).
-/

namespace Verif.Model
open Verif.Py

section
variable (fl : ℚ → ℚ)

/-- `np.percentile(l, 10)` with linear interpolation (numpy's `_quantile` and `_lerp`), used in uart.py l.175; behind the end the last value counts. -/
def percentile10 (l : List ℚ) : ℚ :=
  let s := l.insertionSort (· ≤ ·)
  let v := fl (((l.length - 1 : ℕ) : ℚ) * fl (1 / 10))
  let i := ⌊v⌋.toNat
  let g := fl (v - ⌊v⌋)
  let a := s.getD i 0
  let b := s.getD (i + 1) a
  let d := fl (b - a)
  if g < 1 / 2 then fl (a + fl (d * g)) else fl (b - fl (d * fl (1 - g)))

/-- Distances of the edges (uart.py l.174). -/
def edgeSteps (rows : List (ℚ × Bool)) : List ℚ := List.zipWith (fun a b => fl (b.1 - a.1)) rows rows.tail

/-- `detect_baud_rate` (uart.py l.171-179) for the edges; `npMean` is numpy's mean.  Without positive distance `np.percentile` fails or gives nan, depending on numpy; the mean of nothing is nan,
which can not be rounded.  All of these are ValueErrors here. -/
def detectBaud (npMean : List ℚ → ℚ) (rows : List (ℚ × Bool)) : Except PyErr ℤ :=
  let d := edgeSteps fl (rows.take 1000)
  if d.filter (fun x => 0 < x) = [] then .error .valueError
  else
    let step := percentile10 fl (d.filter (fun x => 0 < x))
    let sel := d.filter (fun x => fl (fl (66 / 100) * step) ≤ x ∧ x ≤ fl (fl (133 / 100) * step))
    if sel = [] then .error .valueError
    else if npMean sel = 0 then .error .overflowError
    else .ok (pyRound (fl (1 / npMean sel)))

/-- `Uart.__init__` without a baud rate (uart.py l.52-115). -/
def uartInitAuto (npMean : List ℚ → ℚ) (L : ℤ) (inversion : Option Bool) (rows : List (ℚ × ℚ)) : Except PyErr (List UartEv) :=
  if rows.length < 8 then .error .typeError
  else if (List.zipWith (fun a b => fl (b.1 - a.1)) rows rows.tail).any (fun d => d < 0) then .error .typeError
  else
    match detectBaud fl npMean (dropRedundant (toDigital npMean false rows)) with
    | .error e => .error e
    | .ok baud => uartInit fl npMean baud L inversion rows

/-- Decoding of a table without a baud rate.  Used in uart.py l.52-120, l.194-253. -/
def uartDecodeAuto (npMean : List ℚ → ℚ) (L : ℤ) (inversion : Option Bool) (rows : List (ℚ × ℚ)) : Except PyErr (List (Option ℚ × List ℕ)) :=
  match uartInitAuto fl npMean L inversion rows with
  | .error e => .error e
  | .ok evs => getSymbols fl L evs

end
end Verif.Model
