import Verif.Model.Uart

/-!
# Detection of half stop bits

Models `detect_half_stop` of `shepherd_core/shepherd_core/decoder_waveform/uart.py`, which every
decoder runs when it is created (l.97).
-/

namespace Verif.Model
open Verif.Py

/-- `(events > 1.333 * self.dur_tick) & (events < 1.667 * self.dur_tick)` for one number (uart.py l.184). -/
def inHalfStop (fl : ℚ → ℚ) (tick x : ℚ) : Bool :=
  fl (fl (1333 / 1000) * tick) < x && x < fl (fl (1667 / 1000) * tick)

/-- `detect_half_stop` (uart.py l.181-184): `events` is the whole table (time in s, state, duration in
ticks), and the number of cells that match is compared with 0. -/
def detectHalfStop (fl : ℚ → ℚ) (tick : ℚ) (evs : List UartEv) : Bool :=
  (evs.take 1000).any fun e =>
    inHalfStop fl tick e.time || inHalfStop fl tick (ofBool e.high) || inHalfStop fl tick e.steps

end Verif.Model
