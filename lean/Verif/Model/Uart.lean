import Verif.Py.Num
import Verif.Py.Err

/-!
# UART decoder

Models `shepherd_core/shepherd_core/decoder_waveform/uart.py`: preparation of the events (l.52-169), `get_symbols` (l.194-253), `get_lines` (l.255-285) and
`get_text` (l.287-296).

The baud rate is given; its detection (l.171-179) is in `Model/Baud.lean`.  `detect_half_stop` is in `Model/HalfStop.lean`.  Not modelled: loading of a file, logging.
Text is a list of character codes.  numpy's conversion of the time stamps to strings (l.249, 284) is left out.
-/

namespace Verif.Model
open Verif.Py

/-- A row of `events_sig` after `_add_duration`: time, state, duration in ticks.  Used in uart.py l.145-154. -/
structure UartEv where
  time : ℚ
  high : Bool
  steps : ℚ
deriving DecidableEq, Repr

/-- Variables of the loop in `get_symbols` (uart.py l.211-213). -/
structure UartState where
  pos : Option ℤ
  symbol : ℤ
  start : Option ℚ
deriving DecidableEq, Repr

/-- State between frames (uart.py l.211-213, 222-224, 244-246). -/
def UartState.idle : UartState := ⟨none, 0, none⟩

/-- `chr(symbol)`, stored in a numpy array of strings, which drops trailing NUL characters (uart.py l.221, 243, 249). -/
def npChr (s : ℤ) : Except PyErr (List ℕ) :=
  if s < 0 then .error .valueError
  else if s < 0x110000 then .ok (if s = 0 then [] else [s.toNat])
  else if s < 2^31 then .error .valueError
  else .error .overflowError

/-- `a << n`.  Used in uart.py l.237. -/
def pyShl (a n : ℤ) : Except PyErr ℤ := if n < 0 then .error .valueError else .ok (a * 2 ^ n.toNat)

section
variable (fl : ℚ → ℚ)

/-- What one event adds to the symbol (uart.py l.234-237).  `2 ** round(chunk)` with a negative exponent would be a float, that can not be shifted. -/
def uartBits (L p : ℤ) (symbol : ℤ) (high : Bool) (steps : ℚ) : Except PyErr ℤ :=
  if 1 ≤ pyRound steps ∧ high = true then
    let chunk := min steps ((L - p - 1 : ℤ) : ℚ)
    if pyRound chunk < 0 then .error .typeError
    else
      match pyShl (2 ^ (pyRound chunk).toNat - 1) (min p (L - 1)) with
      | .error e => .error e
      | .ok x => .ok (symbol + x)
  else .ok symbol

/-- The part of the loop inside a frame (uart.py l.234-248). -/
def uartFrame (L p : ℤ) (st : UartState) (high : Bool) (steps : ℚ) : Except PyErr (UartState × List (Option ℚ × List ℕ)) :=
  match uartBits L p st.symbol high steps with
  | .error e => .error e
  | .ok symbol =>
    let p' := p + pyRound steps
    let offTick := |fl (steps - pyRound steps)| > fl (1/10)
    if p' ≥ L ∨ (offTick ∧ high = true) then
      match npChr symbol with
      | .error e => .error e
      | .ok c => .ok (.idle, [(st.start, c)])
    else .ok ({ st with pos := some p', symbol := symbol }, [])

/-- One pass of the loop (uart.py l.216-248). -/
def uartStep (L : ℤ) (st : UartState) (e : UartEv) : Except PyErr (UartState × List (Option ℚ × List ℕ)) :=
  if e.steps > L then
    if e.high then
      match st.pos with
      | none => .ok (st, [])
      | some _ =>
        match npChr st.symbol with
        | .error e => .error e
        | .ok c => .ok (.idle, [(st.start, c)])
    else .ok (st, [])
  else
    match st.pos with
    | none => if e.high then .ok (st, []) else uartFrame fl L 0 { st with start := some e.time } e.high (fl (e.steps - 1))
    | some p => uartFrame fl L p st e.high e.steps

/-- The loop (uart.py l.216-248). -/
def uartLoop (L : ℤ) : UartState → List UartEv → Except PyErr (List (Option ℚ × List ℕ))
  | _, [] => .ok []
  | st, e :: es =>
    match uartStep fl L st e with
    | .error x => .error x
    | .ok (st', out) =>
      match uartLoop L st' es with
      | .error x => .error x
      | .ok rest => .ok (out ++ rest)

/-- `get_symbols` (uart.py l.194-253); `np.concatenate` of nothing raises ValueError. -/
def getSymbols (L : ℤ) (evs : List UartEv) : Except PyErr (List (Option ℚ × List ℕ)) :=
  match uartLoop fl L .idle evs with
  | .error e => .error e
  | .ok [] => .error .valueError
  | .ok l => .ok l

/-! ## Preparation of the events -/

/-- `_convert_analog2digital` (uart.py l.122-129); `npMean` is numpy's mean. -/
def toDigital (npMean : List ℚ → ℚ) (invert : Bool) (rows : List (ℚ × ℚ)) : List (ℚ × Bool) :=
  let mean := npMean (rows.map (·.2))
  rows.map (fun r => (r.1, if invert then decide (r.2 ≤ mean) else decide (r.2 ≥ mean)))

/-- `_filter_redundant_states` (uart.py l.131-136). -/
def dropRedundant (rows : List (ℚ × Bool)) : List (ℚ × Bool) :=
  match rows with
  | [] => []
  | r :: _ =>
    ((rows.zip ((!r.2) :: (rows.map (·.2)).dropLast)).filter (fun p => p.1.2 != p.2)).map (·.1)

/-- `_add_duration` (uart.py l.145-154). -/
def addDuration (tick : ℚ) (rows : List (ℚ × Bool)) : List UartEv :=
  List.zipWith (fun a b => ⟨a.1, a.2, fl (fl (b.1 - a.1) / tick)⟩) rows rows.tail

/-- 0.0 or 1.0.  Used in uart.py l.126-129. -/
def ofBool (b : Bool) : ℚ := if b then 1 else 0

/-- `detect_inversion` (uart.py l.156-169); the mean of no values is nan, for which all comparisons are false. -/
def detectInversion (npMean : List ℚ → ℚ) (evs : List UartEv) : Except PyErr Bool :=
  let pauses := ((evs.take 1000).filter (fun e => e.steps > 80)).map (fun e => ofBool e.high)
  match pauses with
  | [] => .ok false
  | l =>
    let m := npMean l
    if fl (1/10) < m ∧ m < fl (9/10) then .error .valueError
    else .ok (decide (m < 1/2))

/-- The given or the detected inversion (uart.py l.96). -/
def chooseInversion (npMean : List ℚ → ℚ) (inversion : Option Bool) (evs : List UartEv) : Except PyErr Bool :=
  match inversion with
  | some b => .ok b
  | none => detectInversion fl npMean evs

/-- States inverted (uart.py l.111-113): the states are 0.0 or 1.0 by now. -/
def invertEvents (npMean : List ℚ → ℚ) (evs : List UartEv) : List UartEv :=
  let mean := npMean (evs.map (fun e => ofBool e.high))
  evs.map (fun e => { e with high := decide (ofBool e.high ≤ mean) })

/-- `Uart.__init__` (uart.py l.52-115) with given baud rate, without parity and with the lowest bit first; the input are rows of time and signal. -/
def uartInit (npMean : List ℚ → ℚ) (baud : ℤ) (L : ℤ) (inversion : Option Bool) (rows : List (ℚ × ℚ)) : Except PyErr (List UartEv) :=
  if rows.length < 8 then .error .typeError
  else if (List.zipWith (fun a b => fl (b.1 - a.1)) rows rows.tail).any (fun d => d < 0) then .error .typeError
  else if baud = 0 then .error .zeroDivisionError
  else
    let evs := addDuration fl (fl (1 / baud)) (dropRedundant (toDigital npMean false rows))
    match chooseInversion fl npMean inversion evs with
    | .error e => .error e
    | .ok inv =>
      if ¬ (0 < L ∧ L ≤ 64) then .error .valueError
      else
        let evs' := if inv then invertEvents npMean evs else evs
        match detectInversion fl npMean evs' with
        | .error e => .error e
        | .ok _ => .ok evs'

/-- The array of the caller after `Uart.__init__` (uart.py l.70-89): it is not copied, `_convert_analog2digital` (l.122-129) writes into it unless the checks of l.78-85 raise before.
All later steps work on copies made by `_filter_redundant_states`. -/
def callerTable (npMean : List ℚ → ℚ) (rows : List (ℚ × ℚ)) : List (ℚ × ℚ) :=
  if rows.length < 8 then rows
  else if (List.zipWith (fun a b => fl (b.1 - a.1)) rows rows.tail).any (fun d => d < 0) then rows
  else (toDigital npMean false rows).map (fun r => (r.1, ofBool r.2))

/-- Decoding of a table.  Used in uart.py l.52-120, l.194-253. -/
def uartDecode (npMean : List ℚ → ℚ) (baud : ℤ) (L : ℤ) (inversion : Option Bool) (rows : List (ℚ × ℚ)) : Except PyErr (List (Option ℚ × List ℕ)) :=
  match uartInit fl npMean baud L inversion rows with
  | .error e => .error e
  | .ok evs => getSymbols fl L evs

end

/-! ## Lines -/

/-- Variables of the loop in `get_lines` (uart.py l.264-267). -/
structure LineState where
  semiStop : Bool
  start : Option ℚ
  line : List ℕ

/-- One pass of the loop (uart.py l.268-283). -/
def lineStep (st : LineState) (s : Option ℚ × List ℕ) : LineState × List (Option ℚ × List ℕ) :=
  if s.2 = [10] ∨ st.semiStop = true then
    let line := if s.2 = [10] then st.line ++ s.2 else st.line
    (⟨false, none, []⟩, [(st.start, line)])
  else
    (⟨if s.2 = [13] then true else st.semiStop, if st.start = none then s.1 else st.start, st.line ++ s.2⟩, [])

/-- The loop (uart.py l.268-283). -/
def lineLoop : LineState → List (Option ℚ × List ℕ) → List (Option ℚ × List ℕ)
  | _, [] => []
  | st, s :: l => (lineStep st s).2 ++ lineLoop (lineStep st s).1 l

/-- `get_lines` (uart.py l.255-285); `np.concatenate` of nothing raises ValueError. -/
def getLines (symbols : List (Option ℚ × List ℕ)) : Except PyErr (List (Option ℚ × List ℕ)) :=
  match lineLoop ⟨false, none, []⟩ symbols with
  | [] => .error .valueError
  | l => .ok l

/-- `get_text` (uart.py l.287-296). -/
def getText (symbols : List (Option ℚ × List ℕ)) : Except PyErr (List ℕ) :=
  match getLines symbols with
  | .error e => .error e
  | .ok l => .ok (l.flatMap (·.2))

end Verif.Model
