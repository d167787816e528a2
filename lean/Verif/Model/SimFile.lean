import Verif.Model.Source
import Verif.Model.CutFile

/-!
# Simulations from file to file

`shepherd_core/shepherd_core/vsource/virtual_harvester_simulation.py` l.24-74 (`simulate_harvester`) and
`shepherd_core/shepherd_core/vsource/virtual_source_simulation.py` l.26-146 (`simulate_source`): the input is an opened recording (`Model/Recorder`),
the inner loops are in `Model/Source`.  Not modelled: the progress bar, the drawing of the plot (only the rows it is drawn from), and what is left of the output
if the simulation raises.
-/

namespace Verif.Model
open Verif.Py

/-- The samples of one buffer; the datasets hold unsigned integers (writer.py l.246-271). -/
def rawSamples (vs cs : List ℤ) : List RawSample := List.zipWith (fun v i => ⟨v.toNat, i.toNat⟩) vs cs

section
variable (fl : ℚ → ℚ)

/-- The writer for the output (virtual_harvester_simulation.py l.38-45, virtual_source_simulation.py l.45-52): a new file, an old one of that name is
overwritten; a host name is stored, and the configuration by the source. -/
def simWriter (mode : String) (cal : CalArg) (host : String) (cfg : Option Config) : Except PyErr Session :=
  match writerOpen fl none { mode := some mode, cal := some (cal.toSeries fl) } with
  | (_, .error e) => .error e
  | (_, .ok w) =>
    let w := w.storeHostname host
    match cfg with
    | none => .ok w
    | some cfg => .ok (w.storeConfig cfg)

/-! ## Harvester -/

/-- A voltage of the harvester, in micro-volt, as raw value (virtual_harvester_simulation.py l.69). -/
def hrvRawV (cal : CalSeries) (v : List ℚ) : List ℤ := (cal.voltage.siToRawArr fl (v.map (fun x => fl (x / 10^6)))).map (fun x => pyInt x)
/-- A current of the harvester, in nano-ampere, as raw value (virtual_harvester_simulation.py l.70). -/
def hrvRawI (cal : CalSeries) (i : List ℚ) : List ℤ := (cal.current.siToRawArr fl (i.map (fun x => fl (x / 10^9)))).map (fun x => pyInt x)

/-- Loop of `simulate_harvester` (virtual_harvester_simulation.py l.55-71) with an output. -/
def simHrvLoop (c : HrvCfg) (cal : CalSeries) (dt : ℚ) :
    HrvState × ℚ → Option Session → List (List ℤ × List ℤ × List ℤ) → Except PyErr ((HrvState × ℚ) × Option Session)
  | st, w, [] => .ok (st, w)
  | (s, e), w, b :: bs => do
    let (s, ys) := simHrvBuffer fl c cal s (rawSamples b.2.1 b.2.2)
    let e := e + bufferEnergy dt (ys.map fun y => ((y.v : ℚ), (y.i : ℚ)))
    let w ← match w with
      | none => .ok none
      | some w => (w.appendRaw (.array b.1) (hrvRawV fl w.cal (ys.map fun y => (y.v : ℚ))) (hrvRawI fl w.cal (ys.map fun y => (y.i : ℚ)))).map some
    simHrvLoop c cal dt (s, e) w bs

/-- Leaving the stack (virtual_harvester_simulation.py l.73, virtual_source_simulation.py l.112): the output is closed. -/
def simClose : Option Session → Except PyErr (Option H5File)
  | none => .ok none
  | some w => (w.close fl).map some

/-- `simulate_harvester` (virtual_harvester_simulation.py l.24-74): the energy and the file that is written, if one is asked for; `calHrv` is the default
calibration of a harvester (l.37), `name` the name of the configuration. -/
def simulateHarvester (c : HrvCfg) (calHrv : CalHarvester) (name : String) (inp : Session) (out : Bool) : Except PyErr (ℚ × Option H5File) := do
  let w ← if out then (simWriter fl "harvester" (.hrv calHrv) ("hrv_sim_" ++ name) none).map some else .ok none
  let (st, w) ← simHrvLoop fl c inp.cal inp.stats.intervalS (HrvState.init c, 0) w (inp.readRaw 0 none 10000)
  let f ← simClose fl w
  return (st.2, f)

/-! ## Source -/

/-- A voltage of the source, in micro-volt, as raw value (virtual_source_simulation.py l.108). -/
def srcRawV (cal : CalSeries) (v : List ℚ) : List ℤ := (cal.voltage.siToRawArr fl (v.map (fun x => fl (fl (1 / 10^6) * x)))).map (fun x => pyInt x)
/-- A current of the target, in nano-ampere, as raw value (virtual_source_simulation.py l.109). -/
def srcRawI (cal : CalSeries) (i : List ℚ) : List ℤ := (cal.current.siToRawArr fl (i.map (fun x => fl (fl (1 / 10^9) * x)))).map (fun x => pyInt x)

/-- One row of the internals (virtual_source_simulation.py l.91-103). -/
structure SimRow where
  time : ℚ
  vHold : ℚ
  vRequest : ℚ
  vSet : ℚ
  vMid : ℚ
  iHold : ℚ
  iDelta : ℚ
  iOut : ℚ
  pInp : ℚ
  pOut : ℚ
  powerGood : Bool
deriving DecidableEq, Repr

/-- The row of a state (virtual_source_simulation.py l.91-103). -/
def simRow (t : ℤ) (s : SimState) : SimRow where
  time := fl (fl t * fl (1 / 10^9))
  vHold := fl (s.src.hrv.voltageHold * fl (1 / 10^6))
  vRequest := fl (s.src.cnv.vInputRequest * fl (1 / 10^6))
  vSet := fl (s.src.hrv.voltageSet * fl (1 / 10^6))
  vMid := fl (s.src.cnv.vMid * fl (1 / 10^6))
  iHold := fl (s.src.hrv.currentHold * fl (1 / 10^6))
  iDelta := fl (s.src.hrv.currentDelta * fl (1 / 10^6))
  iOut := fl (s.iOut * fl (1 / 10^6))
  pInp := fl (s.src.cnv.pInp * fl (1 / 10^12))
  pOut := fl (s.src.cnv.pOut * fl (1 / 10^12))
  powerGood := s.src.cnv.powerGood

/-- Number of rows provided for the internals (virtual_source_simulation.py l.66). -/
def Session.monitorRows (s : Session) : ℤ := pyRound (fl (s.runtimeS fl * s.stats.samplerate))

/-- The internals so far: `none` without monitoring, otherwise the number of rows provided and the rows written (virtual_source_simulation.py l.64-74). -/
abbrev SimStats := Option (ℤ × List SimRow)

/-- Writing a row (virtual_source_simulation.py l.90-104): a row behind the last one provided is an `IndexError`. -/
def addRow (r : SimRow) : SimStats → Except PyErr SimStats
  | none => .ok none
  | some (n, rows) => if (rows.length : ℤ) < n then .ok (some (n, rows ++ [r])) else .error .indexError

/-- Inner loop of `simulate_source` (virtual_source_simulation.py l.81-104) with the internals: one buffer. -/
def monSrcBuffer (m : MathFns) (c : SrcCfg) (cal : CalSeries) (t : Target) :
    SimState → SimStats → List (ℤ × RawSample) → Except PyErr (SimState × SimStats × List (ℚ × ℚ))
  | s, st, [] => .ok (s, st, [])
  | s, st, x :: xs => do
    let (s, y) ← simSrcStep fl m c cal t s x.2
    let st ← addRow (simRow fl x.1 s) st
    let (s, st, ys) ← monSrcBuffer m c cal t s st xs
    return (s, st, y :: ys)

/-- Loop of `simulate_source` (virtual_source_simulation.py l.75-110). -/
def simSrcLoop (m : MathFns) (c : SrcCfg) (cal : CalSeries) (t : Target) (dt : ℚ) :
    SimState × ℚ → SimStats → Option Session → List (List ℤ × List ℤ × List ℤ) → Except PyErr ((SimState × ℚ) × SimStats × Option Session)
  | st, r, w, [] => .ok (st, r, w)
  | (s, e), r, w, b :: bs => do
    let (s, r, ys) ← monSrcBuffer fl m c cal t s r (b.1.zip (rawSamples b.2.1 b.2.2))
    let e := e + bufferEnergy dt ys
    let w ← match w with
      | none => .ok none
      | some w => (w.appendRaw (.array b.1) (srcRawV fl w.cal (ys.map (·.1))) (srcRawI fl w.cal (ys.map (·.2)))).map some
    simSrcLoop m c cal t dt (s, e) r w bs

/-- What a simulation leaves: the energy it returns, the file, the rows of the plot (virtual_source_simulation.py l.112-146). -/
structure SimResult where
  energy : ℚ
  file : Option H5File
  rows : Option (List SimRow)

/-- `simulate_source` (virtual_source_simulation.py l.26-146); `out`: an output is asked for, `monitor`: the internals are (and the plotting library is
installed, l.67-72), which has no effect without an output (l.64). -/
def simulateSource (m : MathFns) (c : SrcCfg) (t : Target) (name : String) (cfg : Config) (inp : Session) (out monitor : Bool) : Except PyErr SimResult := do
  let w ← if out then (simWriter fl "emulator" (.emu c.cal) ("emu_sim_" ++ name) (some cfg)).map some else .ok none
  let r : SimStats := if monitor && out then some (inp.monitorRows fl, []) else none
  let (st, r, w) ← simSrcLoop fl m c inp.cal t inp.stats.intervalS ({ src := SrcState.init fl c, iOut := 0 }, 0) r w (inp.readRaw 0 none 10000)
  let f ← simClose fl w
  return { energy := st.2, file := f, rows := r.map (·.2) }

end
end Verif.Model
