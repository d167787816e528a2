import Verif.Model.Converter
import Verif.Model.Harvester

/-!
# Virtual source, targets and simulations

Models `shepherd_core/shepherd_core/vsource/virtual_source_model.py` (all but the translation of
the configuration, see `Verif.Model.SourceConfig`), `target_model.py` (all),
`virtual_harvester_simulation.py` l.53-72 and `virtual_source_simulation.py` l.61-110.

Simplifications: `math.log` and `math.expm1` are parameters (`log` raises `ValueError` outside its
domain, `expm1` does not overflow); plots and the recording of internals are dropped; the energy sum
of a buffer (`numpy.sum`, unspecified summation order) is exact; files are
lists of raw samples per buffer (see `Verif.Model.Files` for readers and writers).
-/

namespace Verif.Model
open Verif.Py

/-! ## Targets -/

/-- The two functions of `math` used by `DiodeTarget`.  Used in target_model.py l.41-99. -/
structure MathFns where
  log : ℚ → ℚ
  expm1 : ℚ → ℚ

/-- The four targets of target_model.py after construction. -/
inductive Target
  /-- `ResistiveTarget` l.26-38: `R_kOhm`, `ctrl` -/
  | resistive (rKOhm : ℚ) (ctrl : Bool)
  /-- `DiodeTarget` l.41-99: `c1`, `I_S`, `R_Ohm`, `ctrl` -/
  | diode (c1 iS rOhm : ℚ) (ctrl : Bool)
  /-- `ConstantCurrentTarget` l.102-112 -/
  | constantCurrent (iActive iSleep : ℚ)
  /-- `ConstantPowerTarget` l.115-125 -/
  | constantPower (pActive pSleep : ℚ)
deriving DecidableEq, Repr

section
variable (fl : ℚ → ℚ)

/-- `ResistiveTarget.__init__` (target_model.py l.29-33). -/
def Target.mkResistive (rOhm : ℚ) (controlled : Bool) : Except PyErr Target :=
  if rOhm ≤ fl (1/1000) then .error .valueError
  else .ok (.resistive (fl (fl (1/1000) * rOhm)) controlled)

/-- `DiodeTarget.__init__` (target_model.py l.53-78); the thermal voltage `V_T * n` is the parameter
`c1` (a constant of the code, positive). -/
def Target.mkDiode (m : MathFns) (c1 vForward iForward rOhm : ℚ) (controlled : Bool) : Except PyErr Target :=
  if rOhm ≤ fl (1/1000) then .error .valueError
  else if vForward ≤ fl (2/10) then .error .valueError
  else if iForward ≤ 0 then .error .valueError
  else .ok (.diode c1 (fl (iForward / m.expm1 (fl (vForward / c1)))) rOhm controlled)

/-- `ConstantCurrentTarget.__init__` (target_model.py l.105-109). -/
def Target.mkConstantCurrent (iActive iSleep : ℚ) : Except PyErr Target :=
  if iActive ≤ 0 ∨ iSleep < 0 then .error .valueError
  else .ok (.constantCurrent (fl (10^9 * iActive)) (fl (10^9 * iSleep)))

/-- `ConstantPowerTarget.__init__` (target_model.py l.118-122). -/
def Target.mkConstantPower (pActive pSleep : ℚ) : Except PyErr Target :=
  if pActive ≤ 0 ∨ pSleep < 0 then .error .valueError
  else .ok (.constantPower (fl (10^15 * pActive)) (fl (10^15 * pSleep)))

/-- One pass of the loop of `DiodeTarget.step` (target_model.py l.87-97): new `V_D`, `I_R`, `I_D` and whether
the loop ends. A `ValueError` of `log` is suppressed and leaves `V_D`; a `ZeroDivisionError` of `I_R / I_D` is
suppressed too.  `R_Ohm * I_S = 0` would raise an unsuppressed `ZeroDivisionError`. -/
def diodeIter (m : MathFns) (c1 iS rOhm vCC vD : ℚ) : Except PyErr (ℚ × ℚ × ℚ × Bool) :=
  let ri := fl (rOhm * iS)
  if ri = 0 then .error .zeroDivisionError
  else
    let arg := fl (1 + fl (fl (vCC - vD) / ri))
    let vD := if arg ≤ 0 then vD else fl (c1 * m.log arg)
    let iR := max 0 (fl (fl (vCC - vD) / rOhm))
    let iD := max 0 (fl (iS * m.expm1 (fl (vD / c1))))
    let stop := if iD = 0 then false else decide (|fl (fl (iR / iD) - 1)| < fl (1 / 10^6))
    let vD := if stop then vD else fl (vCC - fl (fl (rOhm * fl (iR + iD)) / 2))
    .ok (vD, iR, iD, stop)

/-- The loop `for _ in range(10)` with its `break` (target_model.py l.86-97). -/
def diodeLoop (m : MathFns) (c1 iS rOhm vCC : ℚ) : ℕ → ℚ → ℚ → ℚ → Except PyErr (ℚ × ℚ)
  | 0, _, iR, iD => .ok (iR, iD)
  | n + 1, vD, _, _ =>
    match diodeIter fl m c1 iS rOhm vCC vD with
    | .error e => .error e
    | .ok (vD, iR, iD, stop) => if stop then .ok (iR, iD) else diodeLoop m c1 iS rOhm vCC n vD iR iD

/-- `step` of the four targets (target_model.py l.35-38, 80-99, 111-112, 124-125).  `voltage` is a Python
`int` below 2^53; division by zero raises. -/
def Target.step (m : MathFns) (t : Target) (voltage : ℤ) (pwrGood : Bool) : Except PyErr ℚ :=
  match t with
  | .resistive r ctrl =>
    if pwrGood || !ctrl then
      if r = 0 then .error .zeroDivisionError else .ok (fl ((voltage : ℚ) / r))
    else .ok 0
  | .diode c1 iS r ctrl =>
    if pwrGood || !ctrl then
      let vCC := fl ((voltage : ℚ) * fl (1 / 10^6))
      match diodeLoop fl m c1 iS r vCC 10 (fl (vCC / 2)) 0 0 with
      | .error e => .error e
      | .ok (iR, iD) => .ok (fl (fl (10^9 * fl (iR + iD)) / 2))
    else .ok 0
  | .constantCurrent a s => .ok (if pwrGood then a else s)
  | .constantPower a s =>
    if voltage = 0 then .error .zeroDivisionError
    else .ok (fl ((if pwrGood then a else s) / (voltage : ℚ)))

/-! ## Virtual source -/

/-- What `VirtualSourceModel.__init__` keeps (virtual_source_model.py l.28-60). -/
structure SrcCfg where
  hrv : HrvCfg
  cnv : CnvCfg
  cal : CalEmulator
deriving DecidableEq, Repr

/-- Mutable state of `VirtualSourceModel` (virtual_source_model.py l.47-60). -/
structure SrcState where
  hrv : HrvState
  cnv : CnvState
  wInp : ℚ
  wOut : ℚ
deriving DecidableEq, Repr

/-- `VirtualSourceModel.__init__` (virtual_source_model.py l.28-60). -/
def SrcState.init (c : SrcCfg) : SrcState where
  hrv := HrvState.init c.hrv
  cnv := CnvState.init fl c.cnv c.cal
  wInp := 0
  wOut := 0

/-- What one call of `iterate_sampling` returns (`ret`), computes on the way, and the power-good signal after it.  Used in virtual_source_model.py l.62-91. -/
structure SrcOut where
  ret : ℤ
  powerGood : Bool
  pInp : ℤ
  pOut : ℤ
  hrv : Sample
deriving DecidableEq, Repr

/-- `iterate_sampling` (virtual_source_model.py l.62-91). -/
def srcStep (c : SrcCfg) (s : SrcState) (x : Sample) (iOut : ℚ) : Except PyErr (SrcState × SrcOut) := do
  let (hrv, y) := ivcurveSample fl c.hrv s.hrv x
  let aOutRaw := c.cal.adcCA.siToRaw fl (fl (iOut * fl (1 / 10^9)))
  let (cnv, o) ← cnvStep fl c.cnv c.cal s.cnv { v := y.v, i := y.i, adc := aOutRaw }
  let vOut := pyInt (fl (c.cal.dacVA.rawToSi fl o.vOutRaw * 10^6))
  let hrv := if c.cnv.feedbackToHrv then { hrv with voltageSet := cnv.vInputRequest } else hrv
  return ({ hrv, cnv, wInp := fl (s.wInp + fl o.pInp), wOut := fl (s.wOut + fl o.pOut) },
    { ret := if c.cnv.enableLogMid then o.vMid else vOut, powerGood := cnv.powerGood, pInp := o.pInp, pOut := o.pOut, hrv := y })

/-- A sequence of calls of `iterate_sampling`: source sample and target current each.  Used in virtual_source_model.py l.62-91. -/
def srcRun (c : SrcCfg) : SrcState → List (Sample × ℚ) → Except PyErr (SrcState × List SrcOut)
  | s, [] => .ok (s, [])
  | s, x :: xs => do
    let (s, o) ← srcStep fl c s x.1 x.2
    let (s, os) ← srcRun c s xs
    return (s, o :: os)

/-! ## Simulations -/

/-- A raw sample of a recording.  Used in virtual_source_simulation.py l.26-145. -/
structure RawSample where
  v : ℕ
  i : ℕ
deriving DecidableEq, Repr

/-- Conversion of one raw sample to micro-volt and nano-ampere integers
(virtual_harvester_simulation.py l.58-63, virtual_source_simulation.py l.78-85). -/
def toSample (cal : CalSeries) (x : RawSample) : Sample where
  v := pyInt (fl (cal.voltage.rawToSi fl x.v * 10^6))
  i := pyInt (fl (cal.current.rawToSi fl x.i * 10^9))

/-- Inner loop of `simulate_harvester` (virtual_harvester_simulation.py l.58-64): one buffer. -/
def simHrvBuffer (c : HrvCfg) (cal : CalSeries) (s : HrvState) : List RawSample → HrvState × List Sample
  | [] => (s, [])
  | x :: xs =>
    let (s, y) := ivcurveSample fl c s (toSample fl cal x)
    let (s, ys) := simHrvBuffer c cal s xs
    (s, y :: ys)

/-- Energy of one buffer (virtual_harvester_simulation.py l.65), in exact arithmetic: `dt` is
`file_inp.sample_interval_s`. -/
def bufferEnergy (dt : ℚ) (ys : List (ℚ × ℚ)) : ℚ := (ys.map (fun y => y.1 * y.2)).sum * (1 / 10^15) * dt

/-- `simulate_harvester` (virtual_harvester_simulation.py l.52-72): state, written samples (one
list per buffer) and energy, over all buffers of the reader. -/
def simHrv (c : HrvCfg) (cal : CalSeries) (dt : ℚ) :
    HrvState × ℚ → List (List RawSample) → (HrvState × ℚ) × List (List Sample)
  | st, [] => (st, [])
  | (s, e), b :: bs =>
    let (s, ys) := simHrvBuffer fl c cal s b
    let e := e + bufferEnergy dt (ys.map fun y => ((y.v : ℚ), (y.i : ℚ)))
    let (st, yss) := simHrv c cal dt (s, e) bs
    (st, ys :: yss)

/-- State of the loop of `simulate_source`: the source and the current of the target
(virtual_source_simulation.py l.53-62). -/
structure SimState where
  src : SrcState
  iOut : ℚ
deriving DecidableEq, Repr

/-- One sample of `simulate_source` (virtual_source_simulation.py l.82-88). -/
def simSrcStep (m : MathFns) (c : SrcCfg) (cal : CalSeries) (t : Target) (s : SimState) (x : RawSample) :
    Except PyErr (SimState × (ℚ × ℚ)) := do
  let (src, o) ← srcStep fl c s.src (toSample fl cal x) s.iOut
  let iOut ← t.step fl m o.ret o.powerGood
  return ({ src, iOut }, ((o.ret : ℚ), iOut))

/-- Inner loop of `simulate_source` (virtual_source_simulation.py l.81-88): one buffer. -/
def simSrcBuffer (m : MathFns) (c : SrcCfg) (cal : CalSeries) (t : Target) :
    SimState → List RawSample → Except PyErr (SimState × List (ℚ × ℚ))
  | s, [] => .ok (s, [])
  | s, x :: xs => do
    let (s, y) ← simSrcStep fl m c cal t s x
    let (s, ys) ← simSrcBuffer m c cal t s xs
    return (s, y :: ys)

/-- `simulate_source` (virtual_source_simulation.py l.61-110): over all buffers of the reader. -/
def simSrc (m : MathFns) (c : SrcCfg) (cal : CalSeries) (t : Target) (dt : ℚ) :
    SimState × ℚ → List (List RawSample) → Except PyErr ((SimState × ℚ) × List (List (ℚ × ℚ)))
  | st, [] => .ok (st, [])
  | (s, e), b :: bs => do
    let (s, ys) ← simSrcBuffer fl m c cal t s b
    let (st, yss) ← simSrc m c cal t dt (s, e + bufferEnergy dt ys) bs
    return (st, ys :: yss)

end
end Verif.Model
