import Verif.Py.Num

/-!
# Virtual harvester

Models `shepherd_core/shepherd_core/vsource/virtual_harvester_model.py` (all of it) and the register
block `HarvesterPRUConfig` of `data_models/content/virtual_harvester.py` l.219-242.

Simplifications: samples are Python `int`s (both simulations pass `int(...)`); the set-point
`voltage_set_uV` is an `int` too unless the source model feeds a float back into it, so it is a
rational and sums/differences with it are rounded by `fl` (which is exact on all integers
that occur, they stay far below 2^53).  Logging is dropped.
-/

namespace Verif.Model
open Verif.Py

/-- `HarvesterPRUConfig` (virtual_harvester.py l.219-242). -/
structure HrvCfg where
  algorithm : ℕ
  hrvMode : ℕ
  windowSize : ℕ
  voltage : ℕ
  voltageMin : ℕ
  voltageMax : ℕ
  voltageStep : ℕ
  currentLimit : ℕ
  setpointN8 : ℕ
  intervalN : ℕ
  durationN : ℕ
  waitCyclesN : ℕ
deriving DecidableEq, Repr

/-- The field constraint `u32` on every register (virtual_harvester.py l.178, l.228-242). -/
structure HrvCfg.Valid (c : HrvCfg) : Prop where
  algorithm : c.algorithm < 2^32
  hrvMode : c.hrvMode < 2^32
  windowSize : c.windowSize < 2^32
  voltage : c.voltage < 2^32
  voltageMin : c.voltageMin < 2^32
  voltageMax : c.voltageMax < 2^32
  voltageStep : c.voltageStep < 2^32
  currentLimit : c.currentLimit < 2^32
  setpointN8 : c.setpointN8 < 2^32
  intervalN : c.intervalN < 2^32
  durationN : c.durationN < 2^32
  waitCyclesN : c.waitCyclesN < 2^32

/-- `HRV_CV` (virtual_harvester_model.py l.29). -/
def hrvCV : ℕ := 2^8
/-- `HRV_MPPT_VOC` (virtual_harvester_model.py l.30). -/
def hrvVOC : ℕ := 2^12
/-- `HRV_MPPT_PO` (virtual_harvester_model.py l.31). -/
def hrvPO : ℕ := 2^13
/-- `HRV_MPPT_OPT` (virtual_harvester_model.py l.32). -/
def hrvOPT : ℕ := 2^14

/-- `is_emu` (virtual_harvester_model.py l.40). -/
def HrvCfg.isEmu (c : HrvCfg) : Bool := c.hrvMode.testBit 0
/-- `is_rising` at start (virtual_harvester_model.py l.52). -/
def HrvCfg.isRising (c : HrvCfg) : Bool := c.hrvMode.testBit 1
/-- `lin_extrapolation` (virtual_harvester_model.py l.73). -/
def HrvCfg.linExtrapolation (c : HrvCfg) : Bool := c.hrvMode.testBit 2
/-- `voltage_step_x4_uV` (virtual_harvester_model.py l.66). -/
def HrvCfg.voltageStepX4 (c : HrvCfg) : ℕ := 4 * c.voltageStep
/-- `age_max` (virtual_harvester_model.py l.67). -/
def HrvCfg.ageMax (c : HrvCfg) : ℕ := 2 * c.windowSize
/-- `voc_min` (virtual_harvester_model.py l.82). -/
def HrvCfg.vocMin (c : HrvCfg) : ℕ := max 1000 c.voltageMin

/-- The attributes of `VirtualHarvesterModel` that change (virtual_harvester_model.py l.34-95). -/
structure HrvState where
  voltageSet : ℚ
  intervalStep : ℕ
  isRising : Bool
  voltStep : ℕ
  voltageHold : ℤ
  currentHold : ℤ
  voltageLast : ℤ
  currentLast : ℤ
  compareLast : Bool
  currentDelta : ℤ
  voltageDelta : ℤ
  ageNow : ℕ
  vocNow : ℤ
  ageNxt : ℕ
  vocNxt : ℤ
  powerLast : ℤ
  powerNow : ℤ
  voltageNow : ℤ
  currentNow : ℤ
  powerNxt : ℤ
  voltageNxt : ℤ
  currentNxt : ℤ
deriving DecidableEq, Repr

/-- `VirtualHarvesterModel.__init__` (virtual_harvester_model.py l.34-95). -/
def HrvState.init (c : HrvCfg) : HrvState where
  voltageSet := ((c.voltage + 1 : ℕ) : ℚ)
  intervalStep := if c.intervalN > 2 * c.windowSize then c.intervalN - 2 * c.windowSize else 2^30
  isRising := c.isRising
  voltStep := c.voltageStep
  voltageHold := 0
  currentHold := 0
  voltageLast := 0
  currentLast := 0
  compareLast := false
  currentDelta := 0
  voltageDelta := 0
  ageNow := 0
  vocNow := c.voltageMax
  ageNxt := 0
  vocNxt := c.voltageMax
  powerLast := 0
  powerNow := 0
  voltageNow := 0
  currentNow := 0
  powerNxt := 0
  voltageNxt := 0
  currentNxt := 0

/-- One sample of a stream: micro-volt and nano-ampere, `int(...)` in both simulations.  Used in virtual_harvester_simulation.py l.24-72, virtual_source_model.py l.62-91. -/
structure Sample where
  v : ℤ
  i : ℤ
deriving DecidableEq, Repr

variable (fl : ℚ → ℚ)

/-- Take over a measured point, first part of `ivcurve_2_cv` when the curve crosses the set-point
(virtual_harvester_model.py l.118-128). -/
def cvTakeOver (c : HrvCfg) (s : HrvState) (x : Sample) : HrvState :=
  let distanceNow := |fl ((x.v : ℚ) - s.voltageSet)|
  let distanceLast := |fl ((s.voltageLast : ℚ) - s.voltageSet)|
  if distanceNow < distanceLast ∧ distanceNow < (c.voltageStepX4 : ℚ) then
    { s with voltageHold := x.v, currentHold := x.i,
             currentDelta := x.i - s.currentLast, voltageDelta := x.v - s.voltageLast }
  else if distanceLast < distanceNow ∧ distanceLast < (c.voltageStepX4 : ℚ) then
    { s with voltageHold := s.voltageLast, currentHold := s.currentLast,
             currentDelta := x.i - s.currentLast, voltageDelta := x.v - s.voltageLast }
  else s

/-- Linear extrapolation between crossings, second part of `ivcurve_2_cv`
(virtual_harvester_model.py l.129-142). -/
def cvExtrapolate (s : HrvState) : HrvState :=
  if decide ((s.voltageHold : ℚ) < s.voltageSet) = decide (s.voltageDelta > 0) then
    { s with voltageHold := s.voltageHold + s.voltageDelta,
             currentHold := s.currentHold + s.currentDelta }
  else
    { s with
      voltageHold := if s.voltageHold > s.voltageDelta then s.voltageHold - s.voltageDelta else 0,
      currentHold := if s.currentHold > s.currentDelta then s.currentHold - s.currentDelta else 0 }

/-- `ivcurve_2_cv` (virtual_harvester_model.py l.111-147). -/
def ivcurveCv (c : HrvCfg) (s : HrvState) (x : Sample) : HrvState × Sample :=
  let compareNow := decide ((x.v : ℚ) < s.voltageSet)
  let stepSizeNow := |x.v - s.voltageLast|
  let s1 :=
    if compareNow ≠ s.compareLast ∧ stepSizeNow < (c.voltageStepX4 : ℤ) then cvTakeOver fl c s x
    else if c.linExtrapolation then cvExtrapolate s
    else s
  let s2 := { s1 with voltageLast := x.v, currentLast := x.i, compareLast := compareNow }
  (s2, ⟨s2.voltageHold, s2.currentHold⟩)

/-- The interval counter of the trackers (virtual_harvester_model.py l.150-152, l.180-182). -/
def nextInterval (c : HrvCfg) (n : ℕ) : ℕ := if n + 1 ≥ c.intervalN then 0 else n + 1

/-- Ageing and search of the open-circuit voltage (virtual_harvester_model.py l.150-169). -/
def vocTrack (c : HrvCfg) (s : HrvState) (x : Sample) : HrvState :=
  let s1 := { s with intervalStep := nextInterval c s.intervalStep,
                     ageNxt := s.ageNxt + 1, ageNow := s.ageNow + 1 }
  let s2 :=
    if x.i < (c.currentLimit : ℤ) ∧ x.v < s1.vocNxt ∧ x.v ≥ (c.vocMin : ℤ) ∧ x.v ≤ (c.voltageMax : ℤ) then
      { s1 with vocNxt := x.v, ageNxt := 0 }
    else s1
  if s2.ageNow > c.ageMax ∨ s2.vocNxt ≤ s2.vocNow then
    { s2 with ageNow := s2.ageNxt, vocNow := s2.vocNxt, ageNxt := 0, vocNxt := c.voltageMax }
  else s2

/-- Choice of the set-point of the open-circuit tracker (virtual_harvester_model.py l.172-175). -/
def vocSetpoint (c : HrvCfg) (s : HrvState) : ℚ :=
  if s.intervalStep < c.durationN then (s.vocNow : ℚ)
  else if s.intervalStep = c.durationN then
    ((pyInt (fl (((s.vocNow * (c.setpointN8 : ℤ) : ℤ) : ℚ) / 256)) : ℤ) : ℚ)
  else s.voltageSet

/-- `ivcurve_2_mppt_voc` (virtual_harvester_model.py l.149-177). -/
def ivcurveVoc (c : HrvCfg) (s : HrvState) (x : Sample) : HrvState × Sample :=
  let r := ivcurveCv fl c (vocTrack c s x) x
  ({ r.1 with voltageSet := vocSetpoint fl c r.1 }, r.2)

/-- Perturbation of the set-point (virtual_harvester_model.py l.187-206). -/
def poPerturb (c : HrvCfg) (s : HrvState) (y : Sample) : HrvState :=
  let powerNow := y.v * y.i
  if powerNow > s.powerLast then
    { s with
      voltageSet := if s.isRising then fl (s.voltageSet + (s.voltStep : ℚ)) else fl (s.voltageSet - (s.voltStep : ℚ)),
      voltStep := s.voltStep * 2,
      powerLast := powerNow }
  else if powerNow ≤ 0 ∧ s.voltageSet > 0 then
    { s with isRising := true, voltStep := c.voltageStep,
             voltageSet := fl (s.voltageSet - (c.voltageStepX4 : ℚ)), powerLast := powerNow }
  else
    { s with
      isRising := !s.isRising,
      voltStep := c.voltageStep,
      voltageSet := if !s.isRising then fl (s.voltageSet + (c.voltageStep : ℚ)) else fl (s.voltageSet - (c.voltageStep : ℚ)),
      powerLast := powerNow }

/-- Upper limit of the set-point (virtual_harvester_model.py l.208-211). -/
def poClampMax (c : HrvCfg) (s : HrvState) : HrvState :=
  if s.voltageSet ≥ (c.voltageMax : ℚ) then
    { s with voltageSet := (c.voltageMax : ℚ), isRising := false, voltStep := c.voltageStep }
  else s

/-- Lower limit of the set-point (virtual_harvester_model.py l.212-215). -/
def poClampMin (c : HrvCfg) (s : HrvState) : HrvState :=
  if s.voltageSet ≤ (c.voltageMin : ℚ) then
    { s with voltageSet := (c.voltageMin : ℚ), isRising := true, voltStep := c.voltageStep }
  else s

/-- One step is the least set-point (virtual_harvester_model.py l.216-219). -/
def poClampStep (c : HrvCfg) (s : HrvState) : HrvState :=
  if s.voltageSet ≤ (c.voltageStep : ℚ) then
    { s with voltageSet := (c.voltageStep : ℚ), isRising := true, voltStep := c.voltageStep }
  else s

/-- `ivcurve_2_mppt_po` (virtual_harvester_model.py l.179-221). -/
def ivcurvePo (c : HrvCfg) (s : HrvState) (x : Sample) : HrvState × Sample :=
  let r := ivcurveCv fl c { s with intervalStep := nextInterval c s.intervalStep } x
  if r.1.intervalStep = 0 then
    (poClampStep c (poClampMin c (poClampMax c (poPerturb fl c r.1 r.2))), r.2)
  else r

/-- Recording of a candidate (virtual_harvester_model.py l.224-236). -/
def optRecord (c : HrvCfg) (s : HrvState) (x : Sample) : HrvState :=
  let s1 := { s with ageNow := s.ageNow + 1, ageNxt := s.ageNxt + 1 }
  let power := x.v * x.i
  if power ≥ s1.powerNxt ∧ x.v ≥ (c.voltageMin : ℤ) ∧ x.v ≤ (c.voltageMax : ℤ) then
    { s1 with ageNxt := 0, powerNxt := power, voltageNxt := x.v, currentNxt := x.i }
  else s1

/-- `ivcurve_2_mppt_opt` (virtual_harvester_model.py l.223-248). -/
def ivcurveOpt (c : HrvCfg) (s : HrvState) (x : Sample) : HrvState × Sample :=
  let s1 := optRecord c s x
  let s2 :=
    if s1.ageNow > c.ageMax ∨ s1.powerNxt ≥ s1.powerNow then
      { s1 with ageNow := s1.ageNxt, powerNow := s1.powerNxt, voltageNow := s1.voltageNxt,
                currentNow := s1.currentNxt, ageNxt := 0, powerNxt := 0, voltageNxt := 0,
                currentNxt := 0 }
    else s1
  (s2, ⟨s2.voltageNow, s2.currentNow⟩)

/-- `ivcurve_sample` (virtual_harvester_model.py l.97-109). -/
def ivcurveSample (c : HrvCfg) (s : HrvState) (x : Sample) : HrvState × Sample :=
  if c.windowSize ≤ 1 then (s, x)
  else if c.algorithm ≥ hrvOPT then ivcurveOpt c s x
  else if c.algorithm ≥ hrvPO then ivcurvePo fl c s x
  else if c.algorithm ≥ hrvVOC then ivcurveVoc fl c s x
  else if c.algorithm ≥ hrvCV then ivcurveCv fl c s x
  else (s, x)

/-- A sample and, optionally, the set-point that the source model writes into the harvester after
it (`hrv.voltage_set_uV = ...`, virtual_source_model.py l.82-83). -/
structure HrvIn extends Sample where
  feedback : Option ℚ := none
deriving DecidableEq, Repr

/-- One sample plus feedback (virtual_source_model.py l.62-83, harvester part). -/
def hrvStep (c : HrvCfg) (s : HrvState) (x : HrvIn) : HrvState × Sample :=
  let r := ivcurveSample fl c s x.toSample
  match x.feedback with
  | none => r
  | some f => ({ r.1 with voltageSet := f }, r.2)

/-- A whole stream through the harvester; final state and the outputs in order
(virtual_harvester_simulation.py l.66-70). -/
def hrvRun (c : HrvCfg) (s : HrvState) : List HrvIn → HrvState × List Sample
  | [] => (s, [])
  | x :: xs =>
    let r := hrvStep fl c s x
    let q := hrvRun c r.1 xs
    (q.1, r.2 :: q.2)

end Verif.Model
