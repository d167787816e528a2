import Verif.Model.SourceConfig
import Verif.Lemmas.Except
import Verif.Lemmas.Num

namespace Verif.Model
open Verif.Py

variable {fl : ℚ → ℚ}

theorem u32_ok_iff {x : ℤ} {m : ℕ} : u32 x = .ok m ↔ (m:ℤ) = x ∧ m < 2^32 := by
  unfold u32
  split_ifs with h
  · constructor
    · intro e; injection e with e; omega
    · rintro ⟨e, -⟩; congr 1; omega
  · constructor
    · intro e; cases e
    · rintro ⟨e, e2⟩; exact absurd ⟨by omega, by omega⟩ h

theorem u32_of {x : ℤ} (h0 : 0 ≤ x) (h1 : x < 2^32) : ∃ m, u32 x = .ok m :=
  ⟨x.toNat, u32_ok_iff.2 ⟨by omega, by omega⟩⟩

/-- A non-negative float below an integer bound fits its register. -/
theorem u32_round (h : Rounding fl) {y : ℚ} (h0 : 0 ≤ y) {n : ℤ} (hn : n < 2^32) (hy : y ≤ n) :
    ∃ m, u32 (pyRound (fl y)) = .ok m := by
  have hn0 : 0 ≤ n := by
    have : (0:ℚ) ≤ n := le_trans h0 hy
    exact_mod_cast this
  apply u32_of (pyRound_nonneg (h.nonneg h0))
  have := pyRound_le_intCast (h.le_int (n := n) (by rw [abs_of_nonneg hn0]; omega) hy)
  omega

theorem inRange_iff {lo hi x : ℚ} : inRange lo hi x = true ↔ lo ≤ x ∧ x ≤ hi := by
  simp [inRange]

/-- The registers of a translated source, one by one. -/
structure VsrcRegs (fl sqrt : ℚ → ℚ) (c : VsrcCfg) (dtypeIn : EnergyDType) (logMid : Bool) (p : CnvCfg) : Prop where
  converterMode : u32 (c.converterMode dtypeIn logMid) = .ok p.converterMode
  intervalStartupDelayDrainN : u32 (pyRound (fl (fl (c.intervalStartupDelayDrain * 100000) * fl (1/1000)))) = .ok p.intervalStartupDelayDrainN
  vInputMax : u32 (pyRound (fl (c.vInputMax * 1000))) = .ok p.vInputMax
  iInputMax : u32 (pyRound (fl (c.iInputMax * 10^6))) = .ok p.iInputMax
  vInputDrop : u32 (pyRound (fl (c.vInputDrop * 1000))) = .ok p.vInputDrop
  rInputN22 : u32 (pyRound (fl (c.rInput * fl (fl (1/10^6) * 2^22)))) = .ok p.rInputN22
  constantN28 : u32 (c.capConstant fl) = .ok p.constantN28
  vIntermediateInit : u32 (pyRound (fl (c.vIntermediateInit * 1000))) = .ok p.vIntermediateInit
  iIntermediateLeak : u32 (pyRound c.iIntermediateLeak) = .ok p.iIntermediateLeak
  vEnableOutputThreshold : u32 (pyRound (fl ((c.internalStates fl sqrt).vEnable * 1000))) = .ok p.vEnableOutputThreshold
  vDisableOutputThreshold : u32 (pyRound (fl ((c.internalStates fl sqrt).vDisable * 1000))) = .ok p.vDisableOutputThreshold
  dVEnableOutput : u32 (pyRound (fl ((c.internalStates fl sqrt).dVEnable * 1000))) = .ok p.dVEnableOutput
  intervalCheckThresholdsN : u32 (pyRound (fl (fl (c.intervalCheckThresholds * 100000) * fl (1/1000)))) = .ok p.intervalCheckThresholdsN
  vPwrGoodEnableThreshold : u32 (pyRound (fl (c.vPwrGoodEnable * 1000))) = .ok p.vPwrGoodEnableThreshold
  vPwrGoodDisableThreshold : u32 (pyRound (fl (c.vPwrGoodDisable * 1000))) = .ok p.vPwrGoodDisableThreshold
  immediatePwrGoodSignal : u32 c.immediatePwrGoodSignal.toNat = .ok p.immediatePwrGoodSignal
  vOutputLogGpioThreshold : u32 (pyRound (fl (c.vOutputLogGpio * 1000))) = .ok p.vOutputLogGpioThreshold
  vInputBoostThreshold : u32 (pyRound (fl (c.vInputBoost * 1000))) = .ok p.vInputBoostThreshold
  vIntermediateMax : u32 (pyRound (fl (c.vIntermediateMax * 1000))) = .ok p.vIntermediateMax
  vOutput : u32 (pyRound (fl (c.vOutput * 1000))) = .ok p.vOutput
  vBuckDrop : u32 (pyRound (fl (c.vBuckDrop * 1000))) = .ok p.vBuckDrop
  lutInputVMinLog2 : u32 c.lutInputVMin = .ok p.lutInputVMinLog2
  lutInputIMinLog2 : u32 (c.lutInputIMin - 1) = .ok p.lutInputIMinLog2
  lutOutputIMinLog2 : u32 (c.lutOutputIMin - 1) = .ok p.lutOutputIMinLog2
  lutInpEfficiencyN8 : c.lutInput.mapM (fun il => il.mapM (lutInpEntry fl)) = .ok p.lutInpEfficiencyN8
  lutOutInvEfficiencyN4 : c.lutOutput.mapM (lutOutEntry fl) = .ok p.lutOutInvEfficiencyN4

theorem fromVsrc_regs {sqrt : ℚ → ℚ} {c : VsrcCfg} {dtypeIn : EnergyDType} {logMid : Bool} {p : CnvCfg}
    (h : fromVsrc fl sqrt c dtypeIn logMid = .ok p) : VsrcRegs fl sqrt c dtypeIn logMid p := by
  unfold fromVsrc at h
  simp only [bind_ok_iff, pure_ok_iff] at h
  obtain ⟨_, e0, _, e1, _, e2, _, e3, _, e4, _, e5, _, e6, _, e7, _, e8, _, e9, _, e10, _, e11, _, e12, _, e13, _, e14, _, e15, _, e16, _, e17, _, e18, _, e19, _, e20, _, e21, _, e22, _, e23, _, e24, _, e25, rfl⟩ := h
  exact ⟨e0, e1, e2, e3, e4, e5, e6, e7, e8, e9, e10, e11, e12, e13, e14, e15, e16, e17, e18, e19, e20, e21, e22, e23, e24, e25⟩

theorem fromVsrc_of {sqrt : ℚ → ℚ} {c : VsrcCfg} {dtypeIn : EnergyDType} {logMid : Bool} {p : CnvCfg}
    (h : VsrcRegs fl sqrt c dtypeIn logMid p) : fromVsrc fl sqrt c dtypeIn logMid = .ok p := by
  unfold fromVsrc
  simp only [bind_ok_iff, pure_ok_iff]
  exact ⟨_, h.converterMode, _, h.intervalStartupDelayDrainN, _, h.vInputMax, _, h.iInputMax, _, h.vInputDrop, _, h.rInputN22, _, h.constantN28, _, h.vIntermediateInit, _, h.iIntermediateLeak, _, h.vEnableOutputThreshold, _, h.vDisableOutputThreshold, _, h.dVEnableOutput, _, h.intervalCheckThresholdsN, _, h.vPwrGoodEnableThreshold, _, h.vPwrGoodDisableThreshold, _, h.immediatePwrGoodSignal, _, h.vOutputLogGpioThreshold, _, h.vInputBoostThreshold, _, h.vIntermediateMax, _, h.vOutput, _, h.vBuckDrop, _, h.lutInputVMinLog2, _, h.lutInputIMinLog2, _, h.lutOutputIMinLog2, _, h.lutInpEfficiencyN8, _, h.lutOutInvEfficiencyN4, rfl⟩

/-- The registers of a translated harvester, one by one. -/
structure VhrvRegs (fl : ℚ → ℚ) (c : VhrvCfg) (window : ℤ) (step : ℚ) (forEmu : Bool) (p : HrvCfg) : Prop where
  algo : c.algorithmNum forEmu = .ok p.algorithm
  hrvMode : u32 (c.hrvMode forEmu) = .ok p.hrvMode
  windowSize : u32 window = .ok p.windowSize
  voltage : u32 (pyRound (fl (c.voltage * 10^3))) = .ok p.voltage
  voltageMin : u32 (pyRound (fl (c.voltageMin * 10^3))) = .ok p.voltageMin
  voltageMax : u32 (pyRound (fl (c.voltageMax * 10^3))) = .ok p.voltageMax
  voltageStep : u32 (pyRound (fl (step * 10^3))) = .ok p.voltageStep
  currentLimit : u32 (pyRound (fl (c.currentLimit * 10^3))) = .ok p.currentLimit
  setpointN8 : u32 (pyRound (min 255 (fl (c.setpointN * 2^8)))) = .ok p.setpointN8
  intervalN : u32 (pyRound (fl (fl ((c.timings fl forEmu).1 * 100000) * fl (1/1000)))) = .ok p.intervalN
  durationN : u32 (pyRound (fl (fl ((c.timings fl forEmu).2 * 100000) * fl (1/1000)))) = .ok p.durationN
  waitCyclesN : u32 c.waitCycles = .ok p.waitCyclesN

/-- The step used for the translation (virtual_harvester.py l.269-271). -/
def usedStep (fl : ℚ → ℚ) (c : VhrvCfg) (voltageStepV : Option ℚ) : ℚ :=
  match voltageStepV with
  | some v => fl (1000 * v)
  | none => c.voltageStep

/-- The front-end checks of `from_vhrv` (virtual_harvester.py l.246-261). -/
def FrontEndOk (dtypeIn : Option EnergyDType) (windowSize : Option ℤ) (voltageStepV : Option ℚ) (forEmu : Bool) : Prop :=
  forEmu = true → (dtypeIn = some .ivsample ∨
    (dtypeIn = some .ivcurve ∧ voltageStepV.isSome ∧ windowSize.isSome))

theorem fromVhrv_regs {c : VhrvCfg} {dtypeIn : Option EnergyDType} {w : Option ℤ} {v : Option ℚ} {forEmu : Bool}
    {p : HrvCfg} (h : fromVhrv fl c dtypeIn w v forEmu = .ok p) :
    FrontEndOk dtypeIn w v forEmu ∧
      VhrvRegs fl c (w.getD (c.windowSize dtypeIn forEmu)) (usedStep fl c v) forEmu p := by
  unfold fromVhrv at h
  have h1 : ¬ (forEmu && !(dtypeIn == some .ivsample || dtypeIn == some .ivcurve)) = true := by
    intro hh; rw [if_pos hh] at h; cases h
  rw [if_neg h1] at h
  have h2 : ¬ (forEmu && dtypeIn == some .ivcurve && v.isNone) = true := by
    intro hh; simp only [if_pos hh] at h; cases h
  have h3 : ¬ (forEmu && dtypeIn == some .ivcurve && w.isNone) = true := by
    intro hh; simp only [if_neg h2, if_pos hh] at h; cases h
  simp only [if_neg h2, if_neg h3] at h
  change (do let algorithm ← c.algorithmNum forEmu; _) = _ at h
  simp only [bind_ok_iff, pure_ok_iff] at h
  obtain ⟨a, e, b, e0, _, e1, _, e2, _, e3, _, e4, _, e5, _, e6, _, e7, _, e8, _, e9, _, e10, _, e11, rfl⟩ := h
  refine ⟨?_, ?_, e1, e2, e3, e4, e5, e6, e7, e8, e9, e10, e11⟩
  · intro hf
    subst hf
    rcases dtypeIn with _ | (_ | _ | _) <;> cases v <;> cases w <;> simp_all
  · have hab : b = a := by exact_mod_cast (u32_ok_iff.1 e0).1
    rw [hab]; exact e

theorem fromVhrv_of {c : VhrvCfg} {dtypeIn : Option EnergyDType} {w : Option ℤ} {v : Option ℚ} {forEmu : Bool}
    {p : HrvCfg} (hf : FrontEndOk dtypeIn w v forEmu) (ha : p.algorithm < 2^32)
    (h : VhrvRegs fl c (w.getD (c.windowSize dtypeIn forEmu)) (usedStep fl c v) forEmu p) :
    fromVhrv fl c dtypeIn w v forEmu = .ok p := by
  unfold fromVhrv
  have h1 : ¬ (forEmu && !(dtypeIn == some .ivsample || dtypeIn == some .ivcurve)) = true := by
    intro hh
    simp only [Bool.and_eq_true] at hh
    rcases hf hh.1 with rfl | ⟨rfl, -⟩ <;> simp at hh
  have h2 : ¬ (forEmu && dtypeIn == some .ivcurve && v.isNone) = true := by
    intro hh
    simp only [Bool.and_eq_true] at hh
    rcases hf hh.1.1 with rfl | ⟨rfl, h2, h3⟩
    · simp at hh
    · cases v <;> simp at hh h2
  have h3 : ¬ (forEmu && dtypeIn == some .ivcurve && w.isNone) = true := by
    intro hh
    simp only [Bool.and_eq_true] at hh
    rcases hf hh.1.1 with rfl | ⟨rfl, h2, h3⟩
    · simp at hh
    · cases w <;> simp at hh h3
  simp only [if_neg h1, if_neg h2, if_neg h3]
  change (do let algorithm ← c.algorithmNum forEmu; _) = _
  simp only [bind_ok_iff, pure_ok_iff]
  exact ⟨_, h.algo, _, u32_ok_iff.2 ⟨rfl, ha⟩, _, h.hrvMode, _, h.windowSize, _, h.voltage, _, h.voltageMin, _, h.voltageMax,
    _, h.voltageStep, _, h.currentLimit, _, h.setpointN8, _, h.intervalN, _, h.durationN, _, h.waitCyclesN, rfl⟩

end Verif.Model
