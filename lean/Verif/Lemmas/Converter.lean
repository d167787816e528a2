import Verif.Model.Converter
import Verif.Lemmas.Num

/-! Lemmas about the converter model. -/

namespace Verif.Model
open Verif.Py

variable {fl : ℚ → ℚ}

/-! ## Look-up tables -/

theorem getInputEfficiency_ok (c : CnvCfg) (hc : c.Valid) (v i : ℚ) :
    ∃ (row : List ℕ) (x : ℕ), row ∈ c.lutInpEfficiencyN8 ∧ x ∈ row ∧
      getInputEfficiency fl c v i = .ok (fl (x / 2^8)) := by
  unfold getInputEfficiency
  simp only
  generalize (if pyInt (fl (v / 2^c.lutInputVMinLog2)) > 0 then
    (pyInt (fl (v / 2^c.lutInputVMinLog2))).toNat else 0) = pv
  generalize log2Pos (pyInt (fl (i / 2^c.lutInputIMinLog2))) = pc
  have hv : (if pv ≥ lutSize then lutSize - 1 else pv) < 12 := by
    unfold lutSize; split <;> omega
  have hcc : (if pc ≥ lutSize then lutSize - 1 else pc) < 12 := by
    unfold lutSize; split <;> omega
  generalize (if pv ≥ lutSize then lutSize - 1 else pv) = pv' at hv ⊢
  generalize (if pc ≥ lutSize then lutSize - 1 else pc) = pc' at hcc ⊢
  have hr : pv' < c.lutInpEfficiencyN8.length := by rw [hc.lutInpRows]; exact hv
  have hmem := List.getElem_mem hr
  have hl := (hc.lutInpCols _ hmem).1
  have hx : pc' < (c.lutInpEfficiencyN8[pv']).length := by rw [hl]; exact hcc
  refine ⟨c.lutInpEfficiencyN8[pv'], c.lutInpEfficiencyN8[pv'][pc'], hmem, List.getElem_mem hx, ?_⟩
  simp [List.getElem?_eq_getElem hr, List.getElem?_eq_getElem hx]

theorem getOutputInvEfficiency_ok (c : CnvCfg) (hc : c.Valid) (i : ℚ) :
    ∃ x : ℕ, x ∈ c.lutOutInvEfficiencyN4 ∧
      getOutputInvEfficiency fl c i = .ok (fl (x / 2^4)) := by
  unfold getOutputInvEfficiency
  simp only
  generalize log2Pos (pyInt (fl (i / 2^c.lutOutputIMinLog2))) = pc
  have hcc : (if pc ≥ lutSize then lutSize - 1 else pc) < 12 := by
    unfold lutSize; split <;> omega
  generalize (if pc ≥ lutSize then lutSize - 1 else pc) = pc' at hcc ⊢
  have hx : pc' < c.lutOutInvEfficiencyN4.length := by rw [hc.lutOut.1]; exact hcc
  refine ⟨c.lutOutInvEfficiencyN4[pc'], List.getElem_mem hx, ?_⟩
  simp [List.getElem?_eq_getElem hx]

/-! ## The four functions in explicit form -/

/-- Clamped input voltage and current of `calc_inp_power`. -/
def clampV (fl : ℚ → ℚ) (c : CnvCfg) (v : ℚ) : ℚ :=
  min (if max 0 v > c.vInputDrop then fl (max 0 v - c.vInputDrop) else 0) c.vInputMax
def clampI (c : CnvCfg) (i : ℚ) : ℚ := min (max 0 i) c.iInputMax

theorem calcInpPower_boost (c : CnvCfg) (hb : c.enableBoost = true) (s : CnvState) (v i : ℚ)
    {s' : CnvState} {r : ℤ} (h : calcInpPower fl c s v i = .ok (s', r)) :
    ∃ eta, getInputEfficiency fl c
        (if clampV fl c v < c.vInputBoostThreshold then 0 else clampV fl c v) (clampI c i) = .ok eta ∧
      s' = { s with
        vInput := clampV fl c v
        pInp := fl (fl (eta * (if clampV fl c v < c.vInputBoostThreshold then 0 else clampV fl c v))
          * clampI c i) } ∧ r = pyRound s'.pInp := by
  unfold calcInpPower at h
  simp only [hb, if_true] at h
  change Except.bind (getInputEfficiency fl c
    (if clampV fl c v < c.vInputBoostThreshold then 0 else clampV fl c v) (clampI c i)) _ = _ at h
  match he : getInputEfficiency fl c
        (if clampV fl c v < c.vInputBoostThreshold then 0 else clampV fl c v) (clampI c i) with
  | .error e => rw [he] at h; cases h
  | .ok eta =>
    rw [he] at h
    injection h with h
    injection h with h1 h2
    exact ⟨eta, rfl, h1.symm, by rw [← h2, ← h1]⟩

theorem calcInpPower_store (c : CnvCfg) (hb : c.enableBoost = false) (hs : c.enableStorage = true)
    (s : CnvState) (v i : ℚ) {s' : CnvState} {r : ℤ}
    (h : calcInpPower fl c s v i = .ok (s', r)) :
    let vDiff := if clampV fl c v ≥ s.vMid then fl (clampV fl c v - s.vMid) else 0
    let vRes := fl (clampI c i * c.rInput fl)
    let u := if vRes > vDiff then s.vMid else fl (clampV fl c v - vRes)
    s' = (if c.feedbackToHrv then { s with
        vInput := clampV fl c v
        vInputRequest := fl (fl (s.vMid + vRes) + c.vInputDrop)
        pInp := fl (fl (1 * u) * clampI c i) } else { s with
        vInput := clampV fl c v
        pInp := fl (fl (1 * (if u < s.vMid then 0 else u)) * clampI c i) }) ∧
      r = pyRound s'.pInp := by
  unfold calcInpPower at h
  simp only [hb, hs, if_true] at h
  intro vDiff vRes u
  by_cases hf : c.feedbackToHrv = true
  · simp only [hf, if_true] at h ⊢
    injection h with h
    injection h with h1 h2
    exact ⟨h1.symm, by rw [← h2, ← h1]⟩
  · simp only [hf] at h ⊢
    by_cases hu : u < s.vMid
    · have : ∀ α (a b : α), (if u < s.vMid then a else b) = a := fun _ _ _ => if_pos hu
      rw [this]
      injection h with h
      injection h with h1 h2
      have key : (if u < s.vMid then ({ s with vInput := clampV fl c v }, (0:ℚ)) else
          ({ s with vInput := clampV fl c v }, u)) = ({ s with vInput := clampV fl c v }, (0:ℚ)) :=
        if_pos hu
      erw [key] at h1 h2
      exact ⟨h1.symm, by rw [← h2, ← h1]⟩
    · have : ∀ α (a b : α), (if u < s.vMid then a else b) = b := fun _ _ _ => if_neg hu
      rw [this]
      injection h with h
      injection h with h1 h2
      have key : (if u < s.vMid then ({ s with vInput := clampV fl c v }, (0:ℚ)) else
          ({ s with vInput := clampV fl c v }, u)) = ({ s with vInput := clampV fl c v }, u) :=
        if_neg hu
      erw [key] at h1 h2
      exact ⟨h1.symm, by rw [← h2, ← h1]⟩

theorem calcInpPower_direct (c : CnvCfg) (hb : c.enableBoost = false)
    (hs : c.enableStorage = false) (s : CnvState) (v i : ℚ) {s' : CnvState} {r : ℤ}
    (h : calcInpPower fl c s v i = .ok (s', r)) :
    s' = { s with
        vInput := clampV fl c v
        vMid := clampV fl c v
        pInp := fl (fl (1 * 0) * clampI c i) } ∧ r = pyRound s'.pInp := by
  unfold calcInpPower at h
  simp only [hb, hs] at h
  injection h with h
  injection h with h1 h2
  exact ⟨h1.symm, by rw [← h2, ← h1]⟩

theorem calcOutPower_eq (c : CnvCfg) (cal : CalEmulator) (s : CnvState) (adc : ℤ)
    {s' : CnvState} {r : ℤ} (h : calcOutPower fl c cal s adc = .ok (s', r)) :
    ∃ eta, (if c.enableBuck then getOutputInvEfficiency fl c
        (convAdcRawToNA fl cal.adcCA s.residue (min (2^18-1) (max 0 adc))).1 else .ok 1) = .ok eta ∧
      s' = { s with
        residue := (convAdcRawToNA fl cal.adcCA s.residue (min (2^18-1) (max 0 adc))).2
        startupN := s.startupN - 1
        pOut := if s.startupN > 0 then 0 else
          fl (fl (fl (eta * s.vOut) *
            (convAdcRawToNA fl cal.adcCA s.residue (min (2^18-1) (max 0 adc))).1)
            + fl (s.vMid * c.iIntermediateLeak)) } ∧
      r = pyRound s'.pOut := by
  unfold calcOutPower at h
  simp only at h
  generalize convAdcRawToNA fl cal.adcCA s.residue (min (2^18-1) (max 0 adc)) = p at h ⊢
  obtain ⟨iOut, res⟩ := p
  simp only at h ⊢
  by_cases hb : c.enableBuck = true
  · simp only [hb, if_true] at h ⊢
    match he : getOutputInvEfficiency fl c iOut with
    | .error e => rw [he] at h; cases h
    | .ok eta =>
      rw [he] at h
      refine ⟨eta, rfl, ?_⟩
      change Except.ok _ = _ at h
      injection h with h
      injection h with h1 h2
      rw [← h2, ← h1]
      refine ⟨?_, rfl⟩
      by_cases hn : s.startupN > 0
      · simp [hn]
      · have : s.startupN = 0 := by omega
        simp [this]
  · have hb' : c.enableBuck = false := by simpa using hb
    simp only [hb'] at h ⊢
    refine ⟨1, rfl, ?_⟩
    injection h with h
    injection h with h1 h2
    rw [← h2, ← h1]
    refine ⟨?_, rfl⟩
    by_cases hn : s.startupN > 0
    · simp [hn]
    · have : s.startupN = 0 := by omega
      simp [this]

theorem updateCapStorage_eq (c : CnvCfg) (s : CnvState) :
    updateCapStorage fl c s = ({ s with
      vMid := max (min (if c.enableStorage then
        fl (s.vMid + fl (fl (fl (s.pInp - s.pOut) / max 1 s.vMid) * c.capConstant fl)) else s.vMid)
          c.vIntermediateMax) 1 },
      pyRound (updateCapStorage fl c s).1.vMid) := by
  unfold updateCapStorage
  simp only
  by_cases h : c.enableStorage = true <;> simp [h]

/-- Thresholds are checked in this sample. -/
def CnvState.checks (s : CnvState) (c : CnvCfg) : Bool :=
  decide (s.sampleCount + 1 ≥ c.intervalCheckThresholdsN)


@[simp] theorem drive_frame (c : CnvCfg) (cal : CalEmulator) (s : CnvState) :
    (driveOutput fl c cal s).sampleCount = s.sampleCount ∧
    (driveOutput fl c cal s).isOutputting = s.isOutputting ∧
    (driveOutput fl c cal s).vMid = s.vMid ∧
    (driveOutput fl c cal s).powerGood = s.powerGood ∧
    (driveOutput fl c cal s).startupN = s.startupN ∧
    (driveOutput fl c cal s).pInp = s.pInp ∧
    (driveOutput fl c cal s).pOut = s.pOut ∧
    (driveOutput fl c cal s).residue = s.residue ∧
    (driveOutput fl c cal s).vInput = s.vInput ∧
    (driveOutput fl c cal s).vInputRequest = s.vInputRequest := by
  simp [driveOutput]

theorem pg_frame (c : CnvCfg) (ck : Bool) (v : ℚ) (s : CnvState) :
    ∃ b, evalPowerGood c ck v s = { s with powerGood := b } := by
  unfold evalPowerGood
  split_ifs
  · exact ⟨_, rfl⟩
  · exact ⟨s.powerGood, rfl⟩
  · exact ⟨_, rfl⟩
  · exact ⟨s.powerGood, rfl⟩
  · exact ⟨s.powerGood, rfl⟩

theorem switch_frame (c : CnvCfg) (ck : Bool) (s : CnvState) :
    ∃ n b v, switchOutput fl c ck s = { s with sampleCount := n, isOutputting := b, vMid := v } := by
  unfold switchOutput
  split_ifs
  all_goals first
    | exact ⟨_, _, s.vMid, rfl⟩
    | exact ⟨_, _, _, rfl⟩

theorem us_sampleCount (c : CnvCfg) (cal : CalEmulator) (s : CnvState) :
    (updateStatesAndOutput fl c cal s).1.sampleCount =
      if s.checks c then 0 else s.sampleCount + 1 := by
  unfold updateStatesAndOutput CnvState.checks
  simp only [(drive_frame _ _ _).1]
  obtain ⟨b, hb⟩ := pg_frame c (decide (s.sampleCount + 1 ≥ c.intervalCheckThresholdsN)) s.vMid
    (switchOutput fl c (decide (s.sampleCount + 1 ≥ c.intervalCheckThresholdsN)) s)
  rw [hb]
  unfold switchOutput
  split_ifs <;> rfl

theorem us_isOutputting (c : CnvCfg) (cal : CalEmulator) (s : CnvState) :
    (updateStatesAndOutput fl c cal s).1.isOutputting =
      if s.checks c then
        (if s.isOutputting then !decide (s.vMid < c.vDisableOutputThreshold)
         else decide (s.vMid ≥ c.enableThreshold))
      else s.isOutputting := by
  unfold updateStatesAndOutput CnvState.checks
  simp only [(drive_frame _ _ _).2.1]
  obtain ⟨b, hb⟩ := pg_frame c (decide (s.sampleCount + 1 ≥ c.intervalCheckThresholdsN)) s.vMid
    (switchOutput fl c (decide (s.sampleCount + 1 ≥ c.intervalCheckThresholdsN)) s)
  rw [hb]
  unfold switchOutput
  split_ifs <;> simp_all

theorem us_vMid (c : CnvCfg) (cal : CalEmulator) (s : CnvState) :
    (updateStatesAndOutput fl c cal s).1.vMid =
      if s.checks c ∧ s.isOutputting = false ∧ s.vMid ≥ c.enableThreshold then
        fl (s.vMid - c.dVEnableOutput) else s.vMid := by
  unfold updateStatesAndOutput CnvState.checks
  simp only [(drive_frame _ _ _).2.2.1]
  obtain ⟨b, hb⟩ := pg_frame c (decide (s.sampleCount + 1 ≥ c.intervalCheckThresholdsN)) s.vMid
    (switchOutput fl c (decide (s.sampleCount + 1 ≥ c.intervalCheckThresholdsN)) s)
  rw [hb]
  unfold switchOutput
  split_ifs <;> simp_all

theorem us_frame (c : CnvCfg) (cal : CalEmulator) (s : CnvState) :
    let s' := (updateStatesAndOutput fl c cal s).1
    s'.startupN = s.startupN ∧ s'.pInp = s.pInp ∧ s'.pOut = s.pOut ∧ s'.residue = s.residue ∧
      s'.vInput = s.vInput ∧ s'.vInputRequest = s.vInputRequest := by
  unfold updateStatesAndOutput
  obtain ⟨b, hb⟩ := pg_frame c (decide (s.sampleCount + 1 ≥ c.intervalCheckThresholdsN)) s.vMid
    (switchOutput fl c (decide (s.sampleCount + 1 ≥ c.intervalCheckThresholdsN)) s)
  obtain ⟨n, o, v, hs⟩ := switch_frame (fl := fl) c
    (decide (s.sampleCount + 1 ≥ c.intervalCheckThresholdsN)) s
  dsimp only
  rw [hb, hs]
  simp

theorem us_powerGood (c : CnvCfg) (cal : CalEmulator) (s : CnvState) :
    let s' := (updateStatesAndOutput fl c cal s).1
    s'.powerGood =
      if s.checks c || c.immediatePwrGoodSignal != 0 then
        (if s.powerGood then !decide (s.vMid ≤ c.vPwrGoodDisableThreshold)
         else decide (s.vMid ≥ c.vPwrGoodEnableThreshold) && s'.isOutputting)
      else s.powerGood := by
  unfold updateStatesAndOutput CnvState.checks
  simp only [(drive_frame _ _ _).2.1, (drive_frame _ _ _).2.2.2.1]
  obtain ⟨n, o, v, hs⟩ := switch_frame (fl := fl) c
    (decide (s.sampleCount + 1 ≥ c.intervalCheckThresholdsN)) s
  rw [hs]
  unfold evalPowerGood
  split_ifs <;> simp_all

theorem us_vOut (c : CnvCfg) (cal : CalEmulator) (s : CnvState) :
    let s' := (updateStatesAndOutput fl c cal s).1
    s'.vOut =
      if s'.isOutputting || s'.startupN > 0 then
        (if !c.enableBuck || decide (s'.vMid ≤ ((c.vOutput + c.vBuckDrop : ℕ) : ℚ)) then
          (if (c.vBuckDrop : ℚ) < s'.vMid then fl (s'.vMid - c.vBuckDrop) else 0)
         else c.vOutput)
      else 0 := by
  rfl

theorem us_vOutRaw (c : CnvCfg) (cal : CalEmulator) (s : CnvState) :
    let r := updateStatesAndOutput fl c cal s
    r.2 = r.1.vOutRaw ∧ r.1.vOutRaw =
      if r.1.isOutputting || r.1.startupN > 0 then convUVToDacRaw fl cal.dacVA r.1.vOut else 0 :=
  ⟨rfl, rfl⟩

theorem us_skip (c : CnvCfg) (cal : CalEmulator) (s : CnvState) :
    let r := updateStatesAndOutput fl c cal s
    r.1.skipGpioLogging = decide (r.1.vOut < c.vOutputLogGpioThreshold) := rfl

/-! ## Totality, frames, runs -/

theorem calcInpPower_total (c : CnvCfg) (hc : c.Valid) (s : CnvState) (v i : ℚ) :
    ∃ s' r, calcInpPower fl c s v i = .ok (s', r) := by
  unfold calcInpPower
  simp only
  by_cases hb : c.enableBoost = true
  · simp only [hb, if_true]
    obtain ⟨row, x, -, -, he⟩ := getInputEfficiency_ok (fl := fl) c hc
      (if clampV fl c v < c.vInputBoostThreshold then 0 else clampV fl c v) (clampI c i)
    unfold clampV clampI at he
    rw [he]
    exact ⟨_, _, rfl⟩
  · simp only [hb]
    exact ⟨_, _, rfl⟩

theorem calcOutPower_total (c : CnvCfg) (hc : c.Valid) (cal : CalEmulator) (s : CnvState)
    (adc : ℤ) : ∃ s' r, calcOutPower fl c cal s adc = .ok (s', r) := by
  unfold calcOutPower
  simp only
  by_cases hb : c.enableBuck = true
  · simp only [hb, if_true]
    obtain ⟨x, -, he⟩ := getOutputInvEfficiency_ok (fl := fl) c hc
      (convAdcRawToNA fl cal.adcCA s.residue (min (2^18-1) (max 0 adc))).1
    rw [he]
    exact ⟨_, _, rfl⟩
  · simp only [hb]
    exact ⟨_, _, rfl⟩

/-- `calc_inp_power` changes only input voltage, request, input power and (direct mode) `vMid`. -/
theorem calcInpPower_frame (c : CnvCfg) (s : CnvState) (v i : ℚ) {s' : CnvState} {r : ℤ}
    (h : calcInpPower fl c s v i = .ok (s', r)) :
    s'.pOut = s.pOut ∧ s'.startupN = s.startupN ∧ s'.vOut = s.vOut ∧ s'.powerGood = s.powerGood ∧
    s'.sampleCount = s.sampleCount ∧ s'.isOutputting = s.isOutputting ∧ s'.residue = s.residue ∧
    s'.vMid = (if c.enableBoost = false ∧ c.enableStorage = false then clampV fl c v else s.vMid) ∧
    r = pyRound s'.pInp := by
  cases hb : c.enableBoost
  · cases hs : c.enableStorage
    · obtain ⟨rfl, h2⟩ := calcInpPower_direct c hb hs s v i h
      simp [h2]
    · obtain ⟨h1, h2⟩ := calcInpPower_store c hb hs s v i h
      rw [h2, h1]
      split_ifs <;> simp_all
  · obtain ⟨eta, -, rfl, h2⟩ := calcInpPower_boost c hb s v i h
    simp [h2]

/-- One sample, taken apart. -/
theorem cnvStep_ok (c : CnvCfg) (cal : CalEmulator) (s : CnvState) (x : CnvIn)
    {s' : CnvState} {o : CnvOut} (h : cnvStep fl c cal s x = .ok (s', o)) :
    ∃ sa ra sb rb, calcInpPower fl c s x.v x.i = .ok (sa, ra) ∧
      calcOutPower fl c cal sa x.adc = .ok (sb, rb) ∧
      s' = (updateStatesAndOutput fl c cal (updateCapStorage fl c sb).1).1 ∧
      o = { pInp := ra, pOut := rb, vMid := (updateCapStorage fl c sb).2,
            vOutRaw := (updateStatesAndOutput fl c cal (updateCapStorage fl c sb).1).2,
            vCap := (updateCapStorage fl c sb).1.vMid } := by
  unfold cnvStep at h
  match ha : calcInpPower fl c s x.v x.i with
  | .error e => rw [ha] at h; cases h
  | .ok (sa, ra) =>
    rw [ha] at h
    change Except.bind (calcOutPower fl c cal sa x.adc) _ = _ at h
    match hb : calcOutPower fl c cal sa x.adc with
    | .error e => rw [hb] at h; cases h
    | .ok (sb, rb) =>
      rw [hb] at h
      injection h with h
      injection h with h1 h2
      exact ⟨sa, ra, sb, rb, rfl, hb, h1.symm, h2.symm⟩

theorem cnvStep_total (c : CnvCfg) (hc : c.Valid) (cal : CalEmulator) (s : CnvState) (x : CnvIn) :
    ∃ s' o, cnvStep fl c cal s x = .ok (s', o) := by
  obtain ⟨sa, ra, ha⟩ := calcInpPower_total (fl := fl) c hc s x.v x.i
  obtain ⟨sb, rb, hb⟩ := calcOutPower_total (fl := fl) c hc cal sa x.adc
  unfold cnvStep
  rw [ha]
  change ∃ s' o, Except.bind (calcOutPower fl c cal sa x.adc) _ = _
  rw [hb]
  exact ⟨_, _, rfl⟩

theorem cnvRun_cons (c : CnvCfg) (cal : CalEmulator) (s : CnvState) (x : CnvIn) (xs : List CnvIn)
    {s' : CnvState} {os : List CnvOut} (h : cnvRun fl c cal s (x :: xs) = .ok (s', os)) :
    ∃ s1 o os1, cnvStep fl c cal s x = .ok (s1, o) ∧ cnvRun fl c cal s1 xs = .ok (s', os1) ∧
      os = o :: os1 := by
  unfold cnvRun at h
  match ha : cnvStep fl c cal s x with
  | .error e => rw [ha] at h; cases h
  | .ok (s1, o) =>
    rw [ha] at h
    change Except.bind (cnvRun fl c cal s1 xs) _ = _ at h
    match hb : cnvRun fl c cal s1 xs with
    | .error e => rw [hb] at h; cases h
    | .ok (s2, os1) =>
      rw [hb] at h
      injection h with h
      injection h with h1 h2
      exact ⟨s1, o, os1, rfl, by rw [hb, h1], h2.symm⟩

/-- Everything preserved by a sample holds after a run. -/
theorem cnvRun_inv (c : CnvCfg) (cal : CalEmulator) (P : ℕ → CnvState → Prop)
    (hstep : ∀ k s x s' o, P k s → cnvStep fl c cal s x = .ok (s', o) → P (k+1) s') :
    ∀ (xs : List CnvIn) (k : ℕ) (s : CnvState) (s' : CnvState) (os : List CnvOut), P k s →
      cnvRun fl c cal s xs = .ok (s', os) → P (k + xs.length) s'
  | [], k, s, s', os, hp, h => by
    injection h with h
    injection h with h1 h2
    subst h1; simpa using hp
  | x :: xs, k, s, s', os, hp, h => by
    obtain ⟨s1, o, os1, ha, hb, -⟩ := cnvRun_cons c cal s x xs h
    have := cnvRun_inv c cal P hstep xs (k+1) s1 s' os1 (hstep k s x s1 o hp ha) hb
    simpa [Nat.add_assoc, Nat.add_comm 1] using this

/-- Every output of a run was produced by a sample starting in a state with the invariant. -/
theorem cnvRun_outs (c : CnvCfg) (cal : CalEmulator) (P : CnvState → Prop) (Q : CnvOut → Prop)
    (hstep : ∀ s x s' o, P s → cnvStep fl c cal s x = .ok (s', o) → P s' ∧ Q o) :
    ∀ (xs : List CnvIn) (s : CnvState) (s' : CnvState) (os : List CnvOut), P s →
      cnvRun fl c cal s xs = .ok (s', os) → ∀ o ∈ os, Q o
  | [], s, s', os, hp, h => by
    injection h with h
    injection h with h1 h2
    subst h2; simp
  | x :: xs, s, s', os, hp, h => by
    obtain ⟨s1, o, os1, ha, hb, rfl⟩ := cnvRun_cons c cal s x xs h
    have h1 := hstep s x s1 o hp ha
    have h2 := cnvRun_outs c cal P Q hstep xs s1 s' os1 h1.1 hb
    intro o' ho
    rcases List.mem_cons.mp ho with rfl | ho
    · exact h1.2
    · exact h2 o' ho

theorem cnvRun_total (c : CnvCfg) (hc : c.Valid) (cal : CalEmulator) :
    ∀ (xs : List CnvIn) (s : CnvState), ∃ s' os, cnvRun fl c cal s xs = .ok (s', os) ∧
      os.length = xs.length
  | [], s => ⟨s, [], rfl, rfl⟩
  | x :: xs, s => by
    obtain ⟨s1, o, h1⟩ := cnvStep_total (fl := fl) c hc cal s x
    obtain ⟨s2, os, h2, hl⟩ := cnvRun_total c hc cal xs s1
    refine ⟨s2, o :: os, ?_, by simp [hl]⟩
    unfold cnvRun
    rw [h1]
    change Except.bind (cnvRun fl c cal s1 xs) _ = _
    rw [h2]; rfl

end Verif.Model
