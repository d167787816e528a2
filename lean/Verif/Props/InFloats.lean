import Verif.Props.Balance
import Verif.Props.Registers
import Verif.Props.Eenv

/-!
# Deviations in floats

Theorems elsewhere show deviations of the program in exact arithmetic, to say that rounding is not their cause.  Here they are shown of the program as it runs:
in binary64, or in every accurate float arithmetic.
-/

namespace Verif.Props
open Verif.Py Verif.Model

/-! ## The converter -/

/-- **C13 in binary64 (violated).**  A source at 0 V feeding 1 mA through a series resistor into a storage at 3.5 V is credited 3.5 V · 1 mA although it delivers nothing. -/
theorem C13_input_power_binary64_violated :
    ∃ (c : CnvCfg) (cal : CalEmulator) (v i : ℚ) (s' : CnvState) (r : ℤ), c.Valid ∧
      calcInpPower b64 c (CnvState.init b64 c cal) v i = .ok (s', r) ∧
      max 0 v * max 0 i = 0 ∧ s'.pInp = 3500000 * 1000000 := by
  have hv : diodeCapCfg.Valid := by constructor <;> decide
  have key : (match calcInpPower b64 diodeCapCfg (CnvState.init b64 diodeCapCfg demoCal) 0 1000000 with
    | .ok (s', _) => decide (s'.pInp = 3500000 * 1000000)
    | .error _ => false) = true := by decide +kernel
  cases h : calcInpPower b64 diodeCapCfg (CnvState.init b64 diodeCapCfg demoCal) 0 1000000 with
  | error e => rw [h] at key; cases key
  | ok p =>
    rw [h] at key
    exact ⟨_, _, 0, 1000000, p.1, p.2, hv, h, by norm_num, of_decide_eq_true key⟩

/-- **C15 in binary64 (violated).**  The output can be switched off while power-good stays raised (direct connection; source drops from 3 V to 1.5 V, power-good disable threshold 1 V). -/
theorem C15_power_good_binary64_violated :
    ∃ (c : CnvCfg) (cal : CalEmulator) (xs : List CnvIn) (s : CnvState) (os : List CnvOut),
      c.Valid ∧ cnvRun b64 c cal (CnvState.init b64 c cal) xs = .ok (s, os) ∧
      s.powerGood = true ∧ s.isOutputting = false ∧ s.vOut = 0 := by
  have hv : CnvCfg.Valid { demoCfg with converterMode := 0, intervalStartupDelayDrainN := 0, intervalCheckThresholdsN := 1, vPwrGoodDisableThreshold := 1000000 } := by constructor <;> decide
  obtain ⟨s, os, h, -⟩ := C17_no_exception (fl := b64) _ hv demoCal [⟨3000000, 0, 0⟩, ⟨1500000, 0, 0⟩]
  have key : (match cnvRun b64 { demoCfg with converterMode := 0, intervalStartupDelayDrainN := 0, intervalCheckThresholdsN := 1, vPwrGoodDisableThreshold := 1000000 } demoCal
      (CnvState.init b64 { demoCfg with converterMode := 0, intervalStartupDelayDrainN := 0, intervalCheckThresholdsN := 1, vPwrGoodDisableThreshold := 1000000 } demoCal)
        [⟨3000000, 0, 0⟩, ⟨1500000, 0, 0⟩] with
    | .ok (s, _) => s.powerGood && !s.isOutputting && decide (s.vOut = 0)
    | .error _ => false) = true := by decide +kernel
  rw [h] at key
  simp only [Bool.and_eq_true, Bool.not_eq_true', decide_eq_true_eq] at key
  exact ⟨_, _, _, s, os, hv, h, key.1.1, key.1.2, key.2⟩

/-- **C15 in binary64 (violated between the thresholds).**  Right after the start power good is signalled although the output never was on
(storage at 2.9 V; it is on from 3 V and power good falls at 2.4 V). -/
theorem C15_startup_binary64_violated :
    ∃ (c : CnvCfg) (cal : CalEmulator) (xs : List CnvIn) (s : CnvState) (os : List CnvOut), c.Valid ∧ c.vDisableOutputThreshold ≤ c.vPwrGoodDisableThreshold ∧
      c.vPwrGoodEnableThreshold ≤ c.vEnableOutputThreshold ∧ cnvRun b64 c cal (CnvState.init b64 c cal) xs = .ok (s, os) ∧
      s.powerGood = true ∧ s.isOutputting = false ∧ s.vOut = 0 := by
  have hv : CnvCfg.Valid { demoCfg with vIntermediateInit := 2900000, intervalStartupDelayDrainN := 0 } := by constructor <;> decide
  obtain ⟨s, os, h, -⟩ := C17_no_exception (fl := b64) { demoCfg with vIntermediateInit := 2900000, intervalStartupDelayDrainN := 0 } hv demoCal [⟨0, 0, 0⟩, ⟨0, 0, 0⟩]
  have key : (match cnvRun b64 { demoCfg with vIntermediateInit := 2900000, intervalStartupDelayDrainN := 0 } demoCal
      (CnvState.init b64 { demoCfg with vIntermediateInit := 2900000, intervalStartupDelayDrainN := 0 } demoCal) [⟨0, 0, 0⟩, ⟨0, 0, 0⟩] with
    | .ok (s, _) => s.powerGood && !s.isOutputting && decide (s.vOut = 0)
    | .error _ => false) = true := by decide +kernel
  rw [h] at key
  simp only [Bool.and_eq_true, Bool.not_eq_true', decide_eq_true_eq] at key
  exact ⟨_, _, _, s, os, hv, by decide, by decide, h, key.1.1, key.1.2, key.2⟩

/-! ## The energy balance -/

theorem cycle_init_b64 : CnvState.init b64 cycleCfg cycleCal = cycle0 := by decide +kernel

/-- The first sample of a cycle. -/
def cycleMid (s : CnvState) : CnvState := cycleAfter s [⟨1000000, 1000000, 0⟩]

theorem cycle_steps_b64 (s : CnvState) (hs : s = cycle0 ∨ s = cycle1) :
    ∃ oa ob, cnvStep b64 cycleCfg cycleCal s ⟨1000000, 1000000, 0⟩ = .ok (cycleMid s, oa) ∧ cnvStep exact cycleCfg cycleCal s ⟨1000000, 1000000, 0⟩ = .ok (cycleMid s, oa) ∧
      cnvStep b64 cycleCfg cycleCal (cycleMid s) ⟨0, 0, 1000⟩ = .ok (cycle1, ob) ∧ cnvStep exact cycleCfg cycleCal (cycleMid s) ⟨0, 0, 1000⟩ = .ok (cycle1, ob) ∧
      (convAdcRawToNA b64 cycleCal.adcCA s.residue (min (2^18-1) (max 0 0))).1 = (convAdcRawToNA exact cycleCal.adcCA s.residue (min (2^18-1) (max 0 0))).1 ∧
      (convAdcRawToNA b64 cycleCal.adcCA (cycleMid s).residue (min (2^18-1) (max 0 1000))).1 = (convAdcRawToNA exact cycleCal.adcCA (cycleMid s).residue (min (2^18-1) (max 0 1000))).1 := by
  refine ⟨((cnvStep exact cycleCfg cycleCal s ⟨1000000, 1000000, 0⟩).toOption.getD (cycle0, ⟨0, 0, 0, 0, 0⟩)).2,
    ((cnvStep exact cycleCfg cycleCal (cycleMid s) ⟨0, 0, 1000⟩).toOption.getD (cycle0, ⟨0, 0, 0, 0, 0⟩)).2, ?_⟩
  rcases hs with rfl | rfl <;> decide +kernel

theorem cycle_same_b64 : ∀ (n : ℕ) (s : CnvState), s = cycle0 ∨ s = cycle1 →
    cnvRun b64 cycleCfg cycleCal s (times cycleSamples n) = cnvRun exact cycleCfg cycleCal s (times cycleSamples n) ∧
    account b64 cycleCfg cycleCal s (times cycleSamples n) = account exact cycleCfg cycleCal s (times cycleSamples n)
  | 0, _, _ => ⟨rfl, rfl⟩
  | n + 1, s, hs => by
    obtain ⟨oa, ob, h1, h2, h3, h4, h5, h6⟩ := cycle_steps_b64 s hs
    obtain ⟨e1, e2⟩ := cycle_same_b64 n cycle1 (.inr rfl)
    constructor
    · simp only [times, cycleSamples, List.cons_append, List.nil_append, cnvRun, h1, h2, h3, h4, bind, Except.bind]
      simp only [cycleSamples] at e1
      rw [e1]
    · simp only [times, cycleSamples, List.cons_append, List.nil_append, account, h1, h2, h3, h4]
      simp only [cycleSamples] at e2
      rw [e2, h5, h6]

/-- **C103 in binary64 (violated): the balance without ½·C·Σδ².**  As in exact arithmetic, charging by one sample and discharging by the next gives the target twice what the recording
offers, in every cycle. -/
theorem C103_cycle_binary64_violated : ∀ n : ℕ, ∃ s os,
    cnvRun b64 cycleCfg cycleCal (CnvState.init b64 cycleCfg cycleCal)
      (times cycleSamples (n + 1)) = .ok (s, os) ∧
    (∀ o ∈ os, 1 < o.vCap) ∧ s.vMid = cycleCfg.vIntermediateInit ∧
    (account b64 cycleCfg cycleCal (CnvState.init b64 cycleCfg cycleCal)
      (times cycleSamples (n + 1))).offered = (n + 1) * 10^12 ∧
    (account b64 cycleCfg cycleCal (CnvState.init b64 cycleCfg cycleCal)
      (times cycleSamples (n + 1))).delivered = 2 * ((n + 1) * 10^12) := by
  intro n
  obtain ⟨s, os, h⟩ := C103_cycle_violated n
  obtain ⟨e1, e2⟩ := cycle_same_b64 (n + 1) cycle0 (.inl rfl)
  rw [cycle_init_b64, e1, e2]
  exact ⟨s, os, h⟩

/-- **C103 in binary64 (violated): a run that collapses.**  One sample delivers two hundred times what the capacitor held, and more than all terms of the balance together. -/
theorem C103_collapse_binary64_violated : ∃ (c : CnvCfg) (cal : CalEmulator) (x : CnvIn) (s : CnvState)
    (os : List CnvOut), c.Valid ∧ cal.adcCA.Valid ∧ c.enableStorage = true ∧ c.rInputN22 = 0 ∧
    cnvRun b64 c cal (CnvState.init b64 c cal) [x] = .ok (s, os) ∧ x.v = 0 ∧ x.i = 0 ∧
    ∀ C dt : ℚ, 0 < C → 0 < dt → (c.constantN28 : ℚ) / 2^28 = dt / C →
      let a := account b64 c cal (CnvState.init b64 c cal) [x]
      dt * a.delivered = 200 * (1/2 * C * (c.vIntermediateInit : ℚ)^2) ∧
      1/2 * C * (c.vIntermediateInit : ℚ)^2 + dt * a.offered + 1/2 * C * a.jumps
        < dt * a.delivered := by
  refine ⟨cycleCfg, cycleCal, ⟨0, 0, 100000⟩, cycleAfter cycle0 [⟨0, 0, 100000⟩],
    ((cnvRun exact cycleCfg cycleCal cycle0 [⟨0, 0, 100000⟩]).toOption.getD (cycle0, [])).2,
    cycleCfg_valid, by decide +kernel, by decide, by decide, by decide +kernel, rfl, rfl, ?_⟩
  intro C dt hC hdt hk
  have hk1 : ((cycleCfg.constantN28 : ℕ) : ℚ) / 2^28 = 1 := by decide +kernel
  rw [hk1] at hk
  have hCd : dt = C := by
    have := (eq_div_iff hC.ne').mp hk
    linarith
  have h1 : (account b64 cycleCfg cycleCal (CnvState.init b64 cycleCfg cycleCal)
      [⟨0, 0, 100000⟩]).delivered = 10^14 := by decide +kernel
  have h2 : (account b64 cycleCfg cycleCal (CnvState.init b64 cycleCfg cycleCal)
      [⟨0, 0, 100000⟩]).offered = 0 := by decide +kernel
  have h3 : (account b64 cycleCfg cycleCal (CnvState.init b64 cycleCfg cycleCal)
      [⟨0, 0, 100000⟩]).jumps ≤ 10^12 := by decide +kernel
  have h4 : ((cycleCfg.vIntermediateInit : ℕ) : ℚ) = 10^6 := by decide +kernel
  intro a
  simp only [a, h1, h2, h4, hCd]
  constructor
  · ring
  · nlinarith [mul_le_mul_of_nonneg_left h3 hC.le]

/-! ## The settings of the source -/

/-- **C28 in binary64 (violated).**  In the low buck case the storage loses more than the energy of the output capacitor. -/
theorem C28_energy_binary64_violated {sqrt : ℚ → ℚ} (hsq : sqrt (1/4) = 1/2) :
    let c := { demoVsrc with cIntermediate := 4, cOutput := 3, vOutput := 2000, vBuckDrop := 0, vEnable := 1000, vDisable := 500 }
    let s := c.internalStates b64 sqrt
    c.Valid b64 ∧ s.vEnable = 3000 ∧ s.dVEnable = 1000 ∧
    c.cIntermediate * (s.vEnable - s.dVEnable)^2 < c.cIntermediate * s.vEnable^2 - c.cOutput * c.vOutput^2 := by
  have e1 : b64 (b64 ((3 : ℚ) / 4)) = 3 / 4 := by decide +kernel
  have e2 : b64 (1 - b64 ((3 : ℚ) / 4)) = 1 / 4 := by decide +kernel
  have e3 : b64 (2000 * b64 (1 - 1 / 2)) = 1000 := by decide +kernel
  have e4 : b64 (2000 + 0) = 2000 := by decide +kernel
  have e5 : b64 (2000 + 1000) = 3000 := by decide +kernel
  have hd : (dVCandidates b64 sqrt { demoVsrc with cIntermediate := 4, cOutput := 3, vOutput := 2000, vBuckDrop := 0, vEnable := 1000, vDisable := 500 }).2 = 1000 := by
    unfold dVCandidates
    rw [if_pos (by norm_num)]
    dsimp only
    rw [e2]
    unfold powHalf
    rw [if_neg (by norm_num), hsq, Option.map_some, e3]
    norm_num [protect]
  intro c s
  have hs : s.vEnable = 3000 ∧ s.dVEnable = 1000 := by
    simp only [s, VsrcCfg.internalStates, c]
    rw [hd, e4, if_pos (show demoVsrc.enableBuck = true from rfl), if_neg (by norm_num), e5]
    exact ⟨rfl, rfl⟩
  refine ⟨?_, hs.1, hs.2, ?_⟩
  · constructor
    any_goals decide +kernel
    · exact demoVsrc_valid.harvester
    · exact demoVsrc_valid.post
  · rw [hs.1, hs.2]; norm_num [c]

/-- **C28 in binary64 (violated).**  Switched on at the configured threshold the storage can fall below the disable threshold. -/
theorem C28_floor_binary64_violated {sqrt : ℚ → ℚ} (hsq : sqrt 9000000 = 3000) :
    let c := { demoVsrc with cIntermediate := 1, cOutput := 1, vOutput := 4000, vBuckDrop := 0, vEnable := 5000, vDisable := 4000 }
    let s := c.internalStates b64 sqrt
    c.Valid b64 ∧ s.vEnable = 5000 ∧ s.vDisable = 4000 ∧ s.vEnable - s.dVEnable = 3000 := by
  have e2 : b64 (b64 ((5000 : ℚ)^2) - b64 (b64 ((1 : ℚ) / 1) * b64 ((4000 : ℚ)^2))) = 9000000 := by decide +kernel
  have e3 : b64 (5000 - 3000) = 2000 := by decide +kernel
  have e4 : b64 (4000 + 0) = 4000 := by decide +kernel
  have hd : (dVCandidates b64 sqrt { demoVsrc with cIntermediate := 1, cOutput := 1, vOutput := 4000, vBuckDrop := 0, vEnable := 5000, vDisable := 4000 }).1 = 2000 := by
    unfold dVCandidates
    rw [if_pos (by norm_num)]
    dsimp only
    rw [e2]
    unfold powHalf
    rw [if_neg (show ¬ (9000000 : ℚ) < 0 by norm_num), hsq, Option.map_some, e3]
    norm_num [protect]
  intro c s
  have hs : s.vEnable = 5000 ∧ s.vDisable = 4000 ∧ s.dVEnable = 2000 := by
    simp only [s, VsrcCfg.internalStates, c]
    rw [hd, e4, if_pos (show demoVsrc.enableBuck = true from rfl), if_pos (by norm_num), if_neg (by norm_num)]
    exact ⟨rfl, rfl, rfl⟩
  refine ⟨?_, hs.1, hs.2.1, ?_⟩
  · constructor
    any_goals decide +kernel
    · exact demoVsrc_valid.harvester
    · exact demoVsrc_valid.post
  · rw [hs.1, hs.2.2]; norm_num
/-! ## Reports -/

/-- **C43 in floats (violated: unit).**  The reported step is far above the increment in volts: for all gains up to 1 µV per code (default: 3 nV) it is more than 900 times the increment. -/
theorem C43_unit_float_violated {fl : ℚ → ℚ} (h : AccRounding fl) (s : Session) (hcfg' : ∀ c, s.dattrs "config" = some (.cfg c) → c.hrvVoltageStep = none)
    (hr : ∀ x ∈ (s.get .voltage).take 2000, 0 ≤ x ∧ x < 2^31) (n : ℤ) (hn : SmallestRise ((s.get .voltage).take 2000) n)
    (hg : s.cal.voltage.gain ≤ 1 / 10^6) : ∃ v, s.voltageStep fl = some v ∧ 900 * (n * s.cal.voltage.gain) < v := by
  refine ⟨_, C43_raw_partial fl s hcfg' hr n hn, ?_⟩
  have hn1 : (1 : ℚ) ≤ n := by exact_mod_cast hn.1
  obtain ⟨a1, a2⟩ := Verif.Model.acc_rel h (x := 1 / 1000) (by norm_num)
  have h1 := mul_le_mul_of_nonneg_right a1 (show (0 : ℚ) ≤ n by linarith)
  obtain ⟨b1, b2⟩ := Verif.Model.acc_rel h (x := fl (1 / 1000) * n) (by linarith)
  have h2 := mul_le_mul_of_nonneg_left hg (show (0 : ℚ) ≤ n by linarith)
  linarith

/-- **C43 in floats (violated: falling ramps).**  A ramp that falls by one code is reported with a step beyond 4,000,000. -/
theorem C43_falling_float_violated {fl : ℚ → ℚ} (h : AccRounding fl) (s : Session) (hcfg' : ∀ c, s.dattrs "config" = some (.cfg c) → c.hrvVoltageStep = none) (n : ℕ)
    (hv : (s.get .voltage).take 2000 = [(n : ℤ) + 1, n]) : ∃ v, s.voltageStep fl = some v ∧ 4000000 < v := by
  have hcfg := no_step hcfg'
  have hd : diffs 32 [(n : ℤ) + 1, n] = [2^32 - 1] := by
    simp only [diffs, List.tail_cons, List.zipWith_cons_cons, List.zipWith_nil_right]
    have : ((n : ℤ) - (n + 1)) % 2^32 = 2^32 - 1 := by
      have : (n : ℤ) - (n + 1) = -1 := by ring
      rw [this]; rfl
    rw [this]
  obtain ⟨a1, a2⟩ := Verif.Model.acc_rel h (x := 1 / 1000) (by norm_num)
  have h1 := mul_le_mul_of_nonneg_right a1 (show (0 : ℚ) ≤ ((2^32 - 1 : ℤ) : ℚ) by norm_num)
  obtain ⟨b1, b2⟩ := Verif.Model.acc_rel h (x := fl (1 / 1000) * ((2^32 - 1 : ℤ) : ℚ)) (by norm_num at h1 ⊢; linarith)
  refine ⟨fl (fl (1 / 1000) * ((2^32 - 1 : ℤ) : ℚ)), ?_, ?_⟩
  · unfold Session.voltageStep
    rw [hcfg, hv, hd]
    rfl
  · norm_num at h1 b1 ⊢
    linarith

theorem siValues_bits {fl : ℚ → ℚ} (h : Rounding fl) (l : List ℤ) (hl : ∀ x ∈ l, x = 0 ∨ x = 1) : siValues fl (plain l) = l.map (fun x : ℤ => (x : ℚ)) := by
  have e0 : fl 0 = 0 := by simpa using h.exactInt 0 (by norm_num)
  have e1 : fl 1 = 1 := by simpa using h.exactInt 1 (by norm_num)
  simp only [siValues, plain]
  refine List.map_congr_left (fun x hx => ?_)
  rcases hl x hx with rfl | rfl <;> simp [e0, e1]

/-- **C40 in floats (violated: mean).**  In any float arithmetic, with any implementation of the mean that is right on constant data and on 0, 1: the reported mean of `k` zeros
and a one is 1/2, whatever the chunk size `k` is. -/
theorem C40_mean_float_violated {fl : ℚ → ℚ} (h : Rounding fl) (np : NpStats) (k : ℕ) (hk : 2 ≤ k) (h0 : np.mean (List.replicate k 0) = 0) (h1 : np.mean [1] = 1) (h2 : np.mean [0, 1] = 1 / 2) :
    ∃ d st, PlainAttrs d ∧ dsetStatistics fl np k d = some st ∧ st.mean = 1 / 2 ∧ siValues fl d = List.replicate k 0 ++ [1] ∧ meanOf (siValues fl d) = 1 / (k + 1) := by
  have hpa : PlainAttrs (plain (List.replicate k 0 ++ [1])) := ⟨Or.inl rfl, Or.inl rfl⟩
  have hv : siValues fl (plain (List.replicate k 0 ++ [1])) = List.replicate k 0 ++ [1] := by
    rw [siValues_bits h _ (fun x hx => by
      rcases List.mem_append.1 hx with h | h
      · exact .inl (List.eq_of_mem_replicate h)
      · exact .inr (List.mem_singleton.1 h))]
    simp
  refine ⟨_, _, hpa, dsetStatistics_eq fl np k (by omega) _ hpa (by simp [plain]), ?_, hv, ?_⟩
  · dsimp only
    rw [hv, chunks_append k (by omega) _ _ (by simp), chunks_small k (by omega) (List.replicate k (0:ℚ)) (by simp; omega) (by simp),
      chunks_small k (by omega) [(1:ℚ)] (by simp) (by simp; omega)]
    simp only [List.map_cons, List.map_nil, h0, h1, List.cons_append, List.nil_append, h2]
  · rw [hv]; simp [meanOf]

/-- **C40 in floats (violated: deviation).**  `k` zeros and `k` ones (variance 1/4) are reported with deviation 0. -/
theorem C40_std_float_violated {fl : ℚ → ℚ} (h : Rounding fl) (np : NpStats) (k : ℕ) (hk : 0 < k) (hstd : ∀ c, np.std (List.replicate k c) = 0) (h0 : np.mean [0, 0] = 0) :
    ∃ d st, PlainAttrs d ∧ dsetStatistics fl np k d = some st ∧ st.std = 0 ∧
      meanOf ((siValues fl d).map (fun x => (x - meanOf (siValues fl d))^2)) = 1/4 := by
  have hpa : PlainAttrs (plain (List.replicate k 0 ++ List.replicate k 1)) := ⟨Or.inl rfl, Or.inl rfl⟩
  have hv : siValues fl (plain (List.replicate k 0 ++ List.replicate k 1)) = List.replicate k 0 ++ List.replicate k 1 := by
    rw [siValues_bits h _ (fun x hx => by
      rcases List.mem_append.1 hx with h | h
      · exact .inl (List.eq_of_mem_replicate h)
      · exact .inr (List.eq_of_mem_replicate h))]
    simp
  have hk0 : (k:ℚ) ≠ 0 := by exact_mod_cast hk.ne'
  refine ⟨_, _, hpa, dsetStatistics_eq fl np k hk _ hpa (by simp [plain]; omega), ?_, ?_⟩
  · dsimp only
    rw [hv, chunks_append k hk _ _ (by simp), chunks_small k hk (List.replicate k (0:ℚ)) (by simp; omega) (by simp),
      chunks_small k hk (List.replicate k (1:ℚ)) (by simp; omega) (by simp)]
    simp only [List.map_cons, List.map_nil, hstd, List.cons_append, List.nil_append, h0]
  · rw [hv]
    have hm : meanOf (List.replicate k (0:ℚ) ++ List.replicate k 1) = 1/2 := by
      simp [meanOf]; field_simp; norm_num
    rw [hm]
    simp [meanOf]
    field_simp
    norm_num

/-- Means as numpy computes them meet the hypotheses. -/
example : meanOf (List.replicate 4000000 0) = 0 ∧ meanOf [1] = 1 ∧ meanOf [0, 1] = 1 / 2 ∧ meanOf [0, 0] = 0 := by
  refine ⟨?_, ?_, ?_, ?_⟩ <;> norm_num [meanOf]

/-- **C39 in floats (violated: the interval).**  For a re-opened recording of up to a million samples 10 µs apart, of one chunk, whose powers are not negative: the reported energy
is too small, by more than half of one sample interval of `m`. -/
theorem C39_interval_float_violated {fl : ℚ → ℚ} (h : AccRounding fl) (npSum : List ℚ → ℚ) (ε : ℚ) (hε : 0 ≤ ε) (hε' : ε ≤ 1 / 10^8) (k : ℕ) (hk : k ≤ 10^10)
    (hsum : ∀ l : List ℚ, l.length ≤ k → |npSum l - l.sum| ≤ ε * (l.map abs).sum) (s s' : Session) (t0 : ℤ) (m : ℕ) (hm : 2 ≤ m) (hm' : m ≤ 10^6) (hmk : m ≤ k) (h0 : EqualLengths s)
    (ht : s.get .time = regular t0 m) (ho : openSession fl s.file = .ok s') (hcal : s'.cal.time = (CalSeries.default fl).time)
    (hpos : ∀ p ∈ powers fl s', 0 ≤ p) (hE : 1 / 10^20 ≤ (powers fl s').sum) :
    s'.energy fl npSum k ≤ (1 - 1 / (2 * m)) * ((powers fl s').map (fun p => p * (1 / 10^5))).sum := by
  obtain ⟨hfile, -, -, hst⟩ := openSession_ok ho
  have hget : ∀ n, s'.get n = s.get n := by
    intro n
    have := congrArg (fun f => contents f n) hfile
    simpa [contents_file] using this
  rw [hget, ht] at hst
  obtain ⟨st, hst2, hi1, hi2⟩ := interval_float h s'.cal hcal t0 m hm (by norm_num; omega) (Stats.init fl)
  have hst3 : st = s'.stats := Except.ok.inj (hst2.symm.trans hst)
  rw [hst3] at hi1 hi2
  have hmq : (2 : ℚ) ≤ m := by exact_mod_cast hm
  have hmq' : (m : ℚ) ≤ 10^6 := by exact_mod_cast hm'
  have hD : ((m : ℚ) - 1) / (m * 10^5) = (1 - 1 / m) * (1 / 10^5) := by field_simp
  rw [hD] at hi1 hi2
  have hinv : 1 / 10^6 ≤ 1 / (m : ℚ) := one_div_le_one_div_of_le (by linarith) hmq'
  have hinv' : 1 / (m : ℚ) ≤ 1 / 2 := one_div_le_one_div_of_le (by norm_num) hmq
  have hdt0 : 0 ≤ s'.stats.intervalS := by linarith
  have hlt : (s'.get .time).length = m := by rw [hget, ht, length_regular]
  have hlv : (s'.get .voltage).length = m := by rw [hget, ← h0 .time, ← hget, hlt]
  have hlc : (s'.get .current).length = m := by rw [hget, h0 .current, ← hget, hlv]
  have he := C39_energy_float fl h npSum ε hε k (by omega) hsum s' (by rw [hlv, hlc]) hdt0
  have hpl : (powers fl s').length = m := by
    unfold powers
    simp [hlv, hlc]
  have hne : powers fl s' ≠ [] := by
    intro h1
    rw [h1] at hpl
    simp at hpl
    omega
  rw [chunks_small k (by omega) _ hne (by omega)] at he
  have habs : (powers fl s').map abs = powers fl s' := by
    conv_rhs => rw [← List.map_id (powers fl s')]
    exact List.map_congr_left (fun p hp => abs_of_nonneg (hpos p hp))
  rw [habs, List.sum_map_mul_right, List.map_id'] at he
  rw [List.sum_map_mul_right, List.map_id']
  have e2 : 1 / (2 * (m : ℚ)) = 1 / 2 * (1 / m) := by field_simp
  rw [e2]
  generalize (powers fl s').sum = P at *
  generalize s'.stats.intervalS = dt at *
  generalize 1 / (m : ℚ) = w at *
  have hdt1 : dt ≤ 2 / 10^5 := by linarith
  have hkq : (k : ℚ) ≤ 10^10 := by exact_mod_cast hk
  have ht1 := tiny_bound
  have ht0 : (0 : ℚ) ≤ 2^(-1075:ℤ) := by positivity
  have h1 : (k : ℚ) * dt ≤ 10^10 * (2 / 10^5) := mul_le_mul hkq hdt1 hdt0 (by norm_num)
  have h2 : (1 + 1/2^53) * (1 + ε) * ((k : ℚ) * dt) ≤ 2 * (10^10 * (2 / 10^5)) :=
    mul_le_mul (by linarith) h1 (mul_nonneg (by positivity) hdt0) (by norm_num)
  have e3 : (1 + 1/2^53) * (1 + ε) * k * dt = (1 + 1/2^53) * (1 + ε) * ((k : ℚ) * dt) := by ring
  have h3 : ((1 + 1/2^53) * (1 + ε) * k * dt + 2) * 2^(-1075:ℤ) ≤ 10^6 * (1 / 10^60) := by
    rw [e3]
    exact mul_le_mul (by linarith) ht1 ht0 (by norm_num)
  simp only [List.length_singleton, Nat.cast_one, pow_one, one_mul] at he
  have hPd : 0 ≤ P * dt := mul_nonneg (by linarith) hdt0
  have h4 : ((1 + 1/2^53)^2 * (1 + ε) - 1 + 1 / 2^53) * (P * dt) ≤ (2 / 10^8) * (P * dt) := mul_le_mul_of_nonneg_right (by linarith) hPd
  have hP1 : P * dt ≤ P * ((1 - w) * (1 / 10^5) * (1 + 1 / 2^49)) := mul_le_mul_of_nonneg_left hi2 (by linarith)
  have hw : 1 / 10^6 * P ≤ w * P := mul_le_mul_of_nonneg_right hinv (by linarith)
  have hw2 : w * P ≤ 1 / 2 * P := mul_le_mul_of_nonneg_right hinv' (by linarith)
  have e4 : P * ((1 - w) * (1 / 10^5) * (1 + 1 / 2^49)) = (P - w * P) * (1 / 10^5) * (1 + 1 / 2^49) := by ring
  have e5 : (1 - 1 / 2 * w) * (P * (1 / 10^5)) = (P - 1 / 2 * (w * P)) * (1 / 10^5) := by ring
  rw [e4] at hP1
  rw [e5]
  have h5 := (abs_le.1 he).2
  generalize w * P = W at *
  generalize P * dt = Q at *
  generalize ((1 + 1/2^53) * (1 + ε) * k * dt + 2) * 2^(-1075:ℤ) = T at *
  generalize ((1 + 1/2^53)^2 * (1 + ε) - 1 + 1 / 2^53) * Q = R at *
  linarith

theorem static_lengths (fl : ℚ → ℚ) (m : ℕ) (p q : ℤ) (st : Stats) : EqualLengths (generated fl (staticSamples m p q) st) := fun j => by
  cases j <;> simp [generated, Session.get, staticSamples]

/-- A second of 3 V and 0.25 A meets the hypotheses, in binary64. -/
example (st : Stats) : ∃ s', EqualLengths (generated b64 (staticSamples 100000 (10^9) (10^9)) st) ∧ openSession b64 (generated b64 (staticSamples 100000 (10^9) (10^9)) st).file = .ok s' ∧
    s'.cal.time = (CalSeries.default b64).time ∧ (∀ p ∈ powers b64 s', 0 ≤ p) ∧ 1 / 10^20 ≤ (powers b64 s').sum := by
  obtain ⟨st', ho⟩ := generated_open b64_accRounding (staticSamples 100000 (10^9) (10^9)) 100000 rfl (by norm_num) st
  have hv : (1 : ℚ) ≤ (CalSeries.default b64).voltage.rawToSi b64 ((10^9 : ℤ) : ℚ) := by decide +kernel
  have hc : (1 / 10 : ℚ) ≤ (CalSeries.default b64).current.rawToSi b64 ((10^9 : ℤ) : ℚ) := by decide +kernel
  have hpw : powers b64 (generated b64 (staticSamples 100000 (10^9) (10^9)) st') =
      List.replicate 100000 ((CalSeries.default b64).voltage.rawToSi b64 ((10^9 : ℤ) : ℚ) * (CalSeries.default b64).current.rawToSi b64 ((10^9 : ℤ) : ℚ)) := by
    unfold powers
    simp only [generated, Session.get, staticSamples, List.zipWith_replicate, min_self]
  have hW := mul_le_mul hv hc (by norm_num) (by linarith)
  refine ⟨_, static_lengths _ _ _ _ _, ho, rfl, ?_, ?_⟩
  · intro p hp
    rw [hpw] at hp
    rw [List.eq_of_mem_replicate hp]
    exact le_trans (by norm_num) hW
  · rw [hpw, List.sum_replicate, nsmul_eq_mul]
    exact le_trans (by norm_num) (mul_le_mul_of_nonneg_left hW (Nat.cast_nonneg _))

/-! ## Default calibration -/

/-- **C07 in binary64 (violated).**  The default DAC calibration differs from the hardware formula at every code but 0, by a step of the DAC at the end of the scale. -/
theorem C07_default_dac_binary64_violated :
    ∃ c : CalPair, defaultDac b64 = some c ∧
      ∀ r : ℤ, 1 ≤ r → r < 2^16 → 99 / 100 * (r / (13107 * 65536)) < c.rawToSi b64 r - dacRawToVoltage b64 r := by
  refine ⟨⟨b64 (1/13107), 0⟩, by decide +kernel, ?_⟩
  intro r h0 h1
  have h := b64_accRounding
  have hr : b64 (r : ℚ) = r := h.exactInt _ (by rw [abs_of_pos (by omega)]; norm_num at h1 ⊢; omega)
  have hrq : (1 : ℚ) ≤ r := by exact_mod_cast h0
  have e1 : (⟨b64 (1/13107), 0⟩ : CalPair).rawToSi b64 r = b64 (r * b64 (1/13107)) := by
    simp only [CalPair.rawToSi, Bool.not_true, Bool.false_eq_true, if_false]
    rw [hr, add_zero, h.idem]
  have hsp : dacSpan b64 = 5 := dacSpan_eq h.toRounding
  have e2 : dacRawToVoltage b64 r = b64 (b64 (r * 5) / 2^16) := by
    simp only [dacRawToVoltage, if_true, clampCode_eq (by omega : 0 ≤ r) h1]
    rw [hr, hsp]
  rw [e1, e2]
  obtain ⟨a1, -⟩ := Verif.Model.acc_rel h (x := 1/13107) (by norm_num)
  have a3 := mul_le_mul_of_nonneg_left a1 (show (0 : ℚ) ≤ r by linarith)
  obtain ⟨b1, -⟩ := Verif.Model.acc_rel h (x := r * b64 (1/13107)) (by linarith)
  have e3 : b64 ((r : ℚ) * 5) = r * 5 := by
    have := h.exactInt (r * 5) (by rw [abs_of_pos (by omega)]; norm_num at h1 ⊢; omega)
    push_cast at this
    exact this
  rw [e3]
  obtain ⟨-, c2⟩ := Verif.Model.acc_rel h (x := (r : ℚ) * 5 / 2^16) (by linarith)
  linarith

/-! ## Generated environments -/

/-- **C99 in floats (violated: interrupted runs).**  If the script is interrupted after `k` of its repetitions, the next run keeps the shorter recording and writes metadata that claim
the full duration and a valid environment. -/
theorem C99_interrupted_float_violated {fl : ℚ → ℚ} (h : AccRounding fl) (npSum : List ℚ → ℚ) (ε : ℚ) (hε : 0 ≤ ε) (hε' : ε ≤ 1 / 1000) (n : ℕ) (hn : 10^4 ≤ n) (hn' : n ≤ 10^10)
    (hsum : ∀ l : List ℚ, l.length ≤ n → |npSum l - l.sum| ≤ ε * (l.map abs).sum) (v c : ℚ) (d r k : ℕ) (hr : d * r ≤ 500000) (h1 : 1 ≤ d * k) (hk : k < r) (hv : fl v = v) (hc : fl c = c)
    (hv0 : 3 / 10^9 ≤ v) (hv1 : v ≤ 12) (hc0 : 250 / 10^12 ≤ c) (hc1 : c ≤ 1) :
    ∃ f m, genRecording fl ⟨v, v, c, c, d, r⟩ k = .ok f ∧ genEnv fl npSum n ⟨v, v, c, c, d, r⟩ (some f) none = .ok (f, m) ∧ m.duration = d * r ∧ m.valid = true ∧
      contents f .time = some (regular 0 (100000 * (d * k))) ∧ d * k < d * r := by
  have hle : d * k ≤ 500000 := le_trans (Nat.mul_le_mul_left d hk.le) hr
  obtain ⟨st, p, q, hf, hp, hp', hq, hq', -, -⟩ := static_file_float h v c d r k hle hv hc hv0 hv1 hc0 hc1
  have hm : 100000 * d * k = 100000 * (d * k) := Nat.mul_assoc _ _ _
  obtain ⟨st', hst', hi1, hi2⟩ := interval_float h (CalSeries.default fl) rfl 0 (100000 * d * k) (by omega) (by norm_num; omega) (Stats.init fl)
  have ho : openSession fl (generated fl (staticSamples (100000 * d * k) p q) st).file = .ok (generated fl (staticSamples (100000 * d * k) p q) st') :=
    attrs_open h.toRounding _ _ (staticSamples (100000 * d * k) p q) st' hst'
  have he := energy_static_float h npSum ε hε hε' n hn hn' hsum (100000 * d * k) (by omega) (by norm_num; omega) p q hp hp' hq hq' st' hi1 hi2
  have hdq : (((100000 * d * k : ℕ) : ℚ) - 1) / 10^5 = ((d * k : ℕ) : ℚ) - 1 / 10^5 := by
    rw [hm]
    push_cast
    ring
  rw [hdq] at he
  have hdk : (1 : ℚ) ≤ ((d * k : ℕ) : ℚ) := by exact_mod_cast h1
  have hdr : (1 : ℚ) ≤ ((d * r : ℕ) : ℚ) := by exact_mod_cast le_trans h1 (Nat.mul_le_mul_left d hk.le)
  have hpos : 0 < codeVolt p * codeAmpere q := by
    have a : (0 : ℚ) < p := by exact_mod_cast hp
    have b : (0 : ℚ) < q := by exact_mod_cast hq
    unfold codeVolt codeAmpere
    positivity
  have hI : 0 < codeVolt p * codeAmpere q * (((d * k : ℕ) : ℚ) - 1 / 10^5) := mul_pos hpos (by linarith)
  have hE : 0 < (generated fl (staticSamples (100000 * d * k) p q) st').energy fl npSum n := by
    have h2 := (abs_le.1 he).1
    have h3 : (ε + 1 / 10^8) * (codeVolt p * codeAmpere q * (((d * k : ℕ) : ℚ) - 1 / 10^5)) ≤ 1 / 2 * (codeVolt p * codeAmpere q * (((d * k : ℕ) : ℚ) - 1 / 10^5)) :=
      mul_le_mul_of_nonneg_right (by linarith) hI.le
    linarith
  refine ⟨_, { dataType := .ivsample, duration := ((d * r : ℕ) : ℚ), energyWs := (generated fl (staticSamples (100000 * d * k) p q) st').energy fl npSum n, valid := true },
    hf, ?_, Nat.cast_mul d r, rfl, ?_, Nat.mul_lt_mul_of_pos_left hk (by by_contra h0; simp at h0; subst h0; omega)⟩
  · unfold genEnv
    dsimp only
    unfold genMeta
    rw [ho]
    dsimp only
    unfold EnvMeta.make
    rw [if_pos ⟨by dsimp only; linarith, by dsimp only; exact hE⟩]
  · rw [contents_generated, ← Nat.mul_assoc]
    rfl

/-- An hour in blocks of ten seconds, interrupted after one of them, in binary64. -/
example : ∃ f m, genRecording b64 ⟨5, 5, 1 / 16, 1 / 16, 10, 360⟩ 1 = .ok f ∧ genEnv b64 List.sum 4000000 ⟨5, 5, 1 / 16, 1 / 16, 10, 360⟩ (some f) none = .ok (f, m) ∧
    m.duration = (10 : ℕ) * (360 : ℕ) ∧ m.valid = true ∧ contents f .time = some (regular 0 (100000 * (10 * 1))) ∧ 10 * 1 < 10 * 360 :=
  C99_interrupted_float_violated b64_accRounding List.sum 0 le_rfl (by norm_num) 4000000 (by norm_num) (by norm_num) (fun l _ => by simp) 5 (1 / 16) 10 360 1
    (by norm_num) (by norm_num) (by norm_num) (by decide +kernel) (by decide +kernel) (by norm_num) (by norm_num) (by norm_num) (by norm_num)

/-- **C99 in floats (violated: interrupted before the first repetition).**  Then every further run of the script fails: the empty recording is kept, and an energy of zero is refused. -/
theorem C99_stuck_float_violated {fl : ℚ → ℚ} (h : AccRounding fl) (npSum : List ℚ → ℚ) (n : ℕ) (hn : 0 < n) (a : GenArgs) :
    ∃ f, genRecording fl a 0 = .ok f ∧ genEnv fl npSum n a (some f) none = .error .valueError := by
  obtain ⟨st, hf⟩ := genRecording_eq h a 0 (by simp)
  refine ⟨_, hf, ?_⟩
  obtain ⟨st', ho⟩ := generated_open h (repeated fl a 0) 0 rfl (by norm_num) st
  have hp : powers fl (generated fl (repeated fl a 0) st') = [] := by
    unfold powers
    simp [generated, Session.get, repeated]
  have he : (generated fl (repeated fl a 0) st').energy fl npSum n = 0 := by
    rw [energy_eq_chunks fl npSum n hn _ (by simp [generated, Session.get, length_repeated]), hp, chunks_nil n hn]
    rfl
  unfold genEnv genMeta
  dsimp only
  rw [ho]
  dsimp only
  rw [he]
  unfold EnvMeta.make
  rw [if_neg (fun h => by exact absurd h.2 (lt_irrefl _))]
end Verif.Props
