import Verif.Lemmas.SourceConfig
import Verif.Props.Source

/-!
# C26–C30 — configuration of virtual source and harvester
-/

namespace Verif.Props
open Verif.Py Verif.Model

variable {fl sqrt : ℚ → ℚ}

/-- A harvester with the defaults of the code, tracking the optimum. -/
def demoVhrv : VhrvCfg where
  name := "mppt_opt"
  algorithm := .mpptOpt
  samplesN := 8
  voltage := 2500
  voltageMin := 0
  voltageMax := 5000
  currentLimit := 50000
  voltageStep := b64 (5000 / 7)
  setpointN := b64 (7 / 10)
  interval := 100
  duration := b64 (1 / 10)
  rising := true
  linExtrapolation := true
  waitCycles := 1

/-- A buck-boost source with a storage of 100 uF. -/
def demoVsrc : VsrcCfg where
  enableBoost := true
  enableBuck := true
  enableFeedbackToHrv := false
  intervalStartupDelayDrain := 0
  harvester := demoVhrv
  vInputMax := 3000
  iInputMax := 100
  vInputDrop := 0
  rInput := 0
  cIntermediate := 100
  vIntermediateInit := 3000
  iIntermediateLeak := 9
  vEnable := 4000
  vDisable := 2400
  intervalCheckThresholds := 65
  vPwrGoodEnable := 2800
  vPwrGoodDisable := 2400
  immediatePwrGoodSignal := false
  cOutput := 1
  vOutputLogGpio := 1400
  vInputBoost := 130
  vIntermediateMax := 4200
  lutInput := List.replicate 12 (List.replicate 12 (b64 (8/10)))
  lutInputVMin := 7
  lutInputIMin := 8
  vOutput := 2300
  vBuckDrop := 0
  lutOutput := List.replicate 12 (b64 (9/10))
  lutOutputIMin := 8

theorem demoVhrv_valid : demoVhrv.Valid b64 := ⟨by decide +kernel, by decide +kernel⟩

theorem demoVsrc_valid : demoVsrc.Valid b64 := by
  have hp : (match fromVhrv b64 demoVhrv (some .ivsample) none none true with
    | .ok _ => true | .error _ => false) = true := by decide +kernel
  constructor
  any_goals decide +kernel
  · exact demoVhrv_valid
  · change ∃ p, fromVhrv b64 demoVhrv (some .ivsample) none none true = .ok p
    revert hp
    generalize fromVhrv b64 demoVhrv (some .ivsample) none none true = r
    rintro hp
    cases r with
    | ok q => exact ⟨q, rfl⟩
    | error _ => cases hp

/-! ## C26 translation of a source -/

theorem fl_le_one_of_milli (h : Rounding fl) : fl (1/1000) ≤ 1 := by
  have := h.le_int (x := 1/1000) (n := 1) (by norm_num) (by norm_num)
  simpa using this

theorem fl_milli_nonneg (h : Rounding fl) : 0 ≤ fl (1/1000) := h.nonneg (by norm_num)

theorem u32_mul (h : Rounding fl) {x hi : ℚ} (hx : 0 ≤ x ∧ x ≤ hi) {k : ℚ} (hk : 0 ≤ k) (n : ℤ) (hn : n < 2^32)
    (hhi : hi * k ≤ n) : ∃ m, u32 (pyRound (fl (x * k))) = .ok m :=
  u32_round h (mul_nonneg hx.1 hk) hn (le_trans (mul_le_mul_of_nonneg_right hx.2 hk) hhi)

theorem fl_ticks_le (h : Rounding fl) {x hi : ℚ} (hx : 0 ≤ x ∧ x ≤ hi) {n : ℤ} (hn : |n| ≤ 2^53)
    (hhi : hi * 100000 ≤ n) : 0 ≤ fl (x * 100000) * fl (1/1000) ∧ fl (x * 100000) * fl (1/1000) ≤ n := by
  have h1 : 0 ≤ fl (x * 100000) := h.nonneg (by linarith [hx.1])
  have h2 : fl (x * 100000) ≤ n := h.le_int hn (by linarith [hx.2])
  refine ⟨mul_nonneg h1 (fl_milli_nonneg h), le_trans (mul_le_of_le_one_right h1 (fl_le_one_of_milli h)) h2⟩

theorem dV_bounds (h : Rounding fl) (hs : ∀ x, 0 ≤ x → 0 ≤ sqrt x) (c : VsrcCfg)
    (hv : 0 ≤ c.vEnable ∧ c.vEnable ≤ 10000) (ho : 0 ≤ c.vOutput ∧ c.vOutput ≤ 5000) :
    (0 ≤ (dVCandidates fl sqrt c).1 ∧ (dVCandidates fl sqrt c).1 ≤ 10000) ∧
    (0 ≤ (dVCandidates fl sqrt c).2 ∧ (dVCandidates fl sqrt c).2 ≤ 5000) := by
  have hprot : ∀ (o : Option ℚ) (B : ℚ), 0 ≤ B → (∀ d, o = some d → d ≤ B) → 0 ≤ protect o ∧ protect o ≤ B := by
    intro o B hB ho
    cases o with
    | none => exact ⟨le_rfl, hB⟩
    | some d =>
      simp only [protect]
      split_ifs with hd
      · exact ⟨hd, ho d rfl⟩
      · exact ⟨le_rfl, hB⟩
  unfold dVCandidates
  dsimp only
  split_ifs
  · constructor
    · apply hprot _ _ (by norm_num)
      intro d hd
      unfold powHalf at hd
      split_ifs at hd with hneg
      · cases hd
      · injection hd with hd
        rw [← hd]
        have := h.le_int (n := 10000) (x := c.vEnable - sqrt (fl (fl (c.vEnable^2) -
          fl (fl (c.cOutput / c.cIntermediate) * fl (c.vOutput^2))))) (by norm_num) (by
            push_cast; linarith [hs _ (not_lt.1 hneg), hv.2])
        exact_mod_cast this
    · apply hprot _ _ (by norm_num)
      intro d hd
      unfold powHalf at hd
      split_ifs at hd with hneg
      · cases hd
      · injection hd with hd
        rw [← hd]
        have h1 : fl (1 - sqrt (fl (1 - fl (c.cOutput / c.cIntermediate)))) ≤ 1 := by
          have := h.le_int (n := 1) (x := 1 - sqrt (fl (1 - fl (c.cOutput / c.cIntermediate)))) (by norm_num) (by
            push_cast; linarith [hs _ (not_lt.1 hneg)])
          exact_mod_cast this
        have := h.le_int (n := 5000) (x := c.vOutput * fl (1 - sqrt (fl (1 - fl (c.cOutput / c.cIntermediate)))))
          (by norm_num) (by push_cast; nlinarith [ho.1, ho.2])
        exact_mod_cast this
  · exact ⟨⟨le_rfl, by norm_num⟩, ⟨le_rfl, by norm_num⟩⟩

theorem states_bounds (h : Rounding fl) (hs : ∀ x, 0 ≤ x → 0 ≤ sqrt x) (c : VsrcCfg)
    (hv : 0 ≤ c.vEnable ∧ c.vEnable ≤ 10000) (hd : 0 ≤ c.vDisable ∧ c.vDisable ≤ 10000)
    (ho : 0 ≤ c.vOutput ∧ c.vOutput ≤ 5000) (hb : 0 ≤ c.vBuckDrop ∧ c.vBuckDrop ≤ 5000) :
    let s := c.internalStates fl sqrt
    (0 ≤ s.vEnable ∧ s.vEnable ≤ 15000) ∧ (0 ≤ s.vDisable ∧ s.vDisable ≤ 15000) ∧ (0 ≤ s.dVEnable ∧ s.dVEnable ≤ 15000) := by
  obtain ⟨d1, d2⟩ := dV_bounds h hs c hv ho
  have hpre0 : 0 ≤ fl (c.vOutput + c.vBuckDrop) := h.nonneg (by linarith [ho.1, hb.1])
  have hpre : fl (c.vOutput + c.vBuckDrop) ≤ 10000 := by
    have := h.le_int (n := 10000) (x := c.vOutput + c.vBuckDrop) (by norm_num) (by push_cast; linarith [ho.2, hb.2])
    exact_mod_cast this
  have hen0 : 0 ≤ fl (fl (c.vOutput + c.vBuckDrop) + (dVCandidates fl sqrt c).2) := h.nonneg (by linarith [d2.1])
  have hen : fl (fl (c.vOutput + c.vBuckDrop) + (dVCandidates fl sqrt c).2) ≤ 15000 := by
    have := h.le_int (n := 15000) (x := fl (c.vOutput + c.vBuckDrop) + (dVCandidates fl sqrt c).2) (by norm_num)
      (by push_cast; linarith [d2.2])
    exact_mod_cast this
  intro s
  simp only [s, VsrcCfg.internalStates]
  split_ifs <;> dsimp only <;> refine ⟨⟨?_, ?_⟩, ⟨?_, ?_⟩, ⟨?_, ?_⟩⟩ <;> linarith [hv.1, hv.2, hd.1, hd.2, d1.1, d1.2, d2.1, d2.2]

theorem capConstant_bounds (h : Rounding fl) (c : VsrcCfg) : 0 ≤ c.capConstant fl ∧ c.capConstant fl < 2^32 := by
  have h10 : (1/1024 : ℚ) ≤ fl (1/1000) := by
    have := h.exact 1 (-10) (by norm_num) (by norm_num)
    rw [zpow_neg] at this
    norm_num at this
    rw [← this]; exact h.mono (by norm_num)
  have hcap : (97:ℚ) ≤ fl (max c.cIntermediate (fl (1/1000)) * 100000) := by
    have := h.int_le (n := 97) (x := max c.cIntermediate (fl (1/1000)) * 100000) (by norm_num) (by
      push_cast; linarith [le_max_right c.cIntermediate (fl (1/1000))])
    exact_mod_cast this
  unfold VsrcCfg.capConstant
  dsimp only
  generalize fl (max c.cIntermediate (fl (1/1000)) * 100000) = y at hcap
  have hq0 : (0:ℚ) ≤ 10^3 * 2^28 / y := by positivity
  have hq : (10^3 * 2^28 : ℚ) / y ≤ 4000000000 := by
    rw [div_le_iff₀ (by linarith)]; nlinarith
  have hf0 : 0 ≤ ⌊(10^3 * 2^28 : ℚ) / y⌋ := Int.floor_nonneg.2 hq0
  have hf1 : ⌊(10^3 * 2^28 : ℚ) / y⌋ ≤ 4000000000 := by
    have := Int.floor_le ((10^3 * 2^28 : ℚ) / y)
    have : ((⌊(10^3 * 2^28 : ℚ) / y⌋ : ℤ) : ℚ) ≤ 4000000000 := le_trans this hq
    exact_mod_cast this
  rw [h.exactInt _ (by rw [abs_of_nonneg hf0]; omega), pyInt_intCast]
  omega

theorem lutInpEntry_ok (h : Rounding fl) {x : ℚ} (hx : 0 ≤ x ∧ x ≤ 1) : ∃ m, lutInpEntry fl x = .ok m ∧ m < 2^8 := by
  have h0 := pyRound_nonneg (h.nonneg (by linarith [hx.1] : 0 ≤ 256 * x))
  unfold lutInpEntry
  dsimp only
  rw [if_pos (by omega)]
  exact ⟨_, rfl, by omega⟩

theorem lutOutEntry_spec (h : Rounding fl) {x : ℚ} (hx : 0 ≤ x ∧ x ≤ 1) {m : ℕ} (hm : lutOutEntry fl x = .ok m) :
    16 ≤ m ∧ m ≤ 2^14 := by
  unfold lutOutEntry at hm
  split_ifs at hm with h1 h2
  · have := (u32_ok_iff.1 hm).1
    have h16 : (16:ℤ) ≤ pyRound (fl (2^4 / x)) := by
      apply intCast_le_pyRound
      apply h.int_le (by norm_num)
      rw [le_div_iff₀ h1]
      norm_num; linarith
    omega
  · have := (u32_ok_iff.1 hm).1
    omega

theorem lutOutEntry_ok (h : Rounding fl) {x : ℚ} (hx : x = 0 ∨ (2:ℚ)^(-1000 : ℤ) ≤ x) : ∃ m, lutOutEntry fl x = .ok m := by
  unfold lutOutEntry
  split_ifs with h1 h2
  · exfalso
    have hx' : (2:ℚ)^(-1000 : ℤ) ≤ x := by
      rcases hx with rfl | hx
      · exact absurd h1 (lt_irrefl _)
      · exact hx
    have hq : (2:ℚ)^4 / x ≤ ((1:ℤ):ℚ) * 2^(1004 : ℤ) := by
      rw [div_le_iff₀ h1, Int.cast_one, one_mul]
      calc (2:ℚ)^4 = 2^(1004 : ℤ) * 2^(-1000 : ℤ) := by
            rw [← zpow_add₀ (by norm_num)]; norm_num
        _ ≤ _ := mul_le_mul_of_nonneg_left hx' (by positivity)
    have := h.mono hq
    rw [h.exact 1 1004 (by norm_num) (by norm_num)] at this
    have h3 : (2:ℚ)^(1004 : ℤ) < 2^1024 := by
      rw [← zpow_natCast]; exact zpow_lt_zpow_right₀ (by norm_num) (by norm_num)
    rw [Int.cast_one, one_mul] at this
    exact absurd (lt_of_le_of_lt (le_trans h2 this) h3) (lt_irrefl _)
  · have h0 := pyRound_nonneg (h.nonneg (by positivity : 0 ≤ 2^4 / x))
    exact u32_of (by omega) (by omega)
  · exact u32_of (by norm_num) (by norm_num)

/-- C26: the registers of every translated source fit, and are such that the theorems about the converter apply (C08–C18:
valid registers, output look-up table of at least 16/16, check interval far from wrap-around). -/
theorem C26_registers_fit (h : Rounding fl) (c : VsrcCfg) (hc : c.Valid fl) (dtypeIn : EnergyDType) (logMid : Bool)
    (p : CnvCfg) (hp : fromVsrc fl sqrt c dtypeIn logMid = .ok p) :
    p.Valid ∧ (∀ e ∈ p.lutOutInvEfficiencyN4, 16 ≤ e ∧ e ≤ 2^14) ∧ p.intervalCheckThresholdsN ≤ 429000000 := by
  have r := fromVsrc_regs hp
  have hlo : ∀ e ∈ p.lutOutInvEfficiencyN4, 16 ≤ e ∧ e ≤ 2^14 := by
    intro e he
    obtain ⟨x, hx, hxe⟩ := mapM_ok_mem _ r.lutOutInvEfficiencyN4 e he
    exact lutOutEntry_spec h (inRange_iff.1 (hc.lutOutput.2 x hx)) hxe
  refine ⟨?_, hlo, ?_⟩
  · constructor
    case lutInpRows => rw [mapM_ok_length _ r.lutInpEfficiencyN8]; exact hc.lutInput.1
    case lutInpCols =>
      intro row hrow
      obtain ⟨l, hl, hle⟩ := mapM_ok_mem _ r.lutInpEfficiencyN8 row hrow
      refine ⟨by rw [mapM_ok_length _ hle]; exact (hc.lutInput.2 l hl).1, ?_⟩
      intro x hx
      obtain ⟨y, hy, hye⟩ := mapM_ok_mem _ hle x hx
      obtain ⟨m, e1, e2⟩ := lutInpEntry_ok h (inRange_iff.1 ((hc.lutInput.2 l hl).2 y hy))
      rw [hye] at e1
      injection e1 with e1; rw [e1]; exact e2
    case lutOut =>
      refine ⟨by rw [mapM_ok_length _ r.lutOutInvEfficiencyN4]; exact hc.lutOutput.1, ?_⟩
      intro x hx
      have := (hlo x hx).2
      omega
    case converterMode => exact (u32_ok_iff.1 r.converterMode).2
    case intervalStartupDelayDrainN => exact (u32_ok_iff.1 r.intervalStartupDelayDrainN).2
    case vInputMax => exact (u32_ok_iff.1 r.vInputMax).2
    case iInputMax => exact (u32_ok_iff.1 r.iInputMax).2
    case vInputDrop => exact (u32_ok_iff.1 r.vInputDrop).2
    case rInputN22 => exact (u32_ok_iff.1 r.rInputN22).2
    case constantN28 => exact (u32_ok_iff.1 r.constantN28).2
    case vIntermediateInit => exact (u32_ok_iff.1 r.vIntermediateInit).2
    case iIntermediateLeak => exact (u32_ok_iff.1 r.iIntermediateLeak).2
    case vEnableOutputThreshold => exact (u32_ok_iff.1 r.vEnableOutputThreshold).2
    case vDisableOutputThreshold => exact (u32_ok_iff.1 r.vDisableOutputThreshold).2
    case dVEnableOutput => exact (u32_ok_iff.1 r.dVEnableOutput).2
    case intervalCheckThresholdsN => exact (u32_ok_iff.1 r.intervalCheckThresholdsN).2
    case vPwrGoodEnableThreshold => exact (u32_ok_iff.1 r.vPwrGoodEnableThreshold).2
    case vPwrGoodDisableThreshold => exact (u32_ok_iff.1 r.vPwrGoodDisableThreshold).2
    case immediatePwrGoodSignal => exact (u32_ok_iff.1 r.immediatePwrGoodSignal).2
    case vOutputLogGpioThreshold => exact (u32_ok_iff.1 r.vOutputLogGpioThreshold).2
    case vInputBoostThreshold => exact (u32_ok_iff.1 r.vInputBoostThreshold).2
    case vIntermediateMax => exact (u32_ok_iff.1 r.vIntermediateMax).2
    case vOutput => exact (u32_ok_iff.1 r.vOutput).2
    case vBuckDrop => exact (u32_ok_iff.1 r.vBuckDrop).2
    case lutInputVMinLog2 => have := (u32_ok_iff.1 r.lutInputVMinLog2).1; have := hc.lutInputVMin.2; omega
    case lutInputIMinLog2 => have := (u32_ok_iff.1 r.lutInputIMinLog2).1; have := hc.lutInputIMin.2; omega
    case lutOutputIMinLog2 => have := (u32_ok_iff.1 r.lutOutputIMinLog2).1; have := hc.lutOutputIMin.2; omega
  · have e := (u32_ok_iff.1 r.intervalCheckThresholdsN).1
    have hx := inRange_iff.1 hc.intervalCheckThresholds
    have hb := fl_ticks_le h hx (n := 429000000) (by norm_num) (by norm_num)
    have := pyRound_le_intCast (h.le_int (n := 429000000) (by norm_num) hb.2)
    omega

/-- C26: every valid source is translated, provided no output efficiency is positive but below 2^-1000
(see `C26_overflow_violated` for what is missing).  `sqrt` may be any root function that is not negative. -/
theorem C26_translation_partial (h : Rounding fl) (hs : ∀ x, 0 ≤ x → 0 ≤ sqrt x) (c : VsrcCfg) (hc : c.Valid fl)
    (hlut : ∀ x ∈ c.lutOutput, x = 0 ∨ (2:ℚ)^(-1000 : ℤ) ≤ x) (dtypeIn : EnergyDType) (logMid : Bool) :
    ∃ p, fromVsrc fl sqrt c dtypeIn logMid = .ok p ∧ p.Valid := by
  have k3 : (0:ℚ) ≤ 1000 := by norm_num
  have mul3 : ∀ {x hi : ℚ}, inRange 0 hi x = true → hi * 1000 ≤ 4290000000 → ∃ m, u32 (pyRound (fl (x * 1000))) = .ok m :=
    fun hx hhi => u32_mul h (inRange_iff.1 hx) k3 4290000000 (by norm_num) (by push_cast; exact hhi)
  have st := states_bounds h hs c (inRange_iff.1 hc.vEnable) (inRange_iff.1 hc.vDisable) (inRange_iff.1 hc.vOutput)
    (inRange_iff.1 hc.vBuckDrop)
  dsimp only at st
  have st3 : ∀ {x : ℚ}, 0 ≤ x ∧ x ≤ 15000 → ∃ m, u32 (pyRound (fl (x * 1000))) = .ok m :=
    fun hx => u32_mul h hx k3 4290000000 (by norm_num) (by norm_num)
  have tick : ∀ {x hi : ℚ}, inRange 0 hi x = true → hi * 100000 ≤ 1000000000 →
      ∃ m, u32 (pyRound (fl (fl (x * 100000) * fl (1/1000)))) = .ok m := by
    intro x hi hx hhi
    have hb := fl_ticks_le h (inRange_iff.1 hx) (n := 1000000000) (by norm_num) (by push_cast; exact hhi)
    exact u32_round h hb.1 (by norm_num) hb.2
  obtain ⟨_, r0⟩ : ∃ m, u32 (c.converterMode dtypeIn logMid) = .ok m := by
    apply u32_of (by positivity)
    have : c.converterMode dtypeIn logMid ≤ 31 := by
      unfold VsrcCfg.converterMode
      dsimp only
      have := Bool.toNat_le (decide (c.cIntermediate > 0))
      have := Bool.toNat_le (c.enableBoost && decide (c.cIntermediate > 0))
      have := Bool.toNat_le c.enableBuck
      have := Bool.toNat_le logMid
      have := Bool.toNat_le (c.enableFeedbackToHrv && decide (c.cIntermediate > 0) &&
        !(c.enableBoost && decide (c.cIntermediate > 0)) && (dtypeIn == .ivcurve))
      omega
    omega
  obtain ⟨_, r1⟩ := tick hc.intervalStartupDelayDrain (by norm_num)
  obtain ⟨_, r2⟩ := mul3 hc.vInputMax (by norm_num)
  obtain ⟨_, r3⟩ := u32_mul h (inRange_iff.1 hc.iInputMax) (k := 10^6) (by norm_num) 4290000000 (by norm_num) (by norm_num)
  obtain ⟨_, r4⟩ := mul3 hc.vInputDrop (by norm_num)
  obtain ⟨_, r5⟩ : ∃ m, u32 (pyRound (fl (c.rInput * fl (fl (1/10^6) * 2^22)))) = .ok m := by
    have h1 : fl (1/10^6) ≤ 1/524288 := by
      have := h.exact 1 (-19) (by norm_num) (by norm_num)
      rw [zpow_neg] at this
      norm_num at this
      rw [← this]; exact h.mono (by norm_num)
    have h2 : fl (fl (1/10^6) * 2^22) ≤ 8 := by
      have := h.le_int (n := 8) (x := fl (1/10^6) * 2^22) (by norm_num) (by push_cast; norm_num at h1 ⊢; linarith)
      exact_mod_cast this
    have h3 : 0 ≤ fl (fl (1/10^6) * 2^22) := h.nonneg (mul_nonneg (h.nonneg (by norm_num)) (by norm_num))
    have hr := inRange_iff.1 hc.rInput
    exact u32_round h (mul_nonneg hr.1 h3) (n := 34320000) (by norm_num) (by push_cast; nlinarith)
  obtain ⟨_, r6⟩ := u32_of (capConstant_bounds h c).1 (capConstant_bounds h c).2
  obtain ⟨_, r7⟩ := mul3 hc.vIntermediateInit (by norm_num)
  obtain ⟨_, r8⟩ : ∃ m, u32 (pyRound c.iIntermediateLeak) = .ok m := by
    have hr := inRange_iff.1 hc.iIntermediateLeak
    apply u32_of (pyRound_nonneg hr.1)
    have := pyRound_le_intCast (n := 4290000000) (x := c.iIntermediateLeak) (by push_cast; exact hr.2)
    omega
  obtain ⟨_, r9⟩ := st3 st.1
  obtain ⟨_, r10⟩ := st3 st.2.1
  obtain ⟨_, r11⟩ := st3 st.2.2
  obtain ⟨_, r12⟩ := tick hc.intervalCheckThresholds (by norm_num)
  obtain ⟨_, r13⟩ := mul3 hc.vPwrGoodEnable (by norm_num)
  obtain ⟨_, r14⟩ := mul3 hc.vPwrGoodDisable (by norm_num)
  obtain ⟨_, r15⟩ : ∃ m, u32 c.immediatePwrGoodSignal.toNat = .ok m := by
    apply u32_of (by positivity)
    have := Bool.toNat_le c.immediatePwrGoodSignal
    omega
  obtain ⟨_, r16⟩ := mul3 hc.vOutputLogGpio (by norm_num)
  obtain ⟨_, r17⟩ := mul3 hc.vInputBoost (by norm_num)
  obtain ⟨_, r18⟩ := mul3 hc.vIntermediateMax (by norm_num)
  obtain ⟨_, r19⟩ := mul3 hc.vOutput (by norm_num)
  obtain ⟨_, r20⟩ := mul3 hc.vBuckDrop (by norm_num)
  obtain ⟨_, r21⟩ := u32_of (x := c.lutInputVMin) hc.lutInputVMin.1 (by have := hc.lutInputVMin.2; omega)
  obtain ⟨_, r22⟩ := u32_of (x := c.lutInputIMin - 1) (by have := hc.lutInputIMin.1; omega) (by have := hc.lutInputIMin.2; omega)
  obtain ⟨_, r23⟩ := u32_of (x := c.lutOutputIMin - 1) (by have := hc.lutOutputIMin.1; omega) (by have := hc.lutOutputIMin.2; omega)
  obtain ⟨_, r24⟩ := mapM_ok_of (fun il : List ℚ => il.mapM (lutInpEntry fl)) c.lutInput (by
    intro l hl
    apply mapM_ok_of
    intro x hx
    obtain ⟨m, e, -⟩ := lutInpEntry_ok h (inRange_iff.1 ((hc.lutInput.2 l hl).2 x hx))
    exact ⟨m, e⟩)
  obtain ⟨_, r25⟩ := mapM_ok_of (lutOutEntry fl) c.lutOutput (fun x hx => lutOutEntry_ok h (hlut x hx))
  have hp := fromVsrc_of (p := ⟨_, _, _, _, _, _, _, _, _, _, _, _, _, _, _, _, _, _, _, _, _, _, _, _, _, _⟩)
    ⟨r0, r1, r2, r3, r4, r5, r6, r7, r8, r9, r10, r11, r12, r13, r14, r15, r16, r17, r18, r19, r20, r21, r22, r23, r24, r25⟩
  exact ⟨_, hp, (C26_registers_fit h c hc dtypeIn logMid _ hp).1⟩

example : demoVsrc.Valid b64 ∧ ∀ x ∈ demoVsrc.lutOutput, x = 0 ∨ (2:ℚ)^(-1000 : ℤ) ≤ x := by
  refine ⟨demoVsrc_valid, ?_⟩
  have : ∀ x ∈ demoVsrc.lutOutput, x = b64 (9/10) := by simp [demoVsrc]
  intro x hx
  rw [this x hx]
  right; decide +kernel

/-- A source with a tiny output efficiency. -/
def tinyVsrc : VsrcCfg :=
  { demoVsrc with lutOutput := (2:ℚ)^(-1074 : ℤ) :: List.replicate 11 1, cIntermediate := 0 }

theorem tinyVsrc_error : (match fromVsrc b64 (fun x => x) tinyVsrc .ivsample false with
    | .error e => decide (e = .overflowError) | .ok _ => false) = true := by decide +kernel

theorem tinyVsrc_states : tinyVsrc.internalStates b64 sqrt = tinyVsrc.internalStates b64 (fun x => x) := by
  have hz : ¬ (tinyVsrc.cIntermediate > 0) := by decide +kernel
  have h0 : ∀ f : ℚ → ℚ, dVCandidates b64 f tinyVsrc = (0, 0) := by
    intro f
    unfold dVCandidates
    rw [if_neg (fun h => hz h.1)]
  unfold VsrcCfg.internalStates
  rw [h0, h0]

/-- C26: a tiny positive efficiency passes validation, but its inverse is beyond the range of floats and the translation
raises `OverflowError`. -/
theorem C26_overflow_violated :
    tinyVsrc.Valid b64 ∧ fromVsrc b64 sqrt tinyVsrc .ivsample false = .error .overflowError := by
  constructor
  · constructor
    any_goals decide +kernel
    · exact demoVsrc_valid.harvester
    · exact demoVsrc_valid.post
  · have h1 := tinyVsrc_error
    have h2 : fromVsrc b64 sqrt tinyVsrc .ivsample false = fromVsrc b64 (fun x => x) tinyVsrc .ivsample false := by
      unfold fromVsrc
      rw [tinyVsrc_states]
    rw [h2]
    revert h1
    generalize fromVsrc b64 (fun x => x) tinyVsrc .ivsample false = r
    intro h1
    cases r with
    | ok _ => cases h1
    | error e => rw [of_decide_eq_true h1]

/-! ## C27 mode words -/

theorem bits5 : ∀ a b c d e : Bool,
    (1 * a.toNat + 2 * b.toNat + 4 * c.toNat + 8 * d.toNat + 16 * e.toNat).testBit 0 = a ∧
    (1 * a.toNat + 2 * b.toNat + 4 * c.toNat + 8 * d.toNat + 16 * e.toNat).testBit 1 = b ∧
    (1 * a.toNat + 2 * b.toNat + 4 * c.toNat + 8 * d.toNat + 16 * e.toNat).testBit 2 = c ∧
    (1 * a.toNat + 2 * b.toNat + 4 * c.toNat + 8 * d.toNat + 16 * e.toNat).testBit 3 = d ∧
    (1 * a.toNat + 2 * b.toNat + 4 * c.toNat + 8 * d.toNat + 16 * e.toNat).testBit 4 = e := by decide +kernel

/-- C27: what the converter reads from the mode word is what the source was configured to. -/
theorem C27_converter_mode (c : VsrcCfg) (dtypeIn : EnergyDType) (logMid : Bool) (p : CnvCfg)
    (hp : fromVsrc fl sqrt c dtypeIn logMid = .ok p) :
    (p.enableStorage = true ↔ 0 < c.cIntermediate) ∧
    (p.enableBoost = true ↔ c.enableBoost = true ∧ 0 < c.cIntermediate) ∧
    (p.enableBuck = c.enableBuck) ∧ (p.enableLogMid = logMid) ∧
    (p.feedbackToHrv = true ↔
      c.enableFeedbackToHrv = true ∧ 0 < c.cIntermediate ∧ c.enableBoost = false ∧ dtypeIn = .ivcurve) := by
  have e : p.converterMode = c.converterMode dtypeIn logMid := by
    exact_mod_cast (u32_ok_iff.1 (fromVsrc_regs hp).converterMode).1
  unfold CnvCfg.enableStorage CnvCfg.enableBoost CnvCfg.enableBuck CnvCfg.enableLogMid CnvCfg.feedbackToHrv CnvCfg.modeBit
  rw [e]
  unfold VsrcCfg.converterMode
  dsimp only
  obtain ⟨b0, b1, b2, b3, b4⟩ := bits5 (decide (c.cIntermediate > 0)) (c.enableBoost && decide (c.cIntermediate > 0)) c.enableBuck
    logMid (c.enableFeedbackToHrv && decide (c.cIntermediate > 0) && !(c.enableBoost && decide (c.cIntermediate > 0)) && (dtypeIn == .ivcurve))
  rw [b0, b1, b2, b3, b4]
  refine ⟨by simp, by simp, rfl, rfl, ?_⟩
  by_cases hC : 0 < c.cIntermediate <;> cases c.enableBoost <;> cases c.enableFeedbackToHrv <;> simp [hC]

/-- C27: the same for the harvester. -/
theorem C27_harvester_mode (c : VhrvCfg) (dtypeIn : Option EnergyDType) (w : Option ℤ) (v : Option ℚ) (forEmu : Bool)
    (p : HrvCfg) (hp : fromVhrv fl c dtypeIn w v forEmu = .ok p) :
    p.isEmu = forEmu ∧ p.isRising = c.rising ∧ p.linExtrapolation = c.linExtrapolation ∧
    p.algorithm = c.algorithm.num := by
  have r := (fromVhrv_regs hp).2
  have e : p.hrvMode = c.hrvMode forEmu := by exact_mod_cast (u32_ok_iff.1 r.hrvMode).1
  refine ⟨?_, ?_, ?_, ?_⟩
  · unfold HrvCfg.isEmu; rw [e]; unfold VhrvCfg.hrvMode
    cases forEmu <;> cases c.rising <;> cases c.linExtrapolation <;> decide
  · unfold HrvCfg.isRising; rw [e]; unfold VhrvCfg.hrvMode
    cases forEmu <;> cases c.rising <;> cases c.linExtrapolation <;> decide
  · unfold HrvCfg.linExtrapolation; rw [e]; unfold VhrvCfg.hrvMode
    cases forEmu <;> cases c.rising <;> cases c.linExtrapolation <;> decide
  · have ha := r.algo
    unfold VhrvCfg.algorithmNum at ha
    split_ifs at ha
    injection ha with ha
    exact ha.symm

example : ∃ p, fromVsrc b64 (fun x => x) demoVsrc .ivcurve true = .ok p :=
  let ⟨p, h, _⟩ := C26_translation_partial b64_rounding (fun _ h => h) demoVsrc demoVsrc_valid (by
    have : ∀ x ∈ demoVsrc.lutOutput, x = b64 (9/10) := by simp [demoVsrc]
    intro x hx
    rw [this x hx]
    right; decide +kernel) .ivcurve true
  ⟨p, h⟩

/-! ## C28 thresholds -/

theorem protect_nonneg (o : Option ℚ) : 0 ≤ protect o := by
  cases o with
  | none => exact le_rfl
  | some d =>
    simp only [protect]
    split_ifs with h
    · exact h
    · exact le_rfl

theorem d2_nonneg (c : VsrcCfg) : 0 ≤ (dVCandidates fl sqrt c).2 := by
  unfold dVCandidates
  dsimp only
  split_ifs
  · exact protect_nonneg _
  · exact le_rfl

/-- C28: enable not below disable, as configured and in the registers. -/
theorem C28_order (h : Rounding fl) (c : VsrcCfg) (dtypeIn : EnergyDType) (logMid : Bool) (p : CnvCfg)
    (hp : fromVsrc fl sqrt c dtypeIn logMid = .ok p) (hen : c.vDisable ≤ c.vEnable) :
    p.vDisableOutputThreshold ≤ p.vEnableOutputThreshold := by
  have r := fromVsrc_regs hp
  have hs : (c.internalStates fl sqrt).vDisable ≤ (c.internalStates fl sqrt).vEnable := by
    have hd := d2_nonneg (fl := fl) (sqrt := sqrt) c
    unfold VsrcCfg.internalStates
    have hup : fl (c.vOutput + c.vBuckDrop) ≤ fl (fl (c.vOutput + c.vBuckDrop) + (dVCandidates fl sqrt c).2) := by
      calc fl (c.vOutput + c.vBuckDrop) = fl (fl (c.vOutput + c.vBuckDrop)) := (h.idem _).symm
        _ ≤ _ := h.mono (by linarith)
    dsimp only
    split_ifs <;> dsimp only <;> linarith
  have := pyRound_mono (h.mono (mul_le_mul_of_nonneg_right hs (by norm_num : (0:ℚ) ≤ 1000)))
  have e1 := (u32_ok_iff.1 r.vDisableOutputThreshold).1
  have e2 := (u32_ok_iff.1 r.vEnableOutputThreshold).1
  omega

example : demoVsrc.vDisable ≤ demoVsrc.vEnable := by decide +kernel

/-- C28: the energy balance of connecting the output capacitor, when switched on at the configured threshold and the storage
holds enough energy: after the drop the storage has what it had before minus the energy of the output capacitor — up to the
accuracy `δ` of the square root.  Missing: the low buck case, see `C28_energy_violated`. -/
theorem C28_energy_partial (c : VsrcCfg) (hC : 0 < c.cIntermediate) (hO : 0 < c.cOutput)
    (hcase : c.enableBuck = false ∨ c.vOutput + c.vBuckDrop < c.vEnable)
    (hE : c.cOutput * c.vOutput^2 ≤ c.cIntermediate * c.vEnable^2)
    (δ : ℚ) (hsq : ∀ y, 0 ≤ y → |(sqrt y)^2 - y| ≤ δ) (hle : ∀ y, 0 ≤ y → y ≤ c.vEnable^2 → sqrt y ≤ c.vEnable) :
    let s := c.internalStates exact sqrt
    s.vEnable = c.vEnable ∧
    |c.cIntermediate * (s.vEnable - s.dVEnable)^2 - (c.cIntermediate * s.vEnable^2 - c.cOutput * c.vOutput^2)| ≤ c.cIntermediate * δ := by
  have hs : c.internalStates exact sqrt = ⟨(dVCandidates exact sqrt c).1, c.vEnable, (c.internalStates exact sqrt).vDisable⟩ := by
    unfold VsrcCfg.internalStates
    dsimp only
    rcases hcase with hb | hb
    · rw [hb]; rfl
    · by_cases hbk : c.enableBuck = true
      · rw [hbk]
        simp only [if_true]
        rw [if_pos (show c.vEnable > exact (c.vOutput + c.vBuckDrop) from hb)]
      · simp only [hbk]; rfl
  have hd : (dVCandidates exact sqrt c).1 = c.vEnable - sqrt (c.vEnable^2 - c.cOutput / c.cIntermediate * c.vOutput^2) := by
    have hy : 0 ≤ c.vEnable^2 - c.cOutput / c.cIntermediate * c.vOutput^2 := by
      have : c.cOutput / c.cIntermediate * c.vOutput^2 ≤ c.vEnable^2 := by
        rw [div_mul_eq_mul_div, div_le_iff₀ hC]; linarith
      linarith
    have hy2 : c.vEnable^2 - c.cOutput / c.cIntermediate * c.vOutput^2 ≤ c.vEnable^2 := by
      have : 0 ≤ c.cOutput / c.cIntermediate * c.vOutput^2 := by positivity
      linarith
    unfold dVCandidates
    rw [if_pos ⟨hC, hO⟩]
    dsimp only
    unfold powHalf
    rw [if_neg (not_lt.2 hy)]
    simp only [Option.map_some, protect]
    rw [if_pos]
    linarith [hle _ hy hy2]
  intro s
  have hy : 0 ≤ c.vEnable^2 - c.cOutput / c.cIntermediate * c.vOutput^2 := by
    have : c.cOutput / c.cIntermediate * c.vOutput^2 ≤ c.vEnable^2 := by
      rw [div_mul_eq_mul_div, div_le_iff₀ hC]; linarith
    linarith
  have hq := hsq _ hy
  simp only [s]
  rw [hs, hd]
  refine ⟨rfl, ?_⟩
  dsimp only
  have : c.cIntermediate * (c.vEnable - (c.vEnable - sqrt (c.vEnable^2 - c.cOutput / c.cIntermediate * c.vOutput^2)))^2 -
      (c.cIntermediate * c.vEnable^2 - c.cOutput * c.vOutput^2) =
      c.cIntermediate * ((sqrt (c.vEnable^2 - c.cOutput / c.cIntermediate * c.vOutput^2))^2 -
        (c.vEnable^2 - c.cOutput / c.cIntermediate * c.vOutput^2)) := by
    field_simp
    ring
  rw [this, abs_mul, abs_of_pos hC]
  exact mul_le_mul_of_nonneg_left hq hC.le

/-- A root function on a grid of 2^-20 mV, rounded down. -/
def gridSqrt (y : ℚ) : ℚ := (Nat.sqrt ⌊y * 2^40⌋.toNat : ℚ) / 2^20

theorem gridSqrt_nonneg (y : ℚ) : 0 ≤ gridSqrt y := by unfold gridSqrt; positivity

theorem gridSqrt_sq_le {y : ℚ} (hy : 0 ≤ y) : (gridSqrt y)^2 ≤ y := by
  have h1 : (Nat.sqrt ⌊y * 2^40⌋.toNat)^2 ≤ ⌊y * 2^40⌋.toNat := Nat.sqrt_le' _
  have h2 : ((Nat.sqrt ⌊y * 2^40⌋.toNat : ℕ) : ℚ)^2 ≤ (⌊y * 2^40⌋.toNat : ℕ) := by exact_mod_cast h1
  have h3 : ((⌊y * 2^40⌋.toNat : ℕ) : ℚ) ≤ y * 2^40 := by
    have h0 : 0 ≤ ⌊y * 2^40⌋ := Int.floor_nonneg.2 (by positivity)
    have : ((⌊y * 2^40⌋.toNat : ℕ) : ℚ) = (⌊y * 2^40⌋ : ℚ) := by
      exact_mod_cast congrArg (fun z : ℤ => (z : ℚ)) (Int.toNat_of_nonneg h0)
    rw [this]; exact Int.floor_le _
  unfold gridSqrt
  rw [div_pow, div_le_iff₀ (by positivity)]
  have : ((2:ℚ)^20)^2 = 2^40 := by norm_num
  rw [this]; linarith

example : demoVsrc.cOutput * demoVsrc.vOutput^2 ≤ demoVsrc.cIntermediate * demoVsrc.vEnable^2 ∧
    demoVsrc.vOutput + demoVsrc.vBuckDrop < demoVsrc.vEnable ∧ 0 < demoVsrc.cIntermediate ∧ 0 < demoVsrc.cOutput ∧
    (∀ y, 0 ≤ y → y ≤ demoVsrc.vEnable^2 → gridSqrt y ≤ demoVsrc.vEnable) := by
  refine ⟨by decide +kernel, by decide +kernel, by decide +kernel, by decide +kernel, ?_⟩
  intro y hy hle
  have := gridSqrt_sq_le hy
  have h4 : (0:ℚ) ≤ demoVsrc.vEnable := by decide +kernel
  nlinarith [gridSqrt_nonneg y]

/-- C28: in the low buck case (configured threshold at most the output voltage) the storage falls to the output voltage, and
loses more than the energy of the output capacitor. -/
theorem C28_energy_violated (hsq : sqrt (1/4) = 1/2) :
    let c := { demoVsrc with cIntermediate := 4, cOutput := 3, vOutput := 2000, vBuckDrop := 0, vEnable := 1000, vDisable := 500 }
    let s := c.internalStates exact sqrt
    c.Valid b64 ∧ s.vEnable = 3000 ∧ s.dVEnable = 1000 ∧
    c.cIntermediate * (s.vEnable - s.dVEnable)^2 < c.cIntermediate * s.vEnable^2 - c.cOutput * c.vOutput^2 := by
  have hd : (dVCandidates exact sqrt { demoVsrc with cIntermediate := 4, cOutput := 3, vOutput := 2000, vBuckDrop := 0, vEnable := 1000, vDisable := 500 }).2 = 1000 := by
    unfold dVCandidates powHalf
    norm_num [hsq, protect]
  intro c s
  have hs : s.vEnable = 3000 ∧ s.dVEnable = 1000 := by
    simp only [s, VsrcCfg.internalStates, c]
    rw [hd]
    norm_num [demoVsrc]
  refine ⟨?_, hs.1, hs.2, ?_⟩
  · constructor
    any_goals decide +kernel
    · exact demoVsrc_valid.harvester
    · exact demoVsrc_valid.post
  · rw [hs.1, hs.2]; norm_num [c]

/-- C28: in the low buck case the storage lands at the disable threshold (registers: to 1 µV).
Missing: the other case, see `C28_floor_violated`. -/
theorem C28_floor_partial (h : AccRounding fl) (hs0 : ∀ x, 0 ≤ x → 0 ≤ sqrt x) (c : VsrcCfg) (hc : c.Valid fl)
    (dtypeIn : EnergyDType) (logMid : Bool) (p : CnvCfg) (hp : fromVsrc fl sqrt c dtypeIn logMid = .ok p)
    (hb : c.enableBuck = true) (hlow : c.vEnable ≤ fl (c.vOutput + c.vBuckDrop)) (hdis : c.vDisable ≤ c.vEnable) :
    p.vDisableOutputThreshold ≤ p.vEnableOutputThreshold - p.dVEnableOutput + 1 := by
  have r := fromVsrc_regs hp
  have st := states_bounds h.toRounding hs0 c (inRange_iff.1 hc.vEnable) (inRange_iff.1 hc.vDisable) (inRange_iff.1 hc.vOutput)
    (inRange_iff.1 hc.vBuckDrop)
  dsimp only at st
  have tiny : (2:ℚ)^(-1075 : ℤ) ≤ 1/1000000000 :=
    le_trans (zpow_le_zpow_right₀ (by norm_num) (by norm_num : (-1075:ℤ) ≤ -30)) (by norm_num)
  have err : ∀ x : ℚ, 0 ≤ x → x ≤ 15000000 → |fl x - x| ≤ 1/100000000 := by
    intro x h0 h1
    refine le_trans (h.err x) ?_
    rw [abs_of_nonneg h0]
    have : x / 2^53 ≤ 1/500000000 := by
      rw [div_le_iff₀ (by positivity)]; norm_num; linarith
    linarith
  have hen : (c.internalStates fl sqrt).vEnable = fl ((c.internalStates fl sqrt).vDisable + (c.internalStates fl sqrt).dVEnable) := by
    unfold VsrcCfg.internalStates
    simp only [hb, if_true]
    rw [if_neg (not_lt.2 hlow), if_neg (not_lt.2 (le_trans hdis hlow))]
  obtain ⟨⟨a0, a1⟩, ⟨b0, b1⟩, ⟨d0, d1⟩⟩ := st
  have hsum : (c.internalStates fl sqrt).vDisable + (c.internalStates fl sqrt).dVEnable ≤ 30000 := by linarith
  have e0 := err ((c.internalStates fl sqrt).vDisable + (c.internalStates fl sqrt).dVEnable) (by linarith) (by linarith)
  rw [← hen] at e0
  have e1 := err ((c.internalStates fl sqrt).vEnable * 1000) (by linarith) (by linarith)
  have e2 := err ((c.internalStates fl sqrt).vDisable * 1000) (by linarith) (by linarith)
  have e3 := err ((c.internalStates fl sqrt).dVEnable * 1000) (by linarith) (by linarith)
  have r1 := abs_pyRound_sub_le (fl ((c.internalStates fl sqrt).vEnable * 1000))
  have r2 := abs_pyRound_sub_le (fl ((c.internalStates fl sqrt).vDisable * 1000))
  have r3 := abs_pyRound_sub_le (fl ((c.internalStates fl sqrt).dVEnable * 1000))
  have q1 := (u32_ok_iff.1 r.vEnableOutputThreshold).1
  have q2 := (u32_ok_iff.1 r.vDisableOutputThreshold).1
  have q3 := (u32_ok_iff.1 r.dVEnableOutput).1
  rw [← q1] at r1
  rw [← q2] at r2
  rw [← q3] at r3
  rw [abs_le] at e0 e1 e2 e3 r1 r2 r3
  have : ((p.vDisableOutputThreshold : ℤ) : ℚ) + (p.dVEnableOutput : ℤ) < (p.vEnableOutputThreshold : ℤ) + 2 := by
    linarith [e0.1, e0.2, e1.1, e1.2, e2.1, e2.2, e3.1, e3.2, r1.1, r1.2, r2.1, r2.2, r3.1, r3.2]
  have : (p.vDisableOutputThreshold : ℤ) + p.dVEnableOutput < p.vEnableOutputThreshold + 2 := by exact_mod_cast this
  omega

/-- C28: switched on at the configured threshold the storage can fall below the disable threshold — the output is switched off
again right after. -/
theorem C28_floor_violated (hsq : sqrt 9000000 = 3000) :
    let c := { demoVsrc with cIntermediate := 1, cOutput := 1, vOutput := 4000, vBuckDrop := 0, vEnable := 5000, vDisable := 4000 }
    let s := c.internalStates exact sqrt
    c.Valid b64 ∧ s.vEnable = 5000 ∧ s.vDisable = 4000 ∧ s.vEnable - s.dVEnable = 3000 := by
  have hd : (dVCandidates exact sqrt { demoVsrc with cIntermediate := 1, cOutput := 1, vOutput := 4000, vBuckDrop := 0, vEnable := 5000, vDisable := 4000 }).1 = 2000 := by
    unfold dVCandidates powHalf
    norm_num [hsq, protect]
  intro c s
  have hs : s.vEnable = 5000 ∧ s.vDisable = 4000 ∧ s.dVEnable = 2000 := by
    simp only [s, VsrcCfg.internalStates, c]
    rw [hd]
    norm_num [demoVsrc]
  refine ⟨?_, hs.1, hs.2.1, ?_⟩
  · constructor
    any_goals decide +kernel
    · exact demoVsrc_valid.harvester
    · exact demoVsrc_valid.post
  · rw [hs.1, hs.2.2]; norm_num

example : ∃ r : ℚ → ℚ, r (1/4) = 1/2 ∧ r 9000000 = 3000 ∧ ∀ x, 0 ≤ x → 0 ≤ r x :=
  ⟨gridSqrt, by decide +kernel, by decide +kernel, fun x _ => gridSqrt_nonneg x⟩

/-! ## C29 harvester -/

theorem ticks_ge (h : AccRounding fl) (n : ℤ) (h1 : 1 ≤ n) (h2 : n ≤ 1000000) (t : ℚ) (ht : fl ((n * 1000 : ℤ) / 100000) ≤ t) :
    n ≤ pyRound (fl (fl (t * 100000) * fl (1/1000))) := by
  have tiny : (2:ℚ)^(-1075 : ℤ) ≤ 1/2^200 :=
    le_trans (zpow_le_zpow_right₀ (by norm_num) (by norm_num : (-1075:ℤ) ≤ -200)) (by norm_num)
  have n1 : (1:ℚ) ≤ n := by exact_mod_cast h1
  have n2 : (n:ℚ) ≤ 1000000 := by exact_mod_cast h2
  have ea := h.err (((n * 1000 : ℤ) : ℚ) / 100000)
  have hn : ((n * 1000 : ℤ) : ℚ) / 100000 = n / 100 := by push_cast; ring
  rw [hn] at ea ht
  rw [abs_of_nonneg (by linarith : (0:ℚ) ≤ (n:ℚ)/100), abs_le] at ea
  generalize fl ((n:ℚ)/100) = a at ea ht
  have ek := h.err (1/1000)
  rw [abs_of_nonneg (by norm_num : (0:ℚ) ≤ 1/1000), abs_le] at ek
  have ha : (n:ℚ)/100 - 1/10^9 ≤ a := by
    have : (n:ℚ)/100/2^53 ≤ 1/10^10 := by
      rw [div_le_iff₀ (by positivity)]; norm_num; linarith
    have := ea.1
    norm_num at *
    linarith
  have hb1 : fl (a * 100000) ≤ fl (t * 100000) := h.mono (by linarith)
  have ha2 : a ≤ 10001 := by
    have : (n:ℚ)/100/2^53 ≤ 1/10^10 := by
      rw [div_le_iff₀ (by positivity)]; norm_num; linarith
    have := ea.2
    norm_num at *
    linarith
  have ha0 : 0 ≤ a := by norm_num at ha ⊢; linarith
  have eb := h.err (a * 100000)
  rw [abs_of_nonneg (by linarith : (0:ℚ) ≤ a * 100000), abs_le] at eb
  have hb : (n:ℚ) * 1000 - 1/1000 ≤ fl (a * 100000) := by
    have : a * 100000/2^53 ≤ 1/10^5 := by
      rw [div_le_iff₀ (by positivity)]; norm_num; linarith
    have := eb.1
    norm_num at *
    linarith
  have hk : (1:ℚ)/1000 - 1/10^15 ≤ fl (1/1000) := by
    have := ek.1
    norm_num at *
    linarith
  have hk0 : (0:ℚ) ≤ fl (1/1000) := h.nonneg (by norm_num)
  have hprod : (n:ℚ) - 1/10 ≤ fl (a * 100000) * fl (1/1000) := by
    have h3 : ((n:ℚ) * 1000 - 1/1000) * (1/1000 - 1/10^15) ≤ fl (a * 100000) * fl (1/1000) :=
      mul_le_mul hb hk (by norm_num) (by norm_num at hb ⊢; linarith)
    norm_num at h3 ⊢
    linarith
  have hup : fl ((n:ℚ) - 1/10) ≤ fl (fl (t * 100000) * fl (1/1000)) :=
    h.mono (le_trans hprod (mul_le_mul_of_nonneg_right hb1 hk0))
  have ec := h.err ((n:ℚ) - 1/10)
  rw [abs_of_nonneg (by linarith : (0:ℚ) ≤ (n:ℚ) - 1/10), abs_le] at ec
  have hc : (n:ℚ) - 2/10 ≤ fl ((n:ℚ) - 1/10) := by
    have : ((n:ℚ) - 1/10)/2^53 ≤ 1/10^5 := by
      rw [div_le_iff₀ (by positivity)]; norm_num; linarith
    have := ec.1
    norm_num at *
    linarith
  have hr := sub_pyRound_le (fl (fl (t * 100000) * fl (1/1000)))
  have hfin : (n:ℚ) - 1 < pyRound (fl (fl (t * 100000) * fl (1/1000))) := by linarith
  have : n - 1 < pyRound (fl (fl (t * 100000) * fl (1/1000))) := by exact_mod_cast hfin
  omega


theorem VhrvCfg_ranges {c : VhrvCfg} (hc : c.Valid fl) :
    (8 ≤ c.samplesN ∧ c.samplesN ≤ 2000) ∧ (0 ≤ c.voltage ∧ c.voltage ≤ 5000) ∧ (0 ≤ c.voltageMin ∧ c.voltageMin ≤ 5000) ∧
    (0 ≤ c.voltageMax ∧ c.voltageMax ≤ 5000) ∧ (1 ≤ c.currentLimit ∧ c.currentLimit ≤ 50000) ∧
    (1 ≤ c.voltageStep ∧ c.voltageStep ≤ 1000000) ∧ (0 ≤ c.setpointN ∧ c.setpointN ≤ 1) ∧
    (fl (1/100) ≤ c.interval ∧ c.interval ≤ 1000000) ∧ (fl (1/100) ≤ c.duration ∧ c.duration ≤ 1000000) ∧
    (0 ≤ c.waitCycles ∧ c.waitCycles ≤ 100) := by
  have h := hc.fields
  unfold VhrvCfg.fieldsOk at h
  simp only [Bool.and_eq_true, inRange_iff] at h
  obtain ⟨⟨⟨⟨⟨⟨⟨⟨⟨h0, h1⟩, h2⟩, h3⟩, h4⟩, h5⟩, h6⟩, h7⟩, h8⟩, h9⟩ := h
  exact ⟨by exact_mod_cast h0, h1, h2, h3, h4, h5, h6, h7, h8, by exact_mod_cast h9⟩

/-- The timing in the registers, as it follows from the configured interval and duration. -/
theorem timings_spec (h : AccRounding fl) {c : VhrvCfg} (hc : c.Valid fl) (forEmu : Bool) :
    let t := c.timings fl forEmu
    (0 ≤ t.2 ∧ t.2 ≤ t.1 ∧ t.1 ≤ 1000000) ∧
    fl (((1 + c.waitCycles) * 1000 : ℤ) / 100000) ≤ t.2 ∧
    (forEmu = true → fl ((c.samplesN * (1 + c.waitCycles) * 1000 : ℤ) / 100000) ≤ t.2) := by
  obtain ⟨hs, -, -, -, -, -, -, hi, hd, hw⟩ := VhrvCfg_ranges hc
  have hW : c.samplesN * (1 + c.waitCycles) ≤ 202000 := by nlinarith
  have hW0 : 0 ≤ c.samplesN * (1 + c.waitCycles) := mul_nonneg (by omega) (by omega)
  have b1 : fl (((1 + c.waitCycles) * 1000 : ℤ) / 100000) ≤ 1000000 := by
    have := h.le_int (n := 1000000) (x := ((1 + c.waitCycles) * 1000 : ℤ) / 100000) (by norm_num) (by
      rw [div_le_iff₀ (by norm_num)]
      exact_mod_cast (by omega : (1 + c.waitCycles) * 1000 ≤ 1000000 * 100000))
    exact_mod_cast this
  have b2 : fl ((c.samplesN * (1 + c.waitCycles) * 1000 : ℤ) / 100000) ≤ 1000000 := by
    have := h.le_int (n := 1000000) (x := (c.samplesN * (1 + c.waitCycles) * 1000 : ℤ) / 100000) (by norm_num) (by
      rw [div_le_iff₀ (by norm_num)]
      exact_mod_cast (by omega : c.samplesN * (1 + c.waitCycles) * 1000 ≤ 1000000 * 100000))
    exact_mod_cast this
  have z1 : 0 ≤ fl (((1 + c.waitCycles) * 1000 : ℤ) / 100000) := h.nonneg (div_nonneg (by
    exact_mod_cast (by omega : 0 ≤ (1 + c.waitCycles) * 1000)) (by norm_num))
  intro t
  simp only [t, VhrvCfg.timings]
  cases forEmu
  · simp only [Bool.false_eq_true, if_false, false_implies, and_true]
    refine ⟨⟨?_, min_le_right _ _, min_le_right _ _⟩, ?_⟩
    · exact le_min (le_trans z1 (le_max_right _ _)) (le_min (le_trans z1 (le_max_right _ _)) (by norm_num))
    · exact le_min (le_max_right _ _) (le_min (le_max_right _ _) b1)
  · simp only [if_true, true_implies]
    have hm : max (fl (((1 + c.waitCycles) * 1000 : ℤ) / 100000)) (fl ((c.samplesN * (1 + c.waitCycles) * 1000 : ℤ) / 100000)) ≤ 1000000 :=
      max_le b1 b2
    have key : max (fl (((1 + c.waitCycles) * 1000 : ℤ) / 100000)) (fl ((c.samplesN * (1 + c.waitCycles) * 1000 : ℤ) / 100000)) ≤
        min (max c.duration (max (fl (((1 + c.waitCycles) * 1000 : ℤ) / 100000)) (fl ((c.samplesN * (1 + c.waitCycles) * 1000 : ℤ) / 100000))))
          (min (max c.interval (max (fl (((1 + c.waitCycles) * 1000 : ℤ) / 100000)) (fl ((c.samplesN * (1 + c.waitCycles) * 1000 : ℤ) / 100000)))) 1000000) :=
      le_min (le_max_right _ _) (le_min (le_max_right _ _) hm)
    refine ⟨⟨?_, min_le_right _ _, min_le_right _ _⟩, ?_, ?_⟩
    · exact le_trans (le_trans z1 (le_max_left _ _)) key
    · exact le_trans (le_max_left _ _) key
    · exact le_trans (le_max_right _ _) key

/-- C29: a translated harvester is consistent. -/
theorem C29_consistent (h : AccRounding fl) (c : VhrvCfg) (hc : c.Valid fl) (dtypeIn : Option EnergyDType) (w : Option ℤ)
    (v : Option ℚ) (forEmu : Bool) (p : HrvCfg) (hp : fromVhrv fl c dtypeIn w v forEmu = .ok p) :
    p.durationN ≤ p.intervalN ∧
    1 + p.waitCyclesN ≤ p.durationN ∧
    (forEmu = true → c.samplesN * (1 + p.waitCyclesN) ≤ p.durationN) ∧
    p.voltageMin ≤ p.voltage ∧ p.voltage ≤ p.voltageMax ∧ p.voltageMax ≤ 5000000 ∧
    p.setpointN8 ≤ 255 ∧ (p.waitCyclesN : ℤ) = c.waitCycles ∧ p.Valid := by
  have r := (fromVhrv_regs hp).2
  obtain ⟨⟨t0, t1, t2⟩, t3, t4⟩ := timings_spec h hc forEmu
  obtain ⟨hs, hv, hv0, hv1, hcl, hst, hsp, hi, hd, hw⟩ := VhrvCfg_ranges hc
  have ew := (u32_ok_iff.1 r.waitCyclesN).1
  have ei := (u32_ok_iff.1 r.intervalN).1
  have ed := (u32_ok_iff.1 r.durationN).1
  have hk0 : (0:ℚ) ≤ fl (1/1000) := h.nonneg (by norm_num)
  have m1 := pyRound_mono (h.mono (mul_le_mul_of_nonneg_right (h.mono (mul_le_mul_of_nonneg_right t1 (by norm_num : (0:ℚ) ≤ 100000))) hk0))
  have e0 := (u32_ok_iff.1 r.voltageMin).1
  have e1 := (u32_ok_iff.1 r.voltage).1
  have e2 := (u32_ok_iff.1 r.voltageMax).1
  have o1 := pyRound_mono (h.mono (mul_le_mul_of_nonneg_right hc.order.1 (by norm_num : (0:ℚ) ≤ 10^3)))
  have o2 := pyRound_mono (h.mono (mul_le_mul_of_nonneg_right hc.order.2 (by norm_num : (0:ℚ) ≤ 10^3)))
  have hW : c.samplesN * (1 + c.waitCycles) ≤ 202000 := by nlinarith
  refine ⟨by omega, ?_, ?_, by omega, by omega, ?_, ?_, ew, ?_⟩
  · have := ticks_ge h (1 + c.waitCycles) (by omega) (by omega) _ t3
    omega
  · intro hf
    have := ticks_ge h (c.samplesN * (1 + c.waitCycles)) (by nlinarith) (by omega) _ (t4 hf)
    rw [ew]; omega
  · have := pyRound_le_intCast (h.le_int (n := 5000000) (x := c.voltageMax * 10^3) (by norm_num) (by norm_num; linarith))
    omega
  · have e := (u32_ok_iff.1 r.setpointN8).1
    have := pyRound_le_intCast (n := 255) (x := min 255 (fl (c.setpointN * 2^8))) (by push_cast; exact min_le_left _ _)
    omega
  · constructor
    · have ha := r.algo
      unfold VhrvCfg.algorithmNum at ha
      split_ifs at ha
      injection ha with ha
      rw [← ha]
      cases c.algorithm <;> decide
    all_goals first
      | exact (u32_ok_iff.1 r.hrvMode).2
      | exact (u32_ok_iff.1 r.windowSize).2
      | exact (u32_ok_iff.1 r.voltage).2
      | exact (u32_ok_iff.1 r.voltageMin).2
      | exact (u32_ok_iff.1 r.voltageMax).2
      | exact (u32_ok_iff.1 r.voltageStep).2
      | exact (u32_ok_iff.1 r.currentLimit).2
      | exact (u32_ok_iff.1 r.setpointN8).2
      | exact (u32_ok_iff.1 r.intervalN).2
      | exact (u32_ok_iff.1 r.durationN).2
      | exact (u32_ok_iff.1 r.waitCyclesN).2

/-- C29: every valid harvester is translated, if its algorithm suits the use and the front-end (the recording it is fed
with) is described completely: any window of 32 bit, any voltage step up to 4290 V. -/
theorem C29_total (h : AccRounding fl) (c : VhrvCfg) (hc : c.Valid fl) (dtypeIn : Option EnergyDType) (w : Option ℤ)
    (v : Option ℚ) (forEmu : Bool) (hf : FrontEndOk dtypeIn w v forEmu)
    (halg : if forEmu then c.algorithm.dtype = .ivsample else c.algorithm ≠ .neutral)
    (hw : ∀ n ∈ w, 0 ≤ n ∧ n < 2^32) (hv : ∀ x ∈ v, 0 ≤ x ∧ x ≤ 4290) :
    ∃ p, fromVhrv fl c dtypeIn w v forEmu = .ok p := by
  obtain ⟨⟨t0, t1, t2⟩, -, -⟩ := timings_spec h hc forEmu
  obtain ⟨hs, hvo, hv0, hv1, hcl, hst, hsp, hi, hd, hwt⟩ := VhrvCfg_ranges hc
  have mul3 : ∀ {x hi : ℚ}, 0 ≤ x ∧ x ≤ hi → hi * 10^3 ≤ 4290000000 → ∃ m, u32 (pyRound (fl (x * 10^3))) = .ok m :=
    fun hx hhi => u32_mul h.toRounding hx (by norm_num) 4290000000 (by norm_num) (by push_cast; exact hhi)
  have tick : ∀ {x : ℚ}, 0 ≤ x ∧ x ≤ 1000000 → ∃ m, u32 (pyRound (fl (fl (x * 100000) * fl (1/1000)))) = .ok m := by
    intro x hx
    have k1 : fl (1/1000) ≤ 1/512 := by
      have := h.exact 1 (-9) (by norm_num) (by norm_num)
      rw [zpow_neg] at this
      norm_num at this
      rw [← this]; exact h.mono (by norm_num)
    have k0 : 0 ≤ fl (1/1000) := h.nonneg (by norm_num)
    have a0 : 0 ≤ fl (x * 100000) := h.nonneg (by linarith)
    have a1 : fl (x * 100000) ≤ 100000000000 := by
      have := h.le_int (n := 100000000000) (x := x * 100000) (by norm_num) (by push_cast; linarith)
      exact_mod_cast this
    exact u32_round h.toRounding (mul_nonneg a0 k0) (n := 200000000) (by norm_num) (by push_cast; nlinarith)
  have hstep : 0 ≤ usedStep fl c v ∧ usedStep fl c v ≤ 4290000 := by
    unfold usedStep
    cases v with
    | none => exact ⟨by linarith, by linarith⟩
    | some x =>
      obtain ⟨x0, x1⟩ := hv x rfl
      refine ⟨h.nonneg (by linarith), ?_⟩
      have := h.le_int (n := 4290000) (x := 1000 * x) (by norm_num) (by push_cast; linarith)
      exact_mod_cast this
  have hwin : ∃ m, u32 (w.getD (c.windowSize dtypeIn forEmu)) = .ok m := by
    cases w with
    | some n => exact u32_of (hw n rfl).1 (hw n rfl).2
    | none =>
      have hW : c.samplesN * (1 + c.waitCycles) ≤ 202000 := by nlinarith
      have hW0 : 0 ≤ c.samplesN * (1 + c.waitCycles) := mul_nonneg (by omega) (by omega)
      simp only [Option.getD_none]
      unfold VhrvCfg.windowSize
      split_ifs
      · exact u32_of (by omega) (by omega)
      · split <;> apply u32_of <;> omega
  obtain ⟨_, r1⟩ : ∃ m, u32 (c.hrvMode forEmu) = .ok m := by
    apply u32_of (by positivity)
    unfold VhrvCfg.hrvMode
    have := Bool.toNat_le forEmu
    have := Bool.toNat_le c.rising
    have := Bool.toNat_le c.linExtrapolation
    omega
  obtain ⟨_, r2⟩ := hwin
  obtain ⟨_, r3⟩ := mul3 hvo (by norm_num)
  obtain ⟨_, r4⟩ := mul3 hv0 (by norm_num)
  obtain ⟨_, r5⟩ := mul3 hv1 (by norm_num)
  obtain ⟨_, r6⟩ := mul3 hstep (by norm_num)
  obtain ⟨_, r7⟩ := mul3 (x := c.currentLimit) ⟨by linarith, hcl.2⟩ (by norm_num)
  obtain ⟨_, r8⟩ : ∃ m, u32 (pyRound (min 255 (fl (c.setpointN * 2^8)))) = .ok m := by
    apply u32_of (pyRound_nonneg (le_min (by norm_num) (h.nonneg (by linarith))))
    have := pyRound_le_intCast (n := 255) (x := min 255 (fl (c.setpointN * 2^8))) (by push_cast; exact min_le_left _ _)
    omega
  obtain ⟨_, r9⟩ := tick ⟨le_trans t0 t1, t2⟩
  obtain ⟨_, r10⟩ := tick ⟨t0, le_trans t1 t2⟩
  obtain ⟨_, r11⟩ := u32_of hwt.1 (by omega)
  have ra : c.algorithmNum forEmu = .ok c.algorithm.num := by
    unfold VhrvCfg.algorithmNum
    cases forEmu
    · simp only [Bool.false_eq_true, if_false] at halg
      revert halg
      cases c.algorithm <;> first | (intro h; exact absurd rfl h) | (intro _; rfl)
    · simp only [if_true] at halg
      simp [halg]
  have hnum : c.algorithm.num < 2^32 := by cases c.algorithm <;> decide
  exact ⟨_, fromVhrv_of (p := ⟨_, _, _, _, _, _, _, _, _, _, _, _⟩) hf hnum
    ⟨ra, r1, r2, r3, r4, r5, r6, r7, r8, r9, r10, r11⟩⟩

example : demoVhrv.Valid b64 ∧ FrontEndOk (some .ivcurve) (some 250) (some (b64 (2/100))) true ∧
    demoVhrv.algorithm.dtype = .ivsample ∧ (0 ≤ b64 (2/100) ∧ b64 (2/100) ≤ 4290) :=
  ⟨demoVhrv_valid, fun _ => Or.inr ⟨rfl, rfl, rfl⟩, rfl, by decide +kernel⟩

/-! ## C30 rejection -/

/-- The declared ranges of the numeric fields except voltage step, as a user reads them. -/
structure DeclaredRanges (fl : ℚ → ℚ) (r : VhrvRaw) : Prop where
  samplesN : 8 ≤ r.samplesN ∧ r.samplesN ≤ 2000
  voltage : 0 ≤ r.voltage ∧ r.voltage ≤ 5000
  voltageMin : 0 ≤ r.voltageMin ∧ r.voltageMin ≤ 5000
  voltageMax : 0 ≤ r.voltageMax ∧ r.voltageMax ≤ 5000
  currentLimit : 1 ≤ r.currentLimit ∧ r.currentLimit ≤ 50000
  setpointN : 0 ≤ r.setpointN ∧ r.setpointN ≤ 1
  interval : fl (1/100) ≤ r.interval ∧ r.interval ≤ 1000000
  duration : fl (1/100) ≤ r.duration ∧ r.duration ≤ 1000000
  waitCycles : 0 ≤ r.waitCycles ∧ r.waitCycles ≤ 100

/-- The voltage step that is range-checked: the given one, or the range split by the samples. -/
def stepOf (fl : ℚ → ℚ) (r : VhrvRaw) : ℚ :=
  match r.voltageStep with
  | some s => s
  | none => fl (|fl (r.voltageMax - r.voltageMin)| / ((r.samplesN - 1 : ℤ) : ℚ))

theorem query_ok {adc dac : CalPair} {r : VhrvRaw} (hn : r.name ≠ "neutral") (hs : r.samplesN ≠ 1) :
    r.query fl adc dac = .ok {
        name := r.name, algorithm := r.algorithm, samplesN := r.samplesN, voltage := r.voltage
        voltageMin := r.voltageMin, voltageMax := r.voltageMax, currentLimit := max (minCurrentLimit fl adc) r.currentLimit
        voltageStep := max (minVoltageStep fl dac) (stepOf fl r), setpointN := r.setpointN
        interval := r.interval, duration := r.duration, rising := r.rising
        linExtrapolation := r.linExtrapolation, waitCycles := r.waitCycles } := by
  unfold VhrvRaw.query stepOf
  rw [if_neg hn]
  cases r.voltageStep with
  | some s => rfl
  | none => dsimp only; rw [if_neg (by omega)]

theorem ge_one_of_max {a x : ℚ} (ha : a < 1) : 1 ≤ max a x ↔ 1 ≤ x := by
  rw [le_max_iff]
  constructor
  · rintro (h | h)
    · linarith
    · exact h
  · exact Or.inr

theorem max_le_of_lt {a x b : ℚ} (ha : a < 1) (hb : 1 ≤ b) : max a x ≤ b ↔ x ≤ b := by
  rw [max_le_iff]
  exact ⟨And.right, fun h => ⟨by linarith, h⟩⟩

/-- C30: exactly which settings are accepted (the floors from the calibration are below the declared minimum of 1, as they are
for the code's defaults). -/
theorem C30_accepted_iff (adc dac : CalPair) (ha : minCurrentLimit fl adc < 1) (hd : minVoltageStep fl dac < 1)
    (r : VhrvRaw) :
    (∃ c, r.validate fl adc dac = .ok c) ↔
      r.name ≠ "neutral" ∧ DeclaredRanges fl r ∧ (1 ≤ stepOf fl r ∧ stepOf fl r ≤ 1000000) ∧
      r.voltageMin ≤ r.voltage ∧ r.voltage ≤ r.voltageMax := by
  constructor
  · rintro ⟨c, hc⟩
    unfold VhrvRaw.validate at hc
    have hn : r.name ≠ "neutral" := by
      intro hn
      unfold VhrvRaw.query at hc
      rw [if_pos hn] at hc
      cases hc
    by_cases hs : r.samplesN = 1
    · exfalso
      unfold VhrvRaw.query at hc
      rw [if_neg hn] at hc
      cases hst : r.voltageStep with
      | none => simp [hst, hs] at hc
      | some st =>
        simp only [hst] at hc
        split_ifs at hc with hf
        unfold VhrvCfg.fieldsOk at hf
        simp only [Bool.and_eq_true, inRange_iff, hs] at hf
        norm_num at hf
    rw [query_ok hn hs] at hc
    dsimp only at hc
    split_ifs at hc with hf
    unfold VhrvCfg.postValidation at hc
    dsimp only at hc
    split_ifs at hc with o1 o2 o3
    unfold VhrvCfg.fieldsOk at hf
    simp only [Bool.and_eq_true, inRange_iff] at hf
    obtain ⟨⟨⟨⟨⟨⟨⟨⟨⟨h0, h1⟩, h2⟩, h3⟩, h4⟩, h5⟩, h6⟩, h7⟩, h8⟩, h9⟩ := hf
    rw [ge_one_of_max ha, max_le_of_lt ha (by norm_num)] at h4
    rw [ge_one_of_max hd, max_le_of_lt hd (by norm_num)] at h5
    exact ⟨hn, ⟨by exact_mod_cast h0, h1, h2, h3, h4, h6, h7, h8, by exact_mod_cast h9⟩, h5, not_lt.1 o2, not_lt.1 o3⟩
  · rintro ⟨hn, hr, hst, o1, o2⟩
    have hs : r.samplesN ≠ 1 := by have := hr.samplesN.1; omega
    unfold VhrvRaw.validate
    rw [query_ok hn hs]
    dsimp only
    rw [if_pos]
    · unfold VhrvCfg.postValidation
      dsimp only
      rw [if_neg (not_lt.2 (le_trans o1 o2)), if_neg (not_lt.2 o1), if_neg (not_lt.2 o2)]
      exact ⟨_, rfl⟩
    · unfold VhrvCfg.fieldsOk
      simp only [Bool.and_eq_true, inRange_iff]
      rw [ge_one_of_max ha, max_le_of_lt ha (by norm_num), ge_one_of_max hd, max_le_of_lt hd (by norm_num)]
      exact ⟨⟨⟨⟨⟨⟨⟨⟨⟨by exact_mod_cast hr.samplesN, hr.voltage⟩, hr.voltageMin⟩, hr.voltageMax⟩, hr.currentLimit⟩, hst⟩, hr.setpointN⟩,
        hr.interval⟩, hr.duration⟩, by exact_mod_cast hr.waitCycles⟩

/-- C30: with the number of samples in its range, whatever is not accepted is rejected with a `ValueError` — in particular every
violation of the voltage order.  What is accepted keeps the settings.
Missing: the number of samples out of range, see `C30_samples_violated`. -/
theorem C30_rejected_partial (adc dac : CalPair) (r : VhrvRaw) (hs : 8 ≤ r.samplesN) :
    (match r.validate fl adc dac with
      | .error e => e = .valueError
      | .ok c => c.Valid fl ∧ c.voltage = r.voltage ∧ c.voltageMin = r.voltageMin ∧ c.voltageMax = r.voltageMax ∧
          c.samplesN = r.samplesN ∧ c.algorithm = r.algorithm ∧ c.waitCycles = r.waitCycles ∧ c.setpointN = r.setpointN ∧
          c.interval = r.interval ∧ c.duration = r.duration ∧ c.rising = r.rising ∧ c.linExtrapolation = r.linExtrapolation) ∧
    (r.voltageMax < r.voltageMin ∨ r.voltage < r.voltageMin ∨ r.voltageMax < r.voltage →
      r.validate fl adc dac = .error .valueError) := by
  have key : ∀ (P : VhrvCfg → Prop), (∀ c : VhrvCfg, c.voltage = r.voltage → c.voltageMin = r.voltageMin → c.voltageMax = r.voltageMax →
      c.samplesN = r.samplesN → c.algorithm = r.algorithm → c.waitCycles = r.waitCycles → c.setpointN = r.setpointN →
      c.interval = r.interval → c.duration = r.duration → c.rising = r.rising → c.linExtrapolation = r.linExtrapolation → c.Valid fl → P c) →
      (match r.validate fl adc dac with
      | .error e => e = .valueError
      | .ok c => P c) := by
    intro P hP
    by_cases hn : r.name = "neutral"
    · unfold VhrvRaw.validate VhrvRaw.query
      rw [if_pos hn]
    unfold VhrvRaw.validate
    rw [query_ok hn (by omega)]
    dsimp only
    split_ifs with hf
    · unfold VhrvCfg.postValidation
      dsimp only
      split_ifs with o1 o2 o3
      · rfl
      · rfl
      · rfl
      · dsimp only
        apply hP <;> first | rfl | skip
        exact ⟨hf, not_lt.1 o2, not_lt.1 o3⟩
    · rfl
  refine ⟨key _ ?_, ?_⟩
  · intro c h1 h2 h3 h4 h5 h6 h7 h8 h9 h10 h11 h12
    exact ⟨h12, h1, h2, h3, h4, h5, h6, h7, h8, h9, h10, h11⟩
  · intro hord
    have := key (fun c => c.voltage = r.voltage ∧ c.voltageMin = r.voltageMin ∧ c.voltageMax = r.voltageMax ∧ c.Valid fl)
      (fun c h1 h2 h3 _ _ _ _ _ _ _ _ h12 => ⟨h1, h2, h3, h12⟩)
    revert this
    cases r.validate fl adc dac with
    | error e => intro he; dsimp only at he; rw [he]
    | ok c =>
      rintro ⟨h1, h2, h3, h4⟩
      have o := h4.order
      rw [h1, h2, h3] at o
      exfalso
      rcases hord with h | h | h <;> linarith [o.1, o.2]

/-- The floors of the code's default calibration. -/
theorem C30_default_floors : ∃ adc dac, defaultAdcC b64 = some adc ∧ defaultDac b64 = some dac ∧
    minCurrentLimit b64 adc < 1 ∧ minVoltageStep b64 dac < 1 :=
  ⟨⟨7686143364045647/37778931862957161709568, 0⟩, ⟨1407396358717445/18446744073709551616, 0⟩,
    by decide +kernel, by decide +kernel, by decide +kernel, by decide +kernel⟩

/-- C30: the given default settings are accepted, the default range cut to one point is not (its step is 0). -/
example : DeclaredRanges b64 { name := "x", algorithm := .cv } ∧
    ¬ (1 ≤ stepOf b64 { name := "x", algorithm := .cv, voltageMin := 2500, voltageMax := 2500 }) := by
  constructor
  · constructor <;> decide +kernel
  · decide +kernel

/-- C30: one sample and no explicit step: `ZeroDivisionError` instead of a `ValueError`. -/
theorem C30_samples_violated (adc dac : CalPair) :
    VhrvRaw.validate fl adc dac { name := "x", algorithm := .cv, samplesN := 1 } = .error .zeroDivisionError := by
  unfold VhrvRaw.validate VhrvRaw.query
  rw [if_neg (by decide)]
  rfl

/-- C30: an algorithm that does not suit the use is rejected with a `ValueError`. -/
theorem C30_algorithm_rejected (c : VhrvCfg) (dtypeIn : Option EnergyDType) (w : Option ℤ) (v : Option ℚ) (forEmu : Bool)
    (hf : FrontEndOk dtypeIn w v forEmu)
    (halg : if forEmu then c.algorithm.dtype ≠ .ivsample else c.algorithm = .neutral) :
    fromVhrv fl c dtypeIn w v forEmu = .error .valueError := by
  have ha : c.algorithmNum forEmu = .error .valueError := by
    unfold VhrvCfg.algorithmNum
    cases forEmu
    · simp only [Bool.false_eq_true, if_false] at halg
      rw [halg]; rfl
    · simp only [if_true] at halg
      simp [halg]
  unfold fromVhrv
  have h1 : ¬ (forEmu && !(dtypeIn == some .ivsample || dtypeIn == some .ivcurve)) = true := by
    intro hh
    simp only [Bool.and_eq_true] at hh
    rcases hf hh.1 with rfl | ⟨rfl, -⟩ <;> simp at hh
  have h2 : ¬ (forEmu && dtypeIn == some .ivcurve && v.isNone) = true := by
    intro hh
    simp only [Bool.and_eq_true] at hh
    rcases hf hh.1.1 with rfl | ⟨rfl, h2, h3⟩
    · simp at hh
    · cases v <;> simp at hh h2
  have h3 : ¬ (forEmu && dtypeIn == some .ivcurve && w.isNone) = true := by
    intro hh
    simp only [Bool.and_eq_true] at hh
    rcases hf hh.1.1 with rfl | ⟨rfl, h2, h3⟩
    · simp at hh
    · cases w <;> simp at hh h3
  simp only [if_neg h1, if_neg h2, if_neg h3]
  change (do let algorithm ← c.algorithmNum forEmu; _) = _
  rw [ha]; rfl

/-- C30: an iv-curve recording that is not described completely is rejected with a `ValueError`. -/
theorem C30_front_end_rejected (c : VhrvCfg) (w : Option ℤ) (v : Option ℚ) (hwv : w = none ∨ v = none) :
    fromVhrv fl c (some .ivcurve) w v true = .error .valueError := by
  unfold fromVhrv
  rcases hwv with rfl | rfl
  · cases v <;> rfl
  · cases w <;> rfl

/-- C30: an unsuitable type of recording raises `NotImplementedError` instead. -/
theorem C30_dtype_violated (c : VhrvCfg) (w : Option ℤ) (v : Option ℚ) :
    fromVhrv fl c (some .iscVoc) w v true = .error .notImplementedError ∧
    fromVhrv fl c none w v true = .error .notImplementedError := ⟨rfl, rfl⟩

example : FrontEndOk (some .ivsample) none none true ∧ Algorithm.ivcurve.dtype ≠ .ivsample := ⟨fun _ => Or.inl rfl, by decide⟩

/-! ## C70 registers hold the configured quantities -/

theorem acc_le (h : AccRounding fl) {x : ℚ} (h0 : 0 ≤ x) (h1 : x ≤ 4300000000) : |fl x - x| ≤ 1/2000000 := by
  have tiny : (2:ℚ)^(-1075 : ℤ) ≤ 1/2^100 :=
    le_trans (zpow_le_zpow_right₀ (by norm_num) (by norm_num : (-1075:ℤ) ≤ -100)) (by norm_num)
  refine le_trans (h.err x) ?_
  rw [abs_of_nonneg h0]
  have : x / 2^53 ≤ 478/1000000000 := by
    rw [div_le_iff₀ (by positivity)]; norm_num; linarith
  norm_num at tiny ⊢
  linarith

theorem reg_close (h : AccRounding fl) {x y : ℚ} {m : ℕ} (hm : u32 (pyRound (fl x)) = .ok m) (h0 : 0 ≤ x)
    (h1 : x ≤ 4300000000) {e : ℚ} (hxy : |x - y| ≤ e) : |(m:ℚ) - y| ≤ 1/2 + 1/2000000 + e := by
  have a := acc_le h h0 h1
  have b := abs_pyRound_sub_le (fl x)
  have q := (u32_ok_iff.1 hm).1
  rw [← q] at b
  have c := abs_add_le ((((m:ℤ):ℚ) - fl x) + (fl x - x)) (x - y)
  have d := abs_add_le (((m:ℤ):ℚ) - fl x) (fl x - x)
  have : (((m:ℤ):ℚ) - fl x) + (fl x - x) + (x - y) = (m:ℚ) - y := by push_cast; ring
  rw [this] at c
  linarith

/-- "Register `m` holds the quantity `y`": it is off by at most half a unit plus one millionth. -/
def Holds (m : ℕ) (y : ℚ) : Prop := |(m:ℚ) - y| ≤ 1/2 + 1/1000000

theorem reg_holds (h : AccRounding fl) {x : ℚ} {m : ℕ} (hm : u32 (pyRound (fl x)) = .ok m) (h0 : 0 ≤ x)
    (h1 : x ≤ 4300000000) : Holds m x := by
  have := reg_close h hm h0 h1 (y := x) (e := 0) (by simp)
  unfold Holds; linarith

theorem milli_close (h : AccRounding fl) : |fl (1/1000) - 1/1000| ≤ 1/10^18 := by
  have tiny : (2:ℚ)^(-1075 : ℤ) ≤ 1/2^100 :=
    le_trans (zpow_le_zpow_right₀ (by norm_num) (by norm_num : (-1075:ℤ) ≤ -100)) (by norm_num)
  refine le_trans (h.err _) ?_
  rw [abs_of_nonneg (by norm_num)]
  norm_num at tiny ⊢
  linarith

/-- Times: milliseconds to samples at 100 kHz. -/
theorem tick_holds (h : AccRounding fl) {x : ℚ} {m : ℕ} (hm : u32 (pyRound (fl (fl (x * 100000) * fl (1/1000)))) = .ok m)
    (h0 : 0 ≤ x) (h1 : x ≤ 10000) : Holds m (x * 100) := by
  have a := acc_le h (x := x * 100000) (by linarith) (by linarith)
  have k := milli_close h
  have k0 : 0 ≤ fl (1/1000) := h.nonneg (by norm_num)
  have k1 : fl (1/1000) ≤ 1 := fl_le_one_of_milli h.toRounding
  have a0 : 0 ≤ fl (x * 100000) := h.nonneg (by linarith)
  have a1 : fl (x * 100000) ≤ 1000000001 := by have := abs_le.1 a; norm_num at this ⊢; linarith [this.2]
  have hk2 : fl (1/1000) ≤ 2/1000 := by have := (abs_le.1 k).2; norm_num at this ⊢; linarith
  have hclose : |fl (x * 100000) * fl (1/1000) - x * 100| ≤ 1/10^8 := by
    have e : fl (x * 100000) * fl (1/1000) - x * 100 =
        (fl (x * 100000) - x * 100000) * fl (1/1000) + x * 100000 * (fl (1/1000) - 1/1000) := by ring
    rw [e]
    refine le_trans (abs_add_le _ _) ?_
    rw [abs_mul, abs_mul, abs_of_nonneg k0, abs_of_nonneg (by linarith : 0 ≤ x * 100000)]
    have p1 : |fl (x * 100000) - x * 100000| * fl (1/1000) ≤ 1/2000000 * (2/1000) :=
      mul_le_mul a hk2 k0 (by norm_num)
    have p2 : x * 100000 * |fl (1/1000) - 1/1000| ≤ 1000000000 * (1/10^18) :=
      mul_le_mul (by linarith) k (abs_nonneg _) (by norm_num)
    norm_num at p1 p2 ⊢
    linarith
  have := reg_close h hm (mul_nonneg a0 k0) (by nlinarith) hclose
  unfold Holds
  norm_num at this ⊢
  linarith

/-- C70: the registers of a translated source hold the configured quantities in the units of the PRU (µV, nA, samples). -/
theorem C70_source_registers (h : AccRounding fl) (c : VsrcCfg) (hc : c.Valid fl) (dtypeIn : EnergyDType) (logMid : Bool)
    (p : CnvCfg) (hp : fromVsrc fl sqrt c dtypeIn logMid = .ok p) :
    Holds p.intervalStartupDelayDrainN (c.intervalStartupDelayDrain * 100) ∧
    Holds p.vInputMax (c.vInputMax * 1000) ∧ Holds p.iInputMax (c.iInputMax * 1000000) ∧
    Holds p.vInputDrop (c.vInputDrop * 1000) ∧ Holds p.vIntermediateInit (c.vIntermediateInit * 1000) ∧
    Holds p.iIntermediateLeak c.iIntermediateLeak ∧
    Holds p.intervalCheckThresholdsN (c.intervalCheckThresholds * 100) ∧
    Holds p.vPwrGoodEnableThreshold (c.vPwrGoodEnable * 1000) ∧
    Holds p.vPwrGoodDisableThreshold (c.vPwrGoodDisable * 1000) ∧
    p.immediatePwrGoodSignal = (if c.immediatePwrGoodSignal then 1 else 0) ∧
    Holds p.vOutputLogGpioThreshold (c.vOutputLogGpio * 1000) ∧
    Holds p.vInputBoostThreshold (c.vInputBoost * 1000) ∧ Holds p.vIntermediateMax (c.vIntermediateMax * 1000) ∧
    Holds p.vOutput (c.vOutput * 1000) ∧ Holds p.vBuckDrop (c.vBuckDrop * 1000) ∧
    (p.lutInputVMinLog2 : ℤ) = c.lutInputVMin ∧ (p.lutInputIMinLog2 : ℤ) + 1 = c.lutInputIMin ∧
    (p.lutOutputIMinLog2 : ℤ) + 1 = c.lutOutputIMin ∧
    (c.enableBuck = false → Holds p.vEnableOutputThreshold (c.vEnable * 1000) ∧ Holds p.vDisableOutputThreshold (c.vDisable * 1000)) := by
  have r := fromVsrc_regs hp
  have mul3 : ∀ {x hi : ℚ} {m : ℕ}, inRange 0 hi x = true → hi ≤ 4290000 → u32 (pyRound (fl (x * 1000))) = .ok m →
      Holds m (x * 1000) := by
    intro x hi m hx hhi hm
    have := inRange_iff.1 hx
    exact reg_holds h hm (by linarith) (by linarith)
  refine ⟨?_, mul3 hc.vInputMax (by norm_num) r.vInputMax, ?_, mul3 hc.vInputDrop (by norm_num) r.vInputDrop,
    mul3 hc.vIntermediateInit (by norm_num) r.vIntermediateInit, ?_, ?_, mul3 hc.vPwrGoodEnable (by norm_num) r.vPwrGoodEnableThreshold,
    mul3 hc.vPwrGoodDisable (by norm_num) r.vPwrGoodDisableThreshold, ?_, mul3 hc.vOutputLogGpio (by norm_num) r.vOutputLogGpioThreshold,
    mul3 hc.vInputBoost (by norm_num) r.vInputBoostThreshold, mul3 hc.vIntermediateMax (by norm_num) r.vIntermediateMax,
    mul3 hc.vOutput (by norm_num) r.vOutput, mul3 hc.vBuckDrop (by norm_num) r.vBuckDrop,
    (u32_ok_iff.1 r.lutInputVMinLog2).1, ?_, ?_, ?_⟩
  · have := inRange_iff.1 hc.intervalStartupDelayDrain
    exact tick_holds h r.intervalStartupDelayDrainN this.1 this.2
  · have hx := inRange_iff.1 hc.iInputMax
    have := reg_holds h r.iInputMax (by linarith) (by linarith)
    norm_num at this ⊢
    exact this
  · have b := abs_pyRound_sub_le c.iIntermediateLeak
    have q := (u32_ok_iff.1 r.iIntermediateLeak).1
    rw [← q] at b
    unfold Holds
    push_cast at b
    linarith
  · have hx := inRange_iff.1 hc.intervalCheckThresholds
    exact tick_holds h r.intervalCheckThresholdsN hx.1 (by linarith [hx.2])
  · have q := (u32_ok_iff.1 r.immediatePwrGoodSignal).1
    cases hb : c.immediatePwrGoodSignal <;> rw [hb] at q <;> simpa using q
  · have := (u32_ok_iff.1 r.lutInputIMinLog2).1
    omega
  · have := (u32_ok_iff.1 r.lutOutputIMinLog2).1
    omega
  · intro hb
    have he : (c.internalStates fl sqrt).vEnable = c.vEnable ∧ (c.internalStates fl sqrt).vDisable = c.vDisable := by
      unfold VsrcCfg.internalStates
      rw [hb]
      exact ⟨rfl, rfl⟩
    have r1 := r.vEnableOutputThreshold
    have r2 := r.vDisableOutputThreshold
    rw [he.1] at r1
    rw [he.2] at r2
    exact ⟨mul3 hc.vEnable (by norm_num) r1, mul3 hc.vDisable (by norm_num) r2⟩

/-- C70: the efficiency tables: input efficiencies in 1/256 (at most 255), inverse output efficiencies in 1/16 (at most 2^14),
entry by entry. -/
theorem C70_efficiency_tables (h : AccRounding fl) (c : VsrcCfg) (hc : c.Valid fl) (dtypeIn : EnergyDType) (logMid : Bool)
    (p : CnvCfg) (hp : fromVsrc fl sqrt c dtypeIn logMid = .ok p) :
    (∀ i j : ℕ, ∀ row x, c.lutInput[i]? = some row → row[j]? = some x →
      ∃ prow m, p.lutInpEfficiencyN8[i]? = some prow ∧ prow[j]? = some m ∧
        (Holds m (256 * x) ∨ (m = 255 ∧ 255 ≤ 256 * x + 1))) ∧
    (∀ j : ℕ, ∀ x, c.lutOutput[j]? = some x →
      ∃ m, p.lutOutInvEfficiencyN4[j]? = some m ∧
        ((0 < x ∧ Holds m (16 / x)) ∨ (m = 2^14 ∧ 2^14 * x ≤ 16 + x))) := by
  have r := fromVsrc_regs hp
  constructor
  · intro i j row x hi hj
    obtain ⟨prow, e1, e2⟩ := mapM_ok_get _ r.lutInpEfficiencyN8 i row hi
    obtain ⟨m, e3, e4⟩ := mapM_ok_get _ e2 j x hj
    refine ⟨prow, m, e1, e3, ?_⟩
    have hx := inRange_iff.1 ((hc.lutInput.2 row (List.mem_of_getElem? hi)).2 x (List.mem_of_getElem? hj))
    have b := abs_pyRound_sub_le (fl (256 * x))
    have a := acc_le h (x := 256 * x) (by linarith) (by linarith)
    have h0 := pyRound_nonneg (h.nonneg (by linarith : 0 ≤ 256 * x))
    unfold lutInpEntry at e4
    dsimp only at e4
    split_ifs at e4
    injection e4 with e4
    rw [abs_le] at a b
    rcases le_total (pyRound (fl (256 * x))) 255 with hle | hle
    · left
      rw [min_eq_right hle] at e4
      have hm : ((m : ℕ) : ℚ) = (pyRound (fl (256 * x)) : ℚ) := by
        rw [← e4]; exact_mod_cast congrArg (fun z : ℤ => (z:ℚ)) (Int.toNat_of_nonneg h0)
      unfold Holds
      rw [hm, abs_le]
      constructor <;> linarith [a.1, a.2, b.1, b.2]
    · right
      rw [min_eq_left hle] at e4
      have : (255:ℚ) ≤ pyRound (fl (256 * x)) := by exact_mod_cast hle
      refine ⟨by rw [← e4]; rfl, by linarith [a.2, b.2]⟩
  · intro j x hj
    obtain ⟨m, e3, e4⟩ := mapM_ok_get _ r.lutOutInvEfficiencyN4 j x hj
    refine ⟨m, e3, ?_⟩
    have hx := inRange_iff.1 (hc.lutOutput.2 x (List.mem_of_getElem? hj))
    unfold lutOutEntry at e4
    split_ifs at e4 with h1 h2
    · have q := (u32_ok_iff.1 e4).1
      have b := abs_pyRound_sub_le (fl (2^4 / x))
      have hnn : (0:ℚ) ≤ 2^4 / x := by positivity
      rw [abs_le] at b
      by_cases hbig : (2:ℚ)^4 / x ≤ 4300000000
      · have a := acc_le h hnn hbig
        rw [abs_le] at a
        rcases le_total (pyRound (fl (2^4 / x))) (2^14) with hle | hle
        · left
          rw [min_eq_right hle] at q
          refine ⟨h1, ?_⟩
          unfold Holds
          have : ((m:ℕ):ℚ) = (pyRound (fl (2^4 / x)) : ℚ) := by exact_mod_cast congrArg (fun z : ℤ => (z:ℚ)) q
          rw [this, abs_le]
          norm_num at a b ⊢
          constructor <;> linarith [a.1, a.2, b.1, b.2]
        · right
          rw [min_eq_left hle] at q
          have hge : ((2^14 : ℤ):ℚ) ≤ pyRound (fl (2^4 / x)) := by exact_mod_cast hle
          refine ⟨by exact_mod_cast q, ?_⟩
          have : (2:ℚ)^14 - 1 ≤ 2^4 / x := by push_cast at hge; linarith [a.2, b.2]
          rw [le_div_iff₀ h1] at this
          norm_num at this ⊢
          linarith
      · right
        push Not at hbig
        have hge : ((2^14 : ℤ):ℚ) ≤ fl (2^4 / x) := h.int_le (by norm_num) (by push_cast; linarith)
        have hge' := intCast_le_pyRound hge
        rw [min_eq_left hge'] at q
        refine ⟨by exact_mod_cast q, ?_⟩
        have : (2:ℚ)^14 ≤ 2^4 / x := by linarith
        rw [le_div_iff₀ h1] at this
        norm_num at this ⊢
        linarith
    · right
      have q := (u32_ok_iff.1 e4).1
      refine ⟨by exact_mod_cast q, ?_⟩
      have : x = 0 := le_antisymm (not_lt.1 h1) hx.1
      rw [this]; norm_num

/-- C70: the registers of a translated harvester. -/
theorem C70_harvester_registers (h : AccRounding fl) (c : VhrvCfg) (hc : c.Valid fl) (dtypeIn : Option EnergyDType) (w : Option ℤ)
    (v : Option ℚ) (forEmu : Bool) (p : HrvCfg) (hp : fromVhrv fl c dtypeIn w v forEmu = .ok p) :
    Holds p.voltage (c.voltage * 1000) ∧ Holds p.voltageMin (c.voltageMin * 1000) ∧ Holds p.voltageMax (c.voltageMax * 1000) ∧
    (v = none → Holds p.voltageStep (c.voltageStep * 1000)) ∧ (∀ x ∈ v, 0 ≤ x → x ≤ 4290 → Holds p.voltageStep (x * 1000000)) ∧
    Holds p.currentLimit (c.currentLimit * 1000) ∧
    (Holds p.setpointN8 (c.setpointN * 256) ∨ (p.setpointN8 = 255 ∧ 255 ≤ c.setpointN * 256 + 1)) ∧
    (p.waitCyclesN : ℤ) = c.waitCycles ∧
    (∀ n ∈ w, (p.windowSize : ℤ) = n) ∧ (w = none → forEmu = false → (p.windowSize : ℤ) = c.samplesN) ∧
    (w = none → forEmu = true → p.windowSize = 0) := by
  have hfe := (fromVhrv_regs hp).1
  have r := (fromVhrv_regs hp).2
  obtain ⟨hs, hvo, hv0, hv1, hcl, hst, hsp, hi, hd, hwt⟩ := VhrvCfg_ranges hc
  have e3 : (10:ℚ)^3 = 1000 := by norm_num
  have mul3 : ∀ {x : ℚ} {m : ℕ}, 0 ≤ x → x ≤ 4290000 → u32 (pyRound (fl (x * 10^3))) = .ok m → Holds m (x * 1000) := by
    intro x m h0 h1 hm
    rw [e3] at hm
    exact reg_holds h hm (by linarith) (by linarith)
  refine ⟨mul3 hvo.1 (by linarith) r.voltage, mul3 hv0.1 (by linarith) r.voltageMin, mul3 hv1.1 (by linarith) r.voltageMax,
    ?_, ?_, mul3 (by linarith) (by linarith) r.currentLimit, ?_, (u32_ok_iff.1 r.waitCyclesN).1, ?_, ?_, ?_⟩
  · intro hv
    have := r.voltageStep
    rw [hv] at this
    exact mul3 (by linarith) (by linarith) this
  · intro x hx x0 x1
    have hv : v = some x := hx
    have rs := r.voltageStep
    rw [hv] at rs
    simp only [usedStep] at rs
    rw [e3] at rs
    have f1 : |fl (1000 * x) - 1000 * x| ≤ 5/10^10 := by
      have tiny : (2:ℚ)^(-1075 : ℤ) ≤ 1/2^100 :=
        le_trans (zpow_le_zpow_right₀ (by norm_num) (by norm_num : (-1075:ℤ) ≤ -100)) (by norm_num)
      refine le_trans (h.err _) ?_
      rw [abs_of_nonneg (by linarith : 0 ≤ 1000 * x)]
      have : 1000 * x / 2^53 ≤ 48/10^11 := by
        rw [div_le_iff₀ (by positivity)]; norm_num; linarith
      norm_num at tiny this ⊢
      linarith
    have f0 : 0 ≤ fl (1000 * x) := h.nonneg (by linarith)
    rw [abs_le] at f1
    have cl : |fl (1000 * x) * 1000 - x * 1000000| ≤ 1/2000000 := by
      have := f1.1
      have := f1.2
      rw [abs_le]
      norm_num at *
      constructor <;> linarith
    have hb : fl (1000 * x) * 1000 ≤ 4300000000 := by
      have := (abs_le.1 cl).2
      linarith
    have := reg_close h rs (by linarith) hb cl
    unfold Holds
    linarith
  · have b := abs_pyRound_sub_le (min 255 (fl (c.setpointN * 2^8)))
    have q := (u32_ok_iff.1 r.setpointN8).1
    have a := acc_le h (x := c.setpointN * 2^8) (by linarith) (by linarith)
    rw [← q] at b
    rw [abs_le] at a b
    rcases le_total (fl (c.setpointN * 2^8)) 255 with hle | hle
    · left
      rw [min_eq_right hle] at b
      unfold Holds
      rw [abs_le]
      norm_num at a b ⊢
      constructor <;> linarith [a.1, a.2, b.1, b.2]
    · right
      rw [min_eq_left hle] at q
      have h255 : pyRound 255 = 255 := by
        have := pyRound_intCast 255
        exact_mod_cast this
      rw [h255] at q
      refine ⟨by exact_mod_cast q, ?_⟩
      norm_num at a hle
      linarith [a.2]
  · intro n hn
    have hw : w = some n := hn
    have := (u32_ok_iff.1 r.windowSize).1
    rw [hw] at this
    exact this
  · intro hw hf
    have := (u32_ok_iff.1 r.windowSize).1
    rw [hw, hf] at this
    exact this
  · intro hw hf
    have := (u32_ok_iff.1 r.windowSize).1
    subst hw hf
    rcases hfe rfl with hd | ⟨hd, hx, hy⟩
    · rw [hd] at this
      simp only [Option.getD_none, VhrvCfg.windowSize, Bool.not_true, Bool.false_eq_true, if_false, Option.getD_some] at this
      exact_mod_cast this
    · cases hy

example : ∃ p, fromVhrv b64 demoVhrv (some .ivsample) none none true = .ok p := demoVsrc_valid.post

end Verif.Props
