import Verif.Lemmas.Calibration
import Verif.Py.Binary64

/-!
# C01, C02, C03, C05, C07 — calibration

`exact` below is exact arithmetic; other theorems hold for every float rounding.
-/

namespace Verif.Props
open Verif.Py Verif.Model

/-- Exact arithmetic: no rounding at all. -/
abbrev exact : ℚ → ℚ := fun x => x

/-! ## C01 raw → SI → raw is the identity -/

/-- Every raw code survives (negative SI values allowed, the default). -/
theorem C01_raw_si_raw (c : CalPair) (hc : c.Valid) (raw : ℕ) :
    c.siToRaw exact (c.rawToSi exact raw) = raw := by
  have hg : c.gain ≠ 0 := (show 0 < c.gain from hc).ne'
  rw [CalPair.rawToSi_id, CalPair.siToRaw_id, add_sub_cancel_right, mul_div_cancel_right₀ _ hg,
    max_eq_left (by positivity)]
  simp

example : CalPair.Valid ⟨3/10^9, -7/1000⟩ := by decide +kernel

/-- With negative SI values disallowed the identity still holds from the SI zero point on. -/
theorem C01_raw_si_raw_nonneg (c : CalPair) (hc : c.Valid) (raw : ℕ)
    (h : 0 ≤ raw * c.gain + c.offset) :
    c.siToRaw exact (c.rawToSi exact raw (allowNegative := false)) = raw := by
  have e : c.rawToSi exact raw (allowNegative := false) = c.rawToSi exact raw := by
    simp [CalPair.rawToSi, h]
  rw [e]; exact C01_raw_si_raw c hc raw

example : (0:ℚ) ≤ (5000:ℕ) * (⟨1/1000, -2⟩ : CalPair).gain + (⟨1/1000, -2⟩ : CalPair).offset := by
  norm_num

/-- The identity in machine arithmetic: every 32-bit code, every accurate rounding. -/
theorem C01_raw_si_raw_float {fl : ℚ → ℚ} (h : AccRounding fl) (c : CalPair)
    (hg : 1 / 10^100 ≤ c.gain) (ho : |c.offset| ≤ 2^49 * c.gain) (raw : ℕ) (hr : raw < 2^32) :
    c.siToRaw fl (c.rawToSi fl raw) = raw := by
  have hr' : (raw : ℚ) ≤ 2^32 := by exact_mod_cast hr.le
  have hfl : fl raw = raw := h.toRounding.exactNat raw (by omega)
  have key := chain_error h hg ho (r := raw) (by positivity) hr'
  simp only [CalPair.siToRaw, CalPair.rawToSi, hfl, Bool.not_true, Bool.false_eq_true, if_false]
  apply pyRound_eq_of_lt
  rcases le_total 0 (fl (fl (fl (fl (raw * c.gain) + c.offset) - c.offset) / c.gain)) with h0 | h0
  · rw [max_eq_left h0]; exact_mod_cast key
  · rw [max_eq_right h0]
    rw [abs_lt] at key
    have : (raw : ℚ) < 1/2 := by linarith [key.1]
    have h00 : raw = 0 := by
      by_contra hne
      have : (1:ℚ) ≤ raw := by exact_mod_cast Nat.one_le_iff_ne_zero.mpr hne
      linarith
    subst h00; simp

/-- The default recording calibration meets the conditions, and so does IEEE-754 arithmetic. -/
example : AccRounding b64 ∧ 1 / 10^100 ≤ (CalSeries.default b64).voltage.gain ∧
    |(CalSeries.default b64).voltage.offset| ≤ 2^49 * (CalSeries.default b64).voltage.gain :=
  ⟨b64_accRounding, by decide +kernel, by decide +kernel⟩

/-! ## C02 SI → raw → SI is off by at most half a step -/

theorem C02_si_raw_si (c : CalPair) (hc : c.Valid) (si : ℚ) (h : c.offset ≤ si) :
    |c.rawToSi exact (c.siToRaw exact si) - si| ≤ c.gain / 2 := by
  have hg : 0 < c.gain := hc
  rw [CalPair.siToRaw_id, CalPair.rawToSi_id]
  have hnn : 0 ≤ (si - c.offset) / c.gain := div_nonneg (by linarith) hg.le
  rw [max_eq_left hnn]
  have hr := abs_pyRound_sub_le ((si - c.offset) / c.gain)
  set r := (pyRound ((si - c.offset) / c.gain) : ℚ)
  have e : r * c.gain + c.offset - si = (r - (si - c.offset) / c.gain) * c.gain := by
    field_simp; ring
  rw [e, abs_mul, abs_of_pos hg]
  calc _ ≤ 1/2 * c.gain := mul_le_mul_of_nonneg_right hr hg.le
    _ = c.gain / 2 := by ring

example : CalPair.Valid ⟨3/10^9, 0⟩ ∧ (⟨3/10^9, 0⟩ : CalPair).offset ≤ 3.3 :=
  ⟨by decide +kernel, by norm_num⟩

/-- Values below the SI value of code 0 are stored as code 0. -/
theorem C02_below_is_zero {fl : ℚ → ℚ} (h : Rounding fl) (c : CalPair) (hc : c.Valid) (si : ℚ)
    (hs : si ≤ c.offset) : c.siToRaw fl si = 0 := by
  have hg : 0 < c.gain := hc
  have : fl (fl (si - c.offset) / c.gain) ≤ 0 :=
    h.nonpos (div_nonpos_of_nonpos_of_nonneg (h.nonpos (by linarith)) hg.le)
  simp [CalPair.siToRaw, this]

example : Rounding b64 ∧ (-1 : ℚ) ≤ (⟨3/10^9, 0⟩ : CalPair).offset := ⟨b64_rounding, by norm_num⟩

/-! ## C03 order, sign, element-wise -/

theorem C03_si_to_raw_nonneg {fl : ℚ → ℚ} (c : CalPair) (si : ℚ) : 0 ≤ c.siToRaw fl si := by
  exact pyRound_nonneg (le_max_right _ _)

theorem C03_raw_to_si_nonneg {fl : ℚ → ℚ} (c : CalPair) (raw : ℚ) :
    0 ≤ c.rawToSi fl raw (allowNegative := false) := by
  simp [CalPair.rawToSi]

/-- Only a negative offset makes SI values negative. -/
theorem C03_raw_to_si_sign {fl : ℚ → ℚ} (h : Rounding fl) (c : CalPair) (hc : c.Valid)
    (ho : 0 ≤ c.offset) (raw : ℚ) (hr : 0 ≤ raw) : 0 ≤ c.rawToSi fl raw := by
  have hg : 0 < c.gain := hc
  have : 0 ≤ fl (fl (fl raw * c.gain) + c.offset) := by
    apply h.nonneg
    have := h.nonneg (mul_nonneg (h.nonneg hr) hg.le)
    linarith
  simpa [CalPair.rawToSi] using this

theorem C03_si_to_raw_mono {fl : ℚ → ℚ} (h : Rounding fl) (c : CalPair) (hc : c.Valid)
    (x y : ℚ) (hxy : x ≤ y) : c.siToRaw fl x ≤ c.siToRaw fl y := by
  have hg : 0 < c.gain := hc
  apply pyRound_mono
  apply max_le_max_right
  exact h.mono (div_le_div_of_nonneg_right (h.mono (by linarith)) hg.le)

theorem C03_raw_to_si_mono {fl : ℚ → ℚ} (h : Rounding fl) (c : CalPair) (hc : c.Valid)
    (x y : ℚ) (hxy : x ≤ y) (neg : Bool) : c.rawToSi fl x neg ≤ c.rawToSi fl y neg := by
  have hg : 0 < c.gain := hc
  have key : fl (fl (fl x * c.gain) + c.offset) ≤ fl (fl (fl y * c.gain) + c.offset) := by
    apply h.mono
    have := h.mono (mul_le_mul_of_nonneg_right (h.mono hxy) hg.le)
    linarith
  cases neg
  · simpa [CalPair.rawToSi] using max_le_max_right 0 key
  · simpa [CalPair.rawToSi] using key

/-- Converting an array is converting its elements, in order and number. -/
theorem C03_raw_to_si_elementwise (fl : ℚ → ℚ) (c : CalPair) (raws : List ℚ) (neg : Bool) :
    c.rawToSiArr fl raws neg = raws.map (fun r => c.rawToSi fl r neg) := by
  cases neg <;> simp [CalPair.rawToSiArr, CalPair.rawToSi, masked_eq_max, Function.comp_def]

theorem C03_si_to_raw_elementwise (fl : ℚ → ℚ) (c : CalPair) (sis : List ℚ) :
    c.siToRawArr fl sis = sis.map (fun x => ((c.siToRaw fl x : ℤ) : ℚ)) := by
  simp [CalPair.siToRawArr, CalPair.siToRaw, masked_eq_max, Function.comp_def]

example : Rounding b64 ∧ CalPair.Valid ⟨1/13107, -1/100⟩ ∧ (1:ℚ) ≤ 2 :=
  ⟨b64_rounding, by decide +kernel, by norm_num⟩

/-! ## C05 sysfs export -/

/-- All entries fit the kernel's 32-bit containers: gains unsigned, offsets signed. -/
structure FitsPru (s : SysfsCal) : Prop where
  adcCurrentGain : 0 ≤ s.adcCurrentGain ∧ s.adcCurrentGain ≤ 2^32 - 1
  adcCurrentOffset : -2^31 ≤ s.adcCurrentOffset ∧ s.adcCurrentOffset ≤ 2^31 - 1
  adcVoltageGain : 0 ≤ s.adcVoltageGain ∧ s.adcVoltageGain ≤ 2^32 - 1
  adcVoltageOffset : -2^31 ≤ s.adcVoltageOffset ∧ s.adcVoltageOffset ≤ 2^31 - 1
  dacVoltageGain : 0 ≤ s.dacVoltageGain ∧ s.dacVoltageGain ≤ 2^32 - 1
  dacVoltageOffset : -2^31 ≤ s.dacVoltageOffset ∧ s.dacVoltageOffset ≤ 2^31 - 1

theorem checkSysfs_iff (s t : SysfsCal) : checkSysfs s = some t ↔ s = t ∧ FitsPru s := by
  unfold checkSysfs
  constructor
  · intro h
    simp only at h
    split at h
    · cases h
    · rename_i hn
      simp only [Bool.or_eq_true, Bool.not_eq_true', Bool.and_eq_false_iff, decide_eq_false_iff_not,
        not_or, not_not] at hn
      refine ⟨Option.some.inj h, ?_⟩
      constructor <;> constructor <;> omega
  · rintro ⟨rfl, h⟩
    have h1 := h.1; have h2 := h.2; have h3 := h.3; have h4 := h.4; have h5 := h.5; have h6 := h.6
    simp only
    rw [if_neg]
    simp only [Bool.or_eq_true, Bool.not_eq_true', Bool.and_eq_false_iff, decide_eq_false_iff_not,
        not_or, not_not]
    omega

/-- The values a harvester export is meant to contain, written as distance to the exactly scaled
calibration (ADC: nA resp. uV with gain shifted by 8 bit; DAC: uV with gain shifted by 20 bit). -/
structure HrvScaled (c : CalHarvester) (s : SysfsCal) : Prop where
  adcCurrentGain : |(s.adcCurrentGain : ℚ) - 10^9 * 2^8 * c.adcCHrv.gain| ≤ 1/2
  adcCurrentOffset : |(s.adcCurrentOffset : ℚ) - 10^9 * c.adcCHrv.offset| ≤ 1/2
  adcVoltageGain : |(s.adcVoltageGain : ℚ) - 10^6 * 2^8 * c.adcVSense.gain| ≤ 1/2
  adcVoltageOffset : |(s.adcVoltageOffset : ℚ) - 10^6 * c.adcVSense.offset| ≤ 1/2
  dacVoltageGain : |(s.dacVoltageGain : ℚ) - 2^20 / (10^6 * c.dacVHrv.gain)| ≤ 1/2
  dacVoltageOffset : |(s.dacVoltageOffset : ℚ) - 10^6 * c.dacVHrv.offset| ≤ 1/2

/-- Same for the emulator: port A is exported, the ADC voltage channel is neutral. -/
structure EmuScaled (c : CalEmulator) (s : SysfsCal) : Prop where
  adcCurrentGain : |(s.adcCurrentGain : ℚ) - 10^9 * 2^8 * c.adcCA.gain| ≤ 1/2
  adcCurrentOffset : |(s.adcCurrentOffset : ℚ) - 10^9 * c.adcCA.offset| ≤ 1/2
  adcVoltageGain : s.adcVoltageGain = 256000000
  adcVoltageOffset : s.adcVoltageOffset = 0
  dacVoltageGain : |(s.dacVoltageGain : ℚ) - 2^20 / (10^6 * c.dacVA.gain)| ≤ 1/2
  dacVoltageOffset : |(s.dacVoltageOffset : ℚ) - 10^6 * c.dacVA.offset| ≤ 1/2

/-- Whatever the arithmetic does, an accepted export fits. -/
theorem C05_hrv_export_fits (fl : ℚ → ℚ) (c : CalHarvester) (s : SysfsCal)
    (h : c.exportForSysfs fl = some s) : FitsPru s := by
  have := (checkSysfs_iff _ _).mp h
  exact this.1 ▸ this.2

theorem C05_emu_export_fits (fl : ℚ → ℚ) (c : CalEmulator) (s : SysfsCal)
    (h : c.exportForSysfs fl = some s) : FitsPru s := by
  have := (checkSysfs_iff _ _).mp h
  exact this.1 ▸ this.2

/-- The accepted values are the scaled calibration. -/
theorem C05_hrv_export_scaled (c : CalHarvester) (s : SysfsCal)
    (h : c.exportForSysfs exact = some s) : HrvScaled c s := by
  obtain ⟨rfl, _⟩ := (checkSysfs_iff _ _).mp h
  constructor <;> simp only [CalHarvester.sysfsRaw, mul_one] <;> exact abs_pyRound_sub_le _

theorem C05_emu_export_scaled (c : CalEmulator) (s : SysfsCal)
    (h : c.exportForSysfs exact = some s) : EmuScaled c s := by
  obtain ⟨rfl, _⟩ := (checkSysfs_iff _ _).mp h
  constructor <;> simp only [CalEmulator.sysfsRaw, mul_one] <;> first
    | exact abs_pyRound_sub_le _
    | (norm_num; done)
    | decide +kernel

/-- It is refused exactly if one of the rounded scaled values does not fit. -/
theorem C05_refused_iff (fl : ℚ → ℚ) (c : CalHarvester) (d : CalEmulator) :
    (c.exportForSysfs fl = none ↔ ¬ FitsPru (c.sysfsRaw fl)) ∧
    (d.exportForSysfs fl = none ↔ ¬ FitsPru (d.sysfsRaw fl)) := by
  have key : ∀ s, checkSysfs s = none ↔ ¬ FitsPru s := by
    intro s
    rw [Option.eq_none_iff_forall_ne_some]
    constructor
    · intro h hf; exact h s ((checkSysfs_iff _ _).mpr ⟨rfl, hf⟩)
    · intro h t ht; exact h ((checkSysfs_iff _ _).mp ht).2
  exact ⟨key _, key _⟩

/-- The default harvester calibration is accepted; a gain of 1/50 A per bit is not. -/
example : (CalHarvester.exportForSysfs b64
      ⟨⟨1/13107,0⟩,⟨1/13107,0⟩,⟨1/51200,0⟩,⟨1/4915200,0⟩⟩).isSome = true ∧
    (CalHarvester.exportForSysfs b64
      ⟨⟨1/13107,0⟩,⟨1/13107,0⟩,⟨1/51200,0⟩,⟨1/50,0⟩⟩) = none := by decide +kernel

/-! ## C07 default calibration vs hardware formulas -/

/-- Hardware formulas, exact arithmetic: code → current → code is the identity on 18-bit codes. -/
theorem C07_adc_current_roundtrip (r : ℤ) (h0 : 0 ≤ r) (h1 : r < 2^18) :
    adcCurrentToRaw exact (adcRawToCurrent exact r) = r := by
  simp only [adcCurrentToRaw, adcRawToCurrent, adcSpan_id, shuntGain_id, if_true,
    clampCode_eq h0 h1]
  have : (96 * ((r:ℚ) * (128 / 25) / 2 ^ 18 / 96) * 2 ^ 18 / (128 / 25)) = r := by ring
  rw [this, pyInt_intCast, clampCode_eq h0 h1]

theorem C07_adc_voltage_roundtrip (r : ℤ) (h0 : 0 ≤ r) (h1 : r < 2^18) :
    adcVoltageToRaw exact (adcRawToVoltage exact r) = r := by
  simp only [adcVoltageToRaw, adcRawToVoltage, adcSpan_id, if_true, clampCode_eq h0 h1]
  have : ((r:ℚ) * (128 / 25) / 2 ^ 18 * 2 ^ 18 / (128 / 25)) = r := by ring
  rw [this, pyInt_intCast, clampCode_eq h0 h1]

/-- For the DAC this holds in any float arithmetic. -/
theorem C07_dac_roundtrip {fl : ℚ → ℚ} (h : Rounding fl) (r : ℤ) (h0 : 0 ≤ r) (h1 : r < 2^16) :
    dacVoltageToRaw fl (dacRawToVoltage fl r) = r := by
  have ex : ∀ n : ℤ, 0 ≤ n → n < 2^53 → fl n = n := fun n a b =>
    h.exactInt n (by rw [abs_of_nonneg a]; omega)
  have e1 : fl (r:ℚ) = r := ex r h0 (by omega)
  have e2 : fl ((r:ℚ) * 5) = (r:ℚ) * 5 := by
    have := ex (r*5) (by omega) (by omega)
    exact_mod_cast this
  have e3 : fl ((r:ℚ) * 5 / 2^16) = (r:ℚ) * 5 / 2^16 := by
    have := h.exact (r*5) (-16) (by rw [abs_of_nonneg (by omega)]; omega) (by norm_num)
    have e : (((r*5 : ℤ) : ℚ)) * (2:ℚ)^(-16:ℤ) = (r:ℚ) * 5 / 2^16 := by
      push_cast; rw [zpow_neg, div_eq_mul_inv]; norm_num
    rwa [e] at this
  simp only [dacVoltageToRaw, dacRawToVoltage, dacSpan_eq h, if_true, clampCode_eq h0 h1, e1, e2,
    e3]
  have e4 : (r:ℚ) * 5 / 2^16 * 2^16 = r * 5 := by ring
  rw [e4, e2, mul_div_cancel_right₀ _ (by norm_num : (5:ℚ) ≠ 0), e1, pyInt_intCast,
    clampCode_eq h0 h1]

example : (0:ℤ) ≤ 65535 ∧ (65535:ℤ) < 2^16 := by decide

/-- NEGATION: in IEEE-754 arithmetic the ADC functions lose codes, because they truncate:
code 29 comes back as 28 (voltage), code 21 as 20 (current). -/
theorem C07_adc_roundtrip_float_violated :
    adcVoltageToRaw b64 (adcRawToVoltage b64 29) = 28 ∧
    adcCurrentToRaw b64 (adcRawToCurrent b64 21) = 20 := by decide +kernel

/-- What holds in machine arithmetic: the code comes back unchanged or one lower. -/
theorem C07_adc_voltage_roundtrip_float_partial {fl : ℚ → ℚ} (h : AccRounding fl) (r : ℤ)
    (h0 : 0 ≤ r) (h1 : r < 2^18) :
    adcVoltageToRaw fl (adcRawToVoltage fl r) = r ∨
    adcVoltageToRaw fl (adcRawToVoltage fl r) = r - 1 := by
  have hR := h.toRounding
  rcases h0.eq_or_lt with hz | hpos
  · subst hz
    left
    simp [adcVoltageToRaw, adcRawToVoltage, clampCode, hR.zero]
  have hrq : (1:ℚ) ≤ r := by exact_mod_cast hpos
  have hrq2 : (r:ℚ) < 2^18 := by exact_mod_cast h1
  have er : fl (r:ℚ) = r := hR.exactInt r (by rw [abs_of_nonneg h0]; omega)
  obtain ⟨s1, s2⟩ := adcSpan_bounds hR
  set S := adcSpan fl with hS
  have hSp : 0 < S := by linarith
  have big : (1:ℚ)/10^100 ≤ 1/10^6 := by
    apply one_div_le_one_div_of_le (by positivity); norm_num
  have b1 := acc_bounds h (x := r * S) (by nlinarith)
  set x1 := fl ((r:ℚ) * S)
  have l1 : 4 ≤ x1 := by norm_num at b1; nlinarith [b1.1]
  have b2 := acc_bounds h (x := x1 / 2^18) (by
    have : (4:ℚ)/2^18 ≤ x1 / 2^18 := div_le_div_of_nonneg_right l1 (by positivity)
    norm_num at this big ⊢; linarith)
  set x2 := fl (x1 / 2^18)
  have l2 : 3 ≤ x2 * 2^18 := by norm_num at b2 ⊢; nlinarith [b2.1]
  have b3 := acc_bounds h (x := x2 * 2^18) (by linarith)
  set x3 := fl (x2 * 2^18)
  have l3 : 2 ≤ x3 := by norm_num at b3 l2; nlinarith [b3.1]
  have b4 := acc_bounds h (x := x3 / S) (by
    have : (2:ℚ)/7 ≤ x3 / S := by
      rw [div_le_div_iff₀ (by norm_num) hSp]; nlinarith
    linarith)
  set x4 := fl (x3 / S) with hx4
  have q3 : x3 / S * S = x3 := by field_simp
  set y := x3 / S
  -- relative intervals
  have u1 : x3 ≤ r * S * (1 + 1/2^49) := by norm_num at b1 b2 b3 ⊢; nlinarith [b1.2, b2.2, b3.2]
  have u2 : r * S * (1 - 1/2^49) ≤ x3 := by norm_num at b1 b2 b3 ⊢; nlinarith [b1.1, b2.1, b3.1]
  have v1 : y ≤ r * (1 + 1/2^49) := by
    rw [← q3] at u1
    apply le_of_mul_le_mul_right _ hSp
    linarith
  have v2 : r * (1 - 1/2^49) ≤ y := by
    rw [← q3] at u2
    apply le_of_mul_le_mul_right _ hSp
    linarith
  have w : |x4 - r| < 1 := by
    rw [abs_lt]; norm_num at b4 v1 v2 hrq2 ⊢
    constructor <;> nlinarith [b4.1, b4.2]
  have nn : 0 ≤ x4 := by norm_num at b4 v2; nlinarith [b4.1]
  have fin := trunc_chain w nn
  simp only [adcVoltageToRaw, adcRawToVoltage, if_true, clampCode_eq h0 h1, er]
  rcases fin with f | f
  · left; change clampCode 18 (pyInt x4) = r; rw [f, clampCode_eq h0 h1]
  · right; change clampCode 18 (pyInt x4) = r - 1; rw [f, clampCode_eq (by omega) (by omega)]

example : AccRounding b64 ∧ (0:ℤ) ≤ 29 ∧ (29:ℤ) < 2^18 := ⟨b64_accRounding, by decide⟩

/-- The default ADC calibration pairs are exactly the hardware formulas (exact arithmetic). -/
theorem C07_default_adc_matches_hw :
    ∃ cv cc : CalPair, defaultAdcV exact = some cv ∧ defaultAdcC exact = some cc ∧
      ∀ r : ℤ, 0 ≤ r → r < 2^18 →
        cv.rawToSi exact r = adcRawToVoltage exact r ∧
        cc.rawToSi exact r = adcRawToCurrent exact r := by
  refine ⟨⟨1/51200, 0⟩, ⟨1/4915200, 0⟩, by decide +kernel, by decide +kernel, ?_⟩
  intro r h0 h1
  constructor
  · simp only [CalPair.rawToSi_id, adcRawToVoltage, adcSpan_id, if_true, clampCode_eq h0 h1]; ring
  · simp only [CalPair.rawToSi_id, adcRawToCurrent, adcSpan_id, shuntGain_id, if_true,
      clampCode_eq h0 h1]; ring

/-- NEGATION: the default DAC calibration is not the hardware formula: probing truncates
13107.2 codes/V to 13107, so every code but 0 is off, by a full step at the end of the scale. -/
theorem C07_default_dac_matches_hw_violated :
    ∃ c : CalPair, defaultDac exact = some c ∧
      ∀ r : ℤ, 0 ≤ r → r < 2^16 →
        c.rawToSi exact r - dacRawToVoltage exact r = r / (13107 * 65536) := by
  refine ⟨⟨1/13107, 0⟩, by decide +kernel, ?_⟩
  intro r h0 h1
  have : dacSpan exact = 5 := dacSpan_eq Rounding.id
  simp only [CalPair.rawToSi_id, dacRawToVoltage, this, if_true, clampCode_eq h0 h1]; ring

/-- The same truncated pair results in IEEE-754 arithmetic. -/
theorem C07_default_dac_float : defaultDac b64 = some ⟨b64 (1/13107), 0⟩ := by decide +kernel

end Verif.Props
