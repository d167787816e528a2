import Verif.Props.Calibration
import Verif.Props.Converter

/-!
# C05, C07, C17, C18 in the arithmetic of the machine
-/

namespace Verif.Props
open Verif.Py Verif.Model

theorem tiny_small : (2:ℚ)^(-1075:ℤ) ≤ 1/2^60 := by
  refine le_trans tiny_le ?_
  have : (1:ℚ)/10^100 ≤ 1 := by norm_num
  calc (1:ℚ)/2^60 * (1/10^100) ≤ 1/2^60 * 1 := mul_le_mul_of_nonneg_left this (by positivity)
    _ = _ := by ring

/-! ## C05 -/

/-- The distance of an export to the exactly scaled calibration, for harvesters. -/
structure HrvWithin (t : ℚ) (c : CalHarvester) (s : SysfsCal) : Prop where
  adcCurrentGain : |(s.adcCurrentGain : ℚ) - 10^9 * 2^8 * c.adcCHrv.gain| ≤ t
  adcCurrentOffset : |(s.adcCurrentOffset : ℚ) - 10^9 * c.adcCHrv.offset| ≤ t
  adcVoltageGain : |(s.adcVoltageGain : ℚ) - 10^6 * 2^8 * c.adcVSense.gain| ≤ t
  adcVoltageOffset : |(s.adcVoltageOffset : ℚ) - 10^6 * c.adcVSense.offset| ≤ t
  dacVoltageGain : |(s.dacVoltageGain : ℚ) - 2^20 / (10^6 * c.dacVHrv.gain)| ≤ t
  dacVoltageOffset : |(s.dacVoltageOffset : ℚ) - 10^6 * c.dacVHrv.offset| ≤ t

/-- The same for emulators. -/
structure EmuWithin (t : ℚ) (c : CalEmulator) (s : SysfsCal) : Prop where
  adcCurrentGain : |(s.adcCurrentGain : ℚ) - 10^9 * 2^8 * c.adcCA.gain| ≤ t
  adcCurrentOffset : |(s.adcCurrentOffset : ℚ) - 10^9 * c.adcCA.offset| ≤ t
  adcVoltageGain : s.adcVoltageGain = 256000000
  adcVoltageOffset : s.adcVoltageOffset = 0
  dacVoltageGain : |(s.dacVoltageGain : ℚ) - 2^20 / (10^6 * c.dacVA.gain)| ≤ t
  dacVoltageOffset : |(s.dacVoltageOffset : ℚ) - 10^6 * c.dacVA.offset| ≤ t

theorem scaled_error {fl : ℚ → ℚ} (h : AccRounding fl) (x : ℚ) (hb : |(pyRound (fl x) : ℚ)| ≤ 2^32) : |(pyRound (fl x) : ℚ) - x| ≤ 1/2 + 1/2^16 := by
  have h1 := abs_pyRound_sub_le (fl x)
  have h2 := h.err x
  have h75 := tiny_small
  set n := (pyRound (fl x) : ℚ)
  have h3 : |x| ≤ 2^33 := by
    have a := abs_sub_abs_le_abs_sub x (fl x)
    have b := abs_sub_abs_le_abs_sub (fl x) n
    rw [abs_sub_comm x] at a
    rw [abs_sub_comm (fl x)] at b
    generalize (2:ℚ)^(-1075:ℤ) = η at *
    norm_num at *
    linarith
  have := abs_add_le (n - fl x) (fl x - x)
  rw [sub_add_sub_cancel] at this
  have h4 : |x| / 2^53 ≤ 2^33/2^53 := div_le_div_of_nonneg_right h3 (by positivity)
  generalize (2:ℚ)^(-1075:ℤ) = η at *
  norm_num at *
  linarith

theorem gain_error {fl : ℚ → ℚ} (h : AccRounding fl) (g : ℚ) (hg : 1 / 10^100 ≤ g) (hb : |(pyRound (fl (2^20 / fl (10^6 * g))) : ℚ)| ≤ 2^32) :
    |(pyRound (fl (2^20 / fl (10^6 * g))) : ℚ) - 2^20 / (10^6 * g)| ≤ 1/2 + 1/2^15 := by
  have h1 := scaled_error h _ hb
  have hg0 : 0 < g := lt_of_lt_of_le (by positivity) hg
  have hz : 1 / 10^100 ≤ 10^6 * g := by nlinarith
  have hz0 : 0 < 10^6 * g := by positivity
  obtain ⟨b1, b2⟩ := acc_bounds h hz
  set z := 10^6 * g
  set z' := fl z
  have hz' : 0 < z' := lt_of_lt_of_le (mul_pos hz0 (by norm_num)) b1
  have hw0 : 0 < 2^20 / z' := by positivity
  have hwz : 2^20 / z' * z' = 2^20 := by field_simp
  have hvz : 2^20 / z * z = 2^20 := by field_simp
  have hv0 : 0 < 2^20 / z := by positivity
  set w := 2^20 / z'
  set v := 2^20 / z
  set n := (pyRound (fl w) : ℚ)
  have hw : w ≤ 2^33 := by
    have := (abs_le.mp h1).1
    have := (abs_le.mp hb).2
    norm_num at *; linarith
  have key1 : v ≤ w * (1 + 1/2^52) := by
    apply le_of_mul_le_mul_right _ hz0
    rw [hvz]
    calc (2:ℚ)^20 = w * z' := hwz.symm
      _ ≤ w * (z * (1 + 1/2^52)) := mul_le_mul_of_nonneg_left b2 hw0.le
      _ = _ := by ring
  have key2 : w * (1 - 1/2^52) ≤ v := by
    apply le_of_mul_le_mul_right _ hz0
    rw [hvz]
    calc w * (1 - 1/2^52) * z = w * (z * (1 - 1/2^52)) := by ring
      _ ≤ w * z' := mul_le_mul_of_nonneg_left b1 hw0.le
      _ = _ := hwz
  have hd : |w - v| ≤ 1/2^19 := by
    rw [abs_le]
    constructor
    · norm_num at *; linarith
    · norm_num at *; linarith
  have := abs_add_le (n - w) (w - v)
  rw [sub_add_sub_cancel] at this
  norm_num at *; linarith

theorem fl_scale {fl : ℚ → ℚ} (h : Rounding fl) : fl (10^9 * 2^8) = 10^9 * 2^8 ∧ fl (10^9 * 1) = 10^9 ∧ fl (10^6 * 2^8) = 10^6 * 2^8 ∧ fl (10^6 * 1) = 10^6 := by
  have a := h.exactInt (10^9 * 2^8) (by norm_num)
  have b := h.exactInt (10^9) (by norm_num)
  have c := h.exactInt (10^6 * 2^8) (by norm_num)
  have d := h.exactInt (10^6) (by norm_num)
  push_cast at a b c d
  refine ⟨?_, ?_, ?_, ?_⟩
  · norm_num; exact a
  · rw [mul_one]; norm_num at b ⊢; exact b
  · norm_num; exact c
  · rw [mul_one]; norm_num at d ⊢; exact d

theorem abs_of_range {n : ℤ} (h : (0 ≤ n ∧ n ≤ 2^32 - 1) ∨ (-2^31 ≤ n ∧ n ≤ 2^31 - 1)) : |(n:ℚ)| ≤ 2^32 := by
  have : |n| ≤ 2^32 := by rw [abs_le]; omega
  exact_mod_cast this

/-- In the arithmetic of the machine: the accepted values are the scaled calibration, rounded to the next number up to 1/32768. -/
theorem C05_hrv_export_float {fl : ℚ → ℚ} (h : AccRounding fl) (c : CalHarvester) (hg : 1 / 10^100 ≤ c.dacVHrv.gain) (s : SysfsCal)
    (hs : c.exportForSysfs fl = some s) : HrvWithin (1/2 + 1/2^15) c s := by
  obtain ⟨rfl, hf⟩ := (checkSysfs_iff _ _).mp hs
  obtain ⟨k1, k2, k3, k4⟩ := fl_scale h.toRounding
  have h16 : (1:ℚ)/2 + 1/2^16 ≤ 1/2 + 1/2^15 := by norm_num
  obtain ⟨f1, f2, f3, f4, f5, f6⟩ := hf
  simp only [CalHarvester.sysfsRaw, k1, k2, k3, k4] at f1 f2 f3 f4 f5 f6
  constructor <;> simp only [CalHarvester.sysfsRaw, k1, k2, k3, k4]
  · exact (scaled_error h _ (abs_of_range (Or.inl f1))).trans h16
  · exact (scaled_error h _ (abs_of_range (Or.inr f2))).trans h16
  · exact (scaled_error h _ (abs_of_range (Or.inl f3))).trans h16
  · exact (scaled_error h _ (abs_of_range (Or.inr f4))).trans h16
  · exact gain_error h _ hg (abs_of_range (Or.inl f5))
  · exact (scaled_error h _ (abs_of_range (Or.inr f6))).trans h16

/-- The same for emulators. -/
theorem C05_emu_export_float {fl : ℚ → ℚ} (h : AccRounding fl) (c : CalEmulator) (hg : 1 / 10^100 ≤ c.dacVA.gain) (s : SysfsCal)
    (hs : c.exportForSysfs fl = some s) : EmuWithin (1/2 + 1/2^15) c s := by
  obtain ⟨rfl, hf⟩ := (checkSysfs_iff _ _).mp hs
  obtain ⟨k1, k2, k3, k4⟩ := fl_scale h.toRounding
  have h16 : (1:ℚ)/2 + 1/2^16 ≤ 1/2 + 1/2^15 := by norm_num
  obtain ⟨f1, f2, f3, f4, f5, f6⟩ := hf
  simp only [CalEmulator.sysfsRaw, k1, k2, k3, k4] at f1 f2 f3 f4 f5 f6
  constructor <;> simp only [CalEmulator.sysfsRaw, k1, k2, k3, k4]
  · exact (scaled_error h _ (abs_of_range (Or.inl f1))).trans h16
  · exact (scaled_error h _ (abs_of_range (Or.inr f2))).trans h16
  · rw [mul_one, k3]
    have := pyRound_intCast (10^6 * 2^8)
    norm_num at this ⊢; exact this
  · rw [mul_zero, h.toRounding.zero]
    have := pyRound_intCast 0
    push_cast at this
    exact this
  · exact gain_error h _ hg (abs_of_range (Or.inl f5))
  · exact (scaled_error h _ (abs_of_range (Or.inr f6))).trans h16

/-- The default calibration is exported. -/
example : 1 / 10^100 ≤ (1/13107 : ℚ) ∧ (CalHarvester.exportForSysfs b64 ⟨⟨1/13107,0⟩,⟨1/13107,0⟩,⟨1/51200,0⟩,⟨1/4915200,0⟩⟩).isSome = true ∧
    (CalEmulator.exportForSysfs b64 ⟨⟨1/13107,0⟩,⟨1/13107,0⟩,⟨1/4915200,0⟩,⟨1/4915200,0⟩⟩).isSome = true := by decide +kernel

/-! ## C07 -/

theorem rel_step {fl : ℚ → ℚ} (h : AccRounding fl) {x t : ℚ} (k : ℕ) (hk : k ≤ 16) (ht : 1 / 10^90 ≤ t) (hx : |x - t| ≤ t * (k / 2^51)) : |fl x - t| ≤ t * ((k + 1 : ℕ) / 2^51) := by
  have ht0 : 0 < t := lt_of_lt_of_le (by positivity) ht
  have hkq : (k:ℚ) ≤ 16 := by exact_mod_cast hk
  have hk0 : (0:ℚ) ≤ k := by positivity
  obtain ⟨hx1, hx2⟩ := abs_le.mp hx
  have hm : t * (k / 2^51) ≤ t * (1/2^46) := mul_le_mul_of_nonneg_left (by rw [div_le_div_iff₀ (by positivity) (by positivity)]; norm_num; linarith) ht0.le
  have hxp : 1 / 10^100 ≤ x := by
    have : (1:ℚ) / 10^100 ≤ 1 / 10^90 / 2 := by norm_num
    norm_num at *; linarith
  obtain ⟨b1, b2⟩ := acc_bounds h hxp
  push_cast
  rw [abs_le]
  have e : t * ((k + 1) / 2^51) = t * (k / 2^51) + t / 2^51 := by ring
  rw [e]
  generalize t * ((k:ℚ) / 2^51) = d at *
  constructor
  · norm_num at *; linarith
  · norm_num at *; linarith

/-- The default calibration of the ADC gives the same values as the conversion for the hardware in the arithmetic of the machine, up to its precision. -/
theorem C07_default_adc_float : ∃ cv cc : CalPair, defaultAdcV b64 = some cv ∧ defaultAdcC b64 = some cc ∧ ∀ r : ℤ, 0 ≤ r → r < 2^18 →
    |cv.rawToSi b64 r - adcRawToVoltage b64 r| ≤ r / 51200 / 2^48 ∧ |cc.rawToSi b64 r - adcRawToCurrent b64 r| ≤ r / 4915200 / 2^48 := by
  refine ⟨⟨b64 (1/51200), 0⟩, ⟨b64 (1/4915200), 0⟩, by decide +kernel, by decide +kernel, ?_⟩
  intro r h0 h1
  have h := b64_accRounding
  have hR := h.toRounding
  have er : b64 (r:ℚ) = r := hR.exactInt r (by rw [abs_of_nonneg h0]; omega)
  simp only [CalPair.rawToSi, adcRawToVoltage, adcRawToCurrent, Bool.not_true, Bool.false_eq_true, if_false, if_true, clampCode_eq h0 h1, er, add_zero, hR.idem]
  rcases h0.eq_or_lt with hz | hpos
  · subst hz
    simp [hR.zero]
  have hrq : (1:ℚ) ≤ r := by exact_mod_cast hpos
  have hsh : shuntGain b64 = 96 := by decide +kernel
  have small : (1:ℚ) / 10^90 ≤ 1/4915200 := by norm_num
  -- gains
  have g1 : |b64 (1/51200) - 1/51200| ≤ 1/51200 * ((1:ℕ) / 2^51) := rel_step h 0 (by norm_num) (by norm_num) (by simp)
  have g2 : |b64 (1/4915200) - 1/4915200| ≤ 1/4915200 * ((1:ℕ) / 2^51) := rel_step h 0 (by norm_num) (by norm_num) (by simp)
  have s1 : |vRefAdc b64 - 4096/1000| ≤ 4096/1000 * ((1:ℕ) / 2^51) := rel_step h 0 (by norm_num) (by norm_num) (by simp)
  have s2 : |adcSpan b64 - 128/25| ≤ 128/25 * ((2:ℕ) / 2^51) := by
    refine rel_step h 1 (by norm_num) (by norm_num) ?_
    have e : 5/4 * vRefAdc b64 - 128/25 = 5/4 * (vRefAdc b64 - 4096/1000) := by ring
    rw [e, abs_mul, abs_of_pos (by norm_num : (0:ℚ) < 5/4)]
    norm_num at s1 ⊢; linarith
  have scale : ∀ {a b : ℚ} (k : ℚ) (m : ℕ), 0 ≤ k → |a - b| ≤ b * (m / 2^51) → |k * a - k * b| ≤ k * b * (m / 2^51) := by
    intro a b k m hk hab
    rw [← mul_sub, abs_mul, abs_of_nonneg hk, mul_assoc]
    exact mul_le_mul_of_nonneg_left hab hk
  have r0 : (0:ℚ) ≤ r := by linarith
  have v1 : |b64 (r * b64 (1/51200)) - r * (1/51200)| ≤ r * (1/51200) * ((2:ℕ) / 2^51) :=
    rel_step h 1 (by norm_num) (by norm_num at *; linarith) (scale r 1 r0 g1)
  have c1 : |b64 (r * b64 (1/4915200)) - r * (1/4915200)| ≤ r * (1/4915200) * ((2:ℕ) / 2^51) :=
    rel_step h 1 (by norm_num) (by norm_num at *; linarith) (scale r 1 r0 g2)
  have v2 : |b64 (r * adcSpan b64) - r * (128/25)| ≤ r * (128/25) * ((3:ℕ) / 2^51) :=
    rel_step h 2 (by norm_num) (by norm_num at *; linarith) (scale r 2 r0 s2)
  have v3 : |b64 (b64 (r * adcSpan b64) / 2^18) - r * (1/51200)| ≤ r * (1/51200) * ((4:ℕ) / 2^51) := by
    refine rel_step h 3 (by norm_num) (by norm_num at *; linarith) ?_
    have := scale (1/2^18) 3 (by positivity) v2
    have e1 : b64 (r * adcSpan b64) / 2^18 = 1/2^18 * b64 (r * adcSpan b64) := by ring
    have e2 : (r:ℚ) * (1/51200) = 1/2^18 * (r * (128/25)) := by ring
    rw [e1, e2]; exact this
  have c3 : |b64 (b64 (b64 (r * adcSpan b64) / 2^18) / 96) - r * (1/4915200)| ≤ r * (1/4915200) * ((5:ℕ) / 2^51) := by
    refine rel_step h 4 (by norm_num) (by norm_num at *; linarith) ?_
    have := scale (1/96) 4 (by positivity) v3
    have e1 : b64 (b64 (r * adcSpan b64) / 2^18) / 96 = 1/96 * b64 (b64 (r * adcSpan b64) / 2^18) := by ring
    have e2 : (r:ℚ) * (1/4915200) = 1/96 * (r * (1/51200)) := by ring
    rw [e1, e2]; exact this
  rw [hsh]
  constructor
  · rw [abs_le] at v1 v3 ⊢
    push_cast at v1 v3
    constructor <;> norm_num at * <;> linarith
  · rw [abs_le] at c1 c3 ⊢
    push_cast at c1 c3
    constructor <;> norm_num at * <;> linarith

/-- The current of a code comes back as this code or the one below, as the voltage does. -/
theorem C07_adc_current_roundtrip_float_partial {fl : ℚ → ℚ} (h : AccRounding fl) (r : ℤ) (h0 : 0 ≤ r) (h1 : r < 2^18) :
    adcCurrentToRaw fl (adcRawToCurrent fl r) = r ∨ adcCurrentToRaw fl (adcRawToCurrent fl r) = r - 1 := by
  have hR := h.toRounding
  rcases h0.eq_or_lt with hz | hpos
  · subst hz
    left
    simp [adcCurrentToRaw, adcRawToCurrent, clampCode, hR.zero]
  have hrq : (1:ℚ) ≤ r := by exact_mod_cast hpos
  have r0 : (0:ℚ) ≤ r := by linarith
  have hrq2 : (r:ℚ) < 2^18 := by exact_mod_cast h1
  have er : fl (r:ℚ) = r := hR.exactInt r (by rw [abs_of_nonneg h0]; omega)
  have hsh : shuntGain fl = 96 := by
    have := hR.exactInt 96 (by norm_num)
    unfold shuntGain
    norm_num at this ⊢; exact this
  obtain ⟨s1, s2⟩ := adcSpan_bounds hR
  set S := adcSpan fl with hS
  have hSp : 0 < S := by linarith
  have tn : ∀ x : ℚ, 1/10^60 ≤ x → 1/10^90 ≤ x := fun x hx => le_trans (by norm_num) hx
  have scale : ∀ {a b : ℚ} (k : ℚ) (m : ℕ), 0 ≤ k → |a - b| ≤ b * (m / 2^51) → |k * a - k * b| ≤ k * b * (m / 2^51) := by
    intro a b k m hk hab
    rw [← mul_sub, abs_mul, abs_of_nonneg hk, mul_assoc]
    exact mul_le_mul_of_nonneg_left hab hk
  have hrS : 4 ≤ r * S := by nlinarith
  have z1 : |fl (r * S) - r * S| ≤ r * S * ((1:ℕ) / 2^51) := rel_step h 0 (by norm_num) (tn _ (by norm_num at *; linarith)) (by simp)
  set x1 := fl ((r:ℚ) * S)
  have z2 : |fl (x1 / 2^18) - r * S / 2^18| ≤ r * S / 2^18 * ((2:ℕ) / 2^51) := by
    refine rel_step h 1 (by norm_num) (tn _ (by norm_num at *; linarith)) ?_
    have := scale (1/2^18) 1 (by positivity) z1
    rw [show x1 / 2^18 = 1/2^18 * x1 by ring, show r * S / 2^18 = 1/2^18 * (r * S) by ring]; exact this
  set x2 := fl (x1 / 2^18)
  have z3 : |fl (x2 / 96) - r * S / 2^18 / 96| ≤ r * S / 2^18 / 96 * ((3:ℕ) / 2^51) := by
    refine rel_step h 2 (by norm_num) (tn _ (by norm_num at *; linarith)) ?_
    have := scale (1/96) 2 (by positivity) z2
    rw [show x2 / 96 = 1/96 * x2 by ring, show r * S / 2^18 / 96 = 1/96 * (r * S / 2^18) by ring]; exact this
  set x3 := fl (x2 / 96)
  have z4 : |fl (96 * x3) - r * S / 2^18| ≤ r * S / 2^18 * ((4:ℕ) / 2^51) := by
    refine rel_step h 3 (by norm_num) (tn _ (by norm_num at *; linarith)) ?_
    have := scale 96 3 (by positivity) z3
    rw [show 96 * (r * S / 2^18 / 96) = r * S / 2^18 by ring] at this; exact this
  set x4 := fl (96 * x3)
  have z5 : |fl (x4 * 2^18) - r * S| ≤ r * S * ((5:ℕ) / 2^51) := by
    refine rel_step h 4 (by norm_num) (tn _ (by norm_num at *; linarith)) ?_
    have := scale (2^18) 4 (by positivity) z4
    rw [show 2^18 * (r * S / 2^18) = r * S by ring, mul_comm _ x4] at this; exact this
  set x5 := fl (x4 * 2^18)
  have z6 : |fl (x5 / S) - r| ≤ r * ((6:ℕ) / 2^51) := by
    refine rel_step h 5 (by norm_num) (tn _ (by norm_num at *; linarith)) ?_
    have := scale (1/S) 5 (by positivity) z5
    rw [show 1/S * (r * S) = r by field_simp, show 1/S * x5 = x5 / S by ring] at this; exact this
  set x6 := fl (x5 / S) with hx6
  push_cast at z6
  have w : |x6 - r| < 1 := by
    refine lt_of_le_of_lt z6 ?_
    norm_num at hrq2 ⊢; linarith
  have nn : 0 ≤ x6 := by
    have := (abs_le.mp z6).1
    norm_num at this ⊢; linarith
  have fin := trunc_chain w nn
  simp only [adcCurrentToRaw, adcRawToCurrent, if_true, clampCode_eq h0 h1, er, hsh]
  rcases fin with f | f
  · left; change clampCode 18 (pyInt x6) = r; rw [f, clampCode_eq h0 h1]
  · right; change clampCode 18 (pyInt x6) = r - 1; rw [f, clampCode_eq (by omega) (by omega)]

/-! ## C17 -/

/-- A double that can be divided by `2^k` without loss. -/
def DoubleDiv (k : ℕ) (x : ℚ) : Prop := ∃ n e : ℤ, |n| ≤ 2^53 ∧ k - 1074 ≤ e ∧ x = n * 2^e

theorem fl_div_pow {fl : ℚ → ℚ} (h : Rounding fl) (k : ℕ) (x : ℚ) (hx : DoubleDiv k x) : fl (x / 2^k) = x / 2^k := by
  obtain ⟨n, e, hn, he, rfl⟩ := hx
  have : (n:ℚ) * 2^e / 2^k = n * 2^(e - k) := by
    rw [zpow_sub₀ (by norm_num), zpow_natCast, mul_div_assoc]
  rw [this]
  exact h.exact n (e - k) hn (by omega)

/-- In the arithmetic of the machine the same entries of the tables are used. -/
theorem C17_input_lut_float {fl : ℚ → ℚ} (h : Rounding fl) (c : CnvCfg) (hc : c.Valid) (v i : ℚ) (hv : 0 ≤ v) (hi : 0 ≤ i) (dv : DoubleDiv c.lutInputVMinLog2 v)
    (di : DoubleDiv c.lutInputIMinLog2 i) : ∃ row col entry : ℕ, LinearColumn (v / 2^c.lutInputVMinLog2) row ∧ LogColumn (i / 2^c.lutInputIMinLog2) col ∧
      (c.lutInpEfficiencyN8[row]?).bind (·[col]?) = some entry ∧ getInputEfficiency fl c v i = .ok ((entry : ℚ) / 256) := by
  obtain ⟨row, col, entry, h1, h2, h3, h4⟩ := C17_input_lut c hc v i hv hi
  refine ⟨row, col, entry, h1, h2, h3, ?_⟩
  rw [← h4]
  unfold getInputEfficiency
  simp only [fl_div_pow h _ v dv, fl_div_pow h _ i di]
  generalize ha : c.lutInpEfficiencyN8[(_ : ℕ)]? = oa
  cases oa with
  | none => rfl
  | some r =>
    simp only
    generalize hb : r[(_ : ℕ)]? = ob
    cases ob with
    | none => rfl
    | some x =>
      simp only
      have hx := (hc.lutInpCols r (List.mem_of_getElem? ha)).2 x (List.mem_of_getElem? hb)
      rw [fl_div_pow h 8 (x:ℚ) ⟨x, 0, by rw [abs_of_nonneg (by positivity)]; omega, by norm_num, by simp⟩]

theorem C17_output_lut_float {fl : ℚ → ℚ} (h : Rounding fl) (c : CnvCfg) (hc : c.Valid) (i : ℚ) (hi : 0 ≤ i) (di : DoubleDiv c.lutOutputIMinLog2 i) :
    ∃ col entry : ℕ, LogColumn (i / 2^c.lutOutputIMinLog2) col ∧ c.lutOutInvEfficiencyN4[col]? = some entry ∧ getOutputInvEfficiency fl c i = .ok ((entry : ℚ) / 16) := by
  obtain ⟨col, entry, h2, h3, h4⟩ := C17_output_lut c hc i hi
  refine ⟨col, entry, h2, h3, ?_⟩
  rw [← h4]
  unfold getOutputInvEfficiency
  simp only [fl_div_pow h _ i di]
  generalize hb : c.lutOutInvEfficiencyN4[(_ : ℕ)]? = ob
  cases ob with
  | none => rfl
  | some x =>
    simp only
    have hx := hc.lutOut.2 x (List.mem_of_getElem? hb)
    rw [fl_div_pow h 4 (x:ℚ) ⟨x, 0, by rw [abs_of_nonneg (by positivity)]; omega, by norm_num, by simp⟩]

/-- 1.5 V (in µV) and 0.25 nA. -/
example : DoubleDiv 7 1500000 ∧ DoubleDiv 4 (1/4) := ⟨⟨1500000, 0, by norm_num, by norm_num, by norm_num⟩, ⟨1, -2, by norm_num, by norm_num, by norm_num⟩⟩

/-! ## C18 -/

/-- One conversion in the arithmetic of the machine, compared with the exact one. -/
theorem convAdc_float {fl : ℚ → ℚ} (h : AccRounding fl) (adc : CalPair) (hc : adc.Valid) (ho : adc.offset < 0) (B : ℚ) (hB : (2^18 * adc.gain + |adc.offset|) * 10^9 ≤ B)
    (hB2 : 60000 ≤ B) (raw : ℤ) (hr0 : 0 ≤ raw) (hr1 : raw < 2^18) (res : ℚ) (h0 : 0 ≤ res) (h1 : res ≤ 60000) :
    let i := ((raw : ℚ) * adc.gain + adc.offset) * 10^9
    let p := convAdcRawToNA fl adc res raw
    i + p.2 ≤ p.1 + res + B / 2^50 ∧ (res - i + B / 2^50 ≤ 60000 → p.1 + res ≤ i + p.2 + B / 2^50) ∧ 0 ≤ p.2 ∧ p.2 ≤ 60000 ∧
      (p.2 = 0 ∨ p.2 ≤ res - i + B / 2^50) := by
  have hR := h.toRounding
  obtain ⟨g, o⟩ := adc
  simp only [CalPair.Valid] at hc ho hB ⊢
  have hrq0 : (0:ℚ) ≤ raw := by exact_mod_cast hr0
  have hrq1 : (raw:ℚ) ≤ 2^18 := by exact_mod_cast hr1.le
  have er : fl (raw:ℚ) = raw := hR.exactInt raw (by rw [abs_of_nonneg hr0]; omega)
  have hg : 0 < g := hc
  have ha0 : 0 ≤ (raw:ℚ) * g := by positivity
  have ha1 : (raw:ℚ) * g ≤ 2^18 * g := mul_le_mul_of_nonneg_right hrq1 hg.le
  have ht : (2:ℚ)^(-1075:ℤ) ≤ 1/2^60 * (1/10^9) := tiny_le.trans (by norm_num)
  have ht0 : 0 ≤ (2:ℚ)^(-1075:ℤ) := by positivity
  rw [abs_of_neg ho] at hB
  have c : convAdcRawToNA fl ⟨g, o⟩ res raw = if fl (max (fl (fl ((raw:ℚ) * g) + o)) (if o < 0 then fl (fl ((raw:ℚ) * g) + o) else 0) * 10^9) > res then
      (fl (fl (fl (fl ((raw:ℚ) * g) + o) * 10^9) - res), 0) else (0, min (fl (res - fl (fl (fl ((raw:ℚ) * g) + o) * 10^9))) 60000) := by
    simp [convAdcRawToNA, CalPair.rawToSi, ho, residueMax, er]
  rw [if_pos ho, max_self] at c
  rw [c]
  have e1 := h.err ((raw:ℚ) * g)
  have e2 := h.err (fl ((raw:ℚ) * g) + o)
  have e3 := h.err (fl (fl ((raw:ℚ) * g) + o) * 10^9)
  generalize hi : ((raw:ℚ) * g + o) * 10^9 = i
  have hi1 : |i| ≤ B := by rw [← hi, abs_le]; constructor <;> linarith
  generalize hx1 : (raw:ℚ) * g = a at *
  generalize fl a = x1 at *
  generalize fl (x1 + o) = x2 at *
  generalize fl (x2 * 10^9) = x3 at *
  have f1 : |x1 - a| ≤ B / 10^9 / 2^53 + 1/2^60 * (1/10^9) := by
    refine le_trans e1 ?_
    rw [abs_of_nonneg ha0]
    have : a / 2^53 ≤ B / 10^9 / 2^53 := div_le_div_of_nonneg_right (by rw [le_div_iff₀ (by norm_num)]; linarith) (by positivity)
    linarith
  have g1 : |x1 + o| ≤ B / 10^9 * (1 + 1/2^40) := by
    have t := abs_add_le (x1 - a) (a + o)
    rw [show x1 - a + (a + o) = x1 + o by ring] at t
    have t2 : |a + o| ≤ B / 10^9 := by rw [le_div_iff₀ (by norm_num)]; rw [← hi, abs_mul, abs_of_pos (by norm_num : (0:ℚ) < 10^9)] at hi1; exact hi1
    norm_num at *; linarith
  have f2 : |x2 - (x1 + o)| ≤ B / 10^9 * (1 + 1/2^40) / 2^53 + 1/2^60 * (1/10^9) := by
    refine le_trans e2 ?_
    have := div_le_div_of_nonneg_right g1 (by positivity : (0:ℚ) ≤ 2^53)
    linarith
  have f12 : |x2 * 10^9 - i| ≤ B / 2^51 - B / 2^53 * (3/2) := by
    have t := abs_add_le (x2 - (x1 + o)) (x1 - a)
    rw [show x2 - (x1 + o) + (x1 - a) = x2 - (a + o) by ring] at t
    rw [← hi, ← sub_mul, abs_mul, abs_of_pos (by norm_num : (0:ℚ) < 10^9)]
    norm_num at *; linarith
  have g2 : |x2 * 10^9| ≤ B * (5/4) := by
    have t := abs_add_le (x2 * 10^9 - i) i
    rw [sub_add_cancel] at t
    norm_num at *; linarith
  have f3 : |x3 - i| ≤ B / 2^51 := by
    have t := abs_add_le (x3 - x2 * 10^9) (x2 * 10^9 - i)
    rw [sub_add_sub_cancel] at t
    have := div_le_div_of_nonneg_right g2 (by positivity : (0:ℚ) ≤ 2^53)
    generalize (2:ℚ)^(-1075:ℤ) = η at *
    norm_num at *; linarith
  have g3 : |x3 - res| ≤ B * (5/2) := by
    obtain ⟨a1, a2⟩ := abs_le.mp f3
    obtain ⟨a3, a4⟩ := abs_le.mp hi1
    rw [abs_le]
    constructor <;> norm_num at * <;> linarith
  have e4 : ∀ y, |y| = |x3 - res| → |fl y - y| ≤ B / 2^51 := by
    intro y hy
    refine le_trans (h.err y) ?_
    rw [hy]
    have := div_le_div_of_nonneg_right g3 (by positivity : (0:ℚ) ≤ 2^53)
    generalize (2:ℚ)^(-1075:ℤ) = η at *
    norm_num at *; linarith
  obtain ⟨a1, a2⟩ := abs_le.mp f3
  have e50 : B / 2^50 = B / 2^51 + B / 2^51 := by ring
  rw [e50]
  by_cases hgt : x3 > res
  · rw [if_pos hgt]
    obtain ⟨b1, b2⟩ := abs_le.mp (e4 (x3 - res) rfl)
    refine ⟨?_, ?_, le_rfl, by norm_num, Or.inl rfl⟩
    · simp only; linarith
    · intro _; simp only; linarith
  · rw [if_neg hgt]
    obtain ⟨b1, b2⟩ := abs_le.mp (e4 (res - x3) (abs_sub_comm _ _))
    have hn : 0 ≤ fl (res - x3) := hR.nonneg (by linarith)
    simp only
    have hmin := min_le_left (fl (res - x3)) 60000
    refine ⟨by linarith, ?_, le_min hn (by norm_num), min_le_right _ _, Or.inr (by linarith)⟩
    intro hle
    rw [min_eq_left (by linarith)]
    linarith

/-- In the arithmetic of the machine: apart from the precision (per sample 2^-50 of the largest current) nothing is lost. -/
theorem C18_charge_lower_float {fl : ℚ → ℚ} (h : AccRounding fl) (adc : CalPair) (hc : adc.Valid) (ho : adc.offset < 0) (B : ℚ)
    (hB : (2^18 * adc.gain + |adc.offset|) * 10^9 ≤ B) (hB2 : 60000 ≤ B) (raws : List ℤ) (hr : ∀ r ∈ raws, 0 ≤ r ∧ r < 2^18) :
    (plainCurrents adc raws).sum + (convSeries fl adc 0 raws).2 ≤ (convSeries fl adc 0 raws).1.sum + raws.length * (B / 2^50) := by
  suffices H : ∀ (raws : List ℤ) (res : ℚ), 0 ≤ res → res ≤ 60000 → (∀ r ∈ raws, 0 ≤ r ∧ r < 2^18) → (plainCurrents adc raws).sum +
      (convSeries fl adc res raws).2 ≤ (convSeries fl adc res raws).1.sum + res + raws.length * (B / 2^50) by
    simpa using H raws 0 le_rfl (by norm_num) hr
  intro raws
  induction raws with
  | nil => intro res _ _ _; simp [plainCurrents, convSeries]
  | cons r rs ih =>
    intro res h0 h1 hr
    have k := convAdc_float h adc hc ho B hB hB2 r (hr r (by simp)).1 (hr r (by simp)).2 res h0 h1
    simp only at k
    obtain ⟨k1, -, k3, k4, -⟩ := k
    have := ih _ k3 k4 (fun x hx => hr x (by simp [hx]))
    simp only [plainCurrents, List.map_cons, List.sum_cons, convSeries, List.length_cons] at this ⊢
    push_cast
    linarith

/-- Samples below zero that sum up to no more than 60000 nA are compensated up to the precision. -/
theorem C18_charge_float_partial {fl : ℚ → ℚ} (h : AccRounding fl) (adc : CalPair) (hc : adc.Valid) (ho : adc.offset < 0) (B : ℚ)
    (hB : (2^18 * adc.gain + |adc.offset|) * 10^9 ≤ B) (hB2 : 60000 ≤ B) (raws : List ℤ) (hr : ∀ r ∈ raws, 0 ≤ r ∧ r < 2^18)
    (hneg : ((plainCurrents adc raws).map (fun i => max 0 (-i))).sum + raws.length * (B / 2^50) ≤ 60000) :
    |(convSeries fl adc 0 raws).1.sum - ((plainCurrents adc raws).sum + (convSeries fl adc 0 raws).2)| ≤ raws.length * (B / 2^50) := by
  have lower := C18_charge_lower_float h adc hc ho B hB hB2 raws hr
  suffices H : ∀ (raws : List ℤ) (res : ℚ), 0 ≤ res → (∀ r ∈ raws, 0 ≤ r ∧ r < 2^18) →
      res + ((plainCurrents adc raws).map (fun i => max 0 (-i))).sum + raws.length * (B / 2^50) ≤ 60000 →
      (convSeries fl adc res raws).1.sum + res ≤ (plainCurrents adc raws).sum + (convSeries fl adc res raws).2 + raws.length * (B / 2^50) by
    have := H raws 0 le_rfl hr (by simpa using hneg)
    rw [abs_le]; constructor <;> linarith
  clear lower hneg hr raws
  intro raws
  induction raws with
  | nil => intro res _ _ _; simp [plainCurrents, convSeries, add_comm]
  | cons r rs ih =>
    intro res h0 hr hsum
    simp only [plainCurrents, List.map_cons, List.sum_cons, convSeries, List.length_cons] at hsum ih ⊢
    simp only [Nat.cast_add, Nat.cast_one] at hsum ⊢
    have hrest : 0 ≤ ((rs.map (fun r : ℤ => ((r : ℚ) * adc.gain + adc.offset) * 10^9)).map
        (fun i => max 0 (-i))).sum := by
      apply List.sum_nonneg
      intro x hx
      obtain ⟨y, -, rfl⟩ := List.mem_map.mp hx
      exact le_max_left _ _
    have hd : 0 ≤ B / 2^50 := by positivity
    have hd2 : 0 ≤ (rs.length:ℚ) * (B / 2^50) := by positivity
    have hmx := le_max_left 0 (-(((r:ℚ) * adc.gain + adc.offset) * 10^9))
    have hmy := le_max_right 0 (-(((r:ℚ) * adc.gain + adc.offset) * 10^9))
    have hs : ((rs.length:ℚ) + 1) * (B / 2^50) = rs.length * (B / 2^50) + B / 2^50 := by ring
    rw [hs] at hsum ⊢
    have k : res ≤ 60000 → _ := convAdc_float h adc hc ho B hB hB2 r (hr r (by simp)).1 (hr r (by simp)).2 res h0
    simp only at k
    have ih' := fun p h => ih p h (fun x hx => hr x (by simp [hx]))
    clear ih hs hB hr hB2
    generalize (rs.length:ℚ) * (B / 2^50) = L at *
    generalize B / 2^50 = d at *
    generalize (List.map (fun i => max 0 (-i)) (List.map (fun r : ℤ => ((r:ℚ) * adc.gain + adc.offset) * 10^9) rs)).sum = S at *
    generalize max 0 (-(((r:ℚ) * adc.gain + adc.offset) * 10^9)) = m at *
    generalize ((r:ℚ) * adc.gain + adc.offset) * 10^9 = i at *
    obtain ⟨-, k2, k3, k4, k5⟩ := k (by linarith)
    have k6 := k2 (by linarith)
    have := ih' _ k3 (by rcases k5 with k5 | k5 <;> linarith)
    linarith

/-- The default gain of the current channel with an offset of -1 µA. -/
example : (⟨1/4915200, -1/1000000⟩ : CalPair).Valid ∧ (2^18 * (1/4915200 : ℚ) + |(-1/1000000 : ℚ)|) * 10^9 ≤ 10^8 ∧
    ((plainCurrents ⟨1/4915200, -1/1000000⟩ [0, 3, 20, 5]).map (fun i => max 0 (-i))).sum + 4 * (10^8 / 2^50) ≤ 60000 :=
  ⟨by norm_num [CalPair.Valid], by decide +kernel, by decide +kernel⟩

/-- Rounding of a number that is zero or not extremely small: a relative error of 2^-52. -/
theorem fl_rel52 {fl : ℚ → ℚ} (h : AccRounding fl) (x : ℚ) (hx : x = 0 ∨ 1 / 2^34 ≤ |x|) : |fl x - x| ≤ |x| / 2^52 := by
  rcases hx with rfl | hx
  · rw [h.toRounding.zero]; simp
  · have h1 := h.err x
    have h2 : (2:ℚ)^(-1075:ℤ) ≤ |x| / 2^53 := by
      refine le_trans tiny_le ?_
      have : (1:ℚ)/2^60 * (1/10^100) ≤ (1/2^34) / 2^53 := by norm_num
      refine this.trans ?_
      gcongr
    have h3 : |x| / 2^53 + |x| / 2^53 = |x| / 2^52 := by ring
    linarith

/-- **C07, pairs made from a function.**  The pair made from a conversion function is the line through its values at 0 and 1, up to a few roundings of the float unit. -/
theorem C07_from_fn {fl : ℚ → ℚ} (h : AccRounding fl) (fn : ℚ → ℤ) (hlt : fn 0 < fn 1) (h0 : |fn 0| ≤ 2^32) (h1 : fn 1 - fn 0 ≤ 2^32) :
    ∃ c, CalPair.fromFn fl fn = some c ∧ ∀ raw : ℤ, |raw| ≤ 2^32 →
      |c.rawToSi fl raw - (raw - fn 0 : ℚ) / (fn 1 - fn 0)| ≤ ((|raw| : ℚ) + |(fn 0 : ℚ)|) / (fn 1 - fn 0) / 2^50 := by
  obtain ⟨a, ha⟩ : ∃ a : ℤ, a = fn 1 - fn 0 := ⟨_, rfl⟩
  obtain ⟨b, hb⟩ : ∃ b : ℤ, b = fn 0 := ⟨_, rfl⟩
  have ha1 : 1 ≤ a := by omega
  have haq : (1:ℚ) ≤ a := by exact_mod_cast ha1
  have ha2 : (a:ℚ) ≤ 2^32 := by rw [ha]; exact_mod_cast h1
  have ha0 : (0:ℚ) < a := by linarith
  have e1 : fl (a : ℚ) = a := h.toRounding.exactInt a (by rw [abs_of_nonneg (by omega)]; omega)
  have e2 : fl (b : ℚ) = b := h.toRounding.exactInt b (by rw [hb]; omega)
  have hd : ((fn 1 : ℚ) - fn 0) = a := by rw [ha]; push_cast; ring
  have hinv : 1 / 2^32 ≤ 1 / (a:ℚ) := one_div_le_one_div_of_le ha0 ha2
  have hint : ∀ n : ℤ, (n:ℚ) / a = 0 ∨ 1 / 2^34 ≤ |(n:ℚ) / a| := by
    intro n
    by_cases hn : n = 0
    · left; rw [hn]; simp
    · right
      have : (1:ℚ) ≤ |(n:ℚ)| := by exact_mod_cast Int.one_le_abs hn
      rw [abs_div, abs_of_pos ha0]
      calc (1:ℚ)/2^34 ≤ 1/2^32 := by norm_num
        _ ≤ 1 / (a:ℚ) := hinv
        _ ≤ _ := by gcongr
  have hg := fl_rel52 h (1 / (a:ℚ)) (by have := hint 1; simpa using this)
  rw [abs_of_pos (by positivity : 0 < 1 / (a:ℚ))] at hg
  have ho := fl_rel52 h (-(b:ℚ) / a) (by have := hint (-b); push_cast at this; exact this)
  set g := fl (1 / (a:ℚ)) with hgd
  set o := fl (-(b:ℚ) / a) with hod
  obtain ⟨g1, g2⟩ := abs_le.mp hg
  have hgpos : 1 / (a:ℚ) * (1 - 1/2^52) ≤ g := by linarith
  have hgpos' : 1 / 2^33 ≤ g := by
    refine le_trans ?_ hgpos
    calc (1:ℚ)/2^33 ≤ 1/2^32 * (1 - 1/2^52) := by norm_num
      _ ≤ _ := by gcongr
  refine ⟨⟨g, o⟩, ?_, ?_⟩
  · unfold CalPair.fromFn
    simp only
    rw [← hb, show fn 1 - b = a by rw [ha, hb], if_neg (by omega), e1, e2, if_pos]
    unfold CalPair.Valid
    simp only
    exact lt_of_lt_of_le (by positivity) hgpos'
  · intro raw hr
    rw [hd, ← hb]
    have e3 : fl (raw : ℚ) = raw := h.toRounding.exactInt raw (by omega)
    unfold CalPair.rawToSi
    simp only [Bool.not_true, Bool.false_eq_true, if_false]
    rw [e3]
    have hp := fl_rel52 h ((raw:ℚ) * g) (by
      by_cases hn : raw = 0
      · left; rw [hn]; simp
      · right
        have : (1:ℚ) ≤ |(raw:ℚ)| := by exact_mod_cast Int.one_le_abs hn
        rw [abs_mul, abs_of_pos (lt_of_lt_of_le (by positivity) hgpos')]
        calc (1:ℚ)/2^34 ≤ 1 * (1/2^33) := by norm_num
          _ ≤ _ := by gcongr)
    have hs := h.err (fl ((raw:ℚ) * g) + o)
    have hA : |(raw:ℚ) * g - raw / a| ≤ |(raw:ℚ)| / a / 2^52 := by
      have : (raw:ℚ) * g - raw / a = raw * (g - 1 / a) := by ring
      rw [this, abs_mul]
      calc |(raw:ℚ)| * |g - 1 / a| ≤ |(raw:ℚ)| * (1 / a / 2^52) := by gcongr
        _ = _ := by ring
    have hB : |o + b / a| ≤ |(b:ℚ)| / a / 2^52 := by
      have e : |-(b:ℚ) / a| = |(b:ℚ)| / a := by rw [abs_div, abs_neg, abs_of_pos ha0]
      rw [e] at ho
      have : o + b / a = o - -(b:ℚ) / a := by ring
      rw [this]; exact ho
    obtain ⟨R, hR⟩ : ∃ R : ℚ, R = |(raw:ℚ)| / a := ⟨_, rfl⟩
    obtain ⟨B, hB'⟩ : ∃ B : ℚ, B = |(b:ℚ)| / a := ⟨_, rfl⟩
    have hR0 : 0 ≤ R := by rw [hR]; positivity
    have hB0 : 0 ≤ B := by rw [hB']; positivity
    rw [← hR] at hA
    rw [← hB'] at hB
    have hxr : |(raw:ℚ) / a| = R := by rw [hR, abs_div, abs_of_pos ha0]
    have hxb : |(b:ℚ) / a| = B := by rw [hB', abs_div, abs_of_pos ha0]
    have hgoal : ((|raw| : ℚ) + |(b : ℚ)|) / a / 2^50 = (R + B) / 2^50 := by rw [hR, hB', add_div]
    have hz : (fl ((raw:ℚ) * g) + o = 0 ∧ R + B = 0) ∨ 1/2^32 ≤ R + B := by
      by_cases hn : raw = 0
      · by_cases hm : b = 0
        · left
          rw [hn, hR, hB', hn, hm, hod, hm]
          simp [h.toRounding.zero]
        · right
          have : (1:ℚ) ≤ |(b:ℚ)| := by exact_mod_cast Int.one_le_abs hm
          have : 1 / (a:ℚ) ≤ B := by rw [hB']; gcongr
          linarith
      · right
        have : (1:ℚ) ≤ |(raw:ℚ)| := by exact_mod_cast Int.one_le_abs hn
        have : 1 / (a:ℚ) ≤ R := by rw [hR]; gcongr
        linarith
    rcases hz with ⟨hz1, hz2⟩ | hz
    · rw [hz1, h.toRounding.zero]
      have r0 : R = 0 := by linarith
      have b0 : B = 0 := by linarith
      rw [r0, abs_eq_zero] at hxr
      rw [b0, abs_eq_zero] at hxb
      rw [sub_div, hxr, hxb]
      simp only [sub_zero, abs_zero]
      positivity
    · have htiny : (2:ℚ)^(-1075:ℤ) ≤ (R + B) / 2^60 := by
        refine le_trans tiny_le ?_
        have : (1:ℚ)/2^60 * (1/10^100) ≤ (1/2^32) / 2^60 := by norm_num
        refine this.trans ?_
        gcongr
      rw [sub_div]
      have hX : |(raw:ℚ) * g| ≤ R + R / 2^52 := by
        have := abs_sub_abs_le_abs_sub ((raw:ℚ) * g) (raw / a)
        rw [hxr] at this
        linarith
      generalize (raw:ℚ) * g = x at *
      generalize fl x = p at *
      generalize fl (p + o) = s at *
      generalize (2:ℚ)^(-1075:ℤ) = t at *
      generalize (raw:ℚ) / a = u at *
      generalize (b:ℚ) / a = v at *
      have hS : |p + o| ≤ (R + B) * (1 + 1/2^50) := by
        have h5 : |p + o| ≤ |p| + |o| := abs_add_le _ _
        have h6 := abs_sub_abs_le_abs_sub p x
        have h7 : |o| - |v| ≤ |o + v| := by
          have := abs_sub_abs_le_abs_sub o (-v)
          rwa [abs_neg, sub_neg_eq_add] at this
        rw [hxb] at h7
        linarith
      have hgoal' : |s - (u - v)| ≤ (R + B) / 2^50 := by
        have : s - (u - v) = (s - (p + o)) + (p - x) + (x - u) + (o + v) := by ring
        rw [this]
        have t1 := abs_add_le ((s - (p + o)) + (p - x) + (x - u)) (o + v)
        have t2 := abs_add_le ((s - (p + o)) + (p - x)) (x - u)
        have t3 := abs_add_le (s - (p + o)) (p - x)
        linarith
      calc _ ≤ _ := hgoal'
        _ = _ := by rw [hR, hB', ← add_div]

/-- A converter with 3 codes per volt that gives 7 at 0 V. -/
example : ∃ fn : ℚ → ℤ, fn 0 = 7 ∧ fn 1 = 10 ∧ fn 0 < fn 1 ∧ |fn 0| ≤ 2^32 ∧ fn 1 - fn 0 ≤ 2^32 :=
  ⟨fun x => if x = 0 then 7 else 10, by decide +kernel, by decide +kernel, by decide +kernel, by decide +kernel, by decide +kernel⟩

end Verif.Props
