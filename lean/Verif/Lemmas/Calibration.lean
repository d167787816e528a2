import Verif.Model.Calibration
import Verif.Lemmas.Num

/-! Helper lemmas for the calibration properties. -/

namespace Verif.Model
open Verif.Py

theorem CalPair.siToRaw_id (c : CalPair) (x : ℚ) :
    c.siToRaw (fun x => x) x = pyRound (max ((x - c.offset) / c.gain) 0) := rfl

theorem CalPair.rawToSi_id (c : CalPair) (r : ℚ) :
    c.rawToSi (fun x => x) r = r * c.gain + c.offset := by
  simp [CalPair.rawToSi]

theorem masked_eq_max (x : ℚ) : (if x < 0 then 0 else x) = max x 0 := by
  split_ifs with h
  · rw [max_eq_right h.le]
  · rw [max_eq_left (not_lt.mp h)]

/-- Error bound of one rounded operation after division by the gain. -/
theorem err_div {fl : ℚ → ℚ} (h : AccRounding fl) {g : ℚ} (hg : 0 < g) (x : ℚ) :
    |fl x / g - x / g| ≤ |x / g| / 2^53 + (2:ℚ)^(-1075:ℤ) / g := by
  have := h.err x
  rw [← sub_div, abs_div, abs_div, abs_of_pos hg, div_right_comm, ← add_div]
  exact div_le_div_of_nonneg_right this hg.le

theorem tiny_le : (2:ℚ)^(-1075:ℤ) ≤ 1/2^60 * (1/10^100) := by
  have h1 : (10:ℚ)^100 ≤ 2^400 := by
    calc (10:ℚ)^100 ≤ (2^4)^100 := pow_le_pow_left₀ (by norm_num) (by norm_num) _
      _ = 2^400 := by rw [← pow_mul]
  have h2 : (2:ℚ)^60 * 10^100 ≤ 2^1075 := by
    calc (2:ℚ)^60 * 10^100 ≤ 2^60 * 2^400 := mul_le_mul_of_nonneg_left h1 (by positivity)
      _ = 2^460 := by rw [← pow_add]
      _ ≤ 2^1075 := pow_le_pow_right₀ (by norm_num) (by norm_num)
  rw [show (-1075:ℤ) = -((1075:ℕ):ℤ) by norm_num, zpow_neg, zpow_natCast,
    inv_eq_one_div, div_mul_div_comm, one_mul]
  exact one_div_le_one_div_of_le (by positivity) h2

theorem tiny_div {g : ℚ} (hg : 1 / 10^100 ≤ g) : (2:ℚ)^(-1075:ℤ) / g ≤ 1 / 2^60 := by
  have h0 : (0:ℚ) < 1 / 10^100 := by positivity
  have hg0 : 0 < g := lt_of_lt_of_le h0 hg
  rw [div_le_iff₀ hg0]
  have h2 : (1:ℚ)/2^60 * (1/10^100) ≤ 1/2^60 * g := mul_le_mul_of_nonneg_left hg (by positivity)
  exact le_trans tiny_le h2

/-- Error analysis of the raw → SI → raw chain. -/
theorem chain_error {fl : ℚ → ℚ} (h : AccRounding fl) {g o r : ℚ}
    (hg : 1 / 10^100 ≤ g) (ho : |o| ≤ 2^49 * g) (hr0 : 0 ≤ r) (hr : r ≤ 2^32) :
    |fl (fl (fl (fl (r * g) + o) - o) / g) - r| < 1/2 := by
  have hg0 : 0 < g := lt_of_lt_of_le (by positivity) hg
  have ht := tiny_div hg
  have ht0 : 0 ≤ (2:ℚ)^(-1075:ℤ) / g := by positivity
  have hO : |o / g| ≤ 2^49 := by
    rw [abs_div, abs_of_pos hg0, div_le_iff₀ hg0]; exact ho
  set O := o / g with hOdef
  set a := fl (r * g) with ha
  set b := fl (a + o) with hb
  set c := fl (b - o) with hc
  set d := fl (c / g) with hd
  have e1 := err_div h hg0 (r * g)
  have e2 := err_div h hg0 (a + o)
  have e3 := err_div h hg0 (b - o)
  have e4 := h.err (c / g)
  rw [mul_div_cancel_right₀ _ hg0.ne', ← ha] at e1
  rw [add_div, ← hb, ← hOdef] at e2
  rw [sub_div, ← hc, ← hOdef] at e3
  rw [← hd] at e4
  set A := a / g
  set B := b / g
  set C := c / g
  have h75 : (2:ℚ)^(-1075:ℤ) ≤ 1/2^60 := by
    refine le_trans tiny_le ?_
    have : (1:ℚ)/10^100 ≤ 1 := by norm_num
    calc (1:ℚ)/2^60 * (1/10^100) ≤ 1/2^60 * 1 := mul_le_mul_of_nonneg_left this (by positivity)
      _ = _ := by ring
  generalize (2:ℚ)^(-1075:ℤ) = η at *
  rw [abs_of_nonneg hr0] at e1
  have A1 : |A - r| ≤ 1/2^20 := by
    refine le_trans e1 ?_
    have : r / 2^53 ≤ 2^32/2^53 := div_le_div_of_nonneg_right hr (by positivity)
    norm_num at this ht ⊢; linarith
  have A2 : |A| ≤ 2^33 := by
    have := abs_sub_abs_le_abs_sub A r
    rw [abs_of_nonneg hr0] at this
    norm_num at this A1 hr ⊢; linarith
  have B1 : |B - (A + O)| ≤ 1/8 := by
    refine le_trans e2 ?_
    have h1 : |A + O| ≤ 2^33 + 2^49 := le_trans (abs_add_le _ _) (add_le_add A2 hO)
    have : |A + O| / 2^53 ≤ (2^33 + 2^49)/2^53 := div_le_div_of_nonneg_right h1 (by positivity)
    norm_num at this ht ⊢; linarith
  have B2 : |B - O| ≤ 2^34 := by
    have e : B - O = (B - (A + O)) + A := by ring
    rw [e]; refine le_trans (abs_add_le _ _) ?_
    norm_num at A2 B1 ⊢; linarith
  have C1 : |C - (B - O)| ≤ 1/2^10 := by
    refine le_trans e3 ?_
    have : |B - O| / 2^53 ≤ 2^34/2^53 := div_le_div_of_nonneg_right B2 (by positivity)
    norm_num at this ht ⊢; linarith
  have C2 : |C| ≤ 2^35 := by
    have e : C = (C - (B - O)) + (B - O) := by ring
    rw [e]; refine le_trans (abs_add_le _ _) ?_
    norm_num at C1 B2 ⊢; linarith
  have D1 : |d - C| ≤ 1/2^10 := by
    refine le_trans e4 ?_
    have : |C| / 2^53 ≤ 2^35/2^53 := div_le_div_of_nonneg_right C2 (by positivity)
    norm_num at this h75 ⊢; linarith
  have e : d - r = (d - C) + (C - (B - O)) + (B - (A + O)) + (A - r) := by ring
  rw [e]
  have t1 := abs_add_le ((d - C) + (C - (B - O)) + (B - (A + O))) (A - r)
  have t2 := abs_add_le ((d - C) + (C - (B - O))) (B - (A + O))
  have t3 := abs_add_le (d - C) (C - (B - O))
  norm_num at A1 B1 C1 D1; linarith

/-- One rounded operation on a positive, not subnormal number, as a relative interval. -/
theorem acc_bounds {fl : ℚ → ℚ} (h : AccRounding fl) {x : ℚ} (hx : 1 / 10^100 ≤ x) :
    x * (1 - 1/2^52) ≤ fl x ∧ fl x ≤ x * (1 + 1/2^52) := by
  have h0 : 0 < x := lt_of_lt_of_le (by positivity) hx
  have e := h.err x
  rw [abs_of_pos h0, abs_le] at e
  have ht := tiny_div hx
  rw [div_le_iff₀ h0] at ht
  generalize (2:ℚ)^(-1075:ℤ) = η at *
  constructor
  · norm_num at e ht ⊢; linarith [e.1]
  · norm_num at e ht ⊢; linarith [e.2]

/-- Four rounded operations that undo each other deviate by less than one, and truncation then
yields the code or the one below. -/
theorem trunc_chain {x : ℚ} {r : ℤ} (h : |x - r| < 1) (hx : 0 ≤ x) :
    pyInt x = r ∨ pyInt x = r - 1 := by
  rw [pyInt_of_nonneg hx]
  rw [abs_lt] at h
  rcases le_or_gt (r:ℚ) x with hc | hc
  · left; rw [Int.floor_eq_iff]; constructor <;> linarith [h.2]
  · right; rw [Int.floor_eq_iff]; push_cast; constructor <;> linarith [h.1]

theorem clampCode_eq {m : ℕ} {v : ℤ} (h0 : 0 ≤ v) (h : v < 2^m) : clampCode m v = v := by
  unfold clampCode; omega

theorem clampCode_range (m : ℕ) (v : ℤ) : 0 ≤ clampCode m v ∧ clampCode m v ≤ 2^m - 1 := by
  have : (1:ℤ) ≤ 2^m := one_le_pow₀ (by norm_num)
  unfold clampCode; omega

theorem vRefAdc_id : vRefAdc (fun x => x) = 512/125 := by norm_num [vRefAdc]
theorem adcSpan_id : adcSpan (fun x => x) = 128/25 := by norm_num [adcSpan, vRefAdc]
theorem shuntGain_id : shuntGain (fun x => x) = 96 := by norm_num [shuntGain]

theorem shuntGain_eq {fl : ℚ → ℚ} (h : Rounding fl) : shuntGain fl = 96 := by
  have := h.exactInt 96 (by norm_num)
  unfold shuntGain; norm_num at this ⊢; exact this

theorem dacSpan_eq {fl : ℚ → ℚ} (h : Rounding fl) : dacSpan fl = 5 := by
  have := h.exactInt 5 (by norm_num)
  unfold dacSpan; norm_num at this ⊢; exact this

theorem adcSpan_bounds {fl : ℚ → ℚ} (h : Rounding fl) : 5 ≤ adcSpan fl ∧ adcSpan fl ≤ 7 := by
  have a1 : (4:ℚ) ≤ vRefAdc fl := by
    have := h.int_le (n := 4) (x := 4096/1000) (by norm_num) (by norm_num)
    exact_mod_cast this
  have a2 : vRefAdc fl ≤ (5:ℚ) := by
    have := h.le_int (n := 5) (x := 4096/1000) (by norm_num) (by norm_num)
    exact_mod_cast this
  constructor
  · have := h.int_le (n := 5) (x := 5/4 * vRefAdc fl) (by norm_num) (by push_cast; linarith)
    exact_mod_cast this
  · have := h.le_int (n := 7) (x := 5/4 * vRefAdc fl) (by norm_num) (by push_cast; linarith)
    exact_mod_cast this

end Verif.Model
