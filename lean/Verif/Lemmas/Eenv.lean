import Verif.Lemmas.DataTools
import Verif.Model.Eenv

/-!
# Time stamps and codes of generated recordings

Lemmas for C99: the rounding errors of the scripts that generate recordings.
-/

namespace Verif.Props
open Verif.Py Verif.Model

theorem gen_rel {fl : ℚ → ℚ} (h : AccRounding fl) (x : ℚ) (hx : x = 0 ∨ 1 / 2^40 ≤ x) :
    x * (1 - 12 / 10^17) ≤ fl x ∧ fl x ≤ x * (1 + 12 / 10^17) := by
  rcases hx with rfl | hx
  · have := h.toRounding.exactInt 0 (by norm_num)
    simp only [Int.cast_zero] at this
    rw [this]; simp
  · have e := h.err x
    have hx0 : 0 < x := lt_of_lt_of_le (by norm_num) hx
    rw [abs_of_pos hx0] at e
    have e2 : x / 2^53 + 2^(-1075 : ℤ) ≤ x * (12 / 10^17) := by
      have h1 : (2 : ℚ)^(-1075 : ℤ) ≤ 1 / 2^40 * (1 / 10^18) := by
        refine le_trans (zpow_le_zpow_right₀ (by norm_num : (1 : ℚ) ≤ 2) (by norm_num : (-1075 : ℤ) ≤ -105)) ?_
        norm_num
      have h2 : (2 : ℚ)^(-1075 : ℤ) ≤ x * (1 / 10^18) := le_trans h1 (mul_le_mul_of_nonneg_right hx (by norm_num))
      have h3 : x / 2^53 ≤ x * (112 / 10^18) := by
        rw [div_eq_mul_inv]
        exact mul_le_mul_of_nonneg_left (by norm_num) hx0.le
      linarith
    have e3 := abs_le.1 (le_trans e e2)
    constructor <;> linarith [e3.1, e3.2]

/-- The interval in seconds the scripts compute. -/
theorem interval_rel {fl : ℚ → ℚ} (h : AccRounding fl) :
    1 / 10^5 * (1 - 12 / 10^17) ≤ fl ((10000 : ℤ) / 10^9) ∧ fl ((10000 : ℤ) / 10^9) ≤ 1 / 10^5 * (1 + 12 / 10^17) := by
  have := gen_rel h (((10000 : ℤ) : ℚ) / 10^9) (.inr (by norm_num))
  norm_num at this ⊢
  exact this

/-- There are at least as many time stamps as samples. -/
theorem npArange_length {fl : ℚ → ℚ} (h : AccRounding fl) (d : ℕ) (hd : d ≤ 500000) :
    100000 * d ≤ (npArange fl d (fl ((10000 : ℤ) / 10^9))).length := by
  obtain ⟨h1, h2⟩ := interval_rel h
  set s := fl (((10000 : ℤ) : ℚ) / 10^9) with hs
  have hs0 : 0 < s := lt_of_lt_of_le (by norm_num) h1
  rcases Nat.eq_zero_or_pos d with rfl | hd0
  · simp
  · have hd1 : (1 : ℚ) ≤ d := by exact_mod_cast hd0
    have hd2 : (d : ℚ) ≤ 500000 := by exact_mod_cast hd
    have hq : (d : ℚ) * 100000 * (1 - 12 / 10^17) ≤ d / s := by
      rw [le_div_iff₀ hs0]
      have : (d : ℚ) * 100000 * (1 - 12 / 10^17) * s ≤ (d : ℚ) * 100000 * (1 - 12 / 10^17) * (1 / 10^5 * (1 + 12 / 10^17)) :=
        mul_le_mul_of_nonneg_left h2 (mul_nonneg (by positivity) (by norm_num))
      nlinarith
    have hf := (gen_rel h (d / s) (.inr (by
      have : (1 : ℚ) * 100000 * (1 - 12 / 10^17) ≤ d * 100000 * (1 - 12 / 10^17) := by nlinarith
      have : (1 : ℚ) / 2^40 ≤ 1 * 100000 * (1 - 12 / 10^17) := by norm_num
      linarith))).1
    have hlt : ((100000 * (d : ℤ) - 1 : ℤ) : ℚ) < fl (d / s) := by
      push_cast
      have : (d : ℚ) * 100000 * (1 - 12 / 10^17) * (1 - 12 / 10^17) ≤ d / s * (1 - 12 / 10^17) := mul_le_mul_of_nonneg_right hq (by norm_num)
      nlinarith
    have hc : 100000 * (d : ℤ) - 1 < ⌈fl ((d : ℚ) / s)⌉ := Int.lt_ceil.2 hlt
    simp only [npArange, List.length_map, List.length_range]
    omega

/-- The code of a generated time stamp: exactly 10 µs per sample. -/
theorem stamp_code {fl : ℚ → ℚ} (h : AccRounding fl) (a i : ℕ) (hm : 100000 * a + i ≤ 5 * 10^10) :
    (CalSeries.default fl).time.siToRaw fl (fl (fl (a : ℚ) + fl ((i : ℚ) * fl ((10000 : ℤ) / 10^9)))) = 10000 * (100000 * a + i : ℕ) := by
  obtain ⟨h1, h2⟩ := interval_rel h
  set s := fl (((10000 : ℤ) : ℚ) / 10^9) with hs
  have hs0 : 0 < s := lt_of_lt_of_le (by norm_num) h1
  set U : ℚ := 12 / 10^17 with hU
  have hU0 : 0 < U := by norm_num [hU]
  have hU1 : U < 1 / 1000 := by norm_num [hU]
  have ha : fl (a : ℚ) = a := h.toRounding.exactNat a (by omega)
  have hi0 : (0 : ℚ) ≤ i := Nat.cast_nonneg i
  have ha0 : (0 : ℚ) ≤ a := Nat.cast_nonneg a
  have hsmall : i = 0 ∨ 1 ≤ (i : ℚ) := by
    rcases Nat.eq_zero_or_pos i with hi | hi
    · exact .inl hi
    · exact .inr (by exact_mod_cast hi)
  have hq := gen_rel h ((i : ℚ) * s) (by
    rcases hsmall with hi | hi
    · left; rw [hi]; simp
    · right
      have : (1 : ℚ) / 2^40 ≤ 1 * s := by
        have : (1 : ℚ) / 2^40 ≤ 1 / 10^5 * (1 - U) := by norm_num [hU]
        linarith
      exact le_trans this (mul_le_mul_of_nonneg_right hi hs0.le))
  rw [← hU] at hq
  set q := fl ((i : ℚ) * s) with hqd
  clear_value U
  have hq1 : (i : ℚ) / 10^5 * (1 - U)^2 ≤ q := by
    refine le_trans ?_ hq.1
    have : (i : ℚ) * (1 / 10^5 * (1 - U)) * (1 - U) ≤ i * s * (1 - U) :=
      mul_le_mul_of_nonneg_right (mul_le_mul_of_nonneg_left h1 hi0) (by linarith)
    linarith [this]
  have hq2 : q ≤ (i : ℚ) / 10^5 * (1 + U)^2 := by
    refine le_trans hq.2 ?_
    have : (i : ℚ) * s * (1 + U) ≤ i * (1 / 10^5 * (1 + U)) * (1 + U) :=
      mul_le_mul_of_nonneg_right (mul_le_mul_of_nonneg_left h2 hi0) (by linarith)
    linarith [this]
  have hsq1 : (1 - U)^2 ≤ 1 := pow_le_one₀ (by linarith) (by linarith)
  have hsq2 : 1 ≤ (1 + U)^2 := one_le_pow₀ (by linarith)
  set X : ℚ := a + i / 10^5 with hX
  have hX0 : 0 ≤ X := by positivity
  have hs1 : X * (1 - U)^2 ≤ a + q := by
    have : (a : ℚ) * (1 - U)^2 ≤ a := mul_le_of_le_one_right ha0 hsq1
    rw [hX]; linarith [this, hq1]
  have hs2 : a + q ≤ X * (1 + U)^2 := by
    have : (a : ℚ) ≤ a * (1 + U)^2 := le_mul_of_one_le_right ha0 hsq2
    rw [hX]; linarith [this, hq2]
  have hXs : X = 0 ∨ 1 / 10^5 ≤ X := by
    rcases hsmall with hi | hi
    · rcases Nat.eq_zero_or_pos a with h0 | h0
      · left; rw [hX, hi, h0]; simp
      · right
        have : (1 : ℚ) ≤ a := by exact_mod_cast h0
        rw [hX]
        have : (0 : ℚ) ≤ i / 10^5 := by positivity
        linarith
    · right
      rw [hX]
      have : (1 : ℚ) / 10^5 ≤ i / 10^5 := by
        rw [div_le_div_iff_of_pos_right (by norm_num)]; exact hi
      linarith
  have hy := gen_rel h ((a : ℚ) + q) (by
    rcases hXs with h0 | h0
    · left
      rw [h0] at hs1 hs2
      linarith
    · right
      have : (1 : ℚ) / 2^40 ≤ 1 / 10^5 * (1 - U)^2 := by norm_num [hU]
      have : (1 : ℚ) / 10^5 * (1 - U)^2 ≤ X * (1 - U)^2 := mul_le_mul_of_nonneg_right h0 (by positivity)
      linarith)
  rw [← hU] at hy
  rw [ha]
  set y := fl ((a : ℚ) + q) with hyd
  have hy1 : X * (1 - U)^3 ≤ y := by
    refine le_trans ?_ hy.1
    have := mul_le_mul_of_nonneg_right hs1 (show (0 : ℚ) ≤ 1 - U by linarith)
    linarith
  have hy2 : y ≤ X * (1 + U)^3 := by
    refine le_trans hy.2 ?_
    have := mul_le_mul_of_nonneg_right hs2 (show (0 : ℚ) ≤ 1 + U by linarith)
    linarith
  have hyy : fl (y - 0) = y := by rw [sub_zero, hyd]; exact h.toRounding.idem _
  have hg := gen_rel h (1 / 10^9) (.inr (by norm_num))
  rw [← hU] at hg
  unfold CalPair.siToRaw CalSeries.default
  dsimp only
  rw [hyy]
  set g := fl (1 / 10^9) with hgd
  have hg0 : 0 < g := lt_of_lt_of_le (by norm_num [hU]) hg.1
  set K : ℚ := X * 10^9 with hK
  have hK0 : 0 ≤ K := by positivity
  have hz1 : K * (1 - U)^3 / (1 + U) ≤ y / g := by
    rw [div_le_div_iff₀ (by linarith) hg0]
    have e1 : K * (1 - U)^3 * g ≤ K * (1 - U)^3 * (1 / 10^9 * (1 + U)) := mul_le_mul_of_nonneg_left hg.2 (mul_nonneg hK0 (pow_nonneg (by linarith) 3))
    have e2 : K * (1 - U)^3 * (1 / 10^9 * (1 + U)) = X * (1 - U)^3 * (1 + U) := by rw [hK]; ring
    have e3 : X * (1 - U)^3 * (1 + U) ≤ y * (1 + U) := mul_le_mul_of_nonneg_right hy1 (by linarith)
    linarith
  have hz2 : y / g ≤ K * (1 + U)^3 / (1 - U) := by
    rw [div_le_div_iff₀ hg0 (by linarith)]
    have e1 : K * (1 + U)^3 * (1 / 10^9 * (1 - U)) ≤ K * (1 + U)^3 * g := mul_le_mul_of_nonneg_left hg.1 (mul_nonneg hK0 (pow_nonneg (by linarith) 3))
    have e2 : K * (1 + U)^3 * (1 / 10^9 * (1 - U)) = X * (1 + U)^3 * (1 - U) := by rw [hK]; ring
    have e3 : y * (1 - U) ≤ X * (1 + U)^3 * (1 - U) := mul_le_mul_of_nonneg_right hy2 (by linarith)
    linarith
  have hz := gen_rel h (y / g) (by
    rcases hXs with h0 | h0
    · left
      have : y = 0 := by rw [h0] at hy1 hy2; linarith
      rw [this]; simp
    · right
      have hk : (10000 : ℚ) ≤ K := by rw [hK]; linarith
      have : (10000 : ℚ) * ((1 - U)^3 / (1 + U)) ≤ K * ((1 - U)^3 / (1 + U)) :=
        mul_le_mul_of_nonneg_right hk (div_nonneg (pow_nonneg (by linarith) 3) (by linarith))
      have e : K * ((1 - U)^3 / (1 + U)) = K * (1 - U)^3 / (1 + U) := by ring
      have : (1 : ℚ) / 2^40 ≤ 10000 * ((1 - U)^3 / (1 + U)) := by norm_num [hU]
      linarith)
  rw [← hU] at hz
  set z := fl (y / g) with hzd
  have hKM : K = 10000 * ((100000 * a + i : ℕ) : ℚ) := by
    rw [hK, hX]; push_cast; ring
  have hKb : K ≤ 5 * 10^14 := by
    rw [hKM]
    have : ((100000 * a + i : ℕ) : ℚ) ≤ ((5 * 10^10 : ℕ) : ℚ) := by exact_mod_cast hm
    push_cast at this ⊢
    linarith
  have hlo : K * (1 - 6 * U) ≤ z := by
    refine le_trans ?_ hz.1
    have e1 : K * (1 - U)^3 / (1 + U) * (1 - U) ≤ y / g * (1 - U) := mul_le_mul_of_nonneg_right hz1 (by linarith)
    have e2 : (1 - 6 * U) ≤ (1 - U)^3 / (1 + U) * (1 - U) := by rw [hU]; norm_num
    have e3 := mul_le_mul_of_nonneg_left e2 hK0
    have e4 : K * ((1 - U)^3 / (1 + U) * (1 - U)) = K * (1 - U)^3 / (1 + U) * (1 - U) := by ring
    linarith
  have hhi : z ≤ K * (1 + 6 * U) := by
    refine le_trans hz.2 ?_
    have e1 : y / g * (1 + U) ≤ K * (1 + U)^3 / (1 - U) * (1 + U) := mul_le_mul_of_nonneg_right hz2 (by linarith)
    have e2 : (1 + U)^3 / (1 - U) * (1 + U) ≤ 1 + 6 * U := by rw [hU]; norm_num
    have e3 := mul_le_mul_of_nonneg_left e2 hK0
    have e4 : K * ((1 + U)^3 / (1 - U) * (1 + U)) = K * (1 + U)^3 / (1 - U) * (1 + U) := by ring
    linarith
  have hz0 : 0 ≤ z := le_trans (mul_nonneg hK0 (by linarith)) hlo
  rw [max_eq_left hz0]
  apply pyRound_eq_of_lt
  have hKU : K * (6 * U) < 1 / 2 := by
    have : K * (6 * U) ≤ 5 * 10^14 * (6 * U) := mul_le_mul_of_nonneg_right hKb (by linarith)
    have : (5 : ℚ) * 10^14 * (6 * U) < 1 / 2 := by norm_num [hU]
    linarith
  have hcast : (((10000 * ((100000 * a + i : ℕ) : ℤ)) : ℤ) : ℚ) = K := by rw [hKM]; push_cast; ring
  rw [hcast, abs_lt]
  constructor <;> linarith

/-- The gain of a channel is close to its nominal value. -/
theorem gain_rel {fl : ℚ → ℚ} (h : AccRounding fl) (n : ℚ) (b : ℚ) (hn : 1 ≤ n) (hb : 1 / 2^40 ≤ b) :
    n * b * (1 - 12 / 10^17)^2 ≤ fl (n * fl b) ∧ fl (n * fl b) ≤ n * b * (1 + 12 / 10^17)^2 := by
  have h1 := gen_rel h b (.inr hb)
  have hfb := h.toRounding.mono hb
  have h3 := h.toRounding.exact 1 (-40) (by norm_num) (by norm_num)
  rw [show ((1 : ℤ) : ℚ) * 2 ^ (-40 : ℤ) = 1 / 2 ^ 40 by norm_num] at h3
  rw [h3] at hfb
  have hn0 : 0 ≤ n := by linarith
  have h2 := gen_rel h (n * fl b) (.inr (by nlinarith))
  have a1 := mul_le_mul_of_nonneg_left h1.1 hn0
  have a2 := mul_le_mul_of_nonneg_left h1.2 hn0
  constructor
  · refine le_trans ?_ h2.1
    have := mul_le_mul_of_nonneg_right a1 (show (0 : ℚ) ≤ 1 - 12 / 10^17 by norm_num)
    linarith
  · refine le_trans h2.2 ?_
    have := mul_le_mul_of_nonneg_right a2 (show (0 : ℚ) ≤ 1 + 12 / 10^17 by norm_num)
    linarith

/-- The code of a float is the closest one up to a thousandth of a step. -/
theorem code_close {fl : ℚ → ℚ} (h : AccRounding fl) (G g x : ℚ) (hG : 0 < G) (hg : G * (1 - 12 / 10^17)^2 ≤ g ∧ g ≤ G * (1 + 12 / 10^17)^2)
    (hx : fl x = x) (h0 : 0 ≤ x) (h1 : x ≤ 4 * 10^9 * G) :
    0 ≤ (⟨g, 0⟩ : CalPair).siToRaw fl x ∧ (⟨g, 0⟩ : CalPair).siToRaw fl x ≤ 4 * 10^9 + 1 ∧ |G * ((⟨g, 0⟩ : CalPair).siToRaw fl x : ℚ) - x| ≤ 501 / 1000 * G := by
  unfold CalPair.siToRaw
  dsimp only
  rw [sub_zero, hx]
  have hg0 : 0 < g := lt_of_lt_of_le (mul_pos hG (by norm_num)) hg.1
  have hq0 : 0 ≤ x / g := div_nonneg h0 hg0.le
  have hz0 : 0 ≤ fl (x / g) := h.toRounding.nonneg hq0
  rw [max_eq_left hz0]
  set z := fl (x / g) with hz
  have hr := abs_le.1 (abs_pyRound_sub_le z)
  have he := h.err (x / g)
  rw [abs_of_nonneg hq0] at he
  have hX : x / G ≤ 4 * 10^9 := by rw [div_le_iff₀ hG]; exact h1
  have hX0 : 0 ≤ x / G := div_nonneg h0 hG.le
  have hlo : x / G * (1 - 1 / 10^15) ≤ x / g := by
    rw [le_div_iff₀ hg0]
    have : x / G * (1 - 1 / 10^15) * g ≤ x / G * (1 - 1 / 10^15) * (G * (1 + 12 / 10^17)^2) := mul_le_mul_of_nonneg_left hg.2 (mul_nonneg hX0 (by norm_num))
    have e : x / G * (1 - 1 / 10^15) * (G * (1 + 12 / 10^17)^2) = x * ((1 - 1 / 10^15) * (1 + 12 / 10^17)^2) := by field_simp
    have : x * ((1 - 1 / 10^15) * (1 + 12 / 10^17)^2) ≤ x := mul_le_of_le_one_right h0 (by norm_num)
    linarith
  have hhi : x / g ≤ x / G * (1 + 1 / 10^15) := by
    rw [div_le_iff₀ hg0]
    have : x / G * (1 + 1 / 10^15) * (G * (1 - 12 / 10^17)^2) ≤ x / G * (1 + 1 / 10^15) * g := mul_le_mul_of_nonneg_left hg.1 (mul_nonneg hX0 (by norm_num))
    have e : x / G * (1 + 1 / 10^15) * (G * (1 - 12 / 10^17)^2) = x * ((1 + 1 / 10^15) * (1 - 12 / 10^17)^2) := by field_simp
    have : x ≤ x * ((1 + 1 / 10^15) * (1 - 12 / 10^17)^2) := le_mul_of_one_le_right h0 (by norm_num)
    linarith
  have htiny : x / g / 2^53 + 2^(-1075 : ℤ) ≤ 1 / 10000 := by
    have h2 : (2 : ℚ)^(-1075 : ℤ) ≤ 1 / 10^6 :=
      le_trans (zpow_le_zpow_right₀ (by norm_num : (1 : ℚ) ≤ 2) (by norm_num : (-1075 : ℤ) ≤ -105)) (by norm_num)
    have : x / g ≤ 5 * 10^9 := by nlinarith
    have : x / g / 2^53 ≤ 5 * 10^9 / 2^53 := by rw [div_le_div_iff_of_pos_right (by norm_num)]; exact this
    have : (5 : ℚ) * 10^9 / 2^53 ≤ 1 / 10^6 := by norm_num
    linarith
  have he2 := abs_le.1 (le_trans he htiny)
  have hd1 : x / G - x / g ≤ 1 / 10000 := by
    have : x / G * (1 / 10^15) ≤ 4 * 10^9 * (1 / 10^15) := mul_le_mul_of_nonneg_right hX (by norm_num)
    linarith
  have hd2 : x / g - x / G ≤ 1 / 10000 := by
    have : x / G * (1 / 10^15) ≤ 4 * 10^9 * (1 / 10^15) := mul_le_mul_of_nonneg_right hX (by norm_num)
    linarith
  refine ⟨?_, ?_, ?_⟩
  · have : pyRound 0 ≤ pyRound z := pyRound_mono hz0
    rwa [pyRound_zero] at this
  · have : ((pyRound z : ℤ) : ℚ) < ((4 * 10^9 + 1 + 1 : ℤ) : ℚ) := by push_cast; linarith [hr.2, he2.2]
    have := Int.cast_lt.1 this
    omega
  · have hx' : x = G * (x / G) := by field_simp
    have e : G * ((pyRound z : ℤ) : ℚ) - x = G * (((pyRound z : ℤ) : ℚ) - x / G) := by rw [mul_sub, ← hx']
    rw [e, abs_mul, abs_of_pos hG, mul_comm]
    refine mul_le_mul_of_nonneg_right ?_ hG.le
    rw [abs_le]
    constructor <;> linarith [hr.1, hr.2, he2.1, he2.2]

/-- A constant vector. -/
theorem linspace_const {fl : ℚ → ℚ} (h : Rounding fl) (v : ℚ) (hv : fl v = v) (n : ℕ) : linspace fl v v n = List.replicate n v := by
  have h0 : fl 0 = 0 := by
    have := h.exactInt 0 (by norm_num)
    simpa using this
  unfold linspace
  simp only [sub_self, h0, zero_div, mul_zero, ite_self, zero_add, hv]
  rw [List.eq_replicate_iff]
  simp

/-- A ramp in exact arithmetic. -/
theorem linspace_exact (v0 v1 : ℚ) (n : ℕ) (hn : 2 ≤ n) : linspace (fun x => x) v0 v1 n = (List.range n).map (fun i : ℕ => v0 + i * (v1 - v0) / (n - 1)) := by
  have hn1 : ((n - 1 : ℕ) : ℚ) = n - 1 := by rw [Nat.cast_sub (by omega)]; simp
  have hne : (n : ℚ) - 1 ≠ 0 := by
    have : (2 : ℚ) ≤ n := by exact_mod_cast hn
    linarith
  unfold linspace
  refine List.map_congr_left (fun i _ => ?_)
  dsimp only
  rw [hn1]
  by_cases hi : 1 < n ∧ i = n - 1
  · rw [if_pos hi, hi.2, hn1]
    field_simp
    ring
  · rw [if_neg hi, if_pos (by omega)]
    by_cases hs : (v1 - v0) / ((n : ℚ) - 1) = 0
    · rw [if_pos hs]
      ring
    · rw [if_neg hs]
      ring

end Verif.Props
