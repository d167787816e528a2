import Verif.Py.Num
import Verif.Lemmas.Num
import Mathlib.Algebra.Order.Field.Power
import Mathlib.Data.Int.Log

/-!
# IEEE-754 binary64 round-to-nearest-even on rationals

`b64 x` is the binary64 number closest to `x` (ties to even significand), with gradual
underflow (least exponent -1074) and an unbounded upper exponent (overflow is not modelled).
-/

namespace Verif.Py

/-- `2^e` for an integer exponent; written so that the kernel can evaluate it. -/
def pow2 : ℤ → ℚ
  | .ofNat n => ((2^n : ℕ) : ℚ)
  | .negSucc n => mkRat 1 (2^(n+1))

theorem pow2_eq (e : ℤ) : pow2 e = (2:ℚ)^e := by
  cases e with
  | ofNat n => simp [pow2]
  | negSucc n => simp [pow2, Rat.mkRat_eq_div, zpow_negSucc]

/-- Position of the leading bit of a positive rational: `2^(ilog2 x) ≤ x < 2^(ilog2 x + 1)`. -/
def ilog2 (x : ℚ) : ℤ :=
  let k : ℤ := (Nat.log2 x.num.natAbs : ℤ) - (Nat.log2 x.den : ℤ)
  if pow2 k ≤ x then k else k - 1

/-- Exponent of the unit in the last place used for `x`. -/
def ulpExp (x : ℚ) : ℤ := max (ilog2 |x| - 52) (-1074)

/-- Round to nearest binary64, ties to even. -/
def b64 (x : ℚ) : ℚ :=
  if x = 0 then 0 else (pyRound (x / pow2 (ulpExp x)) : ℚ) * pow2 (ulpExp x)

theorem pow2_pos (e : ℤ) : 0 < pow2 e := by rw [pow2_eq]; positivity

theorem ilog2_spec {x : ℚ} (hx : 0 < x) : pow2 (ilog2 x) ≤ x ∧ x < pow2 (ilog2 x + 1) := by
  have hn : x.num.natAbs ≠ 0 := by
    have : 0 < x.num := Rat.num_pos.mpr hx
    omega
  have hd : x.den ≠ 0 := x.den_nz
  have n1 : 2 ^ Nat.log2 x.num.natAbs ≤ x.num.natAbs := Nat.log2_self_le hn
  have n2 : x.num.natAbs < 2 ^ (Nat.log2 x.num.natAbs + 1) := Nat.lt_log2_self
  have d1 : 2 ^ Nat.log2 x.den ≤ x.den := Nat.log2_self_le hd
  have d2 : x.den < 2 ^ (Nat.log2 x.den + 1) := Nat.lt_log2_self
  have hxe : x = (x.num.natAbs : ℚ) / (x.den : ℚ) := by
    have h0 : 0 < x.num := Rat.num_pos.mpr hx
    have h2 : (x.num.natAbs : ℚ) = (x.num : ℚ) := by
      rw [← Int.cast_natCast, Int.natAbs_of_nonneg h0.le]
    rw [h2]; exact (Rat.num_div_den x).symm
  set a := Nat.log2 x.num.natAbs
  set b := Nat.log2 x.den
  have dp : (0:ℚ) < (x.den : ℚ) := by exact_mod_cast x.den_pos
  have n1' : (2:ℚ)^a ≤ (x.num.natAbs : ℚ) := by exact_mod_cast n1
  have n2' : (x.num.natAbs : ℚ) < 2^(a+1) := by exact_mod_cast n2
  have d1' : (2:ℚ)^b ≤ (x.den : ℚ) := by exact_mod_cast d1
  have d2' : (x.den : ℚ) < 2^(b+1) := by exact_mod_cast d2
  have hup : x < pow2 ((a:ℤ) - b + 1) := by
    rw [pow2_eq, show ((a:ℤ) - b + 1) = ((a+1 : ℕ):ℤ) - (b:ℕ) by push_cast; ring,
      zpow_sub₀ (by norm_num), zpow_natCast, zpow_natCast, hxe, div_lt_div_iff₀ dp (by positivity)]
    calc (x.num.natAbs : ℚ) * 2^b ≤ x.num.natAbs * x.den :=
          mul_le_mul_of_nonneg_left d1' (by positivity)
      _ < 2^(a+1) * x.den := mul_lt_mul_of_pos_right n2' dp
  have hlo : pow2 ((a:ℤ) - b - 1) ≤ x := by
    rw [pow2_eq, show ((a:ℤ) - b - 1) = ((a : ℕ):ℤ) - ((b+1:ℕ):ℤ) by push_cast; ring,
      zpow_sub₀ (by norm_num), zpow_natCast, zpow_natCast]
    conv_rhs => rw [hxe]
    rw [div_le_div_iff₀ (by positivity) dp]
    calc (2:ℚ)^a * x.den ≤ 2^a * 2^(b+1) := mul_le_mul_of_nonneg_left d2'.le (by positivity)
      _ ≤ x.num.natAbs * 2^(b+1) := mul_le_mul_of_nonneg_right n1' (by positivity)
  unfold ilog2
  simp only
  change pow2 (if pow2 ((a:ℤ)-b) ≤ x then (a:ℤ)-b else (a:ℤ)-b-1) ≤ x ∧
    x < pow2 ((if pow2 ((a:ℤ)-b) ≤ x then (a:ℤ)-b else (a:ℤ)-b-1) + 1)
  split_ifs with h
  · exact ⟨h, hup⟩
  · refine ⟨hlo, ?_⟩
    rw [sub_add_cancel]; exact not_le.mp h

theorem pow2_le_pow2 {a b : ℤ} (h : a ≤ b) : pow2 a ≤ pow2 b := by
  rw [pow2_eq, pow2_eq]; exact zpow_le_zpow_right₀ (by norm_num) h

theorem ilog2_mono {x y : ℚ} (hx : 0 < x) (h : x ≤ y) : ilog2 x ≤ ilog2 y := by
  by_contra hc
  push Not at hc
  have h1 := (ilog2_spec hx).1
  have h2 := (ilog2_spec (lt_of_lt_of_le hx h)).2
  have := pow2_le_pow2 (show ilog2 y + 1 ≤ ilog2 x by omega)
  linarith

theorem b64_of_pos {x : ℚ} (hx : 0 < x) :
    b64 x = (pyRound (x / pow2 (ulpExp x)) : ℚ) * pow2 (ulpExp x) := by
  simp [b64, hx.ne']

theorem b64_neg (x : ℚ) : b64 (-x) = -b64 x := by
  unfold b64
  by_cases hx : x = 0
  · simp [hx]
  · have : ulpExp (-x) = ulpExp x := by simp [ulpExp]
    simp only [neg_eq_zero, hx, if_false, this, neg_div, pyRound_neg]
    push_cast; ring

/-- Anything on the grid of `x`'s binade bounds the rounded value from above. -/
theorem b64_le_of_grid {x : ℚ} (hx : 0 < x) {m : ℤ} (h : x ≤ m * pow2 (ulpExp x)) :
    b64 x ≤ m * pow2 (ulpExp x) := by
  rw [b64_of_pos hx]
  have hp := pow2_pos (ulpExp x)
  have : x / pow2 (ulpExp x) ≤ m := by rwa [div_le_iff₀ hp]
  have := pyRound_le_intCast this
  exact mul_le_mul_of_nonneg_right (by exact_mod_cast this) hp.le

theorem le_b64_of_grid {x : ℚ} (hx : 0 < x) {m : ℤ} (h : m * pow2 (ulpExp x) ≤ x) :
    m * pow2 (ulpExp x) ≤ b64 x := by
  rw [b64_of_pos hx]
  have hp := pow2_pos (ulpExp x)
  have : (m : ℚ) ≤ x / pow2 (ulpExp x) := by rwa [le_div_iff₀ hp]
  have := intCast_le_pyRound this
  exact mul_le_mul_of_nonneg_right (by exact_mod_cast this) hp.le

theorem pow2_eq_grid {k e : ℤ} (h : e ≤ k) : pow2 k = ((2^(k-e).toNat : ℤ) : ℚ) * pow2 e := by
  rw [pow2_eq, pow2_eq]
  have : (2:ℚ)^k = 2^((k-e).toNat : ℤ) * 2^e := by
    rw [← zpow_add₀ (by norm_num : (2:ℚ) ≠ 0)]
    congr 1
    rw [Int.toNat_of_nonneg (by omega)]; ring
  rw [this]; push_cast; rw [zpow_natCast]

theorem b64_nonneg {x : ℚ} (hx : 0 ≤ x) : 0 ≤ b64 x := by
  rcases hx.eq_or_lt with h | h
  · simp [b64, ← h]
  · have := le_b64_of_grid (m := 0) h (by simpa using hx)
    simpa using this

theorem b64_mono_pos {x y : ℚ} (hx : 0 < x) (h : x ≤ y) : b64 x ≤ b64 y := by
  have hy : 0 < y := lt_of_lt_of_le hx h
  have hl := ilog2_mono hx h
  have ex : ulpExp x = max (ilog2 x - 52) (-1074) := by simp [ulpExp, abs_of_pos hx]
  have ey : ulpExp y = max (ilog2 y - 52) (-1074) := by simp [ulpExp, abs_of_pos hy]
  by_cases he : ulpExp x = ulpExp y
  · rw [b64_of_pos hx, b64_of_pos hy, he]
    have hp := pow2_pos (ulpExp y)
    apply mul_le_mul_of_nonneg_right _ hp.le
    exact_mod_cast pyRound_mono (div_le_div_of_nonneg_right h hp.le)
  · have e1 : ulpExp y = ilog2 y - 52 := by omega
    have e2 : ilog2 x + 1 ≤ ilog2 y := by omega
    have e3 : ulpExp x ≤ ilog2 y := by omega
    have a1 : x ≤ pow2 (ilog2 y) := le_trans (ilog2_spec hx).2.le (pow2_le_pow2 e2)
    have a2 := (ilog2_spec hy).1
    have b1 : b64 x ≤ pow2 (ilog2 y) := by
      rw [pow2_eq_grid e3] at a1 ⊢; exact b64_le_of_grid hx a1
    have b2 : pow2 (ilog2 y) ≤ b64 y := by
      rw [pow2_eq_grid (show ulpExp y ≤ ilog2 y by omega)] at a2 ⊢; exact le_b64_of_grid hy a2
    exact le_trans b1 b2

theorem b64_mono {x y : ℚ} (h : x ≤ y) : b64 x ≤ b64 y := by
  rcases lt_trichotomy x 0 with hx | hx | hx
  · rcases lt_or_ge y 0 with hy | hy
    · have := b64_mono_pos (x := -y) (y := -x) (by linarith) (by linarith)
      rw [b64_neg, b64_neg] at this; linarith
    · have a := b64_nonneg (x := -x) (by linarith)
      rw [b64_neg] at a
      have b := b64_nonneg hy
      linarith
  · subst hx; have := b64_nonneg h; simpa [b64] using this
  · exact b64_mono_pos hx h

/-- Numbers on their own grid are representable. -/
theorem b64_exact_of_grid {x : ℚ} (hx : 0 < x) {m : ℤ} (h : x = m * pow2 (ulpExp x)) :
    b64 x = x := by
  have h1 := b64_le_of_grid (m := m) hx h.le
  have h2 := le_b64_of_grid (m := m) hx h.ge
  rw [← h] at h1 h2
  exact le_antisymm h1 h2

theorem b64_exact_lt (n e : ℤ) (h0 : 0 < n) (hlt : n < 2^53) (he : -1074 ≤ e) :
    b64 (n * (2:ℚ)^e) = n * (2:ℚ)^e := by
  have hn : (0:ℚ) < n := by exact_mod_cast h0
  set x : ℚ := n * (2:ℚ)^e with hx
  have hq : 0 < x := by positivity
  have hil : ilog2 x ≤ e + 52 := by
    by_contra hc
    push Not at hc
    have h1 := (ilog2_spec hq).1
    have h2 := pow2_le_pow2 (show 53 + e ≤ ilog2 x by omega)
    have h3 : pow2 (53 + e) = (2:ℚ)^(53:ℕ) * (2:ℚ)^e := by
      rw [pow2_eq, zpow_add₀ (by norm_num)]; norm_cast
    have h4 : (2:ℚ)^(53:ℕ) * (2:ℚ)^e ≤ n * (2:ℚ)^e := by linarith
    have h5 := le_of_mul_le_mul_right h4 (by positivity)
    have : (2:ℤ)^53 ≤ n := by exact_mod_cast h5
    omega
  have hu : ulpExp x ≤ e := by
    simp only [ulpExp, abs_of_pos hq]; omega
  have hg := pow2_eq_grid hu
  apply b64_exact_of_grid hq (m := n * (2^(e - ulpExp x).toNat : ℤ))
  rw [pow2_eq] at hg
  push_cast at hg ⊢
  rw [mul_assoc, ← hg, hx]

theorem b64_exact (n e : ℤ) (hn : |n| ≤ 2^53) (he : -1074 ≤ e) :
    b64 (n * (2:ℚ)^e) = n * (2:ℚ)^e := by
  suffices H : ∀ n : ℤ, 0 < n → n ≤ 2^53 → b64 (n * (2:ℚ)^e) = n * (2:ℚ)^e by
    rcases lt_trichotomy n 0 with h | h | h
    · have := H (-n) (by omega) (by rw [abs_of_neg h] at hn; exact hn)
      push_cast at this
      rw [neg_mul, b64_neg] at this; linarith
    · subst h; simp [b64]
    · exact H n h (by rwa [abs_of_pos h] at hn)
  intro n h0 hle
  rcases hle.eq_or_lt with heq | hlt
  · have : ((n:ℤ):ℚ) * (2:ℚ)^e = ((2^52 : ℤ) : ℚ) * (2:ℚ)^(e+1) := by
      rw [heq, zpow_add₀ (by norm_num)]; push_cast; ring
    rw [this]
    exact b64_exact_lt _ _ (by norm_num) (by norm_num) (by omega)
  · exact b64_exact_lt n e h0 hlt he

/-- Rounding a binary64 number changes nothing. -/
theorem b64_idem (x : ℚ) : b64 (b64 x) = b64 x := by
  by_cases hx : x = 0
  · simp [hx, b64]
  have ha : 0 < |x| := abs_pos.mpr hx
  have hp := pow2_pos (ulpExp x)
  have hlt : |x| < pow2 (ilog2 |x| + 1) := (ilog2_spec ha).2
  have hle : pow2 (ilog2 |x| + 1) ≤ 2^53 * pow2 (ulpExp x) := by
    have e : (2:ℚ)^53 * pow2 (ulpExp x) = pow2 (ulpExp x + 53) := by
      rw [pow2_eq, pow2_eq, zpow_add₀ (by norm_num)]; norm_cast; ring
    rw [e]
    exact pow2_le_pow2 (by simp only [ulpExp]; omega)
  have hb : |x / pow2 (ulpExp x)| ≤ 2^53 := by
    rw [abs_div, abs_of_pos hp, div_le_iff₀ hp]; linarith
  rw [abs_le] at hb
  have h1 : pyRound (x / pow2 (ulpExp x)) ≤ 2^53 :=
    pyRound_le_intCast (by push_cast; exact hb.2)
  have h2 : -2^53 ≤ pyRound (x / pow2 (ulpExp x)) :=
    intCast_le_pyRound (by push_cast; exact hb.1)
  have := b64_exact (pyRound (x / pow2 (ulpExp x))) (ulpExp x) (abs_le.mpr ⟨h2, h1⟩)
    (by simp only [ulpExp]; omega)
  have e : b64 x = pyRound (x / pow2 (ulpExp x)) * (2:ℚ)^(ulpExp x) := by
    rw [← pow2_eq]; simp [b64, hx]
  rw [e]; exact this

theorem b64_rounding : Rounding b64 := ⟨b64_mono, b64_neg, b64_idem, b64_exact⟩

/-- Half an ulp bounds the rounding error. -/
theorem abs_b64_sub_le {x : ℚ} (hx : 0 < x) : |b64 x - x| ≤ pow2 (ulpExp x) / 2 := by
  rw [b64_of_pos hx]
  have hp := pow2_pos (ulpExp x)
  have h := abs_pyRound_sub_le (x / pow2 (ulpExp x))
  have e : (pyRound (x / pow2 (ulpExp x)) : ℚ) * pow2 (ulpExp x) - x
      = ((pyRound (x / pow2 (ulpExp x)) : ℚ) - x / pow2 (ulpExp x)) * pow2 (ulpExp x) := by
    field_simp
  rw [e, abs_mul, abs_of_pos hp]
  calc _ ≤ 1/2 * pow2 (ulpExp x) := mul_le_mul_of_nonneg_right h hp.le
    _ = _ := by ring

theorem b64_accRounding : AccRounding b64 where
  toRounding := b64_rounding
  err := by
    suffices H : ∀ x : ℚ, 0 < x → |b64 x - x| ≤ x / 2^53 + (2:ℚ)^(-1075 : ℤ) by
      intro x
      rcases lt_trichotomy x 0 with h | h | h
      · have := H (-x) (by linarith)
        rw [b64_neg] at this
        rw [abs_of_neg h]
        have e : b64 x - x = -(-b64 x - -x) := by ring
        rw [e, abs_neg]; exact this
      · subst h; simp [b64]
      · rw [abs_of_pos h]; exact H x h
    intro x h0
    have h1 := abs_b64_sub_le h0
    have h2 := (ilog2_spec h0).1
    have hp : (0:ℚ) < (2:ℚ)^(-1075 : ℤ) := by positivity
    rcases le_total (-1022) (ilog2 x) with hl | hl
    · have hu : ulpExp x = ilog2 x - 52 := by simp only [ulpExp, abs_of_pos h0]; omega
      rw [hu] at h1
      have h3 : pow2 (ilog2 x - 52) = pow2 (ilog2 x) / 2^52 := by
        rw [pow2_eq, pow2_eq, zpow_sub₀ (by norm_num)]; norm_cast
      rw [h3] at h1
      have h4 : pow2 (ilog2 x) / 2^52 / 2 ≤ x / 2^53 := by
        rw [div_div]
        have : (2:ℚ)^52 * 2 = 2^53 := by norm_num
        rw [this]
        exact div_le_div_of_nonneg_right h2 (by positivity)
      linarith
    · have hu : ulpExp x = -1074 := by simp only [ulpExp, abs_of_pos h0]; omega
      rw [hu, pow2_eq] at h1
      have h3 : (2:ℚ)^(-1074 : ℤ) / 2 = (2:ℚ)^(-1075 : ℤ) := by
        rw [show (-1074 : ℤ) = -1075 + 1 by norm_num, zpow_add₀ (by norm_num)]
        simp
      rw [h3] at h1
      have : 0 ≤ x / 2^53 := by positivity
      linarith

end Verif.Py
