import Verif.Props.DataTools

/-!
# C63, factors that do not divide the size of the blocks
-/

namespace Verif.Props
open Verif.Model Verif.Py

section
variable {α σ : Type}

/-! ## Lemmas -/

theorem div_err_half {fl : ℚ → ℚ} (h : AccRounding fl) {a b : ℕ} (hb : 0 < b) (ha : a ≤ 2 ^ 50) (hb' : b ≤ 2 ^ 50) : |fl ((a : ℚ) / b) - a / b| < 1 / (2 * b) := by
  have hb0 : (0 : ℚ) < b := by exact_mod_cast hb
  have e := h.err ((a : ℚ) / b)
  have hab : |(a : ℚ) / b| = a / b := abs_of_nonneg (by positivity)
  rw [hab] at e
  have h1 : (a : ℚ) / b / 2 ^ 53 ≤ 1 / (8 * b) := by
    rw [div_div, div_le_div_iff₀ (by positivity) (by positivity)]
    have : (a : ℚ) ≤ 2 ^ 50 := by exact_mod_cast ha
    nlinarith
  have h2 : (2 : ℚ) ^ (-1075 : ℤ) ≤ 1 / (8 * b) := by
    have hb2 : (b : ℚ) ≤ 2 ^ 50 := by exact_mod_cast hb'
    calc (2 : ℚ) ^ (-1075 : ℤ) ≤ 2 ^ (-53 : ℤ) := by apply zpow_le_zpow_right₀ (by norm_num) (by norm_num)
      _ = 1 / (8 * 2 ^ 50) := by norm_num
      _ ≤ 1 / (8 * b) := by
        apply one_div_le_one_div_of_le (by positivity)
        linarith
  have h3 : (1 : ℚ) / (8 * b) = 1 / b / 8 := by rw [div_div]; ring_nf
  have h4 : (1 : ℚ) / (2 * b) = 1 / b / 2 := by rw [div_div]; ring_nf
  have h5 : (0 : ℚ) < 1 / b := by positivity
  rw [h3] at h1 h2
  rw [h4]
  linarith

/-- `round(a / b)` of whole numbers is not changed by the float in between. -/
theorem round_div_exact {fl : ℚ → ℚ} (h : AccRounding fl) {a b : ℕ} (hb : 0 < b) (ha : a ≤ 2 ^ 50) (hb' : b ≤ 2 ^ 50) : pyRound (fl ((a : ℚ) / b)) = pyRound ((a : ℚ) / b) := by
  have hb0 : (0 : ℚ) < b := by exact_mod_cast hb
  have e := abs_lt.mp (div_err_half h hb ha hb')
  have hq := Nat.div_add_mod a b
  have hm := Nat.mod_lt a hb
  have hqa : a / b ≤ a := Nat.div_le_self a b
  generalize a / b = q at hq hqa
  generalize a % b = m at hq hm
  have hx : (a : ℚ) / b = q + m / b := by
    rw [← hq]; push_cast; field_simp
  have hm0 : (0 : ℚ) ≤ m / b := by positivity
  have hm1 : (m : ℚ) / b < 1 := by rw [div_lt_one hb0]; exact_mod_cast hm
  have hq53 : |((q : ℕ) : ℤ)| ≤ 2 ^ 53 := by
    rw [abs_of_nonneg (by positivity)]; exact_mod_cast (by omega : q ≤ 2 ^ 53)
  have hq53' : |((q : ℕ) : ℤ) + 1| ≤ 2 ^ 53 := by
    rw [abs_of_nonneg (by positivity)]; exact_mod_cast (by omega : q + 1 ≤ 2 ^ 53)
  have hk : (1 : ℚ) / (2 * b) = 1 / b / 2 := by rw [div_div]; ring_nf
  have hge : ((q : ℤ) : ℚ) ≤ fl ((a : ℚ) / b) := h.toRounding.int_le hq53 (by rw [hx]; push_cast; linarith)
  have hle : fl ((a : ℚ) / b) ≤ (((q : ℤ) + 1 : ℤ) : ℚ) := h.toRounding.le_int hq53' (by rw [hx]; push_cast; linarith)
  push_cast at hge hle
  rw [hk] at e
  rcases lt_trichotomy (2 * m) b with hlt | heq | hgt
  · have h1 : (m : ℚ) / b + 1 / b / 2 ≤ 1 / 2 := by
      have : (2 * m + 1 : ℚ) ≤ b := by exact_mod_cast hlt
      rw [div_add' _ _ _ hb0.ne', div_le_iff₀ hb0]
      have : 1 / (b : ℚ) / 2 * b = 1 / 2 := by field_simp
      linarith
    rw [pyRound_eq_of_lt (n := q) (by rw [abs_lt]; push_cast; constructor <;> linarith [e.2]),
      pyRound_eq_of_lt (n := q) (by rw [abs_lt]; push_cast; have : (0 : ℚ) < 1 / b / 2 := by positivity
                                    constructor <;> linarith)]
  · have h1 : (a : ℚ) / b = (((2 * q + 1 : ℕ) : ℤ) : ℚ) * (2 : ℚ) ^ (-1 : ℤ) := by
      rw [hx, ← heq]
      push_cast
      have : (m : ℚ) ≠ 0 := by
        intro h0
        have : m = 0 := by exact_mod_cast h0
        omega
      rw [zpow_neg_one]
      field_simp
    rw [h1, h.toRounding.exact _ _ (by rw [abs_of_nonneg (by positivity)]; exact_mod_cast (by omega : 2 * q + 1 ≤ 2 ^ 53)) (by norm_num)]
  · have h1 : 1 / 2 ≤ (m : ℚ) / b - 1 / b / 2 := by
      have : (b + 1 : ℚ) ≤ 2 * m := by exact_mod_cast hgt
      have h2 : (m : ℚ) / b - 1 / b / 2 = (m - 1 / 2) / b := by field_simp
      rw [h2, le_div_iff₀ hb0]
      linarith
    have h3 : (0 : ℚ) < 1 / b / 2 := by positivity
    rw [pyRound_eq_of_lt (n := q + 1) (by rw [abs_lt]; push_cast; constructor <;> linarith [e.1]),
      pyRound_eq_of_lt (n := q + 1) (by rw [abs_lt]; push_cast; constructor <;> linarith)]

/-- The rounded quotient of whole numbers is off by half of the divisor at most, in spite of floats. -/
theorem round_div_half {fl : ℚ → ℚ} (h : AccRounding fl) {a b : ℕ} (hb : 0 < b) (ha : a ≤ 2 ^ 50) (hb' : b ≤ 2 ^ 50) :
    2 * ((pyRound (fl ((a : ℚ) / b))).toNat * b) ≤ 2 * a + b ∧ 2 * a ≤ 2 * ((pyRound (fl ((a : ℚ) / b))).toNat * b) + b := by
  have hb0 : (0 : ℚ) < b := by exact_mod_cast hb
  have e := abs_lt.mp (div_err_half h hb ha hb')
  have h0 : 0 ≤ pyRound (fl ((a : ℚ) / b)) := pyRound_nonneg (h.toRounding.nonneg (by positivity))
  have r1 := pyRound_sub_le (fl ((a : ℚ) / b))
  have r2 := sub_pyRound_le (fl ((a : ℚ) / b))
  obtain ⟨o, ho⟩ : ∃ o : ℕ, pyRound (fl ((a : ℚ) / b)) = o := ⟨_, (Int.toNat_of_nonneg h0).symm⟩
  rw [ho] at r1 r2 ⊢
  simp only [Int.toNat_natCast]
  push_cast at r1 r2
  have k : (1 : ℚ) / (2 * b) * b = 1 / 2 := by field_simp
  have k2 : (a : ℚ) / b * b = a := by field_simp
  have u : ((o : ℚ) - a / b) * b < (1 / 2 + 1 / (2 * b)) * b := mul_lt_mul_of_pos_right (by linarith [e.2]) hb0
  have l : ((a : ℚ) / b - o) * b < (1 / 2 + 1 / (2 * b)) * b := mul_lt_mul_of_pos_right (by linarith [e.1]) hb0
  have u' : (2 * (o * b) : ℚ) < 2 * a + b + 1 := by nlinarith
  have l' : (2 * a : ℚ) < 2 * (o * b) + b + 1 := by nlinarith
  have u'' : 2 * (o * b) < 2 * a + b + 1 := by exact_mod_cast u'
  have l'' : 2 * a < 2 * (o * b) + b + 1 := by exact_mod_cast l'
  omega

/-- All passes together, for any size of blocks, as long as there are enough samples. -/
theorem dsLoop_blocks (f : SampleFilter α σ) (h5 filtered : Bool) (src : List α) (start ib ob ds L : ℕ) (hds : 0 < ds) (hL : start + L ≤ src.length) (n iter : ℕ) (s : σ)
    (dst : List α) (hfit : ∀ k, k < n → (iter + k) * ob ≤ L / ds ∧ ∀ j, j < min (L / ds - (iter + k) * ob) ob → j * ds < min ib (L - (iter + k) * ib))
    (hs : filtered → s = (f.run f.init ((src.drop start).take (iter * ib))).2) (hlen : dst.length = L / ds)
    (hdst : ∀ q r, q < iter → r < ob → q * ob + r < L / ds → dst[q * ob + r]? = (if filtered then (f.run f.init (src.drop start)).1 else src.drop start)[q * ib + r * ds]?) :
    ∃ dst' s', dsLoop f h5 filtered src start ib ob ds (L / ds) n iter s dst = .ok dst' ∧ dst'.length = L / ds ∧
      (filtered → s' = (f.run f.init ((src.drop start).take ((iter + n) * ib))).2) ∧
      (∀ m, dsLoop f h5 filtered src start ib ob ds (L / ds) (n + m) iter s dst = dsLoop f h5 filtered src start ib ob ds (L / ds) m (iter + n) s' dst') ∧
      ∀ q r, q < iter + n → r < ob → q * ob + r < L / ds →
        dst'[q * ob + r]? = (if filtered then (f.run f.init (src.drop start)).1 else src.drop start)[q * ib + r * ds]? := by
  induction n generalizing iter s dst with
  | zero => exact ⟨dst, s, rfl, hlen, hs, fun m => by simp, hdst⟩
  | succ n ih =>
    obtain ⟨f1, f2⟩ := hfit 0 (by omega)
    simp only [Nat.add_zero] at f1 f2
    obtain ⟨s', d', e, h1, h2, h3, h4⟩ := dsPass_core f h5 filtered src start ib ob ds L iter s dst hds hL f1 f2 hs hlen
    obtain ⟨d'', s'', e2, g1, g2, g3, g4⟩ := ih (iter + 1) s' d' (fun k hk => by have := hfit (k + 1) (by omega); rwa [show iter + 1 + k = iter + (k + 1) by omega]) h1 h2 (by
      intro q r hq hr hqr
      rcases Nat.lt_or_ge q iter with hlt | hge
      · have : (q + 1) * ob ≤ iter * ob := Nat.mul_le_mul_right ob hlt
        rw [Nat.add_mul, Nat.one_mul] at this
        rw [h3 _ (by omega)]
        exact hdst q r hlt hr hqr
      · have : q = iter := by omega
        subst this
        exact h4 r (by omega))
    refine ⟨d'', s'', ?_, g1, ?_, ?_, ?_⟩
    · rw [dsLoop, e]; exact e2
    · rw [show iter + (n + 1) = iter + 1 + n by omega]; exact g2
    · intro m
      rw [show n + 1 + m = (n + m) + 1 by omega, dsLoop, e, show iter + (n + 1) = iter + 1 + n by omega]
      exact g3 m
    · rw [show iter + (n + 1) = iter + 1 + n by omega]; exact g4

/-- The number of members of a stride. -/
theorem stride_length (n : ℕ) (hn : 0 < n) (l : List α) : (stride n l).length = (l.length + n - 1) / n := by
  have hq := Nat.div_add_mod (l.length + n - 1) n
  have hm := Nat.mod_lt (l.length + n - 1) hn
  generalize (l.length + n - 1) / n = c at *
  apply le_antisymm
  · by_contra hc
    have h1 := stride_get n hn l c
    rw [List.getElem?_eq_getElem (by omega)] at h1
    have h2 : c * n < l.length := by
      by_contra h3
      rw [List.getElem?_eq_none (by omega)] at h1
      cases h1
    rw [Nat.mul_comm] at h2
    omega
  · apply stride_length_ge n hn
    intro j hj
    have : n * (j + 1) ≤ n * c := Nat.mul_le_mul_left n hj
    rw [Nat.mul_add, Nat.mul_one, Nat.mul_comm] at this
    omega

/-- A pass fails if there are at least two, but too few samples. -/
theorem dsPass_short (f : SampleFilter α σ) (h5 filtered : Bool) (src : List α) (start ib ob ds L iter : ℕ) (s : σ) (dst : List α) (hds : 0 < ds)
    (hL : start + L = src.length) (hle : iter * ob ≤ L / ds) (hlen : dst.length = L / ds)
    (htwo : ds < min ib (L - iter * ib)) (hshort : min ib (L - iter * ib) ≤ (min (L / ds - iter * ob) ob - 1) * ds) :
    dsPass f h5 filtered src start ib ob ds (L / ds) iter s dst = .error (if h5 then .typeError else .valueError) := by
  obtain ⟨raw, hraw⟩ : ∃ raw, raw = dsSlice src (start + iter * ib) (start + (iter + 1) * ib) := ⟨_, rfl⟩
  have hrawlen : raw.length = min ib (L - iter * ib) := by
    rw [hraw, dsSlice_length, ← hL, Nat.add_mul, Nat.one_mul]; omega
  obtain ⟨r, hr⟩ : ∃ r, r = (if filtered then f.run s raw else (raw, s)) := ⟨_, rfl⟩
  have hrl : r.1.length = min ib (L - iter * ib) := by rw [hr]; split_ifs <;> simp [run_length, hrawlen]
  set n := min (L / ds - iter * ob) ob with hn
  have hst := stride_length ds hds r.1
  rw [hrl] at hst
  generalize min ib (L - iter * ib) = M at *
  have hc2 : 2 ≤ (stride ds r.1).length := by
    rw [hst, Nat.le_div_iff_mul_le hds]; omega
  have hcn : (stride ds r.1).length < n := by
    rw [hst, Nat.div_lt_iff_lt_mul hds]
    have : 1 ≤ n := by
      by_contra h0
      have : n - 1 = 0 := by omega
      rw [this] at hshort; omega
    have h2 : n * ds = (n - 1) * ds + ds := by
      conv_lhs => rw [show n = (n - 1) + 1 by omega]
      rw [Nat.add_mul, Nat.one_mul]
    omega
  have hint : min (((L / ds : ℕ) : ℤ) - ((iter : ℕ) : ℤ) * ((ob : ℕ) : ℤ)) ((ob : ℕ) : ℤ) = ((n : ℕ) : ℤ) := by
    rw [hn]; push_cast [Nat.cast_sub hle]; rfl
  have hsel : (dsSlice dst (iter * ob) ((iter + 1) * ob)).length = n := by
    rw [dsSlice_length, hlen, hn, Nat.add_mul, Nat.one_mul]
    omega
  have hasg : ∀ v : List α, 2 ≤ v.length → v.length < n → assignSlice h5 dst (iter * ob) ((iter + 1) * ob) v = .error (if h5 then .typeError else .valueError) := by
    intro v h2 hv
    unfold assignSlice
    simp only [hsel]
    rw [if_neg (by omega), if_neg (by omega)]
    match v, h2 with
    | [_], h2 => simp at h2
    | _ :: _ :: _, _ => rfl
  unfold dsPass
  simp only []
  rw [← hraw, ← hr, hint, takeInt, if_pos (by positivity), Int.toNat_natCast, hasg _ (by rw [List.length_take]; omega) (by rw [List.length_take]; omega)]

/-! ## Theorems -/

/-- The number of blocks of `b` samples in `n`. -/
def blocksOf (n b : ℕ) : ℕ := (n + b - 1) / b

/-- Full blocks always have enough samples. -/
theorem full_blocks {ib ob ds L : ℕ} (hhalf : 2 * (ob * ds) ≤ 2 * ib + ds) (k : ℕ) (hk : (k + 1) * ib ≤ L) (j : ℕ) (hj : j < ob) (hds : 0 < ds) : j * ds < min ib (L - k * ib) := by
  have h1 : (j + 1) * ds ≤ ob * ds := Nat.mul_le_mul_right ds hj
  rw [Nat.add_mul, Nat.one_mul] at h1 hk
  omega

/-- What `downsample` computes with. -/
theorem downsample_numbers {fl : ℚ → ℚ} (h : AccRounding fl) (maxElements L factor : ℕ) (hm : 0 < maxElements) (hL : 0 < L) (hsize : L ≤ 2 ^ 50) (hfac : factor ≤ 2 ^ 50) :
    ⌈fl ((L : ℚ) / (min maxElements L : ℕ))⌉.toNat = blocksOf L (min maxElements L) ∧ ⌊fl ((L : ℚ) / (max 1 factor : ℕ))⌋.toNat = L / max 1 factor ∧
    1 ≤ blocksOf L (min maxElements L) ∧ (blocksOf L (min maxElements L) - 1) * min maxElements L < L ∧ L ≤ blocksOf L (min maxElements L) * min maxElements L := by
  have hib0 : 0 < min maxElements L := by omega
  refine ⟨ceil_div h hib0 (by omega) (by omega), floor_div h (by omega) (by omega) (by omega), ?_, ?_, ?_⟩
  all_goals
    unfold blocksOf
    have hq := Nat.div_add_mod (L + min maxElements L - 1) (min maxElements L)
    have hmod := Nat.mod_lt (L + min maxElements L - 1) hib0
    generalize min maxElements L = b at *
    generalize (L + b - 1) / b = n at *
    rw [Nat.mul_comm] at hq
  · by_contra h0
    have : n = 0 := by omega
    rw [this] at hq; omega
  · have h1 : 1 ≤ n := by
      by_contra h0
      have : n = 0 := by omega
      rw [this] at hq; omega
    have : n * b = (n - 1) * b + b := by
      conv_lhs => rw [show n = (n - 1) + 1 by omega]
      rw [Nat.add_mul, Nat.one_mul]
    omega
  · omega

/-- **C63, any factor.**  With blocks of `b` samples, each of which gives `o` results (`b / factor` rounded), down-sampling succeeds if the last block has enough samples for the results that are left, and if
there are not more results than space.  Result `i` is then the sample at `i / o` blocks and `i % o` steps of the (filtered) range. -/
theorem C63_any_factor {fl : ℚ → ℚ} (h : AccRounding fl) (zero : α) (f : SampleFilter α σ) (h5 isTime : Bool) (maxElements : ℕ) (src dst : List α)
    (startN : ℕ) (endN : Option ℕ) (factor L b n : ℕ) (hm : 0 < maxElements) (hsize : src.length ≤ 2 ^ 50) (hfac : factor ≤ 2 ^ 50)
    (hL : (selected src startN endN).length = L) (hL0 : 0 < L) (hb : b = min maxElements L) (hn : n = blocksOf L b) (o : ℕ) (ho : o = (pyRound ((b : ℚ) / (max 1 factor : ℕ))).toNat)
    (hspace : (n - 1) * o ≤ L / max 1 factor) (hlast : ∀ j, j + (n - 1) * o < L / max 1 factor → j < o → (n - 1) * b + j * max 1 factor < L) :
    ∃ out, downsample fl zero f h5 isTime maxElements src dst startN endN factor = .ok out ∧ out.length = min (L / max 1 factor) (n * o) ∧
      ∀ q r, r < o → q * o + r < out.length →
        out[q * o + r]? = (if isTime ∨ factor ≤ 1 then selected src startN endN else lowpass f (selected src startN endN))[q * b + r * max 1 factor]? ∧ q * b + r * max 1 factor < L := by
  obtain ⟨hsel, hsellen⟩ := selected_eq src startN endN
  set e := dsEnd src.length endN with he
  have hele : e ≤ src.length := by
    rw [he]; cases endN <;> simp [dsEnd]
  set S := min e startN with hS
  have hLe : e - S = L := by rw [← hsellen, hL]
  set ds := max 1 factor with hds
  have hds0 : 0 < ds := by omega
  have hSL : S + L ≤ src.length := by omega
  obtain ⟨hit, hdl, hn1, hn2, hn3⟩ := downsample_numbers h maxElements L factor hm hL0 (by omega) hfac
  rw [← hb] at hit hn1 hn2 hn3
  rw [← hn] at hit hn1 hn2 hn3
  rw [← hds] at hdl
  have hhalf := round_div_half h (a := b) hds0 (by omega) (by omega)
  rw [← round_div_exact h hds0 (by omega) (by omega)] at ho
  rw [← ho] at hhalf
  have hfit : ∀ k, k < n → (0 + k) * o ≤ L / ds ∧ ∀ j, j < min (L / ds - (0 + k) * o) o → j * ds < min b (L - (0 + k) * b) := by
    intro k hk
    rw [Nat.zero_add]
    have h1 : k * o ≤ (n - 1) * o := Nat.mul_le_mul_right o (by omega)
    refine ⟨by omega, ?_⟩
    intro j hj
    rcases Nat.lt_or_ge k (n - 1) with hlt | hge
    · have h2 : (k + 1) * b ≤ (n - 1) * b := Nat.mul_le_mul_right b (by omega)
      exact full_blocks hhalf.1 k (by omega) j (by omega) hds0
    · have : k = n - 1 := by omega
      subst this
      have h3 := hlast j (by omega) (by omega)
      have h4 : (j + 1) * ds ≤ o * ds := Nat.mul_le_mul_right ds (by omega)
      rw [Nat.add_mul, Nat.one_mul] at h4
      omega
  set filtered := (!isTime && decide (1 < ds)) with hfilt
  obtain ⟨dst', s', e1, hlen, -, -, hget⟩ := dsLoop_blocks f h5 filtered src S b o ds L hds0 hSL n 0 f.init (resizeTo zero (L / ds) dst) hfit
    (by intro _; simp [SampleFilter.run]) (resizeTo_length zero _ _) (by intro q r hq; omega)
  have hfinal : (((o * (n - 1) : ℕ) : ℤ) + min (((L / ds : ℕ) : ℤ) - (((n - 1 : ℕ) : ℕ) : ℤ) * o) o).toNat = min (L / ds) (n * o) := by
    have h1 : n * o = (n - 1) * o + o := by
      conv_lhs => rw [show n = (n - 1) + 1 by omega]
      rw [Nat.add_mul, Nat.one_mul]
    have h2 : ((n - 1 : ℕ) : ℤ) * (o : ℤ) = (((n - 1) * o : ℕ) : ℤ) := by push_cast; ring
    have h3 : ((o * (n - 1) : ℕ) : ℤ) = (((n - 1) * o : ℕ) : ℤ) := by rw [Nat.mul_comm]
    rw [h2, h3]
    omega
  refine ⟨dst'.take (min (L / ds) (n * o)), ?_, by rw [List.length_take, hlen]; omega, ?_⟩
  · unfold downsample
    simp only []
    rw [← hds, ← he, ← hS, hLe, if_neg (by omega), ← hb, ← ho, hit, hdl, ← hfilt, e1]
    simp only []
    rw [hfinal]
    unfold resizeTo
    rw [show min (L / ds) (n * o) - dst'.length = 0 by omega]
    simp
  · intro q r hr hlt
    rw [List.length_take, hlen] at hlt
    have hqn : q < n := by
      by_contra hc
      have := Nat.mul_le_mul_right o (not_lt.mp hc)
      omega
    have hiL : q * b + r * ds < L := by
      have hk := (hfit q hqn).2 r (by rw [Nat.zero_add]; omega)
      rw [Nat.zero_add] at hk
      omega
    refine ⟨?_, hiL⟩
    rw [List.getElem?_take_of_lt (by omega), hget q r (by omega) hr (by omega)]
    have hf : filtered = true ↔ ¬ (isTime = true ∨ factor ≤ 1) := by
      rw [hfilt, hds]
      cases isTime <;> simp
    rw [hLe] at hsel
    by_cases hc : isTime = true ∨ factor ≤ 1
    · have : ¬ filtered = true := fun hx => hf.mp hx hc
      rw [if_pos hc, if_neg this, hsel, List.getElem?_take_of_lt hiL]
    · rw [if_neg hc, if_pos (hf.mpr hc), lowpass_eq, hsel, run_take, List.getElem?_take_of_lt hiL]

/-- How far the grid is off: half a step for every block at most. -/
theorem C63_drift (q r o ds b : ℕ) (hds : 0 < ds) (ho : o = (pyRound ((b : ℚ) / ds)).toNat) (hb : b ≤ 2 ^ 50) (hd : ds ≤ 2 ^ 50) :
    2 * |((q * b + r * ds : ℕ) : ℤ) - ((q * o + r) * ds : ℕ)| ≤ q * ds := by
  obtain ⟨h1, h2⟩ := round_div_half AccRounding.id hds hb hd
  rw [← ho] at h1 h2
  have e : ((q * b + r * ds : ℕ) : ℤ) - ((q * o + r) * ds : ℕ) = q * ((b : ℤ) - (o * ds : ℕ)) := by push_cast; ring
  rw [e, abs_mul, abs_of_nonneg (by positivity : (0:ℤ) ≤ q)]
  have h3 : 2 * |(b : ℤ) - (o * ds : ℕ)| ≤ ds := by
    generalize o * ds = z at *
    rcases abs_cases ((b : ℤ) - (z : ℕ)) with ⟨h, _⟩ | ⟨h, _⟩ <;> rw [h] <;> omega
  nlinarith [(by positivity : (0:ℤ) ≤ q)]

/-- **C63, violated: too few samples at the end.**  If the recording ends with the range, and the last block has too few samples (two at least) for the results that are left, down-sampling fails. -/
theorem C63_short_violated {fl : ℚ → ℚ} (h : AccRounding fl) (zero : α) (f : SampleFilter α σ) (h5 isTime : Bool) (maxElements : ℕ) (src dst : List α)
    (startN : ℕ) (endN : Option ℕ) (hend : ∀ e ∈ endN, src.length ≤ e) (factor L o n : ℕ) (hm : 0 < maxElements) (hsize : src.length ≤ 2 ^ 50) (hfac : factor ≤ 2 ^ 50)
    (hL : startN + L = src.length) (hL0 : maxElements < L) (hn : n = blocksOf L maxElements) (ho : o = (pyRound ((maxElements : ℚ) / (max 1 factor : ℕ))).toNat)
    (hspace : (n - 1) * o ≤ L / max 1 factor) (htwo : max 1 factor < L - (n - 1) * maxElements)
    (hshort : L - (n - 1) * maxElements ≤ (min (L / max 1 factor - (n - 1) * o) o - 1) * max 1 factor) :
    downsample fl zero f h5 isTime maxElements src dst startN endN factor = .error (if h5 then .typeError else .valueError) := by
  set ds := max 1 factor with hds
  have hds0 : 0 < ds := by omega
  obtain ⟨hit, hdl, hn1, hn2, hn3⟩ := downsample_numbers h maxElements L factor hm (by omega) (by omega) hfac
  have hmin : min maxElements L = maxElements := by omega
  rw [hmin] at hit hn1 hn2 hn3
  rw [← hn] at hit hn1 hn2 hn3
  rw [← hds] at hdl
  have hhalf := round_div_half h (a := maxElements) hds0 (by omega) (by omega)
  rw [← round_div_exact h hds0 (by omega) (by omega)] at ho
  rw [← ho] at hhalf
  set filtered := (!isTime && decide (1 < ds)) with hfilt
  have hfit : ∀ k, k < n - 1 → (0 + k) * o ≤ L / ds ∧ ∀ j, j < min (L / ds - (0 + k) * o) o → j * ds < min maxElements (L - (0 + k) * maxElements) := by
    intro k hk
    rw [Nat.zero_add]
    have h1 : k * o ≤ (n - 1) * o := Nat.mul_le_mul_right o (by omega)
    have h2 : (k + 1) * maxElements ≤ (n - 1) * maxElements := Nat.mul_le_mul_right maxElements (by omega)
    exact ⟨by omega, fun j hj => full_blocks hhalf.1 k (by omega) j (by omega) hds0⟩
  obtain ⟨d', s', e1, hlen, -, hrest, -⟩ := dsLoop_blocks f h5 filtered src startN maxElements o ds L hds0 (by omega) (n - 1) 0 f.init (resizeTo zero (L / ds) dst) hfit
    (by intro _; simp [SampleFilter.run]) (resizeTo_length zero _ _) (by intro q r hq; omega)
  have hlast : min maxElements (L - (n - 1) * maxElements) = L - (n - 1) * maxElements := by
    have : n * maxElements = (n - 1) * maxElements + maxElements := by
      conv_lhs => rw [show n = (n - 1) + 1 by omega]
      rw [Nat.add_mul, Nat.one_mul]
    omega
  have hpass := dsPass_short f h5 filtered src startN maxElements o ds L (n - 1) s' d' hds0 hL hspace hlen (by rw [hlast]; exact htwo) (by rw [hlast]; exact hshort)
  have hloop : dsLoop f h5 filtered src startN maxElements o ds (L / ds) n 0 f.init (resizeTo zero (L / ds) dst) = .error (if h5 then .typeError else .valueError) := by
    have := hrest 1
    rw [show n - 1 + 1 = n by omega, Nat.zero_add] at this
    rw [this, dsLoop, hpass]
  have hD : dsEnd src.length endN = src.length := by
    cases endN with
    | none => rfl
    | some e => exact min_eq_left (hend e rfl)
  have hS : min (dsEnd src.length endN) startN = startN := by rw [hD]; omega
  have hE : dsEnd src.length endN - startN = L := by rw [hD]; omega
  unfold downsample
  simp only []
  rw [← hds, hS, hE, if_neg (by omega), hmin, ← ho, hit, hdl, ← hfilt, hloop]

end

/-- Blocks of five samples, factor 3: each block gives two results, ten samples three results. -/
example : (match downsample b64 0 sumFilter true true 5 [0, 1, 2, 3, 4, 5, 6, 7, 8, 9] [] 0 none 3 with | .ok r => decide (r = [0, 3, 5]) | .error _ => false) = true ∧
    (pyRound (((5 : ℕ) : ℚ) / (3 : ℕ))).toNat = 2 ∧ blocksOf 10 5 = 2 ∧ (2 - 1) * 2 ≤ 10 / 3 ∧ ∀ j, j + (2 - 1) * 2 < 10 / 3 → j < 2 → (2 - 1) * 5 + j * 3 < 10 := by
  refine ⟨by decide +kernel, by decide +kernel, by decide, by decide, ?_⟩
  intro j h1 h2; omega

end Verif.Props
