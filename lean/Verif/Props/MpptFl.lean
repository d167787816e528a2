import Verif.Model.MpptFl
import Verif.Py.Binary64
import Verif.Props.Mppt
import Mathlib.Tactic.Linarith
import Mathlib.Tactic.Positivity
import Mathlib.Tactic.NormNum

/-!
# C66 in floating point: what the optimal tracker loses by its grid and by rounding
-/

namespace Verif.Props
open Verif.Py Verif.Model

set_option exponentiation.threshold 2000

theorem argmaxFlFrom_spec (rest pre : List ℚ) (best : ℕ) (val : ℚ) (hb : best < pre.length) (hval : pre.getD best 0 = val) (hmax : ∀ j < pre.length, pre.getD j 0 ≤ val)
    (hfirst : ∀ j < best, pre.getD j 0 < val) :
    argmaxFlFrom pre.length best val rest < (pre ++ rest).length ∧
    (∀ j < (pre ++ rest).length, (pre ++ rest).getD j 0 ≤ (pre ++ rest).getD (argmaxFlFrom pre.length best val rest) 0) ∧
    ∀ j < argmaxFlFrom pre.length best val rest, (pre ++ rest).getD j 0 < (pre ++ rest).getD (argmaxFlFrom pre.length best val rest) 0 := by
  induction rest generalizing pre best val with
  | nil =>
    simp only [argmaxFlFrom, List.append_nil]
    exact ⟨hb, fun j hj => by rw [hval]; exact hmax j hj, fun j hj => by rw [hval]; exact hfirst j hj⟩
  | cons x t ih =>
    have happ : ∀ j < pre.length, (pre ++ [x]).getD j 0 = pre.getD j 0 := fun j hj => by simp [List.getD_eq_getElem?_getD, List.getElem?_append, hj]
    have hx : (pre ++ [x]).getD pre.length 0 = x := by simp [List.getD_eq_getElem?_getD]
    unfold argmaxFlFrom
    split_ifs with hlt
    · have := ih (pre ++ [x]) pre.length x (by simp) hx
        (fun j hj => by
          rcases Nat.lt_or_ge j pre.length with h1 | h1
          · rw [happ j h1]; exact ((hmax j h1).trans_lt hlt).le
          · have : j = pre.length := by simp at hj; omega
            rw [this, hx])
        (fun j hj => by rw [happ j hj]; exact (hmax j hj).trans_lt hlt)
      simpa using this
    · have := ih (pre ++ [x]) best val (by simp; omega) (by rw [happ best hb, hval])
        (fun j hj => by
          rcases Nat.lt_or_ge j pre.length with h1 | h1
          · rw [happ j h1]; exact hmax j h1
          · have : j = pre.length := by simp at hj; omega
            rw [this, hx]; exact not_lt.mp hlt)
        (fun j hj => by rw [happ j (by omega)]; exact hfirst j hj)
      simpa using this

theorem argmaxFl_spec (l : List ℚ) (hl : l ≠ []) : ∃ p, argmaxFl l = .ok p ∧ p < l.length ∧ (∀ j < l.length, l.getD j 0 ≤ l.getD p 0) ∧ ∀ j < p, l.getD j 0 < l.getD p 0 := by
  cases l with
  | nil => exact absurd rfl hl
  | cons x t =>
    have := argmaxFlFrom_spec t [x] 0 x (by simp) (by simp) (fun j hj => by simp at hj; simp [hj]) (by simp)
    exact ⟨argmaxFlFrom 1 0 x t, rfl, by simpa using this⟩

variable {fl expf : ℚ → ℚ}

theorem vProtoFl_getD (vMax : ℚ) (n i : ℕ) (h : i < n) : (vProtoFl fl vMax n).getD i 0 = gridFl fl vMax n i := by
  simp [vProtoFl, List.getD_eq_getElem?_getD, h]

/-- **C66, the optimal tracker in floats.**  Whatever the rounding and the exponential function: the tracker delivers a member of the grid and the computed current there; no member of the grid has a larger computed power, and
all before the chosen one have a smaller one. -/
theorem C66_optimal_float (k : FlCoeffs) (vMax : ℚ) (n : ℕ) (hn : 1 ≤ n) :
    ∃ p < n, optimalTrackerFl fl expf vMax n k = .ok (gridFl fl vMax n p, ivModelFl fl expf k (gridFl fl vMax n p)) ∧
      (∀ j < n, fl (gridFl fl vMax n j * ivModelFl fl expf k (gridFl fl vMax n j)) ≤ fl (gridFl fl vMax n p * ivModelFl fl expf k (gridFl fl vMax n p))) ∧
      ∀ j < p, fl (gridFl fl vMax n j * ivModelFl fl expf k (gridFl fl vMax n j)) < fl (gridFl fl vMax n p * ivModelFl fl expf k (gridFl fl vMax n p)) := by
  have hlen : (vProtoFl fl vMax n).length = n := by simp [vProtoFl]
  have hzl : (List.zipWith (fun x y => fl (x * y)) (vProtoFl fl vMax n) ((vProtoFl fl vMax n).map (ivModelFl fl expf k))).length = n := by simp [hlen]
  obtain ⟨p, h1, h2, h3, h4⟩ := argmaxFl_spec (List.zipWith (fun x y => fl (x * y)) (vProtoFl fl vMax n) ((vProtoFl fl vMax n).map (ivModelFl fl expf k))) (by
    intro h0; rw [h0] at hzl; simp at hzl; omega)
  rw [hzl] at h2 h3
  have hz : ∀ j < n, (List.zipWith (fun x y => fl (x * y)) (vProtoFl fl vMax n) ((vProtoFl fl vMax n).map (ivModelFl fl expf k))).getD j 0 =
      fl (gridFl fl vMax n j * ivModelFl fl expf k (gridFl fl vMax n j)) := by
    intro j hj
    simp [vProtoFl, List.getD_eq_getElem?_getD, hj]
  refine ⟨p, h2, ?_, ?_, ?_⟩
  · simp only [optimalTrackerFl, h1]
    rw [vProtoFl_getD _ _ _ h2]
    simp [vProtoFl, List.getD_eq_getElem?_getD, h2]
  · intro j hj
    rw [← hz j hj, ← hz p h2]
    exact h3 j hj
  · intro j hj
    rw [← hz j (by omega), ← hz p h2]
    exact h4 j hj

/-- Without a point there is no row: the tracker fails. -/
theorem C66_empty_float (k : FlCoeffs) (vMax : ℚ) : optimalTrackerFl fl expf vMax 0 k = .error .valueError := rfl

/-! ## The grid -/

theorem step_pos (h : AccRounding fl) {vMax : ℚ} (hv : (2:ℚ)^(-900 : ℤ) ≤ vMax) {n : ℕ} (hn : 2 ≤ n) (hn2 : n ≤ 2^50) :
    0 < vMax / ((n : ℚ) - 1) ∧ vMax / 2^50 ≤ vMax / ((n : ℚ) - 1) ∧ (2:ℚ)^(-1000 : ℤ) < fl (vMax / ((n : ℚ) - 1)) := by
  have h1 : (1 : ℚ) ≤ (n : ℚ) - 1 := by
    have : (2 : ℚ) ≤ n := by exact_mod_cast hn
    linarith
  have h2 : (n : ℚ) - 1 ≤ 2^50 := by
    have : (n : ℚ) ≤ 2^50 := by exact_mod_cast hn2
    linarith
  have hv0 : 0 < vMax := lt_of_lt_of_le (by positivity) hv
  have hs0 : 0 < vMax / ((n : ℚ) - 1) := div_pos hv0 (by linarith)
  have hs1 : vMax / 2^50 ≤ vMax / ((n : ℚ) - 1) := div_le_div_of_nonneg_left hv0.le (by linarith) h2
  refine ⟨hs0, hs1, ?_⟩
  have e := h.err (vMax / ((n : ℚ) - 1))
  rw [abs_of_pos hs0] at e
  have e2 := (abs_le.mp e).1
  have h3 : (2:ℚ)^(-950 : ℤ) ≤ vMax / 2^50 := by
    rw [le_div_iff₀ (by positivity)]
    calc (2:ℚ)^(-950 : ℤ) * 2^50 = (2:ℚ)^(-900 : ℤ) := by norm_num
      _ ≤ vMax := hv
  have h4 : (2:ℚ)^(-1075 : ℤ) < (2:ℚ)^(-951 : ℤ) / 2 := by norm_num
  have h5 : (2:ℚ)^(-1000 : ℤ) < (2:ℚ)^(-951 : ℤ) / 2 := by norm_num
  have h6 : (2:ℚ)^(-950 : ℤ) = 2 * (2:ℚ)^(-951 : ℤ) := by norm_num
  linarith

/-- The grid is as fine as it should be: each member is within 2^-51 of the range of the true one. -/
theorem grid_err (h : AccRounding fl) {vMax : ℚ} (hv : (2:ℚ)^(-900 : ℤ) ≤ vMax) {n : ℕ} (hn : 2 ≤ n) (hn2 : n ≤ 2^50) {j : ℕ} (hj : j < n) :
    |gridFl fl vMax n j - j * (vMax / ((n : ℚ) - 1))| ≤ 3 * (vMax / 2^53) := by
  obtain ⟨hs0, hs1, hs2⟩ := step_pos h hv hn hn2
  have hv0 : 0 < vMax := lt_of_lt_of_le (by positivity) hv
  have h1 : (1 : ℚ) ≤ (n : ℚ) - 1 := by
    have : (2 : ℚ) ≤ n := by exact_mod_cast hn
    linarith
  have hsn : ((n : ℚ) - 1) * (vMax / ((n : ℚ) - 1)) = vMax := by field_simp
  unfold gridFl
  by_cases hl : 1 < n ∧ j + 1 = n
  · rw [if_pos hl]
    have : (j : ℚ) = (n : ℚ) - 1 := by
      rw [← hl.2]; push_cast; ring
    rw [this, hsn, sub_self, abs_zero]
    positivity
  · rw [if_neg hl, if_neg (by have : (0:ℚ) < (2:ℚ)^(-1000 : ℤ) := by positivity
                              linarith)]
    set s := vMax / ((n : ℚ) - 1)
    have hj0 : (0 : ℚ) ≤ j := by positivity
    have hjn : (j : ℚ) ≤ (n : ℚ) - 1 := by
      have : (j : ℚ) + 1 ≤ n := by exact_mod_cast hj
      linarith
    have hjb : (j : ℚ) ≤ 2^50 := by
      have : (n : ℚ) ≤ 2^50 := by exact_mod_cast hn2
      linarith
    have hjs : (j : ℚ) * s ≤ vMax := by
      rw [← hsn]; exact mul_le_mul_of_nonneg_right hjn hs0.le
    have hjs0 : 0 ≤ (j : ℚ) * s := by positivity
    set t := (2:ℚ)^(-1075 : ℤ)
    have ht : 0 < t := by positivity
    have htv : (2^50 * 2 + 2) * t ≤ vMax / 2^100 := by
      rw [le_div_iff₀ (by positivity)]
      calc (2^50 * 2 + 2) * t * 2^100 ≤ (2:ℚ)^(-900 : ℤ) := by norm_num [t]
        _ ≤ vMax := hv
    have e1 := h.err s
    rw [abs_of_pos hs0] at e1
    obtain ⟨e1a, e1b⟩ := abs_le.mp e1
    have f1 : (j : ℚ) * fl s ≤ (j : ℚ) * s + ((j : ℚ) * s) / 2^53 + 2^50 * t := by
      have q1 : (j : ℚ) * fl s ≤ (j : ℚ) * (s + s / 2^53 + t) := mul_le_mul_of_nonneg_left (by linarith) hj0
      have q2 : (j : ℚ) * t ≤ 2^50 * t := mul_le_mul_of_nonneg_right hjb ht.le
      have q3 : (j : ℚ) * (s + s / 2^53 + t) = (j : ℚ) * s + ((j : ℚ) * s) / 2^53 + (j : ℚ) * t := by ring
      linarith
    have f2 : (j : ℚ) * s - ((j : ℚ) * s) / 2^53 - 2^50 * t ≤ (j : ℚ) * fl s := by
      have q1 : (j : ℚ) * (s - s / 2^53 - t) ≤ (j : ℚ) * fl s := mul_le_mul_of_nonneg_left (by linarith) hj0
      have q2 : (j : ℚ) * t ≤ 2^50 * t := mul_le_mul_of_nonneg_right hjb ht.le
      have q3 : (j : ℚ) * (s - s / 2^53 - t) = (j : ℚ) * s - ((j : ℚ) * s) / 2^53 - (j : ℚ) * t := by ring
      linarith
    have f0 : 0 ≤ (j : ℚ) * fl s := mul_nonneg hj0 (by have : (0:ℚ) < (2:ℚ)^(-1000 : ℤ) := by positivity
                                                       linarith)
    have e2 := h.err ((j : ℚ) * fl s)
    rw [abs_of_nonneg f0] at e2
    obtain ⟨e2a, e2b⟩ := abs_le.mp e2
    rw [abs_le]
    constructor <;> linarith

/-- **C66, the grid in floats.**  From 2 to 2^50 points over any range from 2^-900 V: the grid begins at zero, ends exactly at the largest voltage, rises strictly, and each member is within 2^-51 of the range of the true one. -/
theorem C66_grid_float (h : AccRounding fl) (vMax : ℚ) (hv : (2:ℚ)^(-900 : ℤ) ≤ vMax) (n : ℕ) (hn : 2 ≤ n) (hn2 : n ≤ 2^50) :
    gridFl fl vMax n 0 = 0 ∧ gridFl fl vMax n (n - 1) = vMax ∧ (∀ i j, i < j → j < n → gridFl fl vMax n i < gridFl fl vMax n j) ∧
    ∀ j < n, |gridFl fl vMax n j - j * (vMax / ((n : ℚ) - 1))| ≤ vMax / 2^51 := by
  obtain ⟨hs0, hs1, hs2⟩ := step_pos h hv hn hn2
  have hv0 : 0 < vMax := lt_of_lt_of_le (by positivity) hv
  refine ⟨?_, ?_, ?_, ?_⟩
  · unfold gridFl
    rw [if_neg (by omega), if_neg (by have : (0:ℚ) < (2:ℚ)^(-1000 : ℤ) := by positivity
                                      linarith)]
    simp [h.toRounding.zero]
  · unfold gridFl
    rw [if_pos ⟨by omega, by omega⟩]
  · intro i j hij hj
    have e1 := (abs_le.mp (grid_err h hv hn hn2 (hij.trans hj))).2
    have e2 := (abs_le.mp (grid_err h hv hn hn2 hj)).1
    have hc : (i : ℚ) + 1 ≤ j := by exact_mod_cast hij
    have : ((i : ℚ) + 1) * (vMax / ((n : ℚ) - 1)) ≤ j * (vMax / ((n : ℚ) - 1)) := mul_le_mul_of_nonneg_right hc hs0.le
    have : 6 * (vMax / 2^53) < vMax / 2^50 := by
      have : vMax / 2^50 = 8 * (vMax / 2^53) := by ring
      have : 0 < vMax / 2^53 := by positivity
      linarith
    linarith
  · intro j hj
    have e1 := grid_err h hv hn hn2 hj
    have : vMax / 2^51 = 4 * (vMax / 2^53) := by ring
    have : 0 < vMax / 2^53 := by positivity
    linarith

/-! ## The current -/

theorem fl_up (h : AccRounding fl) {x : ℚ} {X : ℝ} (hx : (x : ℝ) ≤ X) (hX : 0 ≤ X) : (fl x : ℝ) ≤ X + X / 2^53 + (2:ℝ)^(-1075 : ℤ) := by
  have ht : (0:ℝ) < (2:ℝ)^(-1075 : ℤ) := by positivity
  have hX2 : 0 ≤ X / 2^53 := by positivity
  rcases le_total 0 x with h0 | h0
  · have e := (abs_le.mp (h.err x)).2
    rw [abs_of_nonneg h0] at e
    have e2 : ((fl x : ℚ) : ℝ) ≤ x + x / 2^53 + (2:ℝ)^(-1075 : ℤ) := by
      have : fl x ≤ x + x / 2^53 + (2:ℚ)^(-1075 : ℤ) := by linarith
      have := (Rat.cast_le (K := ℝ)).mpr this
      push_cast at this
      exact this
    have : (x:ℝ) / 2^53 ≤ X / 2^53 := div_le_div_of_nonneg_right hx (by positivity)
    linarith
  · have : ((fl x : ℚ) : ℝ) ≤ 0 := by exact_mod_cast h.toRounding.nonpos h0
    linarith

theorem fl_down (h : AccRounding fl) {x : ℚ} {X : ℝ} (hx : X ≤ (x : ℝ)) (hX : 0 ≤ X) : X - X / 2^53 - (2:ℝ)^(-1075 : ℤ) ≤ (fl x : ℝ) := by
  have h0 : 0 ≤ x := by exact_mod_cast hX.trans hx
  have e := (abs_le.mp (h.err x)).1
  rw [abs_of_nonneg h0] at e
  have e2 : (x:ℝ) - x / 2^53 - (2:ℝ)^(-1075 : ℤ) ≤ ((fl x : ℚ) : ℝ) := by
    have : x - x / 2^53 - (2:ℚ)^(-1075 : ℤ) ≤ fl x := by linarith
    have := (Rat.cast_le (K := ℝ)).mpr this
    push_cast at this
    exact this
  have : X - X / 2^53 ≤ (x:ℝ) - x / 2^53 := by
    have q1 : X - X / 2^53 = X * (1 - 1/2^53) := by ring
    have q2 : (x:ℝ) - x / 2^53 = x * (1 - 1/2^53) := by ring
    rw [q1, q2]
    exact mul_le_mul_of_nonneg_right hx (by norm_num)
  linarith

/-- The coefficients as real numbers. -/
noncomputable def _root_.Verif.Model.FlCoeffs.real (k : FlCoeffs) : IvCoeffs := ⟨k.a, k.b, k.c⟩

theorem ivModelFl_nonneg (k : FlCoeffs) (v : ℚ) : 0 ≤ ivModelFl fl expf k v := by
  unfold ivModelFl
  simp only
  by_cases h : fl (k.a - fl (k.b * fl (expf (fl (k.c * v)) - 1))) < 0
  · rw [if_pos h]
  · rw [if_neg h]; exact not_lt.mp h

/-- **C66, the current in floats.**  If the exponential function is never more than a factor `1 + η` too large, and `θ` bounds what this factor and the rounding of the exponent make together, the computed current
falls short of the true one by at most `(a + b) (2 θ + 2^-50) + 2^-1000`, at every voltage. -/
theorem C66_current_float (h : AccRounding fl) (k : FlCoeffs) (hk : IsCell k.real) (η θ : ℝ) (hη : ∀ x : ℚ, (expf x : ℝ) ≤ Real.exp x * (1 + η)) (hθ0 : 0 ≤ θ)
    (vMax : ℚ) (hθ : Real.exp (k.c * vMax / 2^53 + (2:ℝ)^(-1075 : ℤ)) * (1 + η) ≤ 1 + θ) (hη0 : 0 ≤ η) (v : ℚ) (hv0 : 0 ≤ v) (hv : v ≤ vMax) :
    ivModel k.real v ≤ ivModelFl fl expf k v + ((k.a + k.b) * (2 * θ + 1 / 2^50) + (2:ℝ)^(-1000 : ℤ)) := by
  have ha : (0:ℝ) ≤ k.a := hk.a
  have hb : (0:ℝ) < k.b := hk.b
  have hc : (0:ℝ) < k.c := hk.c
  have hnn : (0:ℝ) ≤ ivModelFl fl expf k v := by exact_mod_cast ivModelFl_nonneg k v
  set t := (2:ℝ)^(-1075 : ℤ) with ht
  have ht0 : 0 < t := by positivity
  have htt : 8 * t ≤ (2:ℝ)^(-1000 : ℤ) := by norm_num [ht]
  have htu : 8 * t ≤ 1 / 2^60 := by norm_num [ht]
  have h1000 : 0 < (2:ℝ)^(-1000 : ℤ) := by positivity
  set E := Real.exp ((k.c : ℝ) * v) with hE
  have hv0' : (0:ℝ) ≤ v := by exact_mod_cast hv0
  have hv' : (v:ℝ) ≤ vMax := by exact_mod_cast hv
  have hE1 : 1 ≤ E := by
    rw [hE]; exact Real.one_le_exp (by positivity)
  have hεpos : 0 ≤ ((k.a:ℝ) + k.b) * (2 * θ + 1 / 2^50) := by positivity
  show max 0 ((k.a:ℝ) - k.b * (E - 1)) ≤ _
  apply max_le
  · linarith
  by_cases hI : (k.a:ℝ) - k.b * (E - 1) ≤ 0
  · linarith
  push Not at hI
  -- the exponent
  have x1 : ((fl (k.c * v) : ℚ) : ℝ) ≤ k.c * v + (k.c * vMax / 2^53 + t) := by
    have e := fl_up h (x := k.c * v) (X := (k.c:ℝ) * v) (by push_cast; exact le_rfl) (by positivity)
    have : (k.c:ℝ) * v / 2^53 ≤ k.c * vMax / 2^53 := div_le_div_of_nonneg_right (mul_le_mul_of_nonneg_left hv' hc.le) (by positivity)
    linarith
  have x2 : (expf (fl (k.c * v)) : ℝ) ≤ E * (1 + θ) := by
    refine (hη _).trans ?_
    have : Real.exp ((fl (k.c * v) : ℚ) : ℝ) ≤ E * Real.exp (k.c * vMax / 2^53 + t) := by
      rw [hE, ← Real.exp_add]
      exact Real.exp_le_exp.mpr x1
    calc Real.exp ((fl (k.c * v) : ℚ) : ℝ) * (1 + η) ≤ E * Real.exp (k.c * vMax / 2^53 + t) * (1 + η) := mul_le_mul_of_nonneg_right this (by linarith)
      _ = E * (Real.exp (k.c * vMax / 2^53 + t) * (1 + η)) := by ring
      _ ≤ E * (1 + θ) := mul_le_mul_of_nonneg_left hθ (by linarith)
  have X1 : 0 ≤ E * (1 + θ) - 1 := by nlinarith
  have x3 := fl_up h (x := expf (fl (k.c * v)) - 1) (X := E * (1 + θ) - 1) (by push_cast; linarith) X1
  set Y := E * (1 + θ) - 1 + (E * (1 + θ) - 1) / 2^53 + (2:ℝ)^(-1075 : ℤ) with hY
  have hY0 : 0 ≤ Y := by positivity
  have x4 := fl_up h (x := k.b * fl (expf (fl (k.c * v)) - 1)) (X := k.b * Y) (by push_cast; exact mul_le_mul_of_nonneg_left x3 hb.le) (by positivity)
  set W := (k.b:ℝ) * Y + k.b * Y / 2^53 + (2:ℝ)^(-1075 : ℤ) with hW
  -- the bound on W
  have bE : (k.b:ℝ) * E ≤ k.a + k.b := by nlinarith
  have bθ : (k.b:ℝ) * E * θ ≤ (k.a + k.b) * θ := mul_le_mul_of_nonneg_right bE hθ0
  have hbY : (k.b:ℝ) * Y = (k.b * (E - 1) + k.b * E * θ) * (1 + 1/2^53) + k.b * t := by rw [hY]; ring
  have hbI : (k.b:ℝ) * (E - 1) ≤ k.a := by linarith
  have hbI0 : 0 ≤ (k.b:ℝ) * (E - 1) := mul_nonneg hb.le (by linarith)
  have hbt0 : 0 ≤ (k.b:ℝ) * E * θ := by positivity
  have haθ : 0 ≤ ((k.a:ℝ) + k.b) * θ := by positivity
  have hbt : (k.b:ℝ) * t ≤ k.b * (1 / 2^60) := mul_le_mul_of_nonneg_left (by linarith) hb.le
  have hbt2 : 0 ≤ (k.b:ℝ) * t := by positivity
  have hWb : W ≤ k.b * (E - 1) + (k.a + k.b) * (2 * θ + 1 / 2^50) - k.a / 2^53 + t := by
    rw [hW, hbY]
    linarith
  by_cases hZ : (k.a:ℝ) - W ≤ 0
  · have : 0 ≤ (k.a:ℝ) / 2^53 := by positivity
    linarith
  push Not at hZ
  have x5 := fl_down h (x := k.a - fl (k.b * fl (expf (fl (k.c * v)) - 1))) (X := (k.a:ℝ) - W) (by push_cast; linarith) hZ.le
  have hW0 : 0 ≤ W := by positivity
  have x6 : ((fl (k.a - fl (k.b * fl (expf (fl (k.c * v)) - 1))) : ℚ) : ℝ) ≤ ivModelFl fl expf k v := by
    have : fl (k.a - fl (k.b * fl (expf (fl (k.c * v)) - 1))) ≤ ivModelFl fl expf k v := by
      unfold ivModelFl
      simp only
      by_cases hq : fl (k.a - fl (k.b * fl (expf (fl (k.c * v)) - 1))) < 0
      · rw [if_pos hq]; exact hq.le
      · rw [if_neg hq]
    exact_mod_cast this
  linarith

/-! ## The loss -/

/-- **C66, the loss in floats.**  Under the same conditions no voltage of the range has, on the true curve, more power than the tracker delivers, up to one step of the grid at the short circuit current, the error of the
computed currents at the largest voltage, and a relative 2^-51 of the delivered power. -/
theorem C66_loss_float (h : AccRounding fl) (k : FlCoeffs) (hk : IsCell k.real) (η θ : ℝ) (hη : ∀ x : ℚ, (expf x : ℝ) ≤ Real.exp x * (1 + η)) (hη0 : 0 ≤ η) (hθ0 : 0 ≤ θ)
    (vMax : ℚ) (hθ : Real.exp (k.c * vMax / 2^53 + (2:ℝ)^(-1075 : ℤ)) * (1 + η) ≤ 1 + θ) (hv : (2:ℚ)^(-900 : ℤ) ≤ vMax) (n : ℕ) (hn : 2 ≤ n) (hn2 : n ≤ 2^50)
    (v i : ℚ) (ht : optimalTrackerFl fl expf vMax n k = .ok (v, i)) (u : ℝ) (hu0 : 0 ≤ u) (hu : u ≤ vMax) :
    u * ivModel k.real u ≤ v * i * (1 + 1 / 2^51) + (vMax / ((n : ℝ) - 1) + vMax / 2^50) * k.a + vMax * ((k.a + k.b) * (2 * θ + 1 / 2^50)) + (vMax + 1) * (2:ℝ)^(-1000 : ℤ) := by
  obtain ⟨p, hp, h1, h2, _⟩ := C66_optimal_float (fl := fl) (expf := expf) k vMax n (by omega)
  rw [h1] at ht
  injection ht with ht
  injection ht with hv1 hi1
  subst hv1 hi1
  obtain ⟨g0, gl, gm, ge⟩ := C66_grid_float h vMax hv n hn hn2
  have hv0 : 0 < vMax := lt_of_lt_of_le (by positivity) hv
  have hvr : (0:ℝ) < vMax := by exact_mod_cast hv0
  set g := gridFl fl vMax n with hg
  have hgm : ∀ j < n, 0 ≤ g j ∧ g j ≤ vMax := by
    intro j hj
    constructor
    · rcases Nat.eq_zero_or_pos j with hz | hz
      · rw [hz, g0]
      · rw [← g0]; exact (gm 0 j hz hj).le
    · rcases Nat.lt_or_ge j (n - 1) with hz | hz
      · rw [← gl]; exact (gm j (n-1) hz (by omega)).le
      · rw [show j = n - 1 by omega, gl]
  -- the member below u
  obtain ⟨j, hj, hj1, hj2⟩ : ∃ j < n, (g j : ℝ) ≤ u ∧ u ≤ g j + (vMax / ((n : ℝ) - 1) + vMax / 2^50) := by
    have hn1 : (0:ℝ) < (n:ℝ) - 1 := by
      have : (2 : ℝ) ≤ n := by exact_mod_cast hn
      linarith
    have key : ∀ m < n, u ≤ g m → ∃ j < n, (g j : ℝ) ≤ u ∧ u ≤ g j + (vMax / ((n : ℝ) - 1) + vMax / 2^50) := by
      intro m
      induction m with
      | zero =>
        intro hm hum
        rw [g0] at hum
        have hu00 : u = 0 := le_antisymm (by simpa using hum) hu0
        refine ⟨0, hm, by rw [g0, hu00]; simp, ?_⟩
        rw [hu00, g0]
        push_cast
        positivity
      | succ m ih =>
        intro hm hum
        by_cases hlt : u ≤ g m
        · exact ih (by omega) hlt
        · push Not at hlt
          refine ⟨m, by omega, hlt.le, hum.trans ?_⟩
          have e1 := (abs_le.mp (ge (m+1) hm)).2
          have e2 := (abs_le.mp (ge m (by omega))).1
          have e3 : g (m+1) ≤ g m + (vMax / ((n : ℚ) - 1) + vMax / 2^50) := by
            have : vMax / 2^50 = 2 * (vMax / 2^51) := by ring
            have q : ((m + 1 : ℕ) : ℚ) * (vMax / ((n : ℚ) - 1)) = m * (vMax / ((n : ℚ) - 1)) + vMax / ((n : ℚ) - 1) := by push_cast; ring
            linarith
          exact_mod_cast e3
    exact key (n - 1) (by omega) (by rw [gl]; exact hu)
  obtain ⟨hgj0, hgjm⟩ := hgm j hj
  obtain ⟨hgp0, hgpm⟩ := hgm p hp
  have hgj0' : (0:ℝ) ≤ g j := by exact_mod_cast hgj0
  have hgjm' : (g j:ℝ) ≤ vMax := by exact_mod_cast hgjm
  have cur := C66_current_float h k hk η θ hη hθ0 vMax hθ hη0 (g j) hgj0 hgjm
  set ε := ((k.a:ℝ) + k.b) * (2 * θ + 1 / 2^50) + (2:ℝ)^(-1000 : ℤ) with hε
  have hε0 : 0 ≤ ε := by
    have ha : (0:ℝ) ≤ k.a := hk.a
    have hb : (0:ℝ) < k.b := hk.b
    positivity
  set ij := ivModelFl fl expf k (g j) with hij
  set ip := ivModelFl fl expf k (g p) with hip
  have hij0 : 0 ≤ ij := ivModelFl_nonneg k _
  have hip0 : 0 ≤ ip := ivModelFl_nonneg k _
  have e1 := cell_antitone hk hj1
  have e2 := cell_le hk hgj0'
  have e3 := cell_nonneg k.real u
  have hgap : 0 ≤ (vMax:ℝ) / ((n : ℝ) - 1) + vMax / 2^50 := by
    have : (2 : ℝ) ≤ n := by exact_mod_cast hn
    have : (0:ℝ) < (n:ℝ) - 1 := by linarith
    positivity
  -- products
  have hle := h2 j hj
  have f1 := (abs_le.mp (h.err (g j * ij))).1
  have f2 := (abs_le.mp (h.err (g p * ip))).2
  rw [abs_of_nonneg (mul_nonneg hgj0 hij0)] at f1
  rw [abs_of_nonneg (mul_nonneg hgp0 hip0)] at f2
  have hpp := mul_nonneg hgp0 hip0
  have f3 : g j * ij ≤ g p * ip * (1 + 1/2^51) + (2:ℚ)^(-1000 : ℤ) := by
    have t1 : 4 * (2:ℚ)^(-1075 : ℤ) ≤ (2:ℚ)^(-1000 : ℤ) := by norm_num
    have t2 : 0 < (2:ℚ)^(-1075 : ℤ) := by positivity
    linarith
  have f3' : (g j:ℝ) * ij ≤ g p * ip * (1 + 1/2^51) + (2:ℝ)^(-1000 : ℤ) := by
    have := (Rat.cast_le (K := ℝ)).mpr f3
    push_cast at this
    exact this
  have s1 : u * ivModel k.real u ≤ (g j + (vMax / ((n : ℝ) - 1) + vMax / 2^50)) * ivModel k.real (g j) := mul_le_mul hj2 e1 e3 (by linarith)
  have s2 : (vMax / ((n : ℝ) - 1) + vMax / 2^50) * ivModel k.real (g j) ≤ (vMax / ((n : ℝ) - 1) + vMax / 2^50) * k.a := mul_le_mul_of_nonneg_left e2 hgap
  have s3 : (g j:ℝ) * ivModel k.real (g j) ≤ g j * (ij + ε) := mul_le_mul_of_nonneg_left cur hgj0'
  have s4 : (g j:ℝ) * ε ≤ vMax * ε := mul_le_mul_of_nonneg_right hgjm' hε0
  have s5 : (vMax:ℝ) * ε = vMax * ((k.a + k.b) * (2 * θ + 1 / 2^50)) + vMax * (2:ℝ)^(-1000 : ℤ) := by rw [hε]; ring
  linarith

/-- **C66, the loss with a good exponential.**  If the exponential function is accurate to 2^-50 and the exponent stays below 1024 over the range, the loss is one step of the grid at the short circuit current plus a
part of 2^-38 of the largest voltage times the sum of the two currents of the cell. -/
theorem C66_loss_good_exp (h : AccRounding fl) (k : FlCoeffs) (hk : IsCell k.real) (hexp : ∀ x : ℚ, |(expf x : ℝ) - Real.exp x| ≤ Real.exp x / 2^50)
    (vMax : ℚ) (hc : k.c * vMax ≤ 1024) (hv : (2:ℚ)^(-900 : ℤ) ≤ vMax) (n : ℕ) (hn : 2 ≤ n) (hn2 : n ≤ 2^50)
    (v i : ℚ) (ht : optimalTrackerFl fl expf vMax n k = .ok (v, i)) (u : ℝ) (hu0 : 0 ≤ u) (hu : u ≤ vMax) :
    u * ivModel k.real u ≤ v * i * (1 + 1 / 2^51) + vMax / ((n : ℝ) - 1) * k.a + vMax * (k.a + k.b) / 2^38 + (vMax + 1) * (2:ℝ)^(-1000 : ℤ) := by
  have hv0 : 0 < vMax := lt_of_lt_of_le (by positivity) hv
  have hvr : (0:ℝ) < vMax := by exact_mod_cast hv0
  have ha : (0:ℝ) ≤ k.a := hk.a
  have hb : (0:ℝ) < k.b := hk.b
  have hcr : (0:ℝ) < k.c := hk.c
  have hc' : (k.c:ℝ) * vMax ≤ 1024 := by exact_mod_cast hc
  have main := C66_loss_float h k hk (1 / 2^50) (1 / 2^40) (fun x => by have := (abs_le.mp (hexp x)).2; linarith) (by positivity) (by positivity) vMax (by
    set y := (k.c:ℝ) * vMax / 2^53 + (2:ℝ)^(-1075 : ℤ) with hy
    have hy0 : 0 ≤ y := by positivity
    have hy1 : y ≤ 1 / 2^42 := by
      have : (2:ℝ)^(-1075 : ℤ) ≤ 1 / 2^60 := by norm_num
      linarith
    have e := (abs_le.mp (Real.abs_exp_sub_one_le (x := y) (by rw [abs_of_nonneg hy0]; linarith))).2
    rw [abs_of_nonneg hy0] at e
    have e2 : Real.exp y ≤ 1 + 1 / 2^41 := by linarith
    calc Real.exp y * (1 + 1 / 2^50) ≤ (1 + 1 / 2^41) * (1 + 1 / 2^50) := mul_le_mul_of_nonneg_right e2 (by positivity)
      _ ≤ 1 + 1 / 2^40 := by norm_num) hv n hn hn2 v i ht u hu0 hu
  have p1 : 0 ≤ (vMax:ℝ) * k.a := by positivity
  have p2 : 0 ≤ (vMax:ℝ) * k.b := by positivity
  have e1 : ((vMax:ℝ) / ((n : ℝ) - 1) + vMax / 2^50) * k.a = vMax / ((n : ℝ) - 1) * k.a + vMax * k.a / 2^50 := by ring
  have e2 : (vMax:ℝ) * ((k.a + k.b) * (2 * (1 / 2^40) + 1 / 2^50)) = (vMax * k.a + vMax * k.b) * (2 / 2^40 + 1 / 2^50) := by ring
  have e3 : (vMax:ℝ) * (k.a + k.b) / 2^38 = (vMax * k.a + vMax * k.b) / 2^38 := by ring
  linarith

/-- Non-vacuity: binary64, an exponential function of rational values, a cell of 10 mA, the default range and grid. -/
example : ∃ expf : ℚ → ℚ, AccRounding b64 ∧ (∀ x : ℚ, |(expf x : ℝ) - Real.exp x| ≤ Real.exp x / 2^50) ∧ IsCell (FlCoeffs.mk (1/100) (1/10^6) 3).real ∧ (3:ℚ) * 5 ≤ 1024 ∧ (2:ℚ)^(-900 : ℤ) ≤ 5 ∧ 1000 ≤ 2^50 ∧
    ∃ v i, optimalTrackerFl b64 expf 5 1000 ⟨1/100, 1/10^6, 3⟩ = .ok (v, i) := by
  have hq : ∀ x : ℚ, ∃ q : ℚ, |(q : ℝ) - Real.exp x| ≤ Real.exp x / 2^50 := by
    intro x
    have hp := Real.exp_pos (x : ℝ)
    have hp2 : 0 < Real.exp x / 2^50 := by positivity
    obtain ⟨q, h1, h2⟩ := exists_rat_btwn (show Real.exp x < Real.exp x + Real.exp x / 2^50 by linarith)
    exact ⟨q, by rw [abs_of_pos (by linarith)]; linarith⟩
  choose expf he using hq
  obtain ⟨p, _, h1, _⟩ := C66_optimal_float (fl := b64) (expf := expf) ⟨1/100, 1/10^6, 3⟩ 5 1000 (by norm_num)
  refine ⟨expf, b64_accRounding, he, ⟨?_, ?_, ?_⟩, by norm_num, by norm_num, by norm_num, _, _, h1⟩ <;> simp [FlCoeffs.real]

/-! ## The open circuit tracker -/

theorem filter_prefix_fl (f : ℕ → ℚ) (x : ℚ) (n : ℕ) (hf : ∀ i j, i < j → j < n → f i < f j) : ∃ m ≤ n, ((List.range n).map f).filter (fun y => decide (y < x)) = (List.range m).map f ∧
    (∀ j < m, f j < x) ∧ ∀ j < n, m ≤ j → x ≤ f j := by
  induction n with
  | zero => exact ⟨0, le_rfl, rfl, by simp, by simp⟩
  | succ n ih =>
    obtain ⟨m, h1, h2, h3, h4⟩ := ih (fun i j hij hj => hf i j hij (by omega))
    rw [List.range_succ, List.map_append, List.filter_append, h2]
    by_cases hx : f n < x
    · have hmn : m = n := by
        by_contra hne
        have := h4 m (by omega) le_rfl
        have h5 := hf m n (by omega) (by omega)
        linarith
      subst hmn
      refine ⟨m + 1, le_rfl, ?_, ?_, by intro j hj hm; omega⟩
      · simp [List.range_succ, hx]
      · intro j hj
        rcases Nat.lt_succ_iff_lt_or_eq.mp hj with h | h
        · exact h3 j h
        · rw [h]; exact hx
    · refine ⟨m, by omega, by simp [hx], h3, ?_⟩
      intro j hj hm
      rcases Nat.lt_succ_iff_lt_or_eq.mp hj with h | h
      · exact h4 j h hm
      · rw [h]; exact not_lt.mp hx

/-- **C66, the open circuit tracker in floats.**  If the computed share of the open circuit voltage is not positive, the tracker fails; else it delivers the largest voltage of the grid below it and the computed current there. -/
theorem C66_oc_float (h : AccRounding fl) (k : FlCoeffs) (vMax : ℚ) (hv : (2:ℚ)^(-900 : ℤ) ≤ vMax) (n : ℕ) (hn : 2 ≤ n) (hn2 : n ≤ 2^50) (ratio voc : ℚ) :
    (fl (ratio * voc) ≤ 0 → ocTrackerFl fl expf vMax n ratio k voc = .error .valueError) ∧
    (0 < fl (ratio * voc) → ∃ p < n, ocTrackerFl fl expf vMax n ratio k voc = .ok (gridFl fl vMax n p, ivModelFl fl expf k (gridFl fl vMax n p)) ∧
      gridFl fl vMax n p < fl (ratio * voc) ∧ ∀ j < n, gridFl fl vMax n j < fl (ratio * voc) → gridFl fl vMax n j ≤ gridFl fl vMax n p) := by
  obtain ⟨g0, gl, gm, _⟩ := C66_grid_float h vMax hv n hn hn2
  obtain ⟨m, h1, h2, h3, h4⟩ := filter_prefix_fl (gridFl fl vMax n) (fl (ratio * voc)) n gm
  have hf : (vProtoFl fl vMax n).filter (fun y => decide (y < fl (ratio * voc))) = (List.range m).map (gridFl fl vMax n) := h2
  constructor
  · intro hle
    have hm : m = 0 := by
      by_contra h0
      have := h3 0 (by omega)
      rw [g0] at this
      linarith
    subst hm
    simp only [ocTrackerFl, hf]
    rfl
  · intro hpos
    have hm : 0 < m := by
      by_contra h0
      have := h4 0 (by omega) (by omega)
      rw [g0] at this
      linarith
    obtain ⟨p, q1, q2, q3, q4⟩ := argmaxFl_spec ((List.range m).map (gridFl fl vMax n)) (by
      intro h0
      have := congrArg List.length h0
      simp at this
      omega)
    simp only [List.length_map, List.length_range] at q2 q3
    have hg : ∀ j < m, ((List.range m).map (gridFl fl vMax n)).getD j 0 = gridFl fl vMax n j := by
      intro j hj; simp [List.getD_eq_getElem?_getD, hj]
    refine ⟨p, by omega, ?_, h3 p q2, ?_⟩
    · simp only [ocTrackerFl, hf, q1]
      rw [vProtoFl_getD _ _ _ (by omega)]
      simp [vProtoFl, List.getD_eq_getElem?_getD, show p < n by omega]
    · intro j hj hjx
      have hjm : j < m := by
        by_contra hge
        have := h4 j hj (by omega)
        linarith
      have := q3 j hjm
      rwa [hg _ hjm, hg _ q2] at this

/-- Non-vacuity: 80 percent of 4 V in binary64. -/
example : 0 < b64 (4/5 * 4) ∧ (2:ℚ)^(-900 : ℤ) ≤ 5 := ⟨by decide +kernel, by norm_num⟩

end Verif.Props
