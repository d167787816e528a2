import Verif.Props.Balance

/-!
# C103 in floating point

`C103_balance_partial` keeps the account of a run in exact arithmetic.  Here the converter computes
in doubles (any `AccRounding`, in particular binary64): the same balance, with an error of one part
in 2^47 of what flowed and, per sample, of what the capacitor holds when full.
-/

namespace Verif.Props
open Verif.Py Verif.Model

/-! ## The capacitor -/

theorem half_bound {z w u : ℚ} (hu1 : u ≤ 1/1000) (hw : 0 ≤ w)
    (h : z ≤ w + u * z) : z ≤ 2 * w := by
  by_cases hz : z ≤ 0
  · linarith
  · push Not at hz
    have : u * z ≤ 1/1000 * z := mul_le_mul_of_nonneg_right hu1 hz.le
    linarith

/-- The chain of roundings when the net power `P` is not positive: what the capacitor loses. -/
theorem cap_neg {V P K C dt X u t d x q r : ℚ} (hC : 0 < C)
    (hdt : dt = C * K) (hK0 : 0 ≤ K) (hV : 0 ≤ V) (hX0 : 0 < X)
    (hX3 : C * V * V ≤ X)
    (hu0 : 0 < u) (hu1 : u ≤ 1/1000) (ht0 : 0 ≤ t)
    (hCVt : C * V * t ≤ X * (u/1000)) (hCVKt : C * V * (K * t) ≤ 16 * X * (u/1000))
    (hdtt : dt * t ≤ 16 * X * (u/1000))
    (hmx : V * x = d) (hd0 : d ≤ 0) (hq0 : q ≤ 0) (hrV : -V ≤ r)
    (eR : |r - q * K| ≤ u * -(q * K) + t) (eQ : |q - x| ≤ u * -x + t) (eD : |d - P| ≤ u * |P| + t) :
    C * V * r ≤ dt * P + 21 * (u * X) := by
  have eR' := abs_le.mp eR
  have eQ' := abs_le.mp eQ
  have eD' := abs_le.mp eD
  have hCV : 0 ≤ C * V := mul_nonneg hC.le hV
  have hdt0 : 0 ≤ dt := by rw [hdt]; exact mul_nonneg hC.le hK0
  have hXu : 0 ≤ X * u := (mul_pos hX0 hu0).le
  have b1 : -(q * K) ≤ 2 * (V + t) := half_bound hu1 (by linarith) (by linarith [eR'.1, eR'.2])
  have b2' : -x ≤ 2 * (-q + t) := half_bound hu1 (by linarith) (by linarith [eQ'.1, eQ'.2])
  have b2 : -x * K ≤ 2 * (2 * (V + t) + K * t) := by
    have := mul_le_mul_of_nonneg_right b2' hK0
    linarith
  have b3 : |P| ≤ 2 * (-d + t) := by
    have ha : |P| ≤ |d| + |d - P| := by
      have := abs_sub_abs_le_abs_sub P d
      rw [abs_sub_comm] at this; linarith
    rw [abs_of_nonpos hd0] at ha
    exact half_bound hu1 (by linarith) (by linarith)
  have c1 : C * V * r ≤ C * V * (q * K) + C * V * (u * (2 * (V + t)) + t) := by
    have e0 : u * -(q * K) ≤ u * (2 * (V + t)) := mul_le_mul_of_nonneg_left b1 hu0.le
    have e1 : r ≤ q * K + (u * (2 * (V + t)) + t) := by linarith [eR'.2]
    have := mul_le_mul_of_nonneg_left e1 hCV
    linarith
  have e3 : dt * d = C * V * K * x := by rw [hdt, ← hmx]; ring
  have c2 : C * V * (q * K) ≤ dt * d + u * (C * V * (-x * K)) + C * V * (K * t) := by
    have e1 : q ≤ x + (u * (-x) + t) := by linarith [eQ'.2]
    have e2 := mul_le_mul_of_nonneg_left e1 (mul_nonneg hCV hK0)
    rw [e3]; linarith
  have c3 : C * V * (-x * K) ≤ C * V * (2 * (2 * (V + t) + K * t)) := mul_le_mul_of_nonneg_left b2 hCV
  have c4 : C * V * (-x * K) = dt * (-d) := by rw [hdt, ← hmx]; ring
  have c5 : dt * d ≤ dt * P + u * (dt * |P|) + dt * t := by
    have := mul_le_mul_of_nonneg_left eD'.2 hdt0
    linarith
  have c6 : dt * |P| ≤ 2 * (dt * (-d)) + 2 * (dt * t) := by
    have := mul_le_mul_of_nonneg_left b3 hdt0
    linarith
  have hVV : C * V * (V + t) ≤ X + X * (u / 1000) := by linarith
  have hXu2 : X * (u/1000) ≤ X * (1/1000) := mul_le_mul_of_nonneg_left (by linarith) hX0.le
  have n1 : C * V * (-x * K) ≤ 5 * X := by linarith
  have n2 : u * (C * V * (-x * K)) ≤ u * (5 * X) := mul_le_mul_of_nonneg_left n1 hu0.le
  have n3 : dt * |P| ≤ 11 * X := by rw [c4] at n1; linarith
  have n4 : u * (dt * |P|) ≤ u * (11 * X) := mul_le_mul_of_nonneg_left n3 hu0.le
  have n5 : C * V * (u * (2 * (V + t)) + t) ≤ 2 * (u * (2 * X)) + X * (u/1000) := by
    have e1 : C * V * (u * (2 * (V + t)) + t) = 2 * (u * (C * V * (V + t))) + C * V * t := by ring
    have e2 : C * V * (V + t) ≤ 2 * X := by linarith
    have := mul_le_mul_of_nonneg_left e2 hu0.le
    rw [e1]; linarith
  linarith

/-- The same when it is not negative. -/
theorem cap_pos {V P K C dt X u t d x q r m : ℚ} (hC : 0 < C)
    (hdt : dt = C * K) (hK0 : 0 ≤ K) (hV : 0 ≤ V) (hX0 : 0 < X)
    (hu0 : 0 < u) (hu1 : u ≤ 1/1000) (ht0 : 0 ≤ t)
    (hCVt : C * V * t ≤ X * (u/1000)) (hCVKt : C * V * (K * t) ≤ 16 * X * (u/1000))
    (hdtt : dt * t ≤ 16 * X * (u/1000)) (hVm : V ≤ m)
    (hmx : m * x = d) (hx0 : 0 ≤ x) (hP : 0 ≤ P)
    (eR : r ≤ (1 + u) * (q * K) + t) (eQ : q ≤ (1 + u) * x + t) (eD : d ≤ (1 + u) * P + t) :
    (1 + u) * (C * V * r) ≤ dt * P + 5 * (u * (dt * P)) + u * X := by
  have hCV : 0 ≤ C * V := mul_nonneg hC.le hV
  have hdt0 : 0 ≤ dt := by rw [hdt]; exact mul_nonneg hC.le hK0
  have hA : 0 ≤ dt * P := mul_nonneg hdt0 hP
  have hXu : 0 ≤ X * (u/1000) := by positivity
  have h1u : 0 ≤ 1 + u := by linarith
  have h2u : ∀ z : ℚ, 0 ≤ z → (1 + u) * z ≤ 2 * z := fun z hz =>
    mul_le_mul_of_nonneg_right (by linarith) hz
  have c5 : dt * d ≤ (1 + u) * (dt * P) + dt * t := by
    have := mul_le_mul_of_nonneg_left eD hdt0
    linarith
  have c2 : C * V * (q * K) ≤ (1 + u) * (dt * d) + C * V * (K * t) := by
    have e2 := mul_le_mul_of_nonneg_left eQ (mul_nonneg hCV hK0)
    have e3 : C * V * K * x ≤ dt * d := by
      have h1 : V * x ≤ m * x := mul_le_mul_of_nonneg_right hVm hx0
      have h2 := mul_le_mul_of_nonneg_left h1 (mul_nonneg hC.le hK0)
      rw [hdt, ← hmx]; linarith
    have e4 := mul_le_mul_of_nonneg_left e3 h1u
    linarith
  have c1 : C * V * r ≤ (1 + u) * (C * V * (q * K)) + C * V * t := by
    have := mul_le_mul_of_nonneg_left eR hCV
    linarith
  have k1 : (1 + u) * (dt * d) ≤ (1 + u)^2 * (dt * P) + 2 * (dt * t) := by
    have e := mul_le_mul_of_nonneg_left c5 h1u
    have := h2u (dt * t) (mul_nonneg hdt0 ht0)
    linarith
  have k2 : C * V * (q * K) ≤ (1 + u)^2 * (dt * P) + 48 * (X * (u/1000)) := by linarith
  have k3 : (1 + u) * (C * V * (q * K)) ≤ (1 + u)^3 * (dt * P) + 96 * (X * (u/1000)) := by
    have e := mul_le_mul_of_nonneg_left k2 h1u
    have := h2u (48 * (X * (u/1000))) (by linarith)
    linarith
  have k4 : C * V * r ≤ (1 + u)^3 * (dt * P) + 97 * (X * (u/1000)) := by linarith
  have k5 : (1 + u) * (C * V * r) ≤ (1 + u)^4 * (dt * P) + 194 * (X * (u/1000)) := by
    have e := mul_le_mul_of_nonneg_left k4 h1u
    have := h2u (97 * (X * (u/1000))) (by linarith)
    linarith
  have k6 : (1 + u)^4 * (dt * P) ≤ (1 + 5 * u) * (dt * P) := by
    apply mul_le_mul_of_nonneg_right _ hA
    have h2 : u^2 ≤ 1/1000 * u := by rw [pow_two]; exact mul_le_mul_of_nonneg_right hu1 hu0.le
    have h3 : u^3 ≤ 1/1000 * u := by
      have : u^3 = u^2 * u := by ring
      rw [this]
      have : u^2 ≤ 1/1000 := by linarith
      exact mul_le_mul_of_nonneg_right this hu0.le
    have h4 : u^4 ≤ 1/1000 * u := by
      have : u^4 = u^3 * u := by ring
      rw [this]
      have : u^3 ≤ 1/1000 := by linarith
      exact mul_le_mul_of_nonneg_right this hu0.le
    have : (1 + u)^4 = 1 + 4 * u + 6 * u^2 + 4 * u^3 + u^4 := by ring
    rw [this]; linarith
  linarith

/-- The capacitor in floating point. -/
theorem cap_balance_fl {fl : ℚ → ℚ} (h : AccRounding fl) {V Pi Po K M C dt X : ℚ} (hC : 0 < C)
    (hdt : dt = C * K) (hK0 : 0 ≤ K) (hK : K ≤ 16) (hV : 0 ≤ V) (hPi : 0 ≤ Pi) (hPo : 0 ≤ Po)
    (hX1 : C ≤ X) (hX2 : C * V ≤ X) (hX3 : C * V * V ≤ X) {v : ℚ}
    (hv : v = max (min (fl (V + fl (fl (fl (Pi - Po) / max 1 V) * K))) M) 1) (h1 : 1 < v) :
    1/2 * C * v^2 ≤ 1/2 * C * V^2 + dt * (Pi - Po) + 1/2 * C * (v - V)^2
      + 1/2^48 * (X + dt * Pi) := by
  obtain ⟨u, hu⟩ : ∃ u : ℚ, u = 1/2^53 := ⟨_, rfl⟩
  obtain ⟨t, ht⟩ : ∃ t : ℚ, t = (2:ℚ)^(-1075 : ℤ) := ⟨_, rfl⟩
  have herr : ∀ x, |fl x - x| ≤ u * |x| + t := fun x => by
    have := h.err x
    rw [hu, ht]; rw [div_eq_mul_one_div, mul_comm] at this; exact this
  have hu0 : 0 < u := by rw [hu]; positivity
  have hu1 : u ≤ 1/1000 := by rw [hu]; norm_num
  have ht0 : 0 ≤ t := by rw [ht]; positivity
  have htu : t ≤ u / 1000 := by
    rw [ht, hu]
    have : (2:ℚ)^(-1075 : ℤ) ≤ (2:ℚ)^(-63 : ℤ) := zpow_le_zpow_right₀ (by norm_num) (by norm_num)
    refine le_trans this ?_
    norm_num
  have h48 : (1:ℚ)/2^48 = 32 * u := by rw [hu]; norm_num
  rw [h48]
  have hR := h.toRounding
  obtain ⟨m, hm⟩ : ∃ m, m = max 1 V := ⟨_, rfl⟩
  have hm1 : 1 ≤ m := by rw [hm]; exact le_max_left _ _
  have hm0 : 0 < m := by linarith
  have hVm : V ≤ m := by rw [hm]; exact le_max_right _ _
  rw [← hm] at hv
  obtain ⟨P, hP⟩ : ∃ P, P = Pi - Po := ⟨_, rfl⟩
  rw [← hP] at hv ⊢
  obtain ⟨d, hd⟩ : ∃ d, d = fl P := ⟨_, rfl⟩
  obtain ⟨x, hx⟩ : ∃ x, x = d / m := ⟨_, rfl⟩
  obtain ⟨q, hq⟩ : ∃ q, q = fl x := ⟨_, rfl⟩
  obtain ⟨r, hr⟩ : ∃ r, r = fl (q * K) := ⟨_, rfl⟩
  obtain ⟨S, hS⟩ : ∃ S, S = fl (V + r) := ⟨_, rfl⟩
  rw [← hd, ← hx, ← hq, ← hr, ← hS] at hv
  have hmx : m * x = d := by rw [hx]; field_simp
  have hvS : v ≤ S := by
    rcases le_total (min S M) 1 with hh | hh
    · rw [max_eq_right hh] at hv; linarith
    · rw [max_eq_left hh] at hv; rw [hv]; exact min_le_left _ _
  have hVr1 : 1 < V + r := by
    by_contra hn
    push Not at hn
    have := hR.mono hn
    rw [show fl 1 = 1 from by simpa using hR.exactNat 1 (by norm_num), ← hS] at this
    linarith
  have eS := abs_le.mp (herr (V + r))
  have eR := herr (q * K)
  have eQ := herr x
  have eD := herr P
  rw [← hS] at eS
  rw [← hr] at eR
  rw [← hq] at eQ
  rw [← hd] at eD
  rw [abs_of_pos (show 0 < V + r by linarith)] at eS
  have hX0 : 0 < X := by linarith
  have hCV : 0 ≤ C * V := mul_nonneg hC.le hV
  have hdt0 : 0 ≤ dt := by rw [hdt]; exact mul_nonneg hC.le hK0
  have hdtX : dt ≤ 16 * X := by
    rw [hdt]
    have := mul_le_mul_of_nonneg_left hK hC.le
    linarith
  have hPi' : 0 ≤ u * (dt * Pi) := mul_nonneg hu0.le (mul_nonneg hdt0 hPi)
  have hXu : 0 ≤ u * X := mul_nonneg hu0.le hX0.le
  suffices hmain : C * V * (v - V) ≤ dt * P + 32 * (u * X) + 32 * (u * (dt * Pi)) by nlinarith
  have hCVS : C * V * (v - V) ≤ C * V * (r + u * (V + r) + t) :=
    mul_le_mul_of_nonneg_left (by linarith [eS.2]) hCV
  have hXt : X * t ≤ X * (u / 1000) := mul_le_mul_of_nonneg_left htu hX0.le
  have hCVt : C * V * t ≤ X * (u / 1000) := le_trans (mul_le_mul_of_nonneg_right hX2 ht0) hXt
  have hdtt : dt * t ≤ 16 * X * (u / 1000) := by
    calc dt * t ≤ 16 * X * t := mul_le_mul_of_nonneg_right hdtX ht0
      _ ≤ 16 * X * (u/1000) := mul_le_mul_of_nonneg_left htu (by linarith)
  have hCVKt : C * V * (K * t) ≤ 16 * X * (u / 1000) := by
    have e1 : C * V * (K * t) ≤ X * (K * t) := mul_le_mul_of_nonneg_right hX2 (mul_nonneg hK0 ht0)
    have e2 : X * (K * t) ≤ X * (16 * (u/1000)) := by
      apply mul_le_mul_of_nonneg_left _ hX0.le
      exact mul_le_mul hK htu ht0 (by norm_num)
    linarith
  have huVV : u * (C * V * V) ≤ u * X := mul_le_mul_of_nonneg_left hX3 hu0.le
  have hexp : C * V * (r + u * (V + r) + t) = (1 + u) * (C * V * r) + u * (C * V * V) + C * V * t := by
    ring
  rcases le_total P 0 with hP0 | hP0
  · have hd0 : d ≤ 0 := by rw [hd]; exact hR.nonpos hP0
    have hx0 : x ≤ 0 := by rw [hx]; exact div_nonpos_of_nonpos_of_nonneg hd0 hm0.le
    have hq0 : q ≤ 0 := by rw [hq]; exact hR.nonpos hx0
    have hqK : q * K ≤ 0 := mul_nonpos_of_nonpos_of_nonneg hq0 hK0
    have hr0 : r ≤ 0 := by rw [hr]; exact hR.nonpos hqK
    have hV1 : 1 ≤ V := by linarith
    have hmV : m = V := by rw [hm]; exact max_eq_right hV1
    rw [hmV] at hmx
    rw [abs_of_nonpos hqK] at eR
    rw [abs_of_nonpos hx0] at eQ
    have hneg := cap_neg hC hdt hK0 hV hX0 hX3 hu0 hu1 ht0 hCVt hCVKt hdtt hmx hd0 hq0
      (by linarith) eR eQ eD
    have hur : u * (C * V * r) ≤ 0 :=
      mul_nonpos_of_nonneg_of_nonpos hu0.le (mul_nonpos_of_nonneg_of_nonpos hCV hr0)
    linarith
  · have hd0 : 0 ≤ d := by rw [hd]; exact hR.nonneg hP0
    have hx0 : 0 ≤ x := by rw [hx]; exact div_nonneg hd0 hm0.le
    have hq0 : 0 ≤ q := by rw [hq]; exact hR.nonneg hx0
    have hqK : 0 ≤ q * K := mul_nonneg hq0 hK0
    rw [abs_of_nonneg hqK] at eR
    rw [abs_of_nonneg hx0] at eQ
    rw [abs_of_nonneg hP0] at eD
    have hpos := cap_pos (q := q) (r := r) hC hdt hK0 hV hX0 hu0 hu1 ht0 hCVt hCVKt hdtt hVm hmx hx0 hP0
      (by linarith [(abs_le.mp eR).2]) (by linarith [(abs_le.mp eQ).2]) (by linarith [(abs_le.mp eD).2])
    have hAPi : dt * P ≤ dt * Pi := mul_le_mul_of_nonneg_left (by linarith) hdt0
    have hAu : u * (dt * P) ≤ u * (dt * Pi) := mul_le_mul_of_nonneg_left hAPi hu0.le
    linarith

/-! ## One sample -/

/-- No voltage of the run is above this. -/
def topVoltage (c : CnvCfg) : ℚ := max (max 1 (c.vIntermediateMax : ℚ)) c.vIntermediateInit

/-- What the induction carries along. -/
structure AccountInvFl (fl : ℚ → ℚ) (c : CnvCfg) (s : CnvState) : Prop where
  vMid : 0 ≤ s.vMid
  vMidRep : fl s.vMid = s.vMid
  vMidTop : s.vMid ≤ topVoltage c
  vOut : 0 ≤ s.vOut
  vOutRep : fl s.vOut = s.vOut
  res0 : 0 ≤ s.residue
  res1 : s.residue ≤ 60000

variable {fl : ℚ → ℚ}

theorem cap_rep (h : Rounding fl) (c : CnvCfg) (hc : c.Valid) (hst : c.enableStorage = true) (sb : CnvState) :
    fl (updateCapStorage fl c sb).1.vMid = (updateCapStorage fl c sb).1.vMid := by
  rw [updateCapStorage_eq]
  simp only [hst, if_true]
  generalize hw : fl (sb.vMid + fl (fl (fl (sb.pInp - sb.pOut) / max 1 sb.vMid)
    * CnvCfg.capConstant fl c)) = w
  have hwr : fl w = w := by rw [← hw]; exact h.idem _
  rcases max_choice (min w (c.vIntermediateMax:ℚ)) 1 with e | e <;> rw [e]
  · rcases min_choice w (c.vIntermediateMax:ℚ) with e | e <;> rw [e]
    · exact hwr
    · exact natCast_fl h hc.vIntermediateMax
  · simpa using h.exactInt 1 (by norm_num)

theorem accountInvFl_step (h : Rounding fl) (c : CnvCfg) (hc : c.Valid) (cal : CalEmulator)
    (hcal : cal.adcCA.Valid) (hst : c.enableStorage = true)
    {s s' : CnvState} {x : CnvIn} {o : CnvOut} (hi : AccountInvFl fl c s)
    (hstep : cnvStep fl c cal s x = .ok (s', o)) : AccountInvFl fl c s' := by
  have hm := (step_vMid_bounds h c hc cal hstep).2.2
  obtain ⟨sa, ra, sb, rb, ha, hb, rfl, -⟩ := cnvStep_ok c cal s x hstep
  have hvo := us_vOut (fl := fl) c cal (updateCapStorage fl c sb).1
  simp only at hvo
  have hf := calcInpPower_frame c s x.v x.i ha
  have hres : sa.residue = s.residue := hf.2.2.2.2.2.2.1
  have hb18 := C18_bounds h cal.adcCA hcal sa.residue (by rw [hres]; exact hi.res0)
    (by rw [hres]; exact hi.res1) (min (2^18-1) (max 0 x.adc)) (by omega)
  have hrb : sb.residue = (convAdcRawToNA fl cal.adcCA sa.residue
      (min (2^18-1) (max 0 x.adc))).2 := by
    obtain ⟨eta, -, rfl, -⟩ := calcOutPower_eq c cal sa x.adc hb; rfl
  have hvv : 0 ≤ (updateStatesAndOutput fl c cal (updateCapStorage fl c sb).1).1.vOut ∧
      fl (updateStatesAndOutput fl c cal (updateCapStorage fl c sb).1).1.vOut
        = (updateStatesAndOutput fl c cal (updateCapStorage fl c sb).1).1.vOut := by
    rw [hvo]
    split_ifs with h1 h2 h3
    · exact ⟨h.nonneg (by linarith), h.idem _⟩
    · exact ⟨le_rfl, h.zero⟩
    · exact ⟨Nat.cast_nonneg _, natCast_fl h hc.vOutput⟩
    · exact ⟨le_rfl, h.zero⟩
  refine ⟨hm.1, ?_, le_trans hm.2 (le_max_left _ _), hvv.1, hvv.2, ?_, ?_⟩
  · rw [us_vMid]
    split_ifs
    · exact h.idem _
    · exact cap_rep h c hc hst sb
  · rw [(us_frame c cal _).2.2.2.1, updateCapStorage_eq]
    show 0 ≤ sb.residue
    rw [hrb]; exact hb18.2.1
  · rw [(us_frame c cal _).2.2.2.1, updateCapStorage_eq]
    show sb.residue ≤ 60000
    rw [hrb]; exact hb18.2.2

theorem capConstant_fl (h : Rounding fl) (c : CnvCfg) (hc : c.Valid) :
    c.capConstant fl = (c.constantN28 : ℚ) / 2^28 ∧ (c.constantN28 : ℚ) / 2^28 ≤ 16 := by
  have h32 := hc.constantN28
  constructor
  · have := h.exact (c.constantN28 : ℤ) (-28) (by
      rw [abs_of_nonneg (by positivity)]
      have : (c.constantN28 : ℤ) < 2^32 := by exact_mod_cast h32
      linarith) (by norm_num)
    have e : ((c.constantN28 : ℤ) : ℚ) * (2:ℚ)^(-28 : ℤ) = (c.constantN28 : ℚ) / 2^28 := by
      rw [zpow_neg, div_eq_mul_inv]; norm_cast
    rw [e] at this
    exact this
  · rw [div_le_iff₀ (by norm_num)]
    have : (c.constantN28 : ℚ) ≤ 2^32 := by exact_mod_cast h32.le
    linarith

theorem step_balance_fl (h : AccRounding fl) (c : CnvCfg) (hc : c.Valid) (cal : CalEmulator)
    (hcal : cal.adcCA.Valid)
    (hl : ∀ e ∈ c.lutOutInvEfficiencyN4, 16 ≤ e) (hst : c.enableStorage = true)
    (hmode : c.enableBoost = true ∨ c.rInputN22 = 0)
    {C dt : ℚ} (hC : 0 < C) (hdt : 0 < dt) (hconst : (c.constantN28 : ℚ) / 2^28 = dt / C)
    {s s' : CnvState} {x : CnvIn} {o : CnvOut} (hi : AccountInvFl fl c s) (hxv : fl x.v = x.v)
    (hstep : cnvStep fl c cal s x = .ok (s', o)) (h1 : 1 < o.vCap) :
    let iOut := (convAdcRawToNA fl cal.adcCA s.residue (min (2^18-1) (max 0 x.adc))).1
    let A := if s.startupN = 0 then s.vOut * iOut else 0
    let B := if s.startupN = 0 then s.vMid * c.iIntermediateLeak else 0
    1/2 * C * s'.vMid^2 + dt * A + dt * B ≤
      1/2 * C * s.vMid^2 + dt * (max 0 x.v * max 0 x.i) + 1/2 * C * (o.vCap - s.vMid)^2
        + 1/2^47 * (C * topVoltage c ^ 2 + dt * (max 0 x.v * max 0 x.i + A + B)) := by
  intro iOut A B
  have hR := h.toRounding
  have hb := step_vMid_bounds hR c hc cal hstep
  obtain ⟨sa, ra, sb, rb, ha, hbp, rfl, rfl⟩ := cnvStep_ok c cal s x hstep
  have hf := calcInpPower_frame c s x.v x.i ha
  have hma : sa.vMid = s.vMid := by
    have := hf.2.2.2.2.2.2.2.1
    rw [this, if_neg (by simp [hst])]
  have hva : sa.vOut = s.vOut := hf.2.2.1
  have hra : sa.residue = s.residue := hf.2.2.2.2.2.2.1
  have hna : sa.startupN = s.startupN := hf.2.1
  obtain ⟨u, hu⟩ : ∃ u : ℚ, u = 1/2^53 := ⟨_, rfl⟩
  obtain ⟨t, ht⟩ : ∃ t : ℚ, t = (2:ℚ)^(-1075 : ℤ) := ⟨_, rfl⟩
  have herr : ∀ x, |fl x - x| ≤ u * |x| + t := fun x => by
    have := h.err x
    rw [hu, ht]; rw [div_eq_mul_one_div, mul_comm] at this; exact this
  have hu0 : 0 < u := by rw [hu]; positivity
  have hu1 : u ≤ 1/1000 := by rw [hu]; norm_num
  have ht0 : 0 ≤ t := by rw [ht]; positivity
  have htu : t ≤ u / 1000 := by
    rw [ht, hu]
    have : (2:ℚ)^(-1075 : ℤ) ≤ (2:ℚ)^(-63 : ℤ) := zpow_le_zpow_right₀ (by norm_num) (by norm_num)
    refine le_trans this ?_
    norm_num
  have h48 : (1:ℚ)/2^48 = 32 * u := by rw [hu]; norm_num
  have h47 : (1:ℚ)/2^47 = 64 * u := by rw [hu]; norm_num
  have herr0 : ∀ y, 0 ≤ y → fl y ≤ (1 + u) * y + t ∧ (1 - u) * y - t ≤ fl y := fun y hy => by
    have e := abs_le.mp (herr y)
    rw [abs_of_nonneg hy] at e
    exact ⟨by linarith [e.2], by linarith [e.1]⟩
  obtain ⟨off, hoff⟩ : ∃ z, z = max 0 x.v * max 0 x.i := ⟨_, rfl⟩
  have hoff0 : 0 ≤ off := by rw [hoff]; exact mul_nonneg (le_max_left _ _) (le_max_left _ _)
  -- input
  have hin := C13_input_power_partial hR c hc s sa hi.vMid hi.vMidRep x.v x.i hxv ra ha
    (by rcases hmode with h | h
        · exact Or.inl h
        · exact Or.inr (Or.inr (Or.inr h)))
  -- output
  have hi0 : 0 ≤ iOut := (C18_bounds hR cal.adcCA hcal s.residue hi.res0 hi.res1
    (min (2^18-1) (max 0 x.adc)) (by omega)).1
  have hA0 : 0 ≤ A := by
    show (0:ℚ) ≤ (if _ then _ else _)
    split_ifs
    · exact mul_nonneg hi.vOut hi0
    · exact le_rfl
  have hB0 : 0 ≤ B := by
    show (0:ℚ) ≤ (if _ then _ else _)
    split_ifs
    · exact mul_nonneg hi.vMid (Nat.cast_nonneg _)
    · exact le_rfl
  have hout : fl (fl A + fl B) ≤ sb.pOut ∧ 0 ≤ sb.pOut := by
    by_cases hz : s.startupN = 0
    · have := C14_drain hR c hc cal hcal hl sa sb x.adc rb (by rw [hna]; exact hz)
        (by rw [hva]; exact hi.vOut) (by rw [hva]; exact hi.vOutRep)
        (by rw [hma]; exact hi.vMid) (by rw [hra]; exact hi.res0)
        (by rw [hra]; exact hi.res1) hbp
      simp only [hva, hma, hra] at this
      have eA : A = s.vOut * iOut := if_pos hz
      have eB : B = s.vMid * c.iIntermediateLeak := if_pos hz
      rw [eA, eB]
      exact ⟨this.1, this.2.2.1⟩
    · have eA : A = 0 := if_neg hz
      have eB : B = 0 := if_neg hz
      obtain ⟨eta, -, rfl, -⟩ := calcOutPower_eq c cal sa x.adc hbp
      have : sa.startupN > 0 := by rw [hna]; omega
      rw [eA, eB]
      simp [this, hR.zero]
  have hpi : sb.pInp = sa.pInp := by
    obtain ⟨eta, -, rfl, -⟩ := calcOutPower_eq c cal sa x.adc hbp; rfl
  have hmb : sb.vMid = s.vMid := by
    obtain ⟨eta, -, rfl, -⟩ := calcOutPower_eq c cal sa x.adc hbp; exact hma
  obtain ⟨hKe, hK16⟩ := capConstant_fl hR c hc
  have hcap : (updateCapStorage fl c sb).1.vMid =
      max (min (fl (s.vMid + fl (fl (fl (sb.pInp - sb.pOut) / max 1 s.vMid) * ((c.constantN28 : ℚ) / 2^28))))
        (c.vIntermediateMax : ℚ)) 1 := by
    rw [updateCapStorage_eq]
    simp only [hst, if_true, hmb, hKe]
  have htop1 : 1 ≤ topVoltage c := le_trans (le_max_left _ _) (le_max_left _ _)
  have hV2 : s.vMid * s.vMid ≤ topVoltage c ^ 2 := by
    rw [pow_two]; exact mul_self_le_mul_self hi.vMid hi.vMidTop
  have hV1 : s.vMid ≤ topVoltage c ^ 2 := by nlinarith [hi.vMidTop]
  obtain ⟨X, hX⟩ : ∃ X, X = C * topVoltage c ^ 2 := ⟨_, rfl⟩
  have hX1 : C ≤ X := by
    rw [hX]; exact le_mul_of_one_le_right hC.le (one_le_pow₀ htop1)
  have hX2 : C * s.vMid ≤ X := by rw [hX]; exact mul_le_mul_of_nonneg_left hV1 hC.le
  have hX3 : C * s.vMid * s.vMid ≤ X := by
    rw [hX, mul_assoc]; exact mul_le_mul_of_nonneg_left hV2 hC.le
  have hdtC : dt = C * ((c.constantN28 : ℚ) / 2^28) := by rw [hconst]; field_simp
  have hbal := cap_balance_fl h hC hdtC (by positivity) hK16 hi.vMid (by rw [hpi]; exact hin.1) hout.2
    hX1 hX2 hX3 hcap h1
  -- switching the output on only takes
  have hsw : (updateStatesAndOutput fl c cal (updateCapStorage fl c sb).1).1.vMid ≤
      (updateCapStorage fl c sb).1.vMid := by
    rw [us_vMid]
    split_ifs
    · have : (0:ℚ) ≤ c.dVEnableOutput := Nat.cast_nonneg _
      have := hR.mono (show (updateCapStorage fl c sb).1.vMid - c.dVEnableOutput ≤
        (updateCapStorage fl c sb).1.vMid by linarith)
      rwa [cap_rep hR c hc hst sb] at this
    · exact le_rfl
  have hsq : (updateStatesAndOutput fl c cal (updateCapStorage fl c sb).1).1.vMid^2 ≤
      (updateCapStorage fl c sb).1.vMid^2 := by
    have h0 := hb.2.2.1
    exact pow_le_pow_left₀ h0 hsw 2
  have e3 := mul_le_mul_of_nonneg_left hsq hC.le
  -- what the roundings of the two powers cost
  have hdtX : dt ≤ 16 * X := by
    rw [hdtC]
    have := mul_le_mul_of_nonneg_left hK16 hC.le
    linarith
  have hdtt : dt * t ≤ 16 * X * (u / 1000) :=
    mul_le_mul hdtX htu ht0 (by linarith)
  have hin' : sb.pInp ≤ (1 + u) * off + t := by
    rw [hpi]; refine le_trans hin.2.1 ?_; rw [← hoff]; exact (herr0 off hoff0).1
  have hsum : (A + B) - 2 * (u * (A + B)) - 3 * t ≤ sb.pOut := by
    refine le_trans ?_ hout.1
    have a1 := (herr0 A hA0).2
    have b1 := (herr0 B hB0).2
    have s0 : 0 ≤ fl A + fl B := add_nonneg (hR.nonneg hA0) (hR.nonneg hB0)
    have s1 := (herr0 _ s0).2
    have m1 : (1 - u) * ((1 - u) * A - t + ((1 - u) * B - t)) ≤ (1 - u) * (fl A + fl B) :=
      mul_le_mul_of_nonneg_left (by linarith) (by linarith)
    have m2 : 0 ≤ u * t := mul_nonneg hu0.le ht0
    have m3 : 0 ≤ u^2 * (A + B) := mul_nonneg (by positivity) (by linarith)
    linarith
  have e1 := mul_le_mul_of_nonneg_left hin' hdt.le
  have e2 := mul_le_mul_of_nonneg_left hsum hdt.le
  have e4 := mul_le_mul_of_nonneg_left e1 hu0.le
  have hdo : 0 ≤ dt * off := mul_nonneg hdt.le hoff0
  have hdo2 : 0 ≤ u * (dt * off) := mul_nonneg hu0.le hdo
  have e5 : u * (u * (dt * off)) ≤ 1/1000 * (u * (dt * off)) := mul_le_mul_of_nonneg_right hu1 hdo2
  have hdAB : 0 ≤ u * (dt * (A + B)) := mul_nonneg hu0.le (mul_nonneg hdt.le (by linarith))
  have hXu : 0 ≤ u * X := mul_nonneg hu0.le (by linarith)
  have e6 : u * (dt * t) ≤ 1/1000 * (u * X) := by
    have := mul_le_mul_of_nonneg_left hdtt hu0.le
    have h2 : u * (u * X) ≤ 1/1000 * (u * X) := mul_le_mul_of_nonneg_right hu1 hXu
    linarith
  rw [h48] at hbal
  rw [h47, ← hX, ← hoff]
  clear_value A B
  simp only at hbal ⊢
  linarith

/-! ## The run -/

theorem run_balance_fl (h : AccRounding fl) (c : CnvCfg) (hc : c.Valid) (cal : CalEmulator)
    (hcal : cal.adcCA.Valid)
    (hl : ∀ e ∈ c.lutOutInvEfficiencyN4, 16 ≤ e) (hst : c.enableStorage = true)
    (hmode : c.enableBoost = true ∨ c.rInputN22 = 0)
    {C dt : ℚ} (hC : 0 < C) (hdt : 0 < dt) (hconst : (c.constantN28 : ℚ) / 2^28 = dt / C) :
    ∀ (xs : List CnvIn) (s s' : CnvState) (os : List CnvOut), AccountInvFl fl c s →
      (∀ x ∈ xs, fl x.v = x.v) →
      cnvRun fl c cal s xs = .ok (s', os) → (∀ o ∈ os, 1 < o.vCap) →
      let a := account fl c cal s xs
      1/2 * C * s'.vMid^2 + dt * a.delivered + dt * a.leaked ≤
        1/2 * C * s.vMid^2 + dt * a.offered + 1/2 * C * a.jumps
          + 1/2^47 * (xs.length * (C * topVoltage c ^ 2) + dt * (a.offered + a.delivered + a.leaked))
  | [], s, s', os, _, _, h, _ => by
    injection h with h
    injection h with h1 _
    subst h1
    simp [account]
  | x :: xs, s, s', os, hi, hx, hrun, hf => by
    obtain ⟨s1, o, os1, ha, hb, rfl⟩ := cnvRun_cons c cal s x xs hrun
    have hs := step_balance_fl h c hc cal hcal hl hst hmode hC hdt hconst hi (hx x (by simp)) ha
      (hf o (by simp))
    have hr := run_balance_fl h c hc cal hcal hl hst hmode hC hdt hconst xs s1 s' os1
      (accountInvFl_step h.toRounding c hc cal hcal hst hi ha) (fun y hy => hx y (by simp [hy])) hb
      (fun o' ho' => hf o' (by simp [ho']))
    simp only [account, ha, List.length_cons, Nat.cast_add, Nat.cast_one]
    simp only at hs hr
    linarith

/-- **C103 in doubles.**  The balance of `C103_balance_partial` for a converter that computes in
floating point (`AccRounding`, met by binary64): off by at most 2⁻⁴⁷ of the energies that flowed and,
for every sample, of twice what the capacitor holds at the highest voltage of the run.  The voltages
of the recording are doubles.

Missing as there: the balance without ½·C·Σδ², and the balance for runs that collapse. -/
theorem C103_balance_double_partial (h : AccRounding fl) (c : CnvCfg) (hc : c.Valid) (cal : CalEmulator)
    (hcal : cal.adcCA.Valid)
    (hl : ∀ e ∈ c.lutOutInvEfficiencyN4, 16 ≤ e) (hst : c.enableStorage = true)
    (hmode : c.enableBoost = true ∨ c.rInputN22 = 0)
    (C dt : ℚ) (hC : 0 < C) (hdt : 0 < dt) (hconst : (c.constantN28 : ℚ) / 2^28 = dt / C)
    (xs : List CnvIn) (hxs : ∀ x ∈ xs, fl x.v = x.v) (s : CnvState) (os : List CnvOut)
    (hrun : cnvRun fl c cal (CnvState.init fl c cal) xs = .ok (s, os))
    (hfloor : ∀ o ∈ os, 1 < o.vCap) :
    let a := account fl c cal (CnvState.init fl c cal) xs
    let top := max (max 1 (c.vIntermediateMax : ℚ)) c.vIntermediateInit
    1/2 * C * s.vMid^2 + dt * a.delivered + dt * a.leaked ≤
      1/2 * C * (c.vIntermediateInit : ℚ)^2 + dt * a.offered + 1/2 * C * a.jumps
        + 1/2^47 * (xs.length * (C * top^2) + dt * (a.offered + a.delivered + a.leaked)) :=
  run_balance_fl h c hc cal hcal hl hst hmode hC hdt hconst xs _ s os
    ⟨Nat.cast_nonneg _, natCast_fl h.toRounding hc.vIntermediateInit, le_max_right _ _,
      Nat.cast_nonneg _, natCast_fl h.toRounding hc.vOutput, le_rfl, by simp [CnvState.init]⟩
    hxs hrun hfloor

/-- The demo converter in binary64. -/
example : AccRounding b64 ∧ demoCfg.Valid ∧ demoCal.adcCA.Valid ∧
    (∀ e ∈ demoCfg.lutOutInvEfficiencyN4, 16 ≤ e) ∧
    demoCfg.enableStorage = true ∧ demoCfg.enableBoost = true ∧ (∀ x ∈ demoSamples, b64 x.v = x.v) ∧
    (∃ s os, cnvRun b64 demoCfg demoCal (CnvState.init b64 demoCfg demoCal) demoSamples
        = .ok (s, os) ∧ ∀ o ∈ os, 1 < o.vCap) ∧
    0 < (account b64 demoCfg demoCal (CnvState.init b64 demoCfg demoCal) demoSamples).delivered := by
  refine ⟨b64_accRounding, demoCfg_valid, by decide +kernel, by decide, by decide, by decide,
    by decide +kernel, ?_, by decide +kernel⟩
  refine ⟨((cnvRun b64 demoCfg demoCal (CnvState.init b64 demoCfg demoCal) demoSamples).toOption.getD
      (CnvState.init b64 demoCfg demoCal, [])).1,
    ((cnvRun b64 demoCfg demoCal (CnvState.init b64 demoCfg demoCal) demoSamples).toOption.getD
      (CnvState.init b64 demoCfg demoCal, [])).2, by decide +kernel, by decide +kernel⟩

end Verif.Props
