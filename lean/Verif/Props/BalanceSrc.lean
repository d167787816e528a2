import Verif.Props.BalanceFl
import Verif.Props.Source

/-!
# C103 — the energy counters of the virtual source

The source adds up the powers it takes in (`W_inp_fWs`) and draws (`W_out_fWs`).  Here these numbers
are held against what the capacitor holds, for every source with a capacitor, whatever the harvester
in front of it and the converters on both sides do.
-/

namespace Verif.Props
open Verif.Py Verif.Model

variable {fl : ℚ → ℚ}

/-! ## Specification -/

/-- Voltage of the capacitor (`V_mid_uV`) after every call of `iterate_sampling`. -/
def storage (fl : ℚ → ℚ) (c : SrcCfg) : SrcState → List (Sample × ℚ) → List ℚ
  | _, [] => []
  | s, x :: xs =>
    match srcStep fl c s x.1 x.2 with
    | .error _ => []
    | .ok (s', _) => s'.cnv.vMid :: storage fl c s' xs

/-- Sum of the squared changes along a list of voltages that begins at `v`. -/
def sqJumps : ℚ → List ℚ → ℚ
  | _, [] => 0
  | v, w :: ws => (w - v)^2 + sqJumps w ws

/-! ## One sample -/

theorem src_step_balance (h : AccRounding fl) (c : CnvCfg) (hc : c.Valid) (cal : CalEmulator)
    (hcal : cal.adcCA.Valid) (hst : c.enableStorage = true)
    {C dt : ℚ} (hC : 0 < C) (hdt : 0 < dt) (hconst : (c.constantN28 : ℚ) / 2^28 = dt / C)
    {s s' : CnvState} {x : CnvIn} {o : CnvOut} (hi : AccountInvFl fl c s)
    (hstep : cnvStep fl c cal s x = .ok (s', o)) (h1 : 1 < s'.vMid) :
    1/2 * C * s'.vMid^2 + dt * o.pOut ≤
      1/2 * C * s.vMid^2 + dt * o.pInp + 1/2 * C * (s'.vMid - s.vMid)^2 + dt
        + 1/2^48 * (C * topVoltage c ^ 2 + dt * (o.pInp + 1)) := by
  have hR := h.toRounding
  have hb := step_vMid_bounds hR c hc cal hstep
  obtain ⟨sa, ra, sb, rb, ha, hbp, rfl, rfl⟩ := cnvStep_ok c cal s x hstep
  have hf := calcInpPower_frame c s x.v x.i ha
  have hma : sa.vMid = s.vMid := by
    have := hf.2.2.2.2.2.2.2.1
    rw [this, if_neg (by simp [hst])]
  have hva : sa.vOut = s.vOut := hf.2.2.1
  have hra : sa.residue = s.residue := hf.2.2.2.2.2.2.1
  have hin := inp_power_nonneg hR c hc s hi.vMid hi.vMidRep x.v x.i ha
  have hrae : ra = pyRound sa.pInp := hf.2.2.2.2.2.2.2.2
  have hout : 0 ≤ sb.pOut ∧ rb = pyRound sb.pOut := by
    obtain ⟨eta, he, rfl, hr'⟩ := calcOutPower_eq c cal sa x.adc hbp
    refine ⟨?_, hr'⟩
    have he0 : 0 ≤ eta := by
      cases hbk : c.enableBuck
      · rw [hbk] at he
        simp only [Bool.false_eq_true, if_false] at he
        injection he with he; rw [← he]; norm_num
      · rw [hbk] at he
        simp only [if_true] at he
        obtain ⟨y, -, hxe⟩ := eta_out_value hR c hc he
        rw [hxe]; positivity
    have hi' := (C18_bounds hR cal.adcCA hcal sa.residue (by rw [hra]; exact hi.res0)
      (by rw [hra]; exact hi.res1) (min (2^18-1) (max 0 x.adc)) (by omega)).1
    dsimp only
    split_ifs
    · exact le_rfl
    · refine hR.nonneg (add_nonneg (hR.nonneg (mul_nonneg (hR.nonneg (mul_nonneg he0 ?_)) hi'))
        (hR.nonneg (mul_nonneg (by rw [hma]; exact hi.vMid) (by positivity))))
      rw [hva]; exact hi.vOut
  have hpi : sb.pInp = sa.pInp := by
    obtain ⟨eta, -, rfl, -⟩ := calcOutPower_eq c cal sa x.adc hbp; rfl
  have hmb : sb.vMid = s.vMid := by
    obtain ⟨eta, -, rfl, -⟩ := calcOutPower_eq c cal sa x.adc hbp; exact hma
  obtain ⟨hKe, hK16⟩ := capConstant_fl hR c hc
  have hcap : (updateCapStorage fl c sb).1.vMid =
      max (min (fl (s.vMid + fl (fl (fl (sb.pInp - sb.pOut) / max 1 s.vMid) * ((c.constantN28 : ℚ) / 2^28))))
        (c.vIntermediateMax : ℚ)) 1 := by
    rw [updateCapStorage_eq]
    simp only [hst, if_true, hmb, hKe]
  have htop1 : 1 ≤ topVoltage c := le_trans (le_max_left _ _) (le_max_left _ _)
  have hV2 : s.vMid * s.vMid ≤ topVoltage c ^ 2 := by
    rw [pow_two]; exact mul_self_le_mul_self hi.vMid hi.vMidTop
  have hV1 : s.vMid ≤ topVoltage c ^ 2 := by nlinarith [hi.vMidTop]
  obtain ⟨X, hX⟩ : ∃ X, X = C * topVoltage c ^ 2 := ⟨_, rfl⟩
  have hX1 : C ≤ X := by
    rw [hX]; exact le_mul_of_one_le_right hC.le (one_le_pow₀ htop1)
  have hX2 : C * s.vMid ≤ X := by rw [hX]; exact mul_le_mul_of_nonneg_left hV1 hC.le
  have hX3 : C * s.vMid * s.vMid ≤ X := by
    rw [hX, mul_assoc]; exact mul_le_mul_of_nonneg_left hV2 hC.le
  have hdtC : dt = C * ((c.constantN28 : ℚ) / 2^28) := by rw [hconst]; field_simp
  -- switching the output on only takes
  have hsw : (updateStatesAndOutput fl c cal (updateCapStorage fl c sb).1).1.vMid ≤
      (updateCapStorage fl c sb).1.vMid := by
    rw [us_vMid]
    split_ifs
    · have : (0:ℚ) ≤ c.dVEnableOutput := Nat.cast_nonneg _
      have := hR.mono (show (updateCapStorage fl c sb).1.vMid - c.dVEnableOutput ≤
        (updateCapStorage fl c sb).1.vMid by linarith)
      rwa [cap_rep hR c hc hst sb] at this
    · exact le_rfl
  have hbal := cap_balance_fl h hC hdtC (by positivity) hK16 hi.vMid (by rw [hpi]; exact hin) hout.1
    hX1 hX2 hX3 hcap (lt_of_lt_of_le h1 hsw)
  have hri := abs_le.mp (abs_pyRound_sub_le sa.pInp)
  have hro := abs_le.mp (abs_pyRound_sub_le sb.pOut)
  rw [hpi] at hbal
  have e1 := mul_le_mul_of_nonneg_left hri.1 hdt.le
  have e2 := mul_le_mul_of_nonneg_left hro.2 hdt.le
  have e3 : C * s.vMid * (updateStatesAndOutput fl c cal (updateCapStorage fl c sb).1).1.vMid ≤
      C * s.vMid * (updateCapStorage fl c sb).1.vMid :=
    mul_le_mul_of_nonneg_left hsw (mul_nonneg hC.le hi.vMid)
  simp only
  rw [← hX, hrae, hout.2]
  generalize (updateStatesAndOutput fl c cal (updateCapStorage fl c sb).1).1.vMid = w at *
  generalize (updateCapStorage fl c sb).1.vMid = v at *
  have k1 : C * s.vMid * (v - s.vMid) ≤ dt * (sa.pInp - sb.pOut) + 1/2^48 * (X + dt * sa.pInp) := by
    linarith
  linarith

/-! ## The run -/

theorem src_run_balance (h : AccRounding fl) (c : SrcCfg) (hc : c.cnv.Valid) (hcal : c.cal.adcCA.Valid)
    (hst : c.cnv.enableStorage = true)
    {C dt : ℚ} (hC : 0 < C) (hdt : 0 < dt) (hconst : (c.cnv.constantN28 : ℚ) / 2^28 = dt / C) :
    ∀ (xs : List (Sample × ℚ)) (s s' : SrcState) (os : List SrcOut), AccountInvFl fl c.cnv s.cnv →
      srcRun fl c s xs = .ok (s', os) → (∀ v ∈ storage fl c s xs, 1 < v) →
      1/2 * C * s'.cnv.vMid^2 + dt * sumOut os ≤
        1/2 * C * s.cnv.vMid^2 + dt * sumInp os + 1/2 * C * sqJumps s.cnv.vMid (storage fl c s xs)
          + xs.length * dt
          + 1/2^48 * (xs.length * (C * topVoltage c.cnv ^ 2) + dt * (sumInp os + xs.length))
  | [], s, s', os, _, h, _ => by
    injection h with h
    injection h with h1 h2
    subst h1 h2
    simp [storage, sqJumps, sumInp, sumOut]
  | x :: xs, s, s', os, hi, hrun, hf => by
    obtain ⟨s1, o, os1, ha, hb, rfl⟩ := srcRun_cons c s x xs hrun
    obtain ⟨co, g1, -, -, -, rfl⟩ := srcStep_ok c s x.1 x.2 ha
    simp only [storage, ha] at hf ⊢
    have hs := src_step_balance h c.cnv hc c.cal hcal hst hC hdt hconst hi g1 (hf _ (by simp))
    have hr := src_run_balance h c hc hcal hst hC hdt hconst xs s1 s' os1
      (accountInvFl_step h.toRounding c.cnv hc c.cal hcal hst hi g1) hb
      (fun v hv => hf v (by simp [hv]))
    simp only [sqJumps, sumInp, sumOut, List.map_cons, List.sum_cons, List.length_cons, Nat.cast_add,
      Nat.cast_one, Int.cast_add] at hr ⊢
    linarith

/-- **C103, the powers reported.**  For every source with a capacitor, every calibration, and every
sequence of samples and load currents in which the capacitor does not collapse: what is stored at the
end and the powers reported as drawn are at most what was stored at the beginning, the powers
reported as taken in, ½·C·Σδ² for the changes of the capacitor's voltage, and the rounding: 1 fW per
sample for the powers, which are reported as integers, and 2⁻⁴⁸ of the energies for the doubles.

Missing as in `C103_balance_partial`: the balance without ½·C·Σδ², and for runs that collapse. -/
theorem C103_powers_partial (h : AccRounding fl) (c : SrcCfg) (hc : c.cnv.Valid)
    (hcal : c.cal.adcCA.Valid) (hst : c.cnv.enableStorage = true)
    (C dt : ℚ) (hC : 0 < C) (hdt : 0 < dt) (hconst : (c.cnv.constantN28 : ℚ) / 2^28 = dt / C)
    (xs : List (Sample × ℚ)) (s : SrcState) (os : List SrcOut)
    (hrun : srcRun fl c (SrcState.init fl c) xs = .ok (s, os))
    (hfloor : ∀ v ∈ storage fl c (SrcState.init fl c) xs, 1 < v) :
    let v0 : ℚ := c.cnv.vIntermediateInit
    let top := max (max 1 (c.cnv.vIntermediateMax : ℚ)) v0
    let n : ℚ := xs.length
    1/2 * C * s.cnv.vMid^2 + dt * sumOut os ≤
      1/2 * C * v0^2 + dt * sumInp os + 1/2 * C * sqJumps v0 (storage fl c (SrcState.init fl c) xs)
        + n * dt + 1/2^48 * (n * (C * top^2) + dt * (sumInp os + n)) := by
  intro v0 top n
  have hinv : AccountInvFl fl c.cnv (SrcState.init fl c).cnv :=
    ⟨Nat.cast_nonneg _, natCast_fl h.toRounding hc.vIntermediateInit, le_max_right _ _,
      Nat.cast_nonneg _, natCast_fl h.toRounding hc.vOutput, le_rfl, by simp [SrcState.init, CnvState.init]⟩
  have key := src_run_balance h c hc hcal hst hC hdt hconst xs _ s os hinv hrun hfloor
  have e : (SrcState.init fl c).cnv.vMid = v0 := rfl
  have e' : topVoltage c.cnv = top := rfl
  rw [e, e'] at key
  exact key

/-- **C103, the counters.**  The same for `W_inp_fWs` and `W_out_fWs`, as long as these count exactly
(`C24_counters_exact`). -/
theorem C103_counters_partial (h : AccRounding fl) (c : SrcCfg) (hc : c.cnv.Valid)
    (hcal : c.cal.adcCA.Valid) (hst : c.cnv.enableStorage = true)
    (C dt : ℚ) (hC : 0 < C) (hdt : 0 < dt) (hconst : (c.cnv.constantN28 : ℚ) / 2^28 = dt / C)
    (xs : List (Sample × ℚ)) (s : SrcState) (os : List SrcOut)
    (hrun : srcRun fl c (SrcState.init fl c) xs = .ok (s, os))
    (hfloor : ∀ v ∈ storage fl c (SrcState.init fl c) xs, 1 < v)
    (hwi : sumInp os ≤ 2^53) (hwo : sumOut os ≤ 2^53) :
    let v0 : ℚ := c.cnv.vIntermediateInit
    let top := max (max 1 (c.cnv.vIntermediateMax : ℚ)) v0
    let n : ℚ := xs.length
    1/2 * C * s.cnv.vMid^2 + dt * s.wOut ≤
      1/2 * C * v0^2 + dt * s.wInp + 1/2 * C * sqJumps v0 (storage fl c (SrcState.init fl c) xs)
        + n * dt + 1/2^48 * (n * (C * top^2) + dt * (s.wInp + n)) := by
  obtain ⟨e1, e2⟩ := C24_counters_exact h.toRounding c hc hcal xs s os hrun
  rw [e1 hwi, e2 hwo]
  exact C103_powers_partial h c hc hcal hst C dt hC hdt hconst xs s os hrun hfloor

/-- The demo source with its load, in binary64: 40 samples, the capacitor stays up, both counters
move and count exactly. -/
example : AccRounding b64 ∧ demoSrc.cnv.Valid ∧ demoSrc.cal.adcCA.Valid ∧ demoSrc.cnv.enableStorage = true ∧
    (∀ v ∈ storage b64 demoSrc (SrcState.init b64 demoSrc) (demoLoad 40), 1 < v) ∧
    (∃ s os, srcRun b64 demoSrc (SrcState.init b64 demoSrc) (demoLoad 40) = .ok (s, os) ∧
      sumInp os ≤ 2^53 ∧ sumOut os ≤ 2^53 ∧ 0 < s.wInp ∧ 0 < s.wOut) := by
  refine ⟨b64_accRounding, demoCfg_valid, by decide +kernel, by decide, by decide +kernel, ?_⟩
  refine ⟨((srcRun b64 demoSrc (SrcState.init b64 demoSrc) (demoLoad 40)).toOption.getD
      (SrcState.init b64 demoSrc, [])).1,
    ((srcRun b64 demoSrc (SrcState.init b64 demoSrc) (demoLoad 40)).toOption.getD
      (SrcState.init b64 demoSrc, [])).2, by decide +kernel⟩

end Verif.Props
