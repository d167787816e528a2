import Verif.Props.Converter

/-!
# C103 — the energy balance of a whole run of the virtual converter

A converter with a storage capacitor is an account: the harvester pays in, the target and the
leakage draw, the capacitor holds ½·C·V².  `C16_energy` speaks about one step of the capacitor; here
the account is kept over runs of any length, in exact arithmetic (`exact`), with everything the
sample does in between: diode, boost and its efficiency table, output table, limits, the drop of
voltage when the output is switched on.

Voltages are in µV, currents in nA, powers in fW; `C` and `dt` are such that the configured constant
is `dt / C`.
-/

namespace Verif.Props
open Verif.Py Verif.Model

/-! ## Specification -/

/-- What a run paid in and drew, as powers summed over the samples. -/
structure Account where
  /-- `Σ V·I` of the recording, negative readings counted as 0. -/
  offered : ℚ
  /-- `Σ V·I` at the target, from the end of the start-up on. -/
  delivered : ℚ
  /-- `Σ V·I_leak` of the capacitor, from the end of the start-up on. -/
  leaked : ℚ
  /-- `Σ δ²` over the changes `δ` of the capacitor's voltage. -/
  jumps : ℚ

/-- The account of the samples `xs`, for a converter in state `s`: of every sample, what the
recording offers, what the target takes at the voltage it was given, and how far the capacitor
moved.  `fl` is the arithmetic of the converter; the sums themselves are exact. -/
def account (fl : ℚ → ℚ) (c : CnvCfg) (cal : CalEmulator) : CnvState → List CnvIn → Account
  | _, [] => ⟨0, 0, 0, 0⟩
  | s, x :: xs =>
    match cnvStep fl c cal s x with
    | .error _ => ⟨0, 0, 0, 0⟩
    | .ok (s', o) =>
      let a := account fl c cal s' xs
      let iOut := (convAdcRawToNA fl cal.adcCA s.residue (min (2^18-1) (max 0 x.adc))).1
      { offered := max 0 x.v * max 0 x.i + a.offered
        delivered := (if s.startupN = 0 then s.vOut * iOut else 0) + a.delivered
        leaked := (if s.startupN = 0 then s.vMid * c.iIntermediateLeak else 0) + a.leaked
        jumps := (o.vCap - s.vMid)^2 + a.jumps }

/-! ## One sample -/

/-- What the induction carries along: the facts of `C08`, `C14` and `C18` on reachable states. -/
structure AccountInv (s : CnvState) : Prop where
  vMid : 0 ≤ s.vMid
  vOut : 0 ≤ s.vOut
  res0 : 0 ≤ s.residue
  res1 : s.residue ≤ 60000

theorem accountInv_step (c : CnvCfg) (hc : c.Valid) (cal : CalEmulator) (hcal : cal.adcCA.Valid)
    {s s' : CnvState} {x : CnvIn} {o : CnvOut} (hi : AccountInv s)
    (hstep : cnvStep exact c cal s x = .ok (s', o)) : AccountInv s' := by
  have hm := (step_vMid_bounds Rounding.id c hc cal hstep).2.2.1
  obtain ⟨sa, ra, sb, rb, ha, hb, rfl, -⟩ := cnvStep_ok c cal s x hstep
  have hvo := us_vOut (fl := exact) c cal (updateCapStorage exact c sb).1
  simp only at hvo
  have hf := calcInpPower_frame c s x.v x.i ha
  have hres : sa.residue = s.residue := hf.2.2.2.2.2.2.1
  have hb18 := C18_bounds Rounding.id cal.adcCA hcal sa.residue (by rw [hres]; exact hi.res0)
    (by rw [hres]; exact hi.res1) (min (2^18-1) (max 0 x.adc)) (by omega)
  have hrb : sb.residue = (convAdcRawToNA exact cal.adcCA sa.residue
      (min (2^18-1) (max 0 x.adc))).2 := by
    obtain ⟨eta, -, rfl, -⟩ := calcOutPower_eq c cal sa x.adc hb; rfl
  refine ⟨hm, ?_, ?_, ?_⟩
  · rw [hvo]
    split_ifs with h1 h2 h3
    · exact Rounding.id.nonneg (by linarith)
    · exact le_rfl
    · exact Nat.cast_nonneg _
    · exact le_rfl
  · rw [(us_frame c cal _).2.2.2.1, updateCapStorage_eq]
    show 0 ≤ sb.residue
    rw [hrb]; exact hb18.2.1
  · rw [(us_frame c cal _).2.2.2.1, updateCapStorage_eq]
    show sb.residue ≤ 60000
    rw [hrb]; exact hb18.2.2

/-- The capacitor: whatever limit applies, as long as it does not fall to the lowest voltage. -/
theorem cap_balance {V P K M C dt : ℚ} (hC : 0 < C) (hK : K = dt / C) (hdt : 0 < dt) (hV : 0 ≤ V)
    {v : ℚ} (hv : v = max (min (V + P / max 1 V * K) M) 1) (h1 : 1 < v) :
    1/2 * C * v^2 ≤ 1/2 * C * V^2 + dt * P + 1/2 * C * (v - V)^2 := by
  have hmx : 0 < max 1 V := lt_of_lt_of_le one_pos (le_max_left _ _)
  have hv1 : v = min (V + P / max 1 V * K) M := by
    rcases le_total (min (V + P / max 1 V * K) M) 1 with h | h
    · rw [max_eq_right h] at hv; linarith
    · rw [max_eq_left h] at hv; exact hv
  have hle : v - V ≤ P / max 1 V * K := by
    have := min_le_left (V + P / max 1 V * K) M
    linarith
  -- the charge moved, valued at the old voltage, is at most the net energy
  have hmain : C * V * (P / max 1 V * K) ≤ dt * P := by
    have e : C * V * (P / max 1 V * K) = dt * P * (V / max 1 V) := by
      rw [hK]; field_simp
    rw [e]
    rcases le_total 1 V with hV1 | hV1
    · rw [max_eq_right hV1, div_self (by linarith), mul_one]
    · rw [max_eq_left hV1, div_one]
      have hP : 0 ≤ P := by
        by_contra hn; push Not at hn
        have hKpos : 0 < K := by rw [hK]; positivity
        have : P / max 1 V * K ≤ 0 :=
          mul_nonpos_of_nonpos_of_nonneg (div_nonpos_of_nonpos_of_nonneg hn.le hmx.le) hKpos.le
        linarith
      nlinarith [mul_nonneg hdt.le hP]
  have : C * V * (v - V) ≤ C * V * (P / max 1 V * K) :=
    mul_le_mul_of_nonneg_left hle (mul_nonneg hC.le hV)
  nlinarith

theorem step_balance (c : CnvCfg) (hc : c.Valid) (cal : CalEmulator) (hcal : cal.adcCA.Valid)
    (hl : ∀ e ∈ c.lutOutInvEfficiencyN4, 16 ≤ e) (hst : c.enableStorage = true)
    (hmode : c.enableBoost = true ∨ c.rInputN22 = 0)
    {C dt : ℚ} (hC : 0 < C) (hdt : 0 < dt) (hconst : (c.constantN28 : ℚ) / 2^28 = dt / C)
    {s s' : CnvState} {x : CnvIn} {o : CnvOut} (hi : AccountInv s)
    (hstep : cnvStep exact c cal s x = .ok (s', o)) (h1 : 1 < o.vCap) :
    let iOut := (convAdcRawToNA exact cal.adcCA s.residue (min (2^18-1) (max 0 x.adc))).1
    1/2 * C * s'.vMid^2 + dt * (if s.startupN = 0 then s.vOut * iOut else 0)
        + dt * (if s.startupN = 0 then s.vMid * c.iIntermediateLeak else 0) ≤
      1/2 * C * s.vMid^2 + dt * (max 0 x.v * max 0 x.i) + 1/2 * C * (o.vCap - s.vMid)^2 := by
  intro iOut
  have hb := step_vMid_bounds Rounding.id c hc cal hstep
  obtain ⟨sa, ra, sb, rb, ha, hbp, rfl, rfl⟩ := cnvStep_ok c cal s x hstep
  have hf := calcInpPower_frame c s x.v x.i ha
  have hma : sa.vMid = s.vMid := by
    have := hf.2.2.2.2.2.2.2.1
    rw [this, if_neg (by simp [hst])]
  have hva : sa.vOut = s.vOut := hf.2.2.1
  have hra : sa.residue = s.residue := hf.2.2.2.2.2.2.1
  have hna : sa.startupN = s.startupN := hf.2.1
  -- input
  have hin := (C13_input_power_partial Rounding.id c hc s sa hi.vMid rfl x.v x.i rfl ra ha
    (by rcases hmode with h | h
        · exact Or.inl h
        · exact Or.inr (Or.inr (Or.inr h)))).2.1
  -- output
  have hout : (if s.startupN = 0 then s.vOut * iOut else 0)
      + (if s.startupN = 0 then s.vMid * c.iIntermediateLeak else 0) ≤ sb.pOut := by
    by_cases hz : s.startupN = 0
    · have := (C14_drain Rounding.id c hc cal hcal hl sa sb x.adc rb (by rw [hna]; exact hz)
        (by rw [hva]; exact hi.vOut) rfl (by rw [hma]; exact hi.vMid) (by rw [hra]; exact hi.res0)
        (by rw [hra]; exact hi.res1) hbp).1
      rw [hva, hma, hra] at this
      rw [if_pos hz, if_pos hz]
      exact this
    · obtain ⟨eta, -, rfl, -⟩ := calcOutPower_eq c cal sa x.adc hbp
      have : sa.startupN > 0 := by rw [hna]; omega
      rw [if_neg hz, if_neg hz]
      simp [this]
  have hpi : sb.pInp = sa.pInp := by
    obtain ⟨eta, -, rfl, -⟩ := calcOutPower_eq c cal sa x.adc hbp; rfl
  have hmb : sb.vMid = s.vMid := by
    obtain ⟨eta, -, rfl, -⟩ := calcOutPower_eq c cal sa x.adc hbp; exact hma
  have hcap : (updateCapStorage exact c sb).1.vMid =
      max (min (s.vMid + (sb.pInp - sb.pOut) / max 1 s.vMid * ((c.constantN28 : ℚ) / 2^28))
        (c.vIntermediateMax : ℚ)) 1 := by
    rw [updateCapStorage_eq]
    simp only [hst, if_true, hmb]
    rfl
  have hbal := cap_balance hC hconst hdt hi.vMid hcap h1
  -- switching the output on only takes
  have hsw : (updateStatesAndOutput exact c cal (updateCapStorage exact c sb).1).1.vMid ≤
      (updateCapStorage exact c sb).1.vMid := by
    rw [us_vMid]
    split_ifs
    · have : (0:ℚ) ≤ c.dVEnableOutput := Nat.cast_nonneg _
      show _ - _ ≤ _
      linarith
    · exact le_rfl
  have hsq : (updateStatesAndOutput exact c cal (updateCapStorage exact c sb).1).1.vMid^2 ≤
      (updateCapStorage exact c sb).1.vMid^2 := by
    have h0 := hb.2.2.1
    exact pow_le_pow_left₀ h0 hsw 2
  have hin' : sb.pInp ≤ max 0 x.v * max 0 x.i := by rw [hpi]; exact hin
  have e1 := mul_le_mul_of_nonneg_left hin' hdt.le
  have e2 := mul_le_mul_of_nonneg_left hout hdt.le
  have e3 := mul_le_mul_of_nonneg_left hsq hC.le
  simp only at hbal ⊢
  nlinarith

/-! ## The run -/

theorem run_balance (c : CnvCfg) (hc : c.Valid) (cal : CalEmulator) (hcal : cal.adcCA.Valid)
    (hl : ∀ e ∈ c.lutOutInvEfficiencyN4, 16 ≤ e) (hst : c.enableStorage = true)
    (hmode : c.enableBoost = true ∨ c.rInputN22 = 0)
    {C dt : ℚ} (hC : 0 < C) (hdt : 0 < dt) (hconst : (c.constantN28 : ℚ) / 2^28 = dt / C) :
    ∀ (xs : List CnvIn) (s s' : CnvState) (os : List CnvOut), AccountInv s →
      cnvRun exact c cal s xs = .ok (s', os) → (∀ o ∈ os, 1 < o.vCap) →
      1/2 * C * s'.vMid^2 + dt * (account exact c cal s xs).delivered + dt * (account exact c cal s xs).leaked ≤
        1/2 * C * s.vMid^2 + dt * (account exact c cal s xs).offered
          + 1/2 * C * (account exact c cal s xs).jumps
  | [], s, s', os, _, h, _ => by
    injection h with h
    injection h with h1 _
    subst h1
    simp [account]
  | x :: xs, s, s', os, hi, h, hf => by
    obtain ⟨s1, o, os1, ha, hb, rfl⟩ := cnvRun_cons c cal s x xs h
    have hs := step_balance c hc cal hcal hl hst hmode hC hdt hconst hi ha (hf o (by simp))
    have hr := run_balance c hc cal hcal hl hst hmode hC hdt hconst xs s1 s' os1
      (accountInv_step c hc cal hcal hi ha) hb (fun o' ho' => hf o' (by simp [ho']))
    simp only [account, ha]
    simp only at hs
    linarith

/-- **C103.**  For every configuration with a storage capacitor (with a boost converter, or without
a resistor at the input), every calibration and every sequence of samples, as long as the capacitor
does not collapse to the lowest voltage: what is stored at the end, what the target took and what
leaked is at most what was stored at the beginning, what the recording offered, and ½·C·Σδ² for
the changes δ of the capacitor's voltage from sample to sample.

Missing, and false (see below): the balance without ½·C·Σδ², and the balance for runs that collapse.
Exact arithmetic; the start-up samples draw nothing (`C12`). -/
theorem C103_balance_partial (c : CnvCfg) (hc : c.Valid) (cal : CalEmulator) (hcal : cal.adcCA.Valid)
    (hl : ∀ e ∈ c.lutOutInvEfficiencyN4, 16 ≤ e) (hst : c.enableStorage = true)
    (hmode : c.enableBoost = true ∨ c.rInputN22 = 0)
    (C dt : ℚ) (hC : 0 < C) (hdt : 0 < dt) (hconst : (c.constantN28 : ℚ) / 2^28 = dt / C)
    (xs : List CnvIn) (s : CnvState) (os : List CnvOut)
    (hrun : cnvRun exact c cal (CnvState.init exact c cal) xs = .ok (s, os))
    (hfloor : ∀ o ∈ os, 1 < o.vCap) :
    let a := account exact c cal (CnvState.init exact c cal) xs
    1/2 * C * s.vMid^2 + dt * a.delivered + dt * a.leaked ≤
      1/2 * C * (c.vIntermediateInit : ℚ)^2 + dt * a.offered + 1/2 * C * a.jumps :=
  run_balance c hc cal hcal hl hst hmode hC hdt hconst xs _ s os
    ⟨Nat.cast_nonneg _, Nat.cast_nonneg _, le_rfl, by simp [CnvState.init]⟩ hrun hfloor

/-- The demo converter: start-up, boost, a capacitor that stays up for all four samples; the target
takes something. -/
example : demoCfg.Valid ∧ demoCal.adcCA.Valid ∧ (∀ e ∈ demoCfg.lutOutInvEfficiencyN4, 16 ≤ e) ∧
    demoCfg.enableStorage = true ∧ demoCfg.enableBoost = true ∧
    (∃ s os, cnvRun exact demoCfg demoCal (CnvState.init exact demoCfg demoCal) demoSamples
        = .ok (s, os) ∧ ∀ o ∈ os, 1 < o.vCap) ∧
    0 < (account exact demoCfg demoCal (CnvState.init exact demoCfg demoCal) demoSamples).delivered := by
  refine ⟨demoCfg_valid, by decide +kernel, by decide, by decide, by decide,
    ?_, by decide +kernel⟩
  refine ⟨((cnvRun exact demoCfg demoCal (CnvState.init exact demoCfg demoCal) demoSamples).toOption.getD
      (CnvState.init exact demoCfg demoCal, [])).1,
    ((cnvRun exact demoCfg demoCal (CnvState.init exact demoCfg demoCal) demoSamples).toOption.getD
      (CnvState.init exact demoCfg demoCal, [])).2, by decide +kernel, by decide +kernel⟩

/-! ## What the balance cannot do without -/

/-- A capacitor (10 nF at 10 µs per sample) directly between source and target: no boost, no buck,
no losses, thresholds checked in every sample. -/
def cycleCfg : CnvCfg := { demoCfg with
  converterMode := 0b0001
  intervalStartupDelayDrainN := 0
  constantN28 := 2^28
  vIntermediateInit := 1000000
  iIntermediateLeak := 0
  vEnableOutputThreshold := 0
  vDisableOutputThreshold := 0
  dVEnableOutput := 0
  intervalCheckThresholdsN := 1
  vIntermediateMax := 4200000
  vOutput := 1000000 }

theorem cycleCfg_valid : cycleCfg.Valid := by
  constructor <;> decide

/-- An ideal calibration, 1 µA per count. -/
def cycleCal : CalEmulator := { demoCal with adcCA := ⟨1/1000000, 0⟩ }

/-- 1 mA from a source of 1 V into the capacitor, then 1 mA out of it. -/
def cycleSamples : List CnvIn := [⟨1000000, 1000000, 0⟩, ⟨0, 0, 1000⟩]

/-- `n` times `xs`. -/
def times (xs : List CnvIn) : ℕ → List CnvIn
  | 0 => []
  | n + 1 => xs ++ times xs n

/-- Where a converter is after a list of samples. -/
def cycleAfter (s : CnvState) (xs : List CnvIn) : CnvState :=
  ((cnvRun exact cycleCfg cycleCal s xs).toOption.getD (s, [])).1

/-- The converter before its first cycle, and after one. -/
def cycle0 : CnvState := CnvState.init exact cycleCfg cycleCal
def cycle1 : CnvState := cycleAfter cycle0 cycleSamples

theorem cycle_first : ∃ s oa ob, cnvStep exact cycleCfg cycleCal cycle0 ⟨1000000, 1000000, 0⟩ = .ok (s, oa) ∧
    cnvStep exact cycleCfg cycleCal s ⟨0, 0, 1000⟩ = .ok (cycle1, ob) ∧ 1 < oa.vCap ∧ 1 < ob.vCap ∧
    s.vOut = 2000000 ∧ s.startupN = 0 ∧ s.residue = 0 := by
  refine ⟨cycleAfter cycle0 [⟨1000000, 1000000, 0⟩], ?_⟩
  refine ⟨((cnvStep exact cycleCfg cycleCal cycle0 ⟨1000000, 1000000, 0⟩).toOption.getD
    (cycle0, ⟨0, 0, 0, 0, 0⟩)).2, ((cnvStep exact cycleCfg cycleCal
      (cycleAfter cycle0 [⟨1000000, 1000000, 0⟩]) ⟨0, 0, 1000⟩).toOption.getD (cycle0, ⟨0, 0, 0, 0, 0⟩)).2, ?_⟩
  decide +kernel

theorem cycle_next : ∃ s oa ob, cnvStep exact cycleCfg cycleCal cycle1 ⟨1000000, 1000000, 0⟩ = .ok (s, oa) ∧
    cnvStep exact cycleCfg cycleCal s ⟨0, 0, 1000⟩ = .ok (cycle1, ob) ∧ 1 < oa.vCap ∧ 1 < ob.vCap ∧
    s.vOut = 2000000 ∧ s.startupN = 0 ∧ s.residue = 0 := by
  refine ⟨cycleAfter cycle1 [⟨1000000, 1000000, 0⟩], ?_⟩
  refine ⟨((cnvStep exact cycleCfg cycleCal cycle1 ⟨1000000, 1000000, 0⟩).toOption.getD
    (cycle0, ⟨0, 0, 0, 0, 0⟩)).2, ((cnvStep exact cycleCfg cycleCal
      (cycleAfter cycle1 [⟨1000000, 1000000, 0⟩]) ⟨0, 0, 1000⟩).toOption.getD (cycle0, ⟨0, 0, 0, 0, 0⟩)).2, ?_⟩
  decide +kernel

/-- One cycle in front of a run. -/
theorem cycle_cons {s0 s1 s2 : CnvState} {oa ob : CnvOut} {xs : List CnvIn} {os : List CnvOut}
    {s : CnvState} (hz : s0.startupN = 0)
    (hi0 : (convAdcRawToNA exact cycleCal.adcCA s0.residue (min (2^18-1) (max 0 0))).1 = 0)
    (h1 : cnvStep exact cycleCfg cycleCal s0 ⟨1000000, 1000000, 0⟩ = .ok (s1, oa))
    (h2 : cnvStep exact cycleCfg cycleCal s1 ⟨0, 0, 1000⟩ = .ok (s2, ob))
    (hv : s1.vOut = 2000000) (hs : s1.startupN = 0) (hr : s1.residue = 0)
    (hrun : cnvRun exact cycleCfg cycleCal s2 xs = .ok (s, os)) :
    cnvRun exact cycleCfg cycleCal s0 (cycleSamples ++ xs) = .ok (s, oa :: ob :: os) ∧
    (account exact cycleCfg cycleCal s0 (cycleSamples ++ xs)).offered
      = 10^12 + (account exact cycleCfg cycleCal s2 xs).offered ∧
    (account exact cycleCfg cycleCal s0 (cycleSamples ++ xs)).delivered
      = 2 * 10^12 + (account exact cycleCfg cycleCal s2 xs).delivered := by
  have hi : (convAdcRawToNA exact cycleCal.adcCA 0 (min (2^18-1) (max 0 1000))).1 = 1000000 := by
    decide +kernel
  refine ⟨?_, ?_, ?_⟩
  · simp [cycleSamples, cnvRun, h1, h2, hrun, bind, Except.bind, pure, Except.pure]
  · simp [cycleSamples, account, h1, h2]; norm_num
  · simp only [cycleSamples, List.cons_append, List.nil_append, account, h1, h2]
    rw [if_pos hz, if_pos hs, hr, hi, hv, hi0]
    norm_num

theorem cycle1_run : ∀ n : ℕ, ∃ os,
    cnvRun exact cycleCfg cycleCal cycle1 (times cycleSamples n) = .ok (cycle1, os) ∧
    (∀ o ∈ os, 1 < o.vCap) ∧
    (account exact cycleCfg cycleCal cycle1 (times cycleSamples n)).offered = n * 10^12 ∧
    (account exact cycleCfg cycleCal cycle1 (times cycleSamples n)).delivered = 2 * (n * 10^12)
  | 0 => ⟨[], rfl, by simp, by simp [times, account], by simp [times, account]⟩
  | n + 1 => by
    obtain ⟨os, hr, hf, ho, hd⟩ := cycle1_run n
    obtain ⟨s, oa, ob, h1, h2, ca, cb, hv, hs, hre⟩ := cycle_next
    obtain ⟨e1, e2, e3⟩ := cycle_cons (xs := times cycleSamples n) (by decide +kernel)
      (by decide +kernel) h1 h2 hv hs hre hr
    refine ⟨oa :: ob :: os, e1, ?_, ?_, ?_⟩
    · simp only [List.mem_cons]
      rintro o (rfl | rfl | h)
      · exact ca
      · exact cb
      · exact hf o h
    · simp only [times]; rw [e2, ho]; push_cast; ring
    · simp only [times]; rw [e3, hd]; push_cast; ring

/-- **C103, what fails: the balance without ½·C·Σδ².**  A lossless converter whose capacitor is
charged by one sample and discharged by the next gives the target twice what the recording offers,
in every cycle: after `n` cycles the capacitor is where it was, `n` units were offered and `2·n`
delivered.  The surplus has no bound. -/
theorem C103_cycle_violated : ∀ n : ℕ, ∃ s os,
    cnvRun exact cycleCfg cycleCal (CnvState.init exact cycleCfg cycleCal)
      (times cycleSamples (n + 1)) = .ok (s, os) ∧
    (∀ o ∈ os, 1 < o.vCap) ∧ s.vMid = cycleCfg.vIntermediateInit ∧
    (account exact cycleCfg cycleCal (CnvState.init exact cycleCfg cycleCal)
      (times cycleSamples (n + 1))).offered = (n + 1) * 10^12 ∧
    (account exact cycleCfg cycleCal (CnvState.init exact cycleCfg cycleCal)
      (times cycleSamples (n + 1))).delivered = 2 * ((n + 1) * 10^12) := by
  intro n
  obtain ⟨os, hr, hf, ho, hd⟩ := cycle1_run n
  obtain ⟨s, oa, ob, h1, h2, ca, cb, hv, hs, hre⟩ := cycle_first
  obtain ⟨e1, e2, e3⟩ := cycle_cons (xs := times cycleSamples n) (by decide +kernel)
    (by decide +kernel) h1 h2 hv hs hre hr
  refine ⟨cycle1, oa :: ob :: os, e1, ?_, by decide +kernel, ?_, ?_⟩
  · simp only [List.mem_cons]
    rintro o (rfl | rfl | h)
    · exact ca
    · exact cb
    · exact hf o h
  · show (account exact cycleCfg cycleCal cycle0 (cycleSamples ++ times cycleSamples n)).offered = _
    rw [e2, ho]; ring
  · show (account exact cycleCfg cycleCal cycle0 (cycleSamples ++ times cycleSamples n)).delivered = _
    rw [e3, hd]; ring

/-- **C103, what fails: the balance of a run that collapses.**  The same converter without any
input, asked for 100 mA: one sample delivers two hundred times what the capacitor held, and more
than all terms of the balance together. -/
theorem C103_collapse_violated : ∃ (c : CnvCfg) (cal : CalEmulator) (x : CnvIn) (s : CnvState)
    (os : List CnvOut), c.Valid ∧ cal.adcCA.Valid ∧ c.enableStorage = true ∧ c.rInputN22 = 0 ∧
    cnvRun exact c cal (CnvState.init exact c cal) [x] = .ok (s, os) ∧ x.v = 0 ∧ x.i = 0 ∧
    ∀ C dt : ℚ, 0 < C → 0 < dt → (c.constantN28 : ℚ) / 2^28 = dt / C →
      let a := account exact c cal (CnvState.init exact c cal) [x]
      dt * a.delivered = 200 * (1/2 * C * (c.vIntermediateInit : ℚ)^2) ∧
      1/2 * C * (c.vIntermediateInit : ℚ)^2 + dt * a.offered + 1/2 * C * a.jumps
        < dt * a.delivered := by
  refine ⟨cycleCfg, cycleCal, ⟨0, 0, 100000⟩, cycleAfter cycle0 [⟨0, 0, 100000⟩],
    ((cnvRun exact cycleCfg cycleCal cycle0 [⟨0, 0, 100000⟩]).toOption.getD (cycle0, [])).2,
    cycleCfg_valid, by decide +kernel, by decide, by decide, by decide +kernel, rfl, rfl, ?_⟩
  intro C dt hC hdt hk
  have hk1 : ((cycleCfg.constantN28 : ℕ) : ℚ) / 2^28 = 1 := by decide +kernel
  rw [hk1] at hk
  have hCd : dt = C := by
    have := (eq_div_iff hC.ne').mp hk
    linarith
  have h1 : (account exact cycleCfg cycleCal (CnvState.init exact cycleCfg cycleCal)
      [⟨0, 0, 100000⟩]).delivered = 10^14 := by decide +kernel
  have h2 : (account exact cycleCfg cycleCal (CnvState.init exact cycleCfg cycleCal)
      [⟨0, 0, 100000⟩]).offered = 0 := by decide +kernel
  have h3 : (account exact cycleCfg cycleCal (CnvState.init exact cycleCfg cycleCal)
      [⟨0, 0, 100000⟩]).jumps ≤ 10^12 := by decide +kernel
  have h4 : ((cycleCfg.vIntermediateInit : ℕ) : ℚ) = 10^6 := by decide +kernel
  intro a
  simp only [a, h1, h2, h4, hCd]
  constructor
  · ring
  · nlinarith [mul_le_mul_of_nonneg_left h3 hC.le]

end Verif.Props
