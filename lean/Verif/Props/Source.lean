import Verif.Lemmas.Source
import Verif.Props.Converter
import Verif.Props.Harvester

/-!
# C24, C25 — the virtual source, its targets and the simulations
-/

namespace Verif.Props
open Verif.Py Verif.Model

variable {fl : ℚ → ℚ}

/-- A source used in the examples: optimal tracking in front of the boost-buck converter. -/
def demoSrc : SrcCfg where
  hrv := demoHrv (2^14) 7
  cnv := demoCfg
  cal := demoCal

/-- Ivcurves with a load of 2 mA. -/
def demoLoad (n : ℕ) : List (Sample × ℚ) := (demoCurves 5 n).map fun x => (x.toSample, 2000000)

/-! ## C24 the source is the harvester feeding the converter -/

/-- C24: along every run from a fresh source, the harvester is a fresh harvester fed with the source samples
and the converter is a fresh converter fed with the points the harvester returned and the raw ADC
values of the target currents.  So everything proved about runs of the harvester (C19–C23) and of the converter
(C08–C18) holds inside the source. The returned voltage is the intermediate one
if that is to be logged, else the output voltage. -/
theorem C24_composition (c : SrcCfg) (xs : List (Sample × ℚ)) (s : SrcState) (os : List SrcOut)
    (hrun : srcRun fl c (SrcState.init fl c) xs = .ok (s, os)) :
    ∃ (hin : List HrvIn) (co : List CnvOut),
      samples hin = xs.map Prod.fst ∧
      hrvRun fl c.hrv (HrvState.init c.hrv) hin = (s.hrv, os.map SrcOut.hrv) ∧
      cnvRun fl c.cnv c.cal (CnvState.init fl c.cnv c.cal)
        (List.zipWith (fun (y : Sample) (x : Sample × ℚ) =>
            { v := (y.v : ℚ), i := (y.i : ℚ), adc := c.cal.adcCA.siToRaw fl (fl (x.2 * fl (1 / 10^9))) })
          (os.map SrcOut.hrv) xs) = .ok (s.cnv, co) ∧
      os.map SrcOut.pInp = co.map CnvOut.pInp ∧ os.map SrcOut.pOut = co.map CnvOut.pOut ∧
      os.map SrcOut.ret = co.map (fun o => if c.cnv.enableLogMid then o.vMid
        else pyInt (fl (c.cal.dacVA.rawToSi fl o.vOutRaw * 10^6))) ∧
      (c.cnv.feedbackToHrv = false → ∀ y ∈ hin, y.feedback = none) := by
  obtain ⟨hin, cin, co, e1, e2, rfl, e4, e5, e6, e7, e8⟩ := srcRun_refines c xs _ s os hrun
  exact ⟨hin, co, e1, e2, e4, e5, e6, e7, e8⟩

/-- C24: a run never raises and returns one voltage per sample. -/
theorem C24_total (c : SrcCfg) (hc : c.cnv.Valid) (xs : List (Sample × ℚ)) :
    ∃ s os, srcRun fl c (SrcState.init fl c) xs = .ok (s, os) ∧ os.length = xs.length :=
  srcRun_total c hc xs _

example : demoSrc.cnv.Valid := demoCfg_valid

/-! ## C24 energy counters -/

theorem cnvRun_snoc (c : CnvCfg) (cal : CalEmulator) (xs : List CnvIn) (x : CnvIn) (s0 s s' : CnvState)
    (os : List CnvOut) (o : CnvOut) (h : cnvRun fl c cal s0 xs = .ok (s, os))
    (hs : cnvStep fl c cal s x = .ok (s', o)) :
    cnvRun fl c cal s0 (xs ++ [x]) = .ok (s', os ++ [o]) := by
  induction xs generalizing s0 os with
  | nil =>
    injection h with h
    injection h with h1 h2
    subst h1 h2
    simp only [List.nil_append, cnvRun]
    rw [hs]; rfl
  | cons y ys ih =>
    obtain ⟨s1, o1, os1, ha, hb, rfl⟩ := cnvRun_cons c cal s0 y ys h
    have := ih s1 os1 hb
    simp only [List.cons_append, cnvRun]
    rw [ha]
    change Except.bind (cnvRun fl c cal s1 (ys ++ [x])) _ = _
    rw [this]; rfl

/-- The powers of every sample of every run of the converter are not negative. -/
theorem powers_nonneg (h : Rounding fl) (c : CnvCfg) (hc : c.Valid) (cal : CalEmulator) (hcal : cal.adcCA.Valid)
    (xs : List CnvIn) (s : CnvState) (os : List CnvOut)
    (hrun : cnvRun fl c cal (CnvState.init fl c cal) xs = .ok (s, os)) :
    ∀ o ∈ os, 0 ≤ o.pInp ∧ 0 ≤ o.pOut := by
  refine cnvRun_outs c cal (fun s => ∃ xs os, cnvRun fl c cal (CnvState.init fl c cal) xs = .ok (s, os))
    (fun o => 0 ≤ o.pInp ∧ 0 ≤ o.pOut) ?_ xs _ s os ⟨[], [], rfl⟩ hrun
  rintro s x s' o ⟨xs, os, hr⟩ hstep
  refine ⟨⟨xs ++ [x], os ++ [o], cnvRun_snoc c cal xs x _ s s' os o hr hstep⟩, ?_⟩
  have hm := vMid_nonneg h c hc cal xs s os hr
  have hmr := vMid_rep h c hc cal xs s os hr
  have hv := vOut_rep h c hc cal xs s os hr
  have hres := residue_range h c cal hcal xs s os hr
  obtain ⟨sa, ra, sb, rb, ha, hb, rfl, rfl⟩ := cnvStep_ok c cal s x hstep
  have hp := inp_power_nonneg h c hc s hm hmr x.v x.i ha
  have hf := calcInpPower_frame c s x.v x.i ha
  have hma : 0 ≤ sa.vMid := by
    rw [hf.2.2.2.2.2.2.2.1]; split_ifs
    · exact clampV_nonneg h c _
    · exact hm
  have hvo := hf.2.2.1
  have hre := hf.2.2.2.2.2.2.1
  refine ⟨?_, ?_⟩
  · have : ra = pyRound sa.pInp := hf.2.2.2.2.2.2.2.2
    rw [this]; exact pyRound_nonneg hp
  · obtain ⟨eta, he, rfl, hr'⟩ := calcOutPower_eq c cal sa x.adc hb
    have he0 : 0 ≤ eta := by
      cases hbk : c.enableBuck
      · rw [hbk] at he
        simp only [Bool.false_eq_true, if_false] at he
        injection he with he; rw [← he]; norm_num
      · rw [hbk] at he
        simp only [if_true] at he
        obtain ⟨y, -, hxe⟩ := eta_out_value h c hc he
        rw [hxe]; positivity
    have hi := (C18_bounds h cal.adcCA hcal sa.residue (by rw [hre]; exact hres.1) (by rw [hre]; exact hres.2)
      (min (2^18-1) (max 0 x.adc)) (by omega)).1
    rw [hr']
    apply pyRound_nonneg
    dsimp only
    split_ifs
    · exact le_rfl
    · refine h.nonneg (add_nonneg (h.nonneg (mul_nonneg (h.nonneg (mul_nonneg he0 ?_)) hi))
        (h.nonneg (mul_nonneg hma (by positivity))))
      rw [hvo]; exact hv.1

theorem src_powers_nonneg (h : Rounding fl) (c : SrcCfg) (hc : c.cnv.Valid) (hcal : c.cal.adcCA.Valid)
    (xs : List (Sample × ℚ)) (s : SrcState) (os : List SrcOut)
    (hrun : srcRun fl c (SrcState.init fl c) xs = .ok (s, os)) :
    ∀ o ∈ os, 0 ≤ o.pInp ∧ 0 ≤ o.pOut := by
  obtain ⟨hin, co, -, -, h3, h4, h5, -⟩ := C24_composition c xs s os hrun
  have := powers_nonneg h c.cnv hc c.cal hcal _ _ co h3
  intro o ho
  constructor
  · have : o.pInp ∈ os.map SrcOut.pInp := List.mem_map_of_mem ho
    rw [h4] at this
    obtain ⟨o', ho', e⟩ := List.mem_map.1 this
    rw [← e]; exact (powers_nonneg h c.cnv hc c.cal hcal _ _ co h3 o' ho').1
  · have : o.pOut ∈ os.map SrcOut.pOut := List.mem_map_of_mem ho
    rw [h5] at this
    obtain ⟨o', ho', e⟩ := List.mem_map.1 this
    rw [← e]; exact (powers_nonneg h c.cnv hc c.cal hcal _ _ co h3 o' ho').2

/-- Sum of the input powers (femto-watt) of the samples of a run. -/
def sumInp (os : List SrcOut) : ℤ := (os.map SrcOut.pInp).sum

/-- Sum of the output powers (femto-watt) of the samples of a run. -/
def sumOut (os : List SrcOut) : ℤ := (os.map SrcOut.pOut).sum

/-- Adding up non-negative integers in a float accumulator. -/
theorem acc_exact (h : Rounding fl) {w : ℚ} {S p : ℤ} (hS : 0 ≤ S) (hp : 0 ≤ p) (hb : S + p ≤ 2^53)
    (hw : w = S) : fl (w + fl p) = ((S + p : ℤ) : ℚ) := by
  rw [h.exactInt p (by rw [abs_of_nonneg hp]; omega), hw]
  rw [← Int.cast_add, h.exactInt (S + p) (by rw [abs_of_nonneg (by omega)]; omega)]

/-- C24: as long as the sums do not exceed 2^53, the two energy counters are exactly the sums of the
per-sample powers. -/
theorem C24_counters_exact (h : Rounding fl) (c : SrcCfg) (hc : c.cnv.Valid) (hcal : c.cal.adcCA.Valid)
    (xs : List (Sample × ℚ)) (s : SrcState) (os : List SrcOut)
    (hrun : srcRun fl c (SrcState.init fl c) xs = .ok (s, os)) :
    (sumInp os ≤ 2^53 → s.wInp = sumInp os) ∧ (sumOut os ≤ 2^53 → s.wOut = sumOut os) := by
  have key := srcRun_inv c (fun os s => (∃ xs, srcRun fl c (SrcState.init fl c) xs = .ok (s, os)) ∧
      0 ≤ sumInp os ∧ 0 ≤ sumOut os ∧
      (sumInp os ≤ 2^53 → s.wInp = sumInp os) ∧ (sumOut os ≤ 2^53 → s.wOut = sumOut os)) ?_ xs []
      (SrcState.init fl c) s os ⟨⟨[], rfl⟩, by simp [sumInp], by simp [sumOut], by simp [sumInp, SrcState.init],
        by simp [sumOut, SrcState.init]⟩ hrun
  · exact key.2.2.2
  rintro os s x i s' o ⟨⟨xs, hr⟩, i1, i2, i3, i4⟩ hs
  have hr' := srcRun_snoc c xs (x, i) _ s s' os o hr hs
  have hn := src_powers_nonneg h c hc hcal _ _ _ hr' o (by simp)
  obtain ⟨co, -, -, e3, e4, rfl⟩ := srcStep_ok c s x i hs
  simp only at hn
  simp only [sumInp, sumOut, List.map_append, List.sum_append, List.map_cons, List.map_nil,
    List.sum_cons, List.sum_nil, add_zero] at i1 i2 i3 i4 ⊢
  refine ⟨⟨_, hr'⟩, by omega, by omega, fun hb => ?_, fun hb => ?_⟩
  · rw [e3]; exact acc_exact h i1 hn.1 hb (i3 (by omega))
  · rw [e4]; exact acc_exact h i2 hn.2 hb (i4 (by omega))

/-- One addition of a float accumulator: relative error at most 2^-52. -/
theorem fl_rel (h : AccRounding fl) {x : ℚ} (hx : x = 0 ∨ 1 ≤ x) :
    (1 - 1/2^52) * x ≤ fl x ∧ fl x ≤ (1 + 1/2^52) * x ∧ (fl x = 0 ∨ 1 ≤ fl x) := by
  rcases hx with rfl | hx
  · rw [h.toRounding.zero]; simp
  · have he := h.err x
    have ht : (2:ℚ)^(-1075 : ℤ) ≤ 1 / 2^53 := by
      rw [show (1:ℚ) / 2^53 = 2^(-53 : ℤ) by rw [zpow_neg]; norm_num]
      exact zpow_le_zpow_right₀ (by norm_num) (by norm_num)
    rw [abs_of_nonneg (by linarith : (0:ℚ) ≤ x)] at he
    generalize (2:ℚ)^(-1075 : ℤ) = t at he ht
    rw [abs_le] at he
    have h1 : (1:ℚ) / 2^53 ≤ x / 2^53 := by gcongr
    have h2 : x / 2^52 = x / 2^53 + x / 2^53 := by ring
    refine ⟨?_, ?_, Or.inr ?_⟩
    · have : (1 - 1/2^52) * x = x - x / 2^52 := by ring
      linarith
    · have : (1 + 1/2^52) * x = x + x / 2^52 := by ring
      linarith
    · simpa using h.toRounding.int_le (n := 1) (by norm_num) (by simpa using hx)

theorem acc_rel (h : AccRounding fl) {w : ℚ} {S p : ℤ} {n : ℕ} (hS : 0 ≤ S) (hp : 0 ≤ p) (hw1 : w = 0 ∨ 1 ≤ w)
    (hlo : (1 - 1/2^52)^(2*n) * (S:ℚ) ≤ w) (hhi : w ≤ (1 + 1/2^52)^(2*n) * (S:ℚ)) :
    (fl (w + fl p) = 0 ∨ 1 ≤ fl (w + fl p)) ∧
    (1 - 1/2^52)^(2*(n+1)) * ((S + p : ℤ) : ℚ) ≤ fl (w + fl p) ∧
      fl (w + fl p) ≤ (1 + 1/2^52)^(2*(n+1)) * ((S + p : ℤ) : ℚ) := by
  have hp1 : (p:ℚ) = 0 ∨ 1 ≤ (p:ℚ) := by
    rcases hp.eq_or_lt with e | e
    · left; rw [← e]; simp
    · right; exact_mod_cast e
  obtain ⟨a1, a2, a3⟩ := fl_rel h hp1
  have hs : w + fl p = 0 ∨ 1 ≤ w + fl p := by
    rcases hw1 with e | e <;> rcases a3 with e' | e'
    · left; rw [e, e']; simp
    all_goals right; linarith
  obtain ⟨b1, b2, b3⟩ := fl_rel h hs
  have hSq : (0:ℚ) ≤ S := by exact_mod_cast hS
  have hpq : (0:ℚ) ≤ p := by exact_mod_cast hp
  set u : ℚ := 1/2^52 with hu
  have hu0 : 0 ≤ u := by rw [hu]; positivity
  have hu1 : u ≤ 1 := by rw [hu]; norm_num
  have k1 : (1 - u)^(2*(n+1)) = (1-u) * (1-u) * (1-u)^(2*n) := by ring
  have k2 : (1 + u)^(2*(n+1)) = (1+u) * (1+u) * (1+u)^(2*n) := by ring
  have m1 : (1-u)^(2*n) ≤ 1 := pow_le_one₀ (by linarith) (by linarith)
  have m2 : 1 ≤ (1+u)^(2*n) := one_le_pow₀ (by linarith)
  have m0 : 0 ≤ (1-u)^(2*n) := pow_nonneg (by linarith) _
  refine ⟨b3, ?_, ?_⟩
  · refine le_trans ?_ b1
    rw [k1, mul_assoc, mul_assoc]
    refine mul_le_mul_of_nonneg_left ?_ (by linarith)
    push_cast
    have e1 : (1-u)^(2*n) * (p:ℚ) ≤ p := mul_le_of_le_one_left hpq m1
    have e2 : (1-u) * ((1-u)^(2*n) * (S:ℚ)) ≤ (1-u)^(2*n) * (S:ℚ) :=
      mul_le_of_le_one_left (mul_nonneg m0 hSq) (by linarith)
    have e3 : (1-u) * ((1-u)^(2*n) * (p:ℚ)) ≤ (1-u) * p := mul_le_mul_of_nonneg_left e1 (by linarith)
    have : (1 - u) * ((1 - u) ^ (2 * n) * ((S:ℚ) + p)) =
      (1-u) * ((1-u)^(2*n) * (S:ℚ)) + (1-u) * ((1-u)^(2*n) * (p:ℚ)) := by ring
    linarith
  · refine le_trans b2 ?_
    rw [k2, mul_assoc, mul_assoc]
    refine mul_le_mul_of_nonneg_left ?_ (by linarith)
    push_cast
    have e1 : (p:ℚ) ≤ (1+u)^(2*n) * (p:ℚ) := le_mul_of_one_le_left hpq m2
    have e2 : (1+u)^(2*n) * (S:ℚ) ≤ (1+u) * ((1+u)^(2*n) * (S:ℚ)) :=
      le_mul_of_one_le_left (mul_nonneg (by linarith) hSq) (by linarith)
    have e3 : (1+u) * (p:ℚ) ≤ (1+u) * ((1+u)^(2*n) * (p:ℚ)) := mul_le_mul_of_nonneg_left e1 (by linarith)
    have : (1 + u) * ((1 + u) ^ (2 * n) * ((S:ℚ) + p)) =
      (1+u) * ((1+u)^(2*n) * (S:ℚ)) + (1+u) * ((1+u)^(2*n) * (p:ℚ)) := by ring
    linarith

/-- C24, runs of any length: each counter is the sum of the per-sample powers up to the rounding
of its additions, that is up to factors `(1 ± 2^-52)` twice per sample. -/
theorem C24_counters_rounded (h : AccRounding fl) (c : SrcCfg) (hc : c.cnv.Valid) (hcal : c.cal.adcCA.Valid)
    (xs : List (Sample × ℚ)) (s : SrcState) (os : List SrcOut)
    (hrun : srcRun fl c (SrcState.init fl c) xs = .ok (s, os)) :
    (1 - 1/2^52)^(2 * os.length) * (sumInp os : ℚ) ≤ s.wInp ∧
      s.wInp ≤ (1 + 1/2^52)^(2 * os.length) * (sumInp os : ℚ) ∧
    (1 - 1/2^52)^(2 * os.length) * (sumOut os : ℚ) ≤ s.wOut ∧
      s.wOut ≤ (1 + 1/2^52)^(2 * os.length) * (sumOut os : ℚ) := by
  have key := srcRun_inv c (fun os s => (∃ xs, srcRun fl c (SrcState.init fl c) xs = .ok (s, os)) ∧
      (0 ≤ sumInp os ∧ 0 ≤ sumOut os) ∧ (s.wInp = 0 ∨ 1 ≤ s.wInp) ∧ (s.wOut = 0 ∨ 1 ≤ s.wOut) ∧
      (1 - 1/2^52)^(2 * os.length) * (sumInp os : ℚ) ≤ s.wInp ∧
      s.wInp ≤ (1 + 1/2^52)^(2 * os.length) * (sumInp os : ℚ) ∧
      (1 - 1/2^52)^(2 * os.length) * (sumOut os : ℚ) ≤ s.wOut ∧
      s.wOut ≤ (1 + 1/2^52)^(2 * os.length) * (sumOut os : ℚ)) ?_ xs []
      (SrcState.init fl c) s os ⟨⟨[], rfl⟩, by simp [sumInp, sumOut], by simp [SrcState.init], by simp [SrcState.init],
        by simp [sumInp, sumOut, SrcState.init]⟩ hrun
  · exact key.2.2.2.2
  rintro os s x i s' o ⟨⟨xs, hr⟩, ⟨i1, i2⟩, i3, i4, i5, i6, i7, i8⟩ hs
  have hr' := srcRun_snoc c xs (x, i) _ s s' os o hr hs
  have hn := src_powers_nonneg h.toRounding c hc hcal _ _ _ hr' o (by simp)
  obtain ⟨co, -, -, e3, e4, rfl⟩ := srcStep_ok c s x i hs
  simp only at hn
  have a := acc_rel h i1 hn.1 i3 i5 i6
  have b := acc_rel h i2 hn.2 i4 i7 i8
  simp only [sumInp, sumOut, List.map_append, List.sum_append, List.map_cons, List.map_nil, List.length_append,
    List.length_cons, List.length_nil, zero_add,
    List.sum_cons, List.sum_nil, add_zero] at i1 i2 a b ⊢
  rw [e3, e4]
  exact ⟨⟨_, hr'⟩, ⟨by omega, by omega⟩, a.1, b.1, a.2.1, a.2.2, b.2.1, b.2.2⟩

/-- C24: no sample makes a counter smaller. -/
theorem C24_counters_grow (h : Rounding fl) (c : SrcCfg) (hc : c.cnv.Valid) (hcal : c.cal.adcCA.Valid)
    (xs : List (Sample × ℚ)) (s s' : SrcState) (os : List SrcOut) (x : Sample) (i : ℚ) (o : SrcOut)
    (hrun : srcRun fl c (SrcState.init fl c) xs = .ok (s, os)) (hs : srcStep fl c s x i = .ok (s', o)) :
    s.wInp ≤ s'.wInp ∧ s.wOut ≤ s'.wOut := by
  have hfl : fl s.wInp = s.wInp ∧ fl s.wOut = s.wOut := by
    refine srcRun_inv c (fun _ s => fl s.wInp = s.wInp ∧ fl s.wOut = s.wOut) ?_ xs [] _ s os
      ⟨h.zero, h.zero⟩ hrun
    intro _ s x i s' o _ hs
    obtain ⟨co, -, -, e3, e4, rfl⟩ := srcStep_ok c s x i hs
    rw [e3, e4]; exact ⟨h.idem _, h.idem _⟩
  have hr' := srcRun_snoc c xs (x, i) _ s s' os o hrun hs
  have hn := src_powers_nonneg h c hc hcal _ _ _ hr' o (by simp)
  obtain ⟨co, -, -, e3, e4, rfl⟩ := srcStep_ok c s x i hs
  simp only at hn
  rw [e3, e4]
  constructor
  · conv_lhs => rw [← hfl.1]
    exact h.mono (le_add_of_nonneg_right (h.nonneg (by exact_mod_cast hn.1)))
  · conv_lhs => rw [← hfl.2]
    exact h.mono (le_add_of_nonneg_right (h.nonneg (by exact_mod_cast hn.2)))

/-- Sixteen samples of the example with a load: the storage is charged and drained, the counters are sums. -/
example : demoSrc.cnv.Valid ∧ demoSrc.cal.adcCA.Valid ∧
    (match srcRun b64 demoSrc (SrcState.init b64 demoSrc) (demoLoad 16) with
     | .ok (s, os) => decide (0 < s.wInp ∧ 0 < s.wOut ∧ sumInp os ≤ 2^53 ∧ sumOut os ≤ 2^53)
     | .error _ => false) = true := by
  refine ⟨demoCfg_valid, by decide +kernel, ?_⟩
  decide +kernel

/-! ## C24 buffers -/

/-- Energy of a whole stream of written samples (micro-volt times nano-ampere, `dt` seconds each), in watt-seconds. -/
def streamEnergy (dt : ℚ) (ys : List (ℚ × ℚ)) : ℚ := (ys.map fun y => (y.1 / 10^6) * (y.2 / 10^9) * dt).sum

theorem bufferEnergy_eq (dt : ℚ) (ys : List (ℚ × ℚ)) : bufferEnergy dt ys = streamEnergy dt ys := by
  induction ys with
  | nil => simp [bufferEnergy, streamEnergy]
  | cons y ys ih =>
    simp only [bufferEnergy, streamEnergy, List.map_cons, List.sum_cons] at ih ⊢
    rw [← ih]; ring

/-- C24: however a recording is cut into buffers, the simulated harvester writes the same samples,
ends in the same state and reports the same energy. -/
theorem C24_harvester_buffers (c : HrvCfg) (cal : CalSeries) (dt : ℚ) (s : HrvState)
    (bs bs' : List (List RawSample)) (hbs : bs.flatten = bs'.flatten) :
    (simHrv fl c cal dt (s, 0) bs).1 = (simHrv fl c cal dt (s, 0) bs').1 ∧
    (simHrv fl c cal dt (s, 0) bs).2.flatten = (simHrv fl c cal dt (s, 0) bs').2.flatten := by
  have h1 := simHrv_flat (fl := fl) c cal dt bs s 0
  have h2 := simHrv_flat (fl := fl) c cal dt bs' s 0
  rw [h1.1, h1.2, h2.1, h2.2, hbs]; exact ⟨rfl, rfl⟩

/-- C24: the written samples are what a harvester returns for the stream, buffer for buffer, and the energy is that of the written samples. -/
theorem C24_harvester_stream (c : HrvCfg) (cal : CalSeries) (dt : ℚ) (bs : List (List RawSample)) :
    (simHrv fl c cal dt (HrvState.init c, 0) bs).2.map List.length = bs.map List.length ∧
    (simHrv fl c cal dt (HrvState.init c, 0) bs).2.flatten =
      outputs fl c (bs.flatten.map fun x => { toSample fl cal x with feedback := none }) ∧
    (simHrv fl c cal dt (HrvState.init c, 0) bs).1.2 =
      streamEnergy dt ((simHrv fl c cal dt (HrvState.init c, 0) bs).2.flatten.map fun y => ((y.v : ℚ), (y.i : ℚ))) := by
  have hb : ∀ (xs : List RawSample) (s : HrvState), simHrvBuffer fl c cal s xs =
      hrvRun fl c s (xs.map fun x => { toSample fl cal x with feedback := none }) := by
    intro xs
    induction xs with
    | nil => intro s; rfl
    | cons x xs ih =>
      intro s
      simp [simHrvBuffer, hrvRun, hrvStep, ih]
  have h1 := simHrv_flat (fl := fl) c cal dt bs (HrvState.init c) 0
  refine ⟨?_, ?_, ?_⟩
  · have : ∀ (s : HrvState) (e : ℚ), (simHrv fl c cal dt (s, e) bs).2.map List.length = bs.map List.length := by
      induction bs with
      | nil => intro s e; rfl
      | cons b bs ih =>
        intro s e
        have hl : (simHrvBuffer fl c cal s b).2.length = b.length := by
          rw [hb, hrvRun_length]; simp
        simp only [simHrv, List.map_cons, hl, List.cons.injEq, true_and]
        exact ih (simHrv_flat c cal dt bs (HrvState.init c) 0) _ _
    exact this _ _
  · rw [h1.1, hb]
  · rw [h1.2, h1.1, bufferEnergy_eq]; simp

/-- C24: however a recording is cut into buffers, the simulated source writes the same samples, ends in
the same state (source and target current) and reports the same energy - or raises the same exception. -/
theorem C24_source_buffers (m : MathFns) (c : SrcCfg) (cal : CalSeries) (t : Target) (dt : ℚ) (s : SimState)
    (bs bs' : List (List RawSample)) (hbs : bs.flatten = bs'.flatten) :
    flatResult (simSrc fl m c cal t dt (s, 0) bs) = flatResult (simSrc fl m c cal t dt (s, 0) bs') := by
  rw [simSrc_flat, simSrc_flat, hbs]

/-- C24: the energy reported by a simulation of a source is that of the written samples. -/
theorem C24_source_energy (m : MathFns) (c : SrcCfg) (cal : CalSeries) (t : Target) (dt : ℚ) (s s' : SimState)
    (bs : List (List RawSample)) (e : ℚ) (yss : List (List (ℚ × ℚ)))
    (hrun : simSrc fl m c cal t dt (s, 0) bs = .ok ((s', e), yss)) : e = streamEnergy dt yss.flatten := by
  have h := simSrc_flat (fl := fl) m c cal t dt bs s 0
  rw [hrun] at h
  match hb : simSrcBuffer fl m c cal t s bs.flatten with
  | .error er => rw [hb] at h; cases h
  | .ok r =>
    rw [hb] at h
    simp only [flatResult, Except.map, Except.ok.injEq, Prod.mk.injEq] at h
    rw [h.1.2, h.2, bufferEnergy_eq]; simp

/-- C24: what a simulation of a source writes: the voltages a source returns when it is fed with the recording and,
at each sample, with the current the target drew at the previous sample (0 at the first one); and
the currents of the target at the written voltage and the power-good signal of that sample. -/
theorem C24_source_stream (m : MathFns) (c : SrcCfg) (cal : CalSeries) (t : Target) (dt : ℚ) (s' : SimState)
    (bs : List (List RawSample)) (e : ℚ) (yss : List (List (ℚ × ℚ)))
    (hrun : simSrc fl m c cal t dt (⟨SrcState.init fl c, 0⟩, 0) bs = .ok ((s', e), yss)) :
    ∃ os, srcRun fl c (SrcState.init fl c)
        ((bs.flatten.map (toSample fl cal)).zip (0 :: yss.flatten.map Prod.snd)) = .ok (s'.src, os) ∧
      yss.flatten.map Prod.fst = os.map (fun o => (o.ret : ℚ)) ∧
      List.Forall₂ (fun o (y : ℚ × ℚ) => t.step fl m o.ret o.powerGood = .ok y.2) os yss.flatten := by
  have hb : ∀ (xs : List RawSample) (s s' : SimState) (ys : List (ℚ × ℚ)),
      simSrcBuffer fl m c cal t s xs = .ok (s', ys) →
      ∃ os, srcRun fl c s.src ((xs.map (toSample fl cal)).zip (s.iOut :: ys.map Prod.snd)) = .ok (s'.src, os) ∧
        ys.map Prod.fst = os.map (fun o => (o.ret : ℚ)) ∧
        List.Forall₂ (fun o (y : ℚ × ℚ) => t.step fl m o.ret o.powerGood = .ok y.2) os ys := by
    intro xs
    induction xs with
    | nil =>
      intro s s' ys h
      injection h with h
      injection h with h1 h2
      subst h1 h2
      exact ⟨[], rfl, rfl, List.Forall₂.nil⟩
    | cons x xs ih =>
      intro s s' ys h
      unfold simSrcBuffer simSrcStep at h
      match h1 : srcStep fl c s.src (toSample fl cal x) s.iOut with
      | .error e => rw [h1] at h; cases h
      | .ok (s1, o) =>
        rw [h1] at h
        change Except.bind (Except.bind (t.step fl m o.ret o.powerGood) _) _ = _ at h
        match h2 : t.step fl m o.ret o.powerGood with
        | .error e => rw [h2] at h; cases h
        | .ok i =>
          rw [h2] at h
          change Except.bind (simSrcBuffer fl m c cal t ⟨s1, i⟩ xs) _ = _ at h
          match h3 : simSrcBuffer fl m c cal t ⟨s1, i⟩ xs with
          | .error e => rw [h3] at h; cases h
          | .ok (s2, ys2) =>
            rw [h3] at h
            injection h with h
            injection h with h4 h5
            subst h4 h5
            obtain ⟨os, r1, r2, r3⟩ := ih ⟨s1, i⟩ _ _ h3
            refine ⟨o :: os, ?_, by simp [r2], List.Forall₂.cons h2 r3⟩
            simp only [List.map_cons, List.zip_cons_cons, srcRun]
            rw [h1]
            change Except.bind (srcRun fl c s1 _) _ = _
            rw [r1]; rfl
  have h := simSrc_flat (fl := fl) m c cal t dt bs ⟨SrcState.init fl c, 0⟩ 0
  rw [hrun] at h
  match hbuf : simSrcBuffer fl m c cal t ⟨SrcState.init fl c, 0⟩ bs.flatten with
  | .error er => rw [hbuf] at h; cases h
  | .ok (s1, ys) =>
    rw [hbuf] at h
    simp only [flatResult, Except.map, Except.ok.injEq, Prod.mk.injEq] at h
    obtain ⟨⟨rfl, -⟩, h2⟩ := h
    rw [h2]
    exact hb _ _ _ _ hbuf

/-- Raw recording used in the examples: 3 nV and 250 pA steps, as in the default of the files. -/
def demoRaw (n : ℕ) : List RawSample :=
  (List.range n).map fun k => ⟨(k % 8) * 233333333, if k % 8 < 5 then 200000 else 8000⟩

def demoSeries : CalSeries := CalSeries.default b64

def demoMath : MathFns := ⟨fun x => x - 1, fun x => x⟩

/-- Two ways to cut twelve samples; the source with a resistor of 1 kOhm does write currents. -/
example : [(demoRaw 12).take 5, (demoRaw 12).drop 5].flatten = [(demoRaw 12)].flatten ∧
    (match Target.mkResistive b64 1000 false with
     | .error _ => false
     | .ok t =>
       match simSrc b64 demoMath demoSrc demoSeries t (1/100000) (⟨SrcState.init b64 demoSrc, 0⟩, 0)
          [(demoRaw 12).take 5, (demoRaw 12).drop 5] with
       | .ok ((_, e), yss) => decide (0 < e ∧ yss.length = 2)
       | .error _ => false) = true := by
  constructor
  · decide
  · decide +kernel

/-! ## C25 targets -/

/-- C25, resistor: accepted parameters, any voltage that is not negative. -/
theorem C25_resistive (h : Rounding fl) (m : MathFns) (rOhm : ℚ) (ctrl : Bool) (t : Target)
    (ht : Target.mkResistive fl rOhm ctrl = .ok t) (v : ℤ) (hv : 0 ≤ v) (pg : Bool) :
    ∃ i, t.step fl m v pg = .ok i ∧ 0 ≤ i := by
  unfold Target.mkResistive at ht
  split_ifs at ht with hr
  injection ht with ht
  have h10 : (1/1024 : ℚ) ≤ fl (1/1000) := by
    have := h.exact 1 (-10) (by norm_num) (by norm_num)
    rw [zpow_neg] at this
    norm_num at this
    rw [← this]; exact h.mono (by norm_num)
  have hk : (1/1048576 : ℚ) ≤ fl (fl (1/1000) * rOhm) := by
    have := h.exact 1 (-20) (by norm_num) (by norm_num)
    rw [zpow_neg] at this
    norm_num at this
    rw [← this]
    apply h.mono
    have : (1/1048576 : ℚ) = 1/1024 * (1/1024) := by norm_num
    rw [this]
    exact mul_le_mul h10 (by linarith) (by norm_num) (by linarith)
  subst ht
  unfold Target.step
  dsimp only
  split_ifs with h1 h2
  · rw [h2] at hk; norm_num at hk
  · exact ⟨_, rfl, h.nonneg (div_nonneg (by exact_mod_cast hv) (by linarith))⟩
  · exact ⟨0, rfl, le_rfl⟩

theorem diodeLoop_nonneg (m : MathFns) (c1 iS r vCC : ℚ) (hri : fl (r * iS) ≠ 0) :
    ∀ (n : ℕ) (vD iR iD : ℚ), 0 ≤ iR → 0 ≤ iD →
      ∃ a b, diodeLoop fl m c1 iS r vCC n vD iR iD = .ok (a, b) ∧ 0 ≤ a ∧ 0 ≤ b
  | 0, _, iR, iD, h1, h2 => ⟨iR, iD, rfl, h1, h2⟩
  | n + 1, vD, iR, iD, h1, h2 => by
    have key : ∃ v a b st, diodeIter fl m c1 iS r vCC vD = .ok (v, a, b, st) ∧ 0 ≤ a ∧ 0 ≤ b := by
      unfold diodeIter
      dsimp only
      rw [if_neg hri]
      exact ⟨_, _, _, _, rfl, le_max_left _ _, le_max_left _ _⟩
    obtain ⟨v, a, b, st, e, ha, hb⟩ := key
    simp only [diodeLoop, e]
    split_ifs
    · exact ⟨a, b, rfl, ha, hb⟩
    · exact diodeLoop_nonneg m c1 iS r vCC hri n v a b ha hb

/-- C25, diode, any voltage: no exception and no negative current, whatever the logarithm and exponential return,
provided the product of resistance and scale current does not underflow to zero (the missing part,
see `C25_diode_violated`). -/
theorem C25_diode_partial (h : Rounding fl) (m : MathFns) (c1 vF iF r : ℚ) (ctrl : Bool) (t : Target)
    (ht : Target.mkDiode fl m c1 vF iF r ctrl = .ok t)
    (hri : fl (r * fl (iF / m.expm1 (fl (vF / c1)))) ≠ 0) (v : ℤ) (pg : Bool) :
    ∃ i, t.step fl m v pg = .ok i ∧ 0 ≤ i := by
  unfold Target.mkDiode at ht
  split_ifs at ht
  injection ht with ht
  subst ht
  unfold Target.step
  dsimp only
  split_ifs
  · obtain ⟨a, b, e, ha, hb⟩ := diodeLoop_nonneg (fl := fl) m c1 (fl (iF / m.expm1 (fl (vF / c1)))) r
      (fl ((v : ℚ) * fl (1 / 10^6))) hri 10 (fl (fl ((v : ℚ) * fl (1 / 10^6)) / 2)) 0 0 le_rfl le_rfl
    rw [e]
    exact ⟨_, rfl, h.nonneg (div_nonneg (h.nonneg (mul_nonneg (by norm_num)
      (h.nonneg (add_nonneg ha hb)))) (by norm_num))⟩
  · exact ⟨0, rfl, le_rfl⟩

/-- C25, diode: parameters that pass the checks (0.7 V at the least positive float) but make every step divide by zero. -/
theorem C25_diode_violated (m : MathFns) (c1 : ℚ) (hm : 4 ≤ m.expm1 (b64 (b64 (7/10) / c1))) (v : ℤ) :
    ∃ t, Target.mkDiode b64 m c1 (b64 (7/10)) ((2:ℚ)^(-1074 : ℤ)) 100 false = .ok t ∧
      t.step b64 m v true = .error .zeroDivisionError := by
  have hpos : (0:ℚ) < 2^(-1074 : ℤ) := by positivity
  have h1 : ¬ ((100:ℚ) ≤ b64 (1/1000)) := by decide +kernel
  have h2 : ¬ (b64 (7/10) ≤ b64 (2/10)) := by decide +kernel
  have h0 : b64 ((2:ℚ)^(-1074 : ℤ) / m.expm1 (b64 (b64 (7/10) / c1))) = 0 := by
    have hq : (2:ℚ)^(-1074 : ℤ) / m.expm1 (b64 (b64 (7/10) / c1)) ≤ 2^(-1076 : ℤ) := by
      rw [div_le_iff₀ (by linarith)]
      rw [show (-1074 : ℤ) = -1076 + 2 by norm_num, zpow_add₀ (by norm_num)]
      exact mul_le_mul_of_nonneg_left (by norm_num; exact hm) (by positivity)
    refine le_antisymm ?_ (b64_rounding.nonneg (div_nonneg hpos.le (by linarith)))
    refine le_trans (b64_rounding.mono hq) ?_
    have : b64 ((2:ℚ)^(-1076 : ℤ)) = 0 := by decide +kernel
    rw [this]
  refine ⟨.diode c1 0 100 false, ?_, ?_⟩
  · unfold Target.mkDiode
    rw [if_neg h1, if_neg h2, if_neg (not_le.2 hpos), h0]
  · simp [Target.step, diodeLoop, diodeIter, b64_rounding.zero]

/-- C25, constant current: any voltage. -/
theorem C25_constant_current (h : Rounding fl) (m : MathFns) (a s : ℚ) (t : Target)
    (ht : Target.mkConstantCurrent fl a s = .ok t) (v : ℤ) (pg : Bool) :
    ∃ i, t.step fl m v pg = .ok i ∧ 0 ≤ i ∧ i = fl (10^9 * if pg then a else s) := by
  unfold Target.mkConstantCurrent at ht
  split_ifs at ht with hp
  injection ht with ht
  subst ht
  push Not at hp
  cases pg
  · exact ⟨_, rfl, h.nonneg (by have := hp.2; positivity), rfl⟩
  · exact ⟨_, rfl, h.nonneg (by have := hp.1; positivity), rfl⟩

/-- C25, constant power: any positive voltage.  Missing: 0 V, see `C25_power_violated`. -/
theorem C25_power_partial (h : Rounding fl) (m : MathFns) (a s : ℚ) (t : Target)
    (ht : Target.mkConstantPower fl a s = .ok t) (v : ℤ) (hv : 0 < v) (pg : Bool) :
    ∃ i, t.step fl m v pg = .ok i ∧ 0 ≤ i := by
  unfold Target.mkConstantPower at ht
  split_ifs at ht with hp
  injection ht with ht
  subst ht
  push Not at hp
  unfold Target.step
  dsimp only
  rw [if_neg hv.ne']
  refine ⟨_, rfl, h.nonneg (div_nonneg ?_ (by exact_mod_cast hv.le))⟩
  cases pg
  · exact h.nonneg (by have := hp.2; positivity)
  · exact h.nonneg (by have := hp.1; positivity)

/-- C25, constant power: every accepted target raises at 0 V, also while asleep with no sleep power. -/
theorem C25_power_violated (m : MathFns) (a s : ℚ) (t : Target)
    (ht : Target.mkConstantPower fl a s = .ok t) (pg : Bool) :
    t.step fl m 0 pg = .error .zeroDivisionError := by
  unfold Target.mkConstantPower at ht
  split_ifs at ht with hp
  injection ht with ht
  subst ht
  simp [Target.step]

/-- C25: and 0 V is what the source outputs while it is off, so simulating this target on a source with an empty
storage raises. -/
theorem C25_power_run_violated :
    let c : SrcCfg := { demoSrc with cnv := { demoCfg with vIntermediateInit := 1000000 } }
    c.cnv.Valid ∧ ∃ t, Target.mkConstantPower b64 (b64 (1/100)) 0 = .ok t ∧
      simSrc b64 demoMath c demoSeries t (1/100000) (⟨SrcState.init b64 c, 0⟩, 0) [demoRaw 12] =
        .error .zeroDivisionError := by
  refine ⟨by constructor <;> decide, .constantPower (b64 (10^15 * b64 (1/100))) (b64 (10^15 * 0)), ?_, ?_⟩
  · decide +kernel
  · decide +kernel

/-- The targets of the module and others do pass the checks. -/
example : (∃ t, Target.mkResistive b64 1000 true = .ok t) ∧
    (∃ t, Target.mkDiode b64 demoMath (b64 (643/10000)) 2 (b64 (2/100)) 100 false = .ok t) ∧
    b64 (100 * b64 (b64 (2/100) / demoMath.expm1 (b64 (2 / b64 (643/10000))))) ≠ 0 ∧
    (∃ t, Target.mkConstantCurrent b64 (b64 (1/1000)) 0 = .ok t) ∧
    (∃ t, Target.mkConstantPower b64 (b64 (1/100)) 0 = .ok t) := by
  refine ⟨⟨.resistive (b64 (b64 (1/1000) * 1000)) true, ?_⟩, ⟨.diode (b64 (643/10000))
    (b64 (b64 (2/100) / b64 (2 / b64 (643/10000)))) 100 false, ?_⟩, ?_, ⟨.constantCurrent (b64 (10^9 * b64 (1/1000)))
    (b64 (10^9 * 0)), ?_⟩, ⟨.constantPower (b64 (10^15 * b64 (1/100))) (b64 (10^15 * 0)), ?_⟩⟩ <;> decide +kernel

/-- C25: the voltage the source returns is not negative if the DAC calibration has no negative offset. -/
theorem C25_source_voltage (h : Rounding fl) (c : SrcCfg) (hc : c.cnv.Valid) (hd : c.cal.dacVA.Valid)
    (ho : 0 ≤ c.cal.dacVA.offset) (xs : List (Sample × ℚ)) (s : SrcState) (os : List SrcOut)
    (hrun : srcRun fl c (SrcState.init fl c) xs = .ok (s, os)) : ∀ o ∈ os, 0 ≤ o.ret := by
  obtain ⟨hin, co, -, -, h3, -, -, h6, -⟩ := C24_composition c xs s os hrun
  intro o ho'
  have : o.ret ∈ os.map SrcOut.ret := List.mem_map_of_mem ho'
  rw [h6] at this
  obtain ⟨o', ho', e⟩ := List.mem_map.1 this
  rw [← e]
  have hr := (C10_dac_code_range c.cnv c.cal _ _ co h3).2.1 o' ho'
  have hm := C08_after_cap_update h c.cnv hc c.cal _ _ co h3 o' ho'
  split_ifs
  · linarith [hm.2.1]
  · refine pyInt_nonneg (h.nonneg (mul_nonneg ?_ (by norm_num)))
    exact C03_raw_to_si_sign h _ hd ho o'.vOutRaw (by exact_mod_cast hr.1)

/-- A target that works at every voltage that is not negative. -/
def Target.Total (fl : ℚ → ℚ) (m : MathFns) (t : Target) : Prop :=
  ∀ (v : ℤ) (pg : Bool), 0 ≤ v → ∃ i, t.step fl m v pg = .ok i ∧ 0 ≤ i

/-- C25, whole simulations: with a valid source, a DAC without negative offset and a target that
works at all voltages of at least zero (resistor, constant current and, barring underflow, diode: see above) the simulation of a
source never raises and every written current is at least zero.  Missing: constant power targets. -/
theorem C25_simulation_partial (h : Rounding fl) (m : MathFns) (c : SrcCfg) (cal : CalSeries) (hc : c.cnv.Valid)
    (hd : c.cal.dacVA.Valid) (ho : 0 ≤ c.cal.dacVA.offset) (t : Target) (ht : Target.Total fl m t)
    (dt : ℚ) (bs : List (List RawSample)) :
    ∃ s e yss, simSrc fl m c cal t dt (⟨SrcState.init fl c, 0⟩, 0) bs = .ok ((s, e), yss) ∧
      ∀ ys ∈ yss, ∀ y ∈ ys, 0 ≤ y.1 ∧ 0 ≤ y.2 := by
  have hstep : ∀ (s : SimState) (x : RawSample),
      (∃ xs os, srcRun fl c (SrcState.init fl c) xs = .ok (s.src, os)) →
      ∃ s' y, simSrcStep fl m c cal t s x = .ok (s', y) ∧ 0 ≤ y.1 ∧ 0 ≤ y.2 ∧
        ∃ xs os, srcRun fl c (SrcState.init fl c) xs = .ok (s'.src, os) := by
    rintro s x ⟨xs, os, hr⟩
    obtain ⟨s1, o, hs⟩ := srcStep_total (fl := fl) c hc s.src (toSample fl cal x) s.iOut
    have hr' := srcRun_snoc c xs (toSample fl cal x, s.iOut) _ _ s1 os o hr hs
    have h0 := C25_source_voltage h c hc hd ho _ _ _ hr' o (by simp)
    obtain ⟨i, hi, hi0⟩ := ht o.ret o.powerGood h0
    refine ⟨⟨s1, i⟩, ((o.ret : ℚ), i), ?_, Int.cast_nonneg h0, hi0, _, _, hr'⟩
    unfold simSrcStep
    rw [hs]
    change Except.bind (t.step fl m o.ret o.powerGood) _ = _
    rw [hi]; rfl
  have hbuf : ∀ (b : List RawSample) (s : SimState),
      (∃ xs os, srcRun fl c (SrcState.init fl c) xs = .ok (s.src, os)) →
      ∃ s' ys, simSrcBuffer fl m c cal t s b = .ok (s', ys) ∧ (∀ y ∈ ys, 0 ≤ y.1 ∧ 0 ≤ y.2) ∧
        ∃ xs os, srcRun fl c (SrcState.init fl c) xs = .ok (s'.src, os) := by
    intro b
    induction b with
    | nil => intro s hs; exact ⟨s, [], rfl, by simp, hs⟩
    | cons x b ih =>
      intro s hs
      obtain ⟨s1, y, e1, y1, y2, hr1⟩ := hstep s x hs
      obtain ⟨s2, ys, e2, hys, hr2⟩ := ih s1 hr1
      refine ⟨s2, y :: ys, ?_, ?_, hr2⟩
      · unfold simSrcBuffer
        rw [e1]
        change Except.bind (simSrcBuffer fl m c cal t s1 b) _ = _
        rw [e2]; rfl
      · intro z hz
        rcases List.mem_cons.1 hz with rfl | hz
        · exact ⟨y1, y2⟩
        · exact hys z hz
  suffices H : ∀ (s : SimState) (e : ℚ), (∃ xs os, srcRun fl c (SrcState.init fl c) xs = .ok (s.src, os)) →
      ∃ s' e' yss, simSrc fl m c cal t dt (s, e) bs = .ok ((s', e'), yss) ∧
        ∀ ys ∈ yss, ∀ y ∈ ys, 0 ≤ y.1 ∧ 0 ≤ y.2 from H _ _ ⟨[], [], rfl⟩
  induction bs with
  | nil => intro s e _; exact ⟨s, e, [], rfl, by simp⟩
  | cons b bs ih =>
    intro s e hs
    obtain ⟨s1, ys, e1, hys, hr1⟩ := hbuf b s hs
    obtain ⟨s2, e', yss, e2, hyss⟩ := ih s1 (e + bufferEnergy dt ys) hr1
    refine ⟨s2, e', ys :: yss, ?_, ?_⟩
    · unfold simSrc
      rw [e1]
      change Except.bind (simSrc fl m c cal t dt (s1, e + bufferEnergy dt ys) bs) _ = _
      rw [e2]; rfl
    · intro z hz
      rcases List.mem_cons.1 hz with rfl | hz
      · exact hys
      · exact hyss z hz

example (m : MathFns) : ∃ t, Target.mkResistive b64 1000 true = .ok t ∧ Target.Total b64 m t ∧
    demoSrc.cnv.Valid ∧ demoSrc.cal.dacVA.Valid ∧ 0 ≤ demoSrc.cal.dacVA.offset := by
  have h : Target.mkResistive b64 1000 true = .ok (.resistive (b64 (b64 (1/1000) * 1000)) true) := by decide +kernel
  exact ⟨_, h, fun v pg hv => C25_resistive b64_rounding m 1000 true _ h v hv pg, demoCfg_valid,
    by decide +kernel, by decide +kernel⟩

/-- C25: with a negative DAC offset an output that is off reads as a negative voltage, and a plain resistor then
draws a negative current. -/
theorem C25_negative_violated :
    let c : SrcCfg := { demoSrc with
      cnv := { demoCfg with vIntermediateInit := 1000000 }
      cal := { demoCal with dacVA := ⟨1/13107, -1/1024⟩ } }
    ∃ t, Target.mkResistive b64 1000 false = .ok t ∧
      ∃ s e ys, simSrc b64 demoMath c demoSeries t (1/100000) (⟨SrcState.init b64 c, 0⟩, 0) [demoRaw 5] =
        .ok ((s, e), [ys]) ∧ ∃ y ∈ ys, y.2 < 0 := by
  refine ⟨.resistive (b64 (b64 (1/1000) * 1000)) false, by decide +kernel, ?_⟩
  have : (match simSrc b64 demoMath { demoSrc with
      cnv := { demoCfg with vIntermediateInit := 1000000 }
      cal := { demoCal with dacVA := ⟨1/13107, -1/1024⟩ } } demoSeries
      (.resistive (b64 (b64 (1/1000) * 1000)) false) (1/100000)
      (⟨SrcState.init b64 { demoSrc with
      cnv := { demoCfg with vIntermediateInit := 1000000 }
      cal := { demoCal with dacVA := ⟨1/13107, -1/1024⟩ } }, 0⟩, 0) [demoRaw 5] with
    | .ok (_, [[_, _, _, _, y]]) => decide (y.2 < 0)
    | _ => false) = true := by decide +kernel
  split at this
  · rename_i p _ _ _ _ y heq
    exact ⟨p.1, p.2, _, heq, y, by simp, by simpa using this⟩
  · cases this

end Verif.Props
