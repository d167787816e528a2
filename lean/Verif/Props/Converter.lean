import Verif.Lemmas.Converter
import Verif.Py.Binary64
import Verif.Props.Calibration

/-!
# C08–C18, C69 — the virtual converter

`cnvRun fl c cal (CnvState.init fl c cal) xs = .ok (s, os)` reads: a fresh converter with
configuration `c` and calibration `cal`, fed with the samples `xs`, is in state `s` and has
returned `os`.  Any prefix of a sample list is itself a sample list, so a statement about the state
after `xs` is a statement about every instant of every run.
-/

namespace Verif.Props
open Verif.Py Verif.Model

variable {fl : ℚ → ℚ}

/-- A boost-buck converter as `from_vsrc` would produce, used in the examples below. -/
def demoCfg : CnvCfg where
  converterMode := 0b0111
  intervalStartupDelayDrainN := 2
  vInputMax := 10000000
  iInputMax := 4200000
  vInputDrop := 0
  rInputN22 := 0
  constantN28 := 26843
  vIntermediateInit := 3500000
  iIntermediateLeak := 10
  vEnableOutputThreshold := 3000000
  vDisableOutputThreshold := 2300000
  dVEnableOutput := 10000
  intervalCheckThresholdsN := 3
  vPwrGoodEnableThreshold := 2800000
  vPwrGoodDisableThreshold := 2400000
  immediatePwrGoodSignal := 1
  vOutputLogGpioThreshold := 1400000
  vInputBoostThreshold := 130000
  vIntermediateMax := 4200000
  vOutput := 2300000
  vBuckDrop := 0
  lutInputVMinLog2 := 7
  lutInputIMinLog2 := 4
  lutOutputIMinLog2 := 4
  lutInpEfficiencyN8 := List.replicate 12 (List.replicate 12 200)
  lutOutInvEfficiencyN4 := List.replicate 12 18

theorem demoCfg_valid : demoCfg.Valid := by
  constructor <;> decide

def demoCal : CalEmulator where
  dacVA := ⟨1/13107, 0⟩
  dacVB := ⟨1/13107, 0⟩
  adcCA := ⟨2/10000000, -1/1000000⟩
  adcCB := ⟨2/10000000, 0⟩

def demoSamples : List CnvIn :=
  [⟨2000000, 500000, 1000⟩, ⟨2500000, 600000, 0⟩, ⟨100000, 600000, 262143⟩, ⟨3000000, -5, -3⟩]

/-! ## C17 look-up tables, no exception -/

/-- Columns of the look-up tables: a linear axis saturating at 11. -/
def LinearColumn (x : ℚ) (pos : ℕ) : Prop :=
  (pos < 11 ∧ (pos : ℚ) ≤ x ∧ x < pos + 1) ∨ (pos = 11 ∧ 11 ≤ x)

/-- A logarithmic axis saturating at 11; column 0 also takes everything below 1. -/
def LogColumn (x : ℚ) (pos : ℕ) : Prop :=
  (pos = 0 ∧ x < 2) ∨ (0 < pos ∧ pos < 11 ∧ (2:ℚ)^pos ≤ x ∧ x < 2^(pos+1)) ∨ (pos = 11 ∧ 2^11 ≤ x)

theorem log2_column {x : ℚ} (hx : 0 ≤ x) {pos : ℕ}
    (hp : (if log2Pos (pyInt x) ≥ lutSize then lutSize - 1 else log2Pos (pyInt x)) = pos) :
    pos < 12 ∧ LogColumn x pos := by
  have hf : pyInt x = ⌊x⌋ := pyInt_of_nonneg hx
  have hnn : 0 ≤ ⌊x⌋ := Int.floor_nonneg.mpr hx
  rw [hf] at hp
  unfold log2Pos lutSize at hp
  by_cases h0 : ⌊x⌋ > 0
  · simp only [h0, if_true] at hp
    set n := ⌊x⌋.toNat with hn
    have hn0 : n ≠ 0 := by omega
    have h1 : 2 ^ Nat.log2 n ≤ n := Nat.log2_self_le hn0
    have h2 : n < 2 ^ (Nat.log2 n + 1) := Nat.lt_log2_self
    have hnq : ((n : ℤ) : ℚ) = ((⌊x⌋ : ℤ) : ℚ) := by rw [hn, Int.toNat_of_nonneg hnn]
    have hfl := Int.floor_le x
    have hfu := Int.lt_floor_add_one x
    have lo : ∀ p, p ≤ Nat.log2 n → (2:ℚ)^p ≤ x := by
      intro p hpl
      have : 2^p ≤ n := le_trans (Nat.pow_le_pow_right (by norm_num) hpl) h1
      have : ((2^p : ℕ) : ℚ) ≤ (n : ℚ) := by exact_mod_cast this
      push_cast at this hnq; linarith
    have hi : x < 2^(Nat.log2 n + 1) := by
      have : n + 1 ≤ 2 ^ (Nat.log2 n + 1) := h2
      have : ((n + 1 : ℕ) : ℚ) ≤ ((2 ^ (Nat.log2 n + 1) : ℕ) : ℚ) := by exact_mod_cast this
      push_cast at this hnq; linarith
    by_cases hge : Nat.log2 n ≥ 12
    · rw [if_pos hge] at hp
      subst hp
      exact ⟨by norm_num, Or.inr (Or.inr ⟨rfl, lo 11 (by omega)⟩)⟩
    · rw [if_neg hge] at hp
      subst hp
      refine ⟨by omega, ?_⟩
      rcases Nat.eq_zero_or_pos (Nat.log2 n) with hz | hz
      · left; rw [hz] at hi ⊢; exact ⟨rfl, by simpa using hi⟩
      · rcases Nat.lt_or_ge (Nat.log2 n) 11 with hl | hl
        · exact Or.inr (Or.inl ⟨hz, hl, lo _ le_rfl, hi⟩)
        · have : Nat.log2 n = 11 := by omega
          exact Or.inr (Or.inr ⟨this, by have := lo 11 (by omega); exact this⟩)
  · simp only [h0, if_false] at hp
    simp at hp
    subst hp
    refine ⟨by norm_num, Or.inl ⟨rfl, ?_⟩⟩
    have : ⌊x⌋ = 0 := by omega
    have h := Int.lt_floor_add_one x
    rw [this] at h; push_cast at h; linarith

/-- Input table: the entry in row ⌊v/2^a⌋ and column ⌊log2(i/2^b)⌋, both saturating, as an
efficiency in 1/256. -/
theorem C17_input_lut (c : CnvCfg) (hc : c.Valid) (v i : ℚ) (hv : 0 ≤ v) (hi : 0 ≤ i) :
    ∃ row col entry : ℕ, LinearColumn (v / 2^c.lutInputVMinLog2) row ∧
      LogColumn (i / 2^c.lutInputIMinLog2) col ∧
      (c.lutInpEfficiencyN8[row]?).bind (·[col]?) = some entry ∧
      getInputEfficiency exact c v i = .ok ((entry : ℚ) / 256) := by
  have hv' : 0 ≤ v / 2^c.lutInputVMinLog2 := by positivity
  have hi' : 0 ≤ i / 2^c.lutInputIMinLog2 := by positivity
  unfold getInputEfficiency exact
  simp only
  generalize hcol : (if log2Pos (pyInt (i / 2^c.lutInputIMinLog2)) ≥ lutSize then lutSize - 1
    else log2Pos (pyInt (i / 2^c.lutInputIMinLog2))) = col
  obtain ⟨hcol12, hcolp⟩ := log2_column hi' hcol
  set x := v / 2^c.lutInputVMinLog2
  have hf : pyInt x = ⌊x⌋ := pyInt_of_nonneg hv'
  have hnn : 0 ≤ ⌊x⌋ := Int.floor_nonneg.mpr hv'
  have hpv : (if pyInt x > 0 then (pyInt x).toNat else 0) = ⌊x⌋.toNat := by
    rw [hf]; split_ifs <;> omega
  rw [hpv]
  generalize hrow : (if ⌊x⌋.toNat ≥ lutSize then lutSize - 1 else ⌊x⌋.toNat) = row
  have hrow12 : row < 12 ∧ LinearColumn x row := by
    unfold lutSize at hrow
    have hfl := Int.floor_le x
    have hfu := Int.lt_floor_add_one x
    have hc : ((⌊x⌋.toNat : ℤ) : ℚ) = ((⌊x⌋ : ℤ) : ℚ) := by rw [Int.toNat_of_nonneg hnn]
    have hc' : ((⌊x⌋.toNat : ℕ) : ℚ) = ((⌊x⌋ : ℤ) : ℚ) := by exact_mod_cast hc
    split_ifs at hrow with hge
    · subst hrow
      refine ⟨by norm_num, Or.inr ⟨rfl, ?_⟩⟩
      have : (12:ℤ) ≤ ⌊x⌋ := by omega
      have : ((12:ℤ):ℚ) ≤ ((⌊x⌋ : ℤ) : ℚ) := by exact_mod_cast this
      push_cast at this; linarith
    · subst hrow
      refine ⟨by omega, ?_⟩
      rcases Nat.lt_or_ge ⌊x⌋.toNat 11 with hl | hl
      · left; exact ⟨hl, by rw [hc']; exact hfl, by rw [hc']; exact hfu⟩
      · right
        have : ⌊x⌋.toNat = 11 := by omega
        refine ⟨this, ?_⟩
        have e : ((⌊x⌋ : ℤ) : ℚ) = 11 := by rw [← hc', this]; norm_num
        linarith
  have hr : row < c.lutInpEfficiencyN8.length := by rw [hc.lutInpRows]; exact hrow12.1
  have hmem := List.getElem_mem hr
  have hl := (hc.lutInpCols _ hmem).1
  have hx : col < (c.lutInpEfficiencyN8[row]).length := by rw [hl]; exact hcol12
  refine ⟨row, col, c.lutInpEfficiencyN8[row][col], hrow12.2, hcolp, ?_, ?_⟩
  · simp [List.getElem?_eq_getElem hr, List.getElem?_eq_getElem hx]
  · simp [List.getElem?_eq_getElem hr, List.getElem?_eq_getElem hx]; norm_num

/-- Output table: the entry in column ⌊log2(i/2^b)⌋, saturating, as inverse efficiency in 1/16. -/
theorem C17_output_lut (c : CnvCfg) (hc : c.Valid) (i : ℚ) (hi : 0 ≤ i) :
    ∃ col entry : ℕ, LogColumn (i / 2^c.lutOutputIMinLog2) col ∧
      c.lutOutInvEfficiencyN4[col]? = some entry ∧
      getOutputInvEfficiency exact c i = .ok ((entry : ℚ) / 16) := by
  have hi' : 0 ≤ i / 2^c.lutOutputIMinLog2 := by positivity
  unfold getOutputInvEfficiency exact
  simp only
  generalize hcol : (if log2Pos (pyInt (i / 2^c.lutOutputIMinLog2)) ≥ lutSize then lutSize - 1
    else log2Pos (pyInt (i / 2^c.lutOutputIMinLog2))) = col
  obtain ⟨hcol12, hcolp⟩ := log2_column hi' hcol
  have hx : col < c.lutOutInvEfficiencyN4.length := by rw [hc.lutOut.1]; exact hcol12
  refine ⟨col, c.lutOutInvEfficiencyN4[col], hcolp, by simp [hx], ?_⟩
  simp [List.getElem?_eq_getElem hx]; norm_num

/-- No operating point, no history and no rounding leads to an exception. -/
theorem C17_no_exception (c : CnvCfg) (hc : c.Valid) (cal : CalEmulator) (xs : List CnvIn) :
    ∃ s os, cnvRun fl c cal (CnvState.init fl c cal) xs = .ok (s, os) ∧ os.length = xs.length :=
  cnvRun_total c hc cal xs _

example : demoCfg.Valid ∧ (0:ℚ) ≤ 70000 ∧ LinearColumn ((1000:ℚ) / 2^7) 7 ∧
    LogColumn ((1000000:ℚ) / 2^4) 11 :=
  ⟨demoCfg_valid, by norm_num, Or.inl ⟨by norm_num, by norm_num, by norm_num⟩,
    Or.inr (Or.inr ⟨rfl, by norm_num⟩)⟩

/-! ## C08 storage voltage -/

theorem natCast_fl (h : Rounding fl) {n : ℕ} (hn : n < 2^32) : fl (n:ℚ) = n :=
  h.exactNat n (by omega)

theorem vCap_bounds (c : CnvCfg) (s : CnvState) :
    1 ≤ (updateCapStorage fl c s).1.vMid ∧
      (updateCapStorage fl c s).1.vMid ≤ max 1 (c.vIntermediateMax : ℚ) := by
  rw [updateCapStorage_eq]
  refine ⟨le_max_right _ _, ?_⟩
  rw [max_comm 1 (c.vIntermediateMax : ℚ)]
  exact max_le_max_right 1 (min_le_right _ _)

theorem max_one_natCast (n : ℕ) : max 1 (n:ℚ) = ((max 1 n : ℕ) : ℚ) := by push_cast; rfl

theorem dV_le (h : Rounding fl) (c : CnvCfg) {v : ℚ} (hv : v ≥ c.enableThreshold) :
    0 ≤ fl (v - c.dVEnableOutput) := by
  apply h.nonneg
  have : (c.dVEnableOutput : ℚ) ≤ c.enableThreshold := by
    exact_mod_cast le_max_left _ _
  linarith

theorem step_vMid_bounds (h : Rounding fl) (c : CnvCfg) (hc : c.Valid) (cal : CalEmulator)
    {s s' : CnvState} {x : CnvIn} {o : CnvOut} (hs : cnvStep fl c cal s x = .ok (s', o)) :
    (1 ≤ o.vCap ∧ o.vCap ≤ max 1 (c.vIntermediateMax : ℚ)) ∧ o.vMid = pyRound o.vCap ∧
      0 ≤ s'.vMid ∧ s'.vMid ≤ max 1 (c.vIntermediateMax : ℚ) := by
  obtain ⟨sa, ra, sb, rb, -, -, rfl, rfl⟩ := cnvStep_ok c cal s x hs
  have hb := vCap_bounds (fl := fl) c sb
  refine ⟨hb, rfl, ?_⟩
  rw [us_vMid]
  split_ifs with hcond
  · refine ⟨dV_le h c hcond.2.2, ?_⟩
    rw [max_one_natCast] at hb ⊢
    have hmax : fl ((max 1 c.vIntermediateMax : ℕ) : ℚ) = ((max 1 c.vIntermediateMax : ℕ) : ℚ) :=
      natCast_fl h (by have := hc.vIntermediateMax; omega)
    rw [← hmax]
    apply h.mono
    have : (0:ℚ) ≤ c.dVEnableOutput := by positivity
    linarith [hb.2]
  · exact ⟨by linarith [hb.1], hb.2⟩

/-- After any non-empty history the storage voltage, and its read-back in uV, is within 0 and the
larger of 1 uV and the configured maximum. -/
theorem C08_storage_bounds (h : Rounding fl) (c : CnvCfg) (hc : c.Valid) (cal : CalEmulator)
    (xs : List CnvIn) (hne : xs ≠ []) (s : CnvState) (os : List CnvOut)
    (hrun : cnvRun fl c cal (CnvState.init fl c cal) xs = .ok (s, os)) :
    (0 ≤ s.vMid ∧ s.vMid ≤ max 1 (c.vIntermediateMax : ℚ)) ∧
    (0 ≤ pyRound s.vMid ∧ pyRound s.vMid ≤ max 1 (c.vIntermediateMax : ℤ)) := by
  have := cnvRun_inv c cal (fun k s => k = 0 ∨ (0 ≤ s.vMid ∧
      s.vMid ≤ max 1 (c.vIntermediateMax : ℚ)))
    (fun k s x s' o _ hs => Or.inr (step_vMid_bounds h c hc cal hs).2.2) xs 0 _ s os (Or.inl rfl) hrun
  rcases this with h0 | hb
  · exact absurd (by simpa using h0) hne
  · refine ⟨hb, pyRound_nonneg hb.1, ?_⟩
    have := pyRound_le_intCast (n := max 1 (c.vIntermediateMax : ℤ)) (x := s.vMid)
      (by push_cast; exact hb.2)
    exact this

/-- Right after each capacitor update the voltage is at least 1 uV, and the returned value agrees. -/
theorem C08_after_cap_update (h : Rounding fl) (c : CnvCfg) (hc : c.Valid) (cal : CalEmulator)
    (xs : List CnvIn) (s : CnvState) (os : List CnvOut)
    (hrun : cnvRun fl c cal (CnvState.init fl c cal) xs = .ok (s, os)) :
    ∀ o ∈ os, (1 ≤ o.vCap ∧ o.vCap ≤ max 1 (c.vIntermediateMax : ℚ)) ∧
      (1 ≤ o.vMid ∧ o.vMid ≤ max 1 (c.vIntermediateMax : ℤ)) := by
  refine cnvRun_outs c cal (fun _ => True) _ ?_ xs _ s os trivial hrun
  intro s x s' o _ hs
  obtain ⟨h1, h2, -⟩ := step_vMid_bounds h c hc cal hs
  refine ⟨trivial, h1, ?_⟩
  rw [h2]
  exact ⟨intCast_le_pyRound (by push_cast; exact h1.1),
    pyRound_le_intCast (by push_cast; exact h1.2)⟩

example : Rounding b64 ∧ demoCfg.Valid ∧ demoSamples ≠ [] ∧
    ∃ s os, cnvRun b64 demoCfg demoCal (CnvState.init b64 demoCfg demoCal) demoSamples = .ok (s, os) :=
  ⟨b64_rounding, demoCfg_valid, by decide, by
    obtain ⟨s, os, h, -⟩ := C17_no_exception (fl := b64) demoCfg demoCfg_valid demoCal demoSamples
    exact ⟨s, os, h⟩⟩

/-! ## C09 output voltage, C10 DAC code -/

/-- The storage voltage is always a float. -/
theorem vMid_rep (h : Rounding fl) (c : CnvCfg) (hc : c.Valid) (cal : CalEmulator)
    (xs : List CnvIn) (s : CnvState) (os : List CnvOut)
    (hrun : cnvRun fl c cal (CnvState.init fl c cal) xs = .ok (s, os)) : fl s.vMid = s.vMid := by
  have := cnvRun_inv c cal (fun k s => fl s.vMid = s.vMid) ?_ xs 0 _ s os ?_ hrun
  · exact this
  · intro k s x s' o hs hstep
    obtain ⟨sa, ra, sb, rb, ha, hb, rfl, -⟩ := cnvStep_ok c cal s x hstep
    have ha' : fl sa.vMid = sa.vMid := by
      have := (calcInpPower_frame c s x.v x.i ha).2.2.2.2.2.2.2.1
      rw [this]
      split_ifs
      · unfold clampV
        rcases min_choice (if max 0 x.v > c.vInputDrop then fl (max 0 x.v - c.vInputDrop) else 0)
          (c.vInputMax : ℚ) with e | e <;> rw [e]
        · split_ifs
          · exact h.idem _
          · exact h.zero
        · exact natCast_fl h hc.vInputMax
      · exact hs
    have hb' : fl sb.vMid = sb.vMid := by
      obtain ⟨eta, -, rfl, -⟩ := calcOutPower_eq c cal sa x.adc hb
      exact ha'
    have hcap : fl (updateCapStorage fl c sb).1.vMid = (updateCapStorage fl c sb).1.vMid := by
      rw [updateCapStorage_eq]
      dsimp only
      generalize hw : (if c.enableStorage = true then
        fl (sb.vMid + fl (fl (fl (sb.pInp - sb.pOut) / max 1 sb.vMid) * CnvCfg.capConstant fl c))
          else sb.vMid) = w
      have hwr : fl w = w := by
        rw [← hw]; split_ifs
        · exact h.idem _
        · exact hb'
      rcases max_choice (min w (c.vIntermediateMax:ℚ)) 1 with e | e <;> rw [e]
      · rcases min_choice w (c.vIntermediateMax:ℚ) with e | e <;> rw [e]
        · exact hwr
        · exact natCast_fl h hc.vIntermediateMax
      · simpa using h.exactInt 1 (by norm_num)
    rw [us_vMid]
    split_ifs
    · exact h.idem _
    · exact hcap
  · exact natCast_fl h hc.vIntermediateInit

/-- After every sample: the output voltage is not negative, not above the storage voltage, not
above storage minus buck drop (as the float unit computes it, or zero), and with the buck converter
not above the configured output voltage. -/
theorem C09_output_voltage (h : Rounding fl) (c : CnvCfg) (hc : c.Valid) (cal : CalEmulator)
    (xs : List CnvIn) (hne : xs ≠ []) (s : CnvState) (os : List CnvOut)
    (hrun : cnvRun fl c cal (CnvState.init fl c cal) xs = .ok (s, os)) :
    0 ≤ s.vOut ∧ s.vOut ≤ s.vMid ∧ s.vOut ≤ max 0 (fl (s.vMid - c.vBuckDrop)) ∧
      (c.enableBuck = true → s.vOut ≤ c.vOutput) := by
  have hm := (C08_storage_bounds h c hc cal xs hne s os hrun).1.1
  have hrep := vMid_rep h c hc cal xs s os hrun
  have hd : (0:ℚ) ≤ c.vBuckDrop := by positivity
  have hsub : fl (s.vMid - c.vBuckDrop) ≤ s.vMid := by
    have := h.mono (show s.vMid - c.vBuckDrop ≤ s.vMid by linarith)
    rwa [hrep] at this
  have hform := cnvRun_inv c cal (fun k s => k = 0 ∨ s.vOut =
      if s.isOutputting || s.startupN > 0 then
        (if !c.enableBuck || decide (s.vMid ≤ ((c.vOutput + c.vBuckDrop : ℕ) : ℚ)) then
          (if (c.vBuckDrop : ℚ) < s.vMid then fl (s.vMid - c.vBuckDrop) else 0)
         else c.vOutput)
      else 0) (by
        intro k s x s' o _ hstep
        right
        obtain ⟨sa, ra, sb, rb, ha, hb, rfl, -⟩ := cnvStep_ok c cal s x hstep
        exact us_vOut c cal _) xs 0 _ s os (Or.inl rfl) hrun
  rcases hform with h0 | hform
  · exact absurd (by simpa using h0) hne
  have hvo : (0:ℚ) ≤ c.vOutput := by positivity
  have hvof : fl (c.vOutput:ℚ) = c.vOutput := natCast_fl h hc.vOutput
  rw [hform]
  by_cases h1 : (s.isOutputting || decide (s.startupN > 0)) = true
  · rw [if_pos h1]
    by_cases h2 : (!c.enableBuck || decide (s.vMid ≤ ((c.vOutput + c.vBuckDrop : ℕ) : ℚ))) = true
    · rw [if_pos h2]
      by_cases h3 : (c.vBuckDrop : ℚ) < s.vMid
      · rw [if_pos h3]
        refine ⟨h.nonneg (by linarith), hsub, le_max_right _ _, ?_⟩
        intro hbk
        have : s.vMid ≤ ((c.vOutput + c.vBuckDrop : ℕ) : ℚ) := by simpa [hbk] using h2
        push_cast at this
        rw [← hvof]
        exact h.mono (by linarith)
      · rw [if_neg h3]
        exact ⟨le_rfl, hm, le_max_left _ _, fun _ => hvo⟩
    · rw [if_neg h2]
      have : ¬ s.vMid ≤ ((c.vOutput + c.vBuckDrop : ℕ) : ℚ) := by
        intro hle; apply h2; simp [show s.vMid ≤ (c.vOutput:ℚ) + c.vBuckDrop by exact_mod_cast hle]
      push_cast at this
      have hle : (c.vOutput : ℚ) ≤ fl (s.vMid - c.vBuckDrop) := by
        rw [← hvof]; exact h.mono (by linarith)
      exact ⟨hvo, le_trans hle hsub, le_trans hle (le_max_right _ _), fun _ => le_rfl⟩
  · rw [if_neg h1]
    exact ⟨le_rfl, hm, le_max_left _ _, fun _ => hvo⟩

/-- In exact arithmetic the bound is the storage voltage minus the buck drop. -/
theorem C09_output_voltage_exact (c : CnvCfg) (hc : c.Valid) (cal : CalEmulator)
    (xs : List CnvIn) (hne : xs ≠ []) (s : CnvState) (os : List CnvOut)
    (hrun : cnvRun exact c cal (CnvState.init exact c cal) xs = .ok (s, os)) :
    0 ≤ s.vOut ∧ s.vOut ≤ max 0 (s.vMid - c.vBuckDrop) :=
  have := C09_output_voltage Rounding.id c hc cal xs hne s os hrun
  ⟨this.1, this.2.2.1⟩

theorem convUVToDacRaw_range (dac : CalPair) (uV : ℚ) :
    0 ≤ convUVToDacRaw fl dac uV ∧ convUVToDacRaw fl dac uV ≤ 65535 := by
  unfold convUVToDacRaw
  have := C03_si_to_raw_nonneg (fl := fl) dac (fl (uV / 10^6))
  omega

/-- Every DAC code is a 16-bit code. -/
theorem C10_dac_code_range (c : CnvCfg) (cal : CalEmulator) (xs : List CnvIn) (s : CnvState)
    (os : List CnvOut) (hrun : cnvRun fl c cal (CnvState.init fl c cal) xs = .ok (s, os)) :
    (0 ≤ s.vOutRaw ∧ s.vOutRaw ≤ 65535) ∧ (∀ o ∈ os, 0 ≤ o.vOutRaw ∧ o.vOutRaw ≤ 65535) ∧
      (0 ≤ getVIntermediateRaw fl cal s ∧ getVIntermediateRaw fl cal s ≤ 65535) := by
  have key : ∀ s x s' o, cnvStep fl c cal s x = .ok (s', o) →
      o.vOutRaw = s'.vOutRaw ∧ 0 ≤ s'.vOutRaw ∧ s'.vOutRaw ≤ 65535 := by
    intro s x s' o hstep
    obtain ⟨sa, ra, sb, rb, ha, hb, rfl, rfl⟩ := cnvStep_ok c cal s x hstep
    obtain ⟨h1, h2⟩ := us_vOutRaw (fl := fl) c cal (updateCapStorage fl c sb).1
    refine ⟨h1, ?_⟩
    rw [h2]
    split_ifs
    · exact convUVToDacRaw_range _ _
    · norm_num
  refine ⟨?_, ?_, convUVToDacRaw_range _ _⟩
  · exact cnvRun_inv c cal (fun _ s => 0 ≤ s.vOutRaw ∧ s.vOutRaw ≤ 65535)
      (fun k s x s' o _ hs => (key s x s' o hs).2) xs 0 _ s os (convUVToDacRaw_range _ _) hrun
  · exact cnvRun_outs c cal (fun _ => True) (fun o => 0 ≤ o.vOutRaw ∧ o.vOutRaw ≤ 65535)
      (fun s x s' o _ hs => ⟨trivial, by
        have := key s x s' o hs; rw [this.1]; exact this.2⟩) xs _ s os trivial hrun

/-- The start-up counter after `k` samples. -/
theorem startup_count (c : CnvCfg) (cal : CalEmulator) (xs : List CnvIn) (s : CnvState)
    (os : List CnvOut) (hrun : cnvRun fl c cal (CnvState.init fl c cal) xs = .ok (s, os)) :
    s.startupN = c.intervalStartupDelayDrainN - xs.length := by
  have := cnvRun_inv c cal (fun k s => s.startupN = c.intervalStartupDelayDrainN - k) ?_
    xs 0 _ s os rfl hrun
  · simpa using this
  · intro k s x s' o hk hstep
    obtain ⟨sa, ra, sb, rb, ha, hb, rfl, -⟩ := cnvStep_ok c cal s x hstep
    rw [(us_frame c cal _).1, updateCapStorage_eq]
    obtain ⟨eta, -, rfl, -⟩ := calcOutPower_eq c cal sa x.adc hb
    have := (calcInpPower_frame c s x.v x.i ha).2.1
    simp only [this]; omega

/-- With the output disabled and the start-up samples consumed, voltage and code are 0, in the
state and in what the last sample returned. -/
theorem C10_off_is_zero (c : CnvCfg) (cal : CalEmulator) (xs : List CnvIn) (x : CnvIn)
    (s s' : CnvState) (os : List CnvOut) (o : CnvOut)
    (hrun : cnvRun fl c cal (CnvState.init fl c cal) xs = .ok (s, os))
    (hstep : cnvStep fl c cal s x = .ok (s', o))
    (hoff : s'.isOutputting = false) (hstart : c.intervalStartupDelayDrainN ≤ xs.length + 1) :
    s'.vOut = 0 ∧ s'.vOutRaw = 0 ∧ o.vOutRaw = 0 := by
  have hn := startup_count c cal xs s os hrun
  obtain ⟨sa, ra, sb, rb, ha, hb, rfl, rfl⟩ := cnvStep_ok c cal s x hstep
  obtain ⟨h1, h2⟩ := us_vOutRaw (fl := fl) c cal (updateCapStorage fl c sb).1
  have h3 := us_vOut (fl := fl) c cal (updateCapStorage fl c sb).1
  have h4 : (updateStatesAndOutput fl c cal (updateCapStorage fl c sb).1).1.startupN = 0 := by
    rw [(us_frame c cal _).1, updateCapStorage_eq]
    obtain ⟨eta, -, rfl, -⟩ := calcOutPower_eq c cal sa x.adc hb
    have := (calcInpPower_frame c s x.v x.i ha).2.1
    simp only [this]; omega
  simp only at h1 h2 h3
  rw [hoff, h4] at h2 h3
  refine ⟨by simpa using h3, by simpa using h2, ?_⟩
  simp only [h1]; simpa using h2

/-- A run of the demo converter that ends with the output off (empty source, heavy load). -/
example : (match cnvRun exact { demoCfg with vIntermediateInit := 1000000 } demoCal
      (CnvState.init exact { demoCfg with vIntermediateInit := 1000000 } demoCal) demoSamples with
    | .ok (s, _) => decide (s.isOutputting = false ∧ s.startupN = 0 ∧ s.vOutRaw = 0)
    | .error _ => false) = true := by decide +kernel

/-! ## C11 hysteresis and check interval -/

/-- Value of the sample counter after `k` samples. -/
theorem sample_count (c : CnvCfg) (hn : c.intervalCheckThresholdsN ≤ 0xFFFFFFF1)
    (cal : CalEmulator) (xs : List CnvIn) (s : CnvState) (os : List CnvOut)
    (hrun : cnvRun fl c cal (CnvState.init fl c cal) xs = .ok (s, os)) :
    s.checks c = decide (xs.length % max 1 c.intervalCheckThresholdsN = 0) := by
  have key : ∀ k (s : CnvState),
      ((k = 0 ∧ s.sampleCount = 0xFFFFFFF0) ∨
        (0 < k ∧ s.sampleCount = (k - 1) % max 1 c.intervalCheckThresholdsN)) →
      s.checks c = decide (k % max 1 c.intervalCheckThresholdsN = 0) := by
    intro k s hk
    unfold CnvState.checks
    rcases hk with ⟨rfl, h⟩ | ⟨h0, h⟩
    · rw [h]; simp; omega
    · rw [h]
      generalize hN : max 1 c.intervalCheckThresholdsN = N
      have hN1 : 1 ≤ N := by omega
      obtain ⟨j, rfl⟩ : ∃ j, k = j + 1 := ⟨k - 1, by omega⟩
      simp only [Nat.add_sub_cancel]
      have hlt := Nat.mod_lt j (show N > 0 by omega)
      have e : (j + 1) % N = 0 ↔ j % N + 1 = N := by
        rw [Nat.add_mod]
        rcases Nat.eq_or_lt_of_le hN1 with h1 | h1
        · subst h1; simp [Nat.mod_one]
        · rw [Nat.mod_eq_of_lt h1]
          constructor
          · intro h'
            by_contra hne
            rw [Nat.mod_eq_of_lt (by omega)] at h'; omega
          · intro h'; rw [h']; simp
      simp only [e]
      rw [decide_eq_decide]
      omega
  apply key
  have := cnvRun_inv c cal (fun k s => (k = 0 ∧ s.sampleCount = 0xFFFFFFF0) ∨
        (0 < k ∧ s.sampleCount = (k - 1) % max 1 c.intervalCheckThresholdsN)) ?_ xs 0 _ s os
        (Or.inl ⟨rfl, rfl⟩) hrun
  · simpa using this
  · intro k s x s' o hk hstep
    have hck := key k s hk
    right
    refine ⟨by omega, ?_⟩
    obtain ⟨sa, ra, sb, rb, ha, hb, rfl, -⟩ := cnvStep_ok c cal s x hstep
    have hsc : (updateCapStorage fl c sb).1.sampleCount = s.sampleCount := by
      rw [updateCapStorage_eq]
      obtain ⟨eta, -, rfl, -⟩ := calcOutPower_eq c cal sa x.adc hb
      exact (calcInpPower_frame c s x.v x.i ha).2.2.2.2.1
    have hck' : (updateCapStorage fl c sb).1.checks c = s.checks c := by
      unfold CnvState.checks; rw [hsc]
    rw [us_sampleCount, hck', hck, hsc]
    simp only [Nat.add_sub_cancel]
    split_ifs with hm
    · simp only [decide_eq_true_eq] at hm; exact hm.symm
    · simp only [decide_eq_true_eq] at hm
      rcases hk with ⟨rfl, -⟩ | ⟨h0, h⟩
      · simp at hm
      · rw [h]
        obtain ⟨j, rfl⟩ : ∃ j, k = j + 1 := ⟨k - 1, by omega⟩
        simp only [Nat.add_sub_cancel]
        generalize max 1 c.intervalCheckThresholdsN = N at hm ⊢
        rcases Nat.eq_zero_or_pos N with h | h
        · subst h; simp
        have hlt := Nat.mod_lt j h
        by_cases h1 : N = 1
        · subst h1; simp [Nat.mod_one] at hm
        · have e1 : (j + 1) % N = (j % N + 1) % N := by
            rw [Nat.add_mod, Nat.mod_eq_of_lt (show 1 < N by omega)]
          rw [e1] at hm ⊢
          have : j % N + 1 ≠ N := by
            intro he; rw [he] at hm; simp at hm
          rw [Nat.mod_eq_of_lt (show j % N + 1 < N by omega)]

/-- The fields that survive until the state update of a sample. -/
theorem step_states (c : CnvCfg) (cal : CalEmulator) {s s' : CnvState} {x : CnvIn} {o : CnvOut}
    (hstep : cnvStep fl c cal s x = .ok (s', o)) :
    ∃ t : CnvState, s' = (updateStatesAndOutput fl c cal t).1 ∧ o.vCap = t.vMid ∧
      t.isOutputting = s.isOutputting ∧ t.powerGood = s.powerGood ∧ t.checks c = s.checks c := by
  obtain ⟨sa, ra, sb, rb, ha, hb, rfl, rfl⟩ := cnvStep_ok c cal s x hstep
  refine ⟨_, rfl, rfl, ?_⟩
  have hf := calcInpPower_frame c s x.v x.i ha
  unfold CnvState.checks
  rw [updateCapStorage_eq]
  obtain ⟨eta, -, rfl, -⟩ := calcOutPower_eq c cal sa x.adc hb
  simp only [hf.2.2.2.1, hf.2.2.2.2.1, hf.2.2.2.2.2.1, and_self]

/-- What sample number `k` (counted from 0) does to the output switch.  `o.vCap` is the storage
voltage right after this sample's capacitor update.  Thresholds are checked in sample 0 and then in
every max(1,n)-th sample; only there the switch can move, on at or above the enable threshold
(raised to dV if that is larger), off below the disable threshold. -/
theorem C11_hysteresis (c : CnvCfg) (hn : c.intervalCheckThresholdsN ≤ 0xFFFFFFF1)
    (cal : CalEmulator) (xs : List CnvIn) (x : CnvIn) (s s' : CnvState) (os : List CnvOut)
    (o : CnvOut) (hrun : cnvRun fl c cal (CnvState.init fl c cal) xs = .ok (s, os))
    (hstep : cnvStep fl c cal s x = .ok (s', o)) :
    (xs.length % max 1 c.intervalCheckThresholdsN ≠ 0 → s'.isOutputting = s.isOutputting) ∧
    (xs.length % max 1 c.intervalCheckThresholdsN = 0 →
      (s.isOutputting = false → (s'.isOutputting = true ↔
        max (c.dVEnableOutput : ℚ) c.vEnableOutputThreshold ≤ o.vCap)) ∧
      (s.isOutputting = true → (s'.isOutputting = false ↔
        o.vCap < c.vDisableOutputThreshold))) := by
  have hck := sample_count c hn cal xs s os hrun
  obtain ⟨t, rfl, hv, ho, -, hc⟩ := step_states c cal hstep
  rw [us_isOutputting, hc, hck, ho, hv]
  have hthr : (c.enableThreshold : ℚ) = max (c.dVEnableOutput : ℚ) c.vEnableOutputThreshold := by
    unfold CnvCfg.enableThreshold; push_cast; rfl
  constructor
  · intro hk; simp [hk]
  · intro hk
    constructor
    · intro h0; simp [hk, h0, hthr]
    · intro h0; simp [hk, h0]

/-- Switching on costs dV of storage voltage; otherwise the switch does not touch the storage. -/
theorem C11_switch_on_cost (c : CnvCfg) (cal : CalEmulator) (x : CnvIn) (s s' : CnvState)
    (o : CnvOut) (hstep : cnvStep fl c cal s x = .ok (s', o)) :
    s'.vMid = if s.isOutputting = false ∧ s'.isOutputting = true then
      fl (o.vCap - c.dVEnableOutput) else o.vCap := by
  obtain ⟨t, rfl, hv, ho, -, hc⟩ := step_states c cal hstep
  rw [us_vMid, us_isOutputting, hv, ← ho]
  by_cases h1 : t.checks c = true <;> by_cases h2 : t.isOutputting = true <;>
    by_cases h3 : t.vMid ≥ c.enableThreshold <;> simp [h1, h2, h3]

example : demoCfg.intervalCheckThresholdsN ≤ 0xFFFFFFF1 ∧
    (match cnvRun exact demoCfg demoCal (CnvState.init exact demoCfg demoCal) demoSamples with
    | .ok (s, _) => s.isOutputting
    | .error _ => false) = true := by decide +kernel

/-! ## C12 start-up phase -/

theorem clampV_nonneg (h : Rounding fl) (c : CnvCfg) (v : ℚ) : 0 ≤ clampV fl c v := by
  unfold clampV
  refine le_min ?_ (by positivity)
  split_ifs with h1
  · exact h.nonneg (by linarith)
  · exact le_rfl

theorem clampI_nonneg (c : CnvCfg) (i : ℚ) : 0 ≤ clampI c i :=
  le_min (le_max_left _ _) (by positivity)

theorem eta_inp_range (h : Rounding fl) (c : CnvCfg) (hc : c.Valid) {v i eta : ℚ}
    (he : getInputEfficiency fl c v i = .ok eta) : 0 ≤ eta ∧ eta ≤ 255/256 := by
  obtain ⟨row, x, hr, hx, he'⟩ := getInputEfficiency_ok (fl := fl) c hc v i
  rw [he'] at he
  injection he with he
  have hx8 := (hc.lutInpCols row hr).2 x hx
  have e : fl ((x:ℚ) / 2^8) = (x:ℚ) / 2^8 := by
    have := h.exact x (-8) (by
      rw [abs_of_nonneg (by positivity)]
      have : (x:ℤ) < 2^8 := by exact_mod_cast hx8
      have : (2:ℤ)^8 ≤ 2^53 := by norm_num
      omega) (by norm_num)
    rw [zpow_neg] at this
    simpa [div_eq_mul_inv] using this
  rw [e] at he
  rw [← he]
  have hx' : (x:ℚ) ≤ 255 := by exact_mod_cast (by omega : x ≤ 255)
  constructor
  · positivity
  · rw [div_le_div_iff₀ (by norm_num) (by norm_num)]; norm_num; linarith

theorem eta_out_value (h : Rounding fl) (c : CnvCfg) (hc : c.Valid) {i eta : ℚ}
    (he : getOutputInvEfficiency fl c i = .ok eta) :
    ∃ x ∈ c.lutOutInvEfficiencyN4, eta = (x:ℚ) / 16 := by
  obtain ⟨x, hx, he'⟩ := getOutputInvEfficiency_ok (fl := fl) c hc i
  rw [he'] at he
  injection he with he
  have hx8 := hc.lutOut.2 x hx
  refine ⟨x, hx, ?_⟩
  have := h.exact x (-4) (by
      rw [abs_of_nonneg (by positivity)]
      have : (x:ℤ) < 2^32 := by exact_mod_cast hx8
      have : (2:ℤ)^32 ≤ 2^53 := by norm_num
      omega) (by norm_num)
  rw [← he]
  rw [zpow_neg] at this
  norm_num [div_eq_mul_inv] at this ⊢
  exact this

theorem clampV_rep (h : Rounding fl) (c : CnvCfg) (hc : c.Valid) (v : ℚ) :
    fl (clampV fl c v) = clampV fl c v := by
  unfold clampV
  rcases min_choice (if max 0 v > c.vInputDrop then fl (max 0 v - c.vInputDrop) else 0)
    (c.vInputMax : ℚ) with e | e <;> rw [e]
  · split_ifs
    · exact h.idem _
    · exact h.zero
  · exact natCast_fl h hc.vInputMax

/-- The voltage a source sees behind diode and resistor, storage without boost. -/
theorem storeU_bounds (h : Rounding fl) {V m r : ℚ} (hV : fl V = V) (hV0 : 0 ≤ V) (hm : fl m = m)
    (hm0 : 0 ≤ m) (hr0 : 0 ≤ r) :
    let u := if r > (if V ≥ m then fl (V - m) else 0) then m else fl (V - r)
    0 ≤ u ∧ fl u = u ∧ u ≤ max V m ∧ (m ≤ V → u ≤ V) ∧ (r = 0 → u ≤ V) := by
  intro u
  have hle : fl (V - r) ≤ V := by
    have := h.mono (show V - r ≤ V by linarith); rwa [hV] at this
  by_cases h1 : r > (if V ≥ m then fl (V - m) else 0)
  · have hu : u = m := if_pos h1
    rw [hu]
    refine ⟨hm0, hm, le_max_right _ _, fun hmv => hmv, ?_⟩
    intro hr; rw [hr] at h1
    split_ifs at h1 with h2
    · exact h2
    · exact absurd h1 (lt_irrefl _)
  · have hu : u = fl (V - r) := if_neg h1
    rw [hu]
    refine ⟨?_, h.idem _, le_trans hle (le_max_left _ _), fun _ => hle, fun _ => hle⟩
    apply h.nonneg
    push Not at h1
    split_ifs at h1 with h2
    · have := h.mono (show V - m ≤ V by linarith)
      rw [hV] at this; linarith
    · linarith

/-- Input power in terms of the voltage that counts: `w` is between 0 and the clamped input
voltage, except that storage without boost may use the storage voltage instead. -/
theorem inp_power_form (h : Rounding fl) (c : CnvCfg) (hc : c.Valid) (s : CnvState)
    (hm : 0 ≤ s.vMid) (hmr : fl s.vMid = s.vMid) (v i : ℚ) {s' : CnvState} {r : ℤ}
    (hs : calcInpPower fl c s v i = .ok (s', r)) :
    ∃ eta w : ℚ, s'.pInp = fl (fl (eta * w) * clampI c i) ∧ 0 ≤ eta ∧ eta ≤ 1 ∧ 0 ≤ w ∧ fl w = w ∧
      w ≤ max (clampV fl c v) s.vMid ∧
      (c.enableBoost = true ∨ c.enableStorage = false ∨ s.vMid ≤ clampV fl c v ∨
        c.rInputN22 = 0 → w ≤ clampV fl c v) := by
  have hv := clampV_nonneg h c v
  have hvr := clampV_rep h c hc v
  cases hb : c.enableBoost
  · cases hst : c.enableStorage
    · obtain ⟨rfl, -⟩ := calcInpPower_direct c hb hst s v i hs
      exact ⟨1, 0, rfl, by norm_num, le_rfl, le_rfl, h.zero, le_trans hv (le_max_left _ _), fun _ => hv⟩
    · obtain ⟨h1, -⟩ := calcInpPower_store c hb hst s v i hs
      have hr0 : 0 ≤ fl (clampI c i * c.rInput fl) :=
        h.nonneg (mul_nonneg (clampI_nonneg c i) (h.nonneg (by positivity)))
      have hu := storeU_bounds h hvr hv hmr hm hr0
      have hrz : c.rInputN22 = 0 → fl (clampI c i * c.rInput fl) = 0 := by
        intro hz; simp [CnvCfg.rInput, hz, h.zero]
      simp only at h1 hu
      generalize (if fl (clampI c i * c.rInput fl) >
          (if clampV fl c v ≥ s.vMid then fl (clampV fl c v - s.vMid) else 0) then s.vMid
          else fl (clampV fl c v - fl (clampI c i * c.rInput fl))) = u at h1 hu
      obtain ⟨u0, ur, u1, u2, u3⟩ := hu
      cases hf : c.feedbackToHrv
      · rw [hf] at h1
        by_cases hlt : u < s.vMid
        · refine ⟨1, 0, ?_, by norm_num, le_rfl, le_rfl, h.zero, le_trans hv (le_max_left _ _),
            fun _ => hv⟩
          rw [h1]; simp [hlt]
        · refine ⟨1, u, ?_, by norm_num, le_rfl, u0, ur, u1, ?_⟩
          · rw [h1]; simp [hlt]
          · rintro (hx | hx | hx | hx)
            · exact absurd hx (by simp)
            · exact absurd hx (by simp)
            · exact u2 hx
            · exact u3 (hrz hx)
      · rw [hf] at h1
        refine ⟨1, u, ?_, by norm_num, le_rfl, u0, ur, u1, ?_⟩
        · rw [h1]; simp
        · rintro (hx | hx | hx | hx)
          · exact absurd hx (by simp)
          · exact absurd hx (by simp)
          · exact u2 hx
          · exact u3 (hrz hx)
  · obtain ⟨eta, he, rfl, -⟩ := calcInpPower_boost c hb s v i hs
    have he' := eta_inp_range h c hc he
    refine ⟨eta, _, rfl, he'.1, by linarith [he'.2], ?_, ?_, ?_, ?_⟩
    · split_ifs
      · exact le_rfl
      · exact hv
    · split_ifs
      · exact h.zero
      · exact hvr
    · split_ifs
      · exact le_trans hv (le_max_left _ _)
      · exact le_max_left _ _
    · intro _
      split_ifs
      · exact hv
      · exact le_rfl

theorem clampV_le (h : Rounding fl) (c : CnvCfg) (v : ℚ) (hv : fl v = v) :
    clampV fl c v ≤ max 0 v := by
  unfold clampV
  refine le_trans (min_le_left _ _) ?_
  split_ifs
  · have hr : fl (max 0 v) = max 0 v := by
      rcases max_choice 0 v with e | e <;> rw [e]
      · exact h.zero
      · exact hv
    have hd : (0:ℚ) ≤ c.vInputDrop := by positivity
    have := h.mono (show max 0 v - c.vInputDrop ≤ max 0 v by linarith)
    rwa [hr] at this
  · exact le_max_left _ _

theorem clampI_le (c : CnvCfg) (i : ℚ) : clampI c i ≤ max 0 i := min_le_left _ _

theorem inp_power_nonneg (h : Rounding fl) (c : CnvCfg) (hc : c.Valid) (s : CnvState)
    (hm : 0 ≤ s.vMid) (hmr : fl s.vMid = s.vMid) (v i : ℚ) {s' : CnvState} {r : ℤ}
    (hs : calcInpPower fl c s v i = .ok (s', r)) : 0 ≤ s'.pInp := by
  obtain ⟨eta, w, e, h0, -, hw, -⟩ := inp_power_form h c hc s hm hmr v i hs
  rw [e]
  exact h.nonneg (mul_nonneg (h.nonneg (mul_nonneg h0 hw)) (clampI_nonneg c i))

/-- Storage voltage before every sample: not negative (also before the first one). -/
theorem vMid_nonneg (h : Rounding fl) (c : CnvCfg) (hc : c.Valid) (cal : CalEmulator)
    (xs : List CnvIn) (s : CnvState) (os : List CnvOut)
    (hrun : cnvRun fl c cal (CnvState.init fl c cal) xs = .ok (s, os)) : 0 ≤ s.vMid := by
  rcases xs with _ | ⟨x, xs⟩
  · injection hrun with hrun
    injection hrun with h1 _
    rw [← h1]; exact Nat.cast_nonneg _
  · exact (C08_storage_bounds h c hc cal _ (by simp) s os hrun).1.1

/-- The first `n` samples draw nothing: the returned drain is 0 and a storage capacitor does not
lose voltage (unless the configured maximum cuts it). -/
theorem C12_no_drain (h : Rounding fl) (c : CnvCfg) (hc : c.Valid) (cal : CalEmulator)
    (xs : List CnvIn) (x : CnvIn) (s s' : CnvState) (os : List CnvOut) (o : CnvOut)
    (hrun : cnvRun fl c cal (CnvState.init fl c cal) xs = .ok (s, os))
    (hstep : cnvStep fl c cal s x = .ok (s', o))
    (hk : xs.length < c.intervalStartupDelayDrainN) :
    o.pOut = 0 ∧ s'.pOut = 0 ∧
      (c.enableStorage = true → min s.vMid c.vIntermediateMax ≤ o.vCap) := by
  have hn := startup_count c cal xs s os hrun
  have hm := vMid_nonneg h c hc cal xs s os hrun
  have hmr := vMid_rep h c hc cal xs s os hrun
  obtain ⟨sa, ra, sb, rb, ha, hb, rfl, rfl⟩ := cnvStep_ok c cal s x hstep
  have hf := calcInpPower_frame c s x.v x.i ha
  have hp := inp_power_nonneg h c hc s hm hmr x.v x.i ha
  obtain ⟨eta, -, hsb, hrb⟩ := calcOutPower_eq c cal sa x.adc hb
  have hpos : sa.startupN > 0 := by rw [hf.2.1]; omega
  have hp0 : sb.pOut = 0 := by rw [hsb]; simp [hpos]
  refine ⟨by simp only [hrb, hp0]; simp, ?_, ?_⟩
  · rw [(us_frame c cal _).2.2.1, updateCapStorage_eq]; exact hp0
  · intro hst
    have hmid : sb.vMid = s.vMid := by
      rw [hsb]; simp only [hf.2.2.2.2.2.2.2.1]; simp [hst]
    have hpi : sb.pInp = sa.pInp := by rw [hsb]
    rw [updateCapStorage_eq]
    simp only [hst, if_true, hp0, hmid, hpi, sub_zero]
    refine le_trans ?_ (le_max_left _ _)
    refine min_le_min_right _ ?_
    conv_lhs => rw [← hmr]
    apply h.mono
    have : 0 ≤ fl (fl (fl sa.pInp / max 1 s.vMid) * c.capConstant fl) := by
      refine h.nonneg (mul_nonneg (h.nonneg (div_nonneg (h.nonneg hp) ?_)) (h.nonneg (by positivity)))
      exact le_trans zero_le_one (le_max_left _ _)
    linarith

/-- During start-up, up to the sample before its last one, the output is driven although the switch
may be off. -/
theorem C12_driven (c : CnvCfg) (cal : CalEmulator)
    (xs : List CnvIn) (x : CnvIn) (s s' : CnvState) (os : List CnvOut) (o : CnvOut)
    (hrun : cnvRun fl c cal (CnvState.init fl c cal) xs = .ok (s, os))
    (hstep : cnvStep fl c cal s x = .ok (s', o))
    (hk : xs.length + 1 < c.intervalStartupDelayDrainN) :
    s'.vOut = (if c.enableBuck = true ∧ ((c.vOutput : ℚ) + c.vBuckDrop < s'.vMid)
        then (c.vOutput : ℚ) else if (c.vBuckDrop : ℚ) < s'.vMid then fl (s'.vMid - c.vBuckDrop) else 0) ∧
      s'.vOutRaw = convUVToDacRaw fl cal.dacVA s'.vOut := by
  have hn := startup_count c cal xs s os hrun
  obtain ⟨sa, ra, sb, rb, ha, hb, rfl, rfl⟩ := cnvStep_ok c cal s x hstep
  have hsn : (updateStatesAndOutput fl c cal (updateCapStorage fl c sb).1).1.startupN > 0 := by
    rw [(us_frame c cal _).1, updateCapStorage_eq]
    obtain ⟨eta, -, rfl, -⟩ := calcOutPower_eq c cal sa x.adc hb
    have := (calcInpPower_frame c s x.v x.i ha).2.1
    simp only [this]; omega
  obtain ⟨-, h2⟩ := us_vOutRaw (fl := fl) c cal (updateCapStorage fl c sb).1
  have h3 := us_vOut (fl := fl) c cal (updateCapStorage fl c sb).1
  generalize (updateStatesAndOutput fl c cal (updateCapStorage fl c sb).1).1 = t at hsn h2 h3 ⊢
  simp only [hsn, decide_true, Bool.or_true, if_true] at h2 h3
  refine ⟨?_, h2⟩
  rw [h3]
  cases hbk : c.enableBuck
  · simp
  · by_cases hle : t.vMid ≤ (c.vOutput:ℚ) + c.vBuckDrop
    · simp [hle, not_lt.mpr hle]
    · simp [hle, not_le.mp hle]

/-! ## C18 noise residue -/

/-- The converted current is never negative and the residue never leaves 0..60000 nA. -/
theorem C18_bounds (h : Rounding fl) (adc : CalPair) (hc : adc.Valid) (residue : ℚ)
    (h0 : 0 ≤ residue) (h1 : residue ≤ 60000) (raw : ℤ) (hr : 0 ≤ raw) :
    0 ≤ (convAdcRawToNA fl adc residue raw).1 ∧
      0 ≤ (convAdcRawToNA fl adc residue raw).2 ∧ (convAdcRawToNA fl adc residue raw).2 ≤ 60000 := by
  unfold convAdcRawToNA
  simp only
  split_ifs with ho hi
  · exact ⟨h.nonneg (by linarith), le_rfl, by norm_num⟩
  · refine ⟨le_rfl, le_min (h.nonneg (by linarith)) (by norm_num [residueMax]), ?_⟩
    refine le_trans (min_le_right _ _) (by norm_num [residueMax])
  · refine ⟨h.nonneg (mul_nonneg ?_ (by norm_num)), h0, h1⟩
    exact C03_raw_to_si_sign h adc hc (not_lt.mp ho) raw (by exact_mod_cast hr)

/-- Converting a series of codes: the currents handed on and the final residue. -/
def convSeries (fl : ℚ → ℚ) (adc : CalPair) : ℚ → List ℤ → List ℚ × ℚ
  | residue, [] => ([], residue)
  | residue, r :: rs =>
    let p := convAdcRawToNA fl adc residue r
    let q := convSeries fl adc p.2 rs
    (p.1 :: q.1, q.2)

/-- The uncompensated currents (possibly negative) in nA. -/
def plainCurrents (adc : CalPair) (raws : List ℤ) : List ℚ :=
  raws.map (fun r : ℤ => ((r : ℚ) * adc.gain + adc.offset) * 10^9)

theorem convAdc_exact (adc : CalPair) (residue : ℚ) (raw : ℤ) (ho : adc.offset < 0) :
    let i := ((raw : ℚ) * adc.gain + adc.offset) * 10^9
    convAdcRawToNA exact adc residue raw =
      if i > residue then (i - residue, 0) else (0, min (residue - i) 60000) := by
  simp [convAdcRawToNA, CalPair.rawToSi, ho, residueMax]

/-- Over a whole series with a negative offset the handed-on charge is never less than the plain
sum plus the residue change: nothing is lost. -/
theorem C18_charge_lower (adc : CalPair) (ho : adc.offset < 0) (raws : List ℤ) :
    (plainCurrents adc raws).sum + (convSeries exact adc 0 raws).2 ≤
      (convSeries exact adc 0 raws).1.sum := by
  suffices H : ∀ (raws : List ℤ) (res : ℚ), (plainCurrents adc raws).sum +
      (convSeries exact adc res raws).2 ≤ (convSeries exact adc res raws).1.sum + res by
    simpa using H raws 0
  intro raws
  induction raws with
  | nil => intro res; simp [plainCurrents, convSeries]
  | cons r rs ih =>
    intro res
    have e := convAdc_exact adc res r ho
    simp only at e
    have := ih (convAdcRawToNA exact adc res r).2
    simp only [plainCurrents, List.map_cons, List.sum_cons, convSeries] at this ⊢
    have key : ((r:ℚ) * adc.gain + adc.offset) * 10^9 + (convAdcRawToNA exact adc res r).2 ≤
        (convAdcRawToNA exact adc res r).1 + res := by
      rw [e]
      split_ifs
      · simp
      · have := min_le_left (res - ((r:ℚ) * adc.gain + adc.offset) * 10^9) 60000
        simp only; linarith
    linarith

/-- If the negative excursions of the series sum up to no more than 60000 nA the compensation is
exact: handed-on charge = plain charge + what is still in the residue. -/
theorem C18_charge_exact_partial (adc : CalPair) (ho : adc.offset < 0) (raws : List ℤ)
    (hneg : ((plainCurrents adc raws).map (fun i => max 0 (-i))).sum ≤ 60000) :
    (convSeries exact adc 0 raws).1.sum =
      (plainCurrents adc raws).sum + (convSeries exact adc 0 raws).2 := by
  suffices H : ∀ (raws : List ℤ) (res : ℚ), 0 ≤ res →
      res + ((plainCurrents adc raws).map (fun i => max 0 (-i))).sum ≤ 60000 →
      (convSeries exact adc res raws).1.sum + res =
      (plainCurrents adc raws).sum + (convSeries exact adc res raws).2 by
    simpa using H raws 0 le_rfl (by simpa using hneg)
  intro raws
  induction raws with
  | nil => intro res _ _; simp [plainCurrents, convSeries, add_comm]
  | cons r rs ih =>
    intro res hr0 hsum
    have e := convAdc_exact adc res r ho
    simp only at e
    simp only [plainCurrents, List.map_cons, List.sum_cons, convSeries] at hsum ih ⊢
    set i := ((r:ℚ) * adc.gain + adc.offset) * 10^9 with hi
    have hrest : 0 ≤ ((rs.map (fun r : ℤ => ((r : ℚ) * adc.gain + adc.offset) * 10^9)).map
        (fun i => max 0 (-i))).sum := by
      apply List.sum_nonneg
      intro x hx
      obtain ⟨y, -, rfl⟩ := List.mem_map.mp hx
      exact le_max_left _ _
    have hmx := le_max_left 0 (-i)
    have hmy := le_max_right 0 (-i)
    by_cases hgt : i > res
    · rw [if_pos hgt] at e
      rw [e]
      have := ih 0 le_rfl (by linarith)
      simp only; linarith
    · rw [if_neg hgt] at e
      have hle : res - i ≤ 60000 := by linarith
      rw [min_eq_left hle] at e
      rw [e]
      have := ih (res - i) (by linarith) (by linarith)
      simp only; linarith

example : (⟨2/10000000, -1/1000000⟩ : CalPair).offset < 0 ∧
    ((plainCurrents ⟨2/10000000, -1/1000000⟩ [0, 3, 20, 5]).map (fun i => max 0 (-i))).sum ≤ 60000 ∧
    (convSeries exact ⟨2/10000000, -1/1000000⟩ 0 [0, 3, 20, 5]).1 = [0, 0, 1600, 0] := by
  decide +kernel

/-! ## C14 drain -/

/-- Output voltage before every sample: a float, not negative. -/
theorem vOut_rep (h : Rounding fl) (c : CnvCfg) (hc : c.Valid) (cal : CalEmulator)
    (xs : List CnvIn) (s : CnvState) (os : List CnvOut)
    (hrun : cnvRun fl c cal (CnvState.init fl c cal) xs = .ok (s, os)) :
    0 ≤ s.vOut ∧ fl s.vOut = s.vOut := by
  refine cnvRun_inv c cal (fun _ s => 0 ≤ s.vOut ∧ fl s.vOut = s.vOut) ?_ xs 0 _ s os
    ⟨Nat.cast_nonneg _, natCast_fl h hc.vOutput⟩ hrun
  intro k s x s' o _ hstep
  obtain ⟨sa, ra, sb, rb, ha, hb, rfl, -⟩ := cnvStep_ok c cal s x hstep
  have := us_vOut (fl := fl) c cal (updateCapStorage fl c sb).1
  simp only at this
  rw [this]
  split_ifs with h1 h2 h3
  · exact ⟨h.nonneg (by linarith), h.idem _⟩
  · exact ⟨le_rfl, h.zero⟩
  · exact ⟨Nat.cast_nonneg _, natCast_fl h hc.vOutput⟩
  · exact ⟨le_rfl, h.zero⟩

/-- Residue after every history. -/
theorem residue_range (h : Rounding fl) (c : CnvCfg) (cal : CalEmulator) (hcal : cal.adcCA.Valid)
    (xs : List CnvIn) (s : CnvState) (os : List CnvOut)
    (hrun : cnvRun fl c cal (CnvState.init fl c cal) xs = .ok (s, os)) :
    0 ≤ s.residue ∧ s.residue ≤ 60000 := by
  refine cnvRun_inv c cal (fun _ s => 0 ≤ s.residue ∧ s.residue ≤ 60000) ?_ xs 0 _ s os
    ⟨le_rfl, by simp [CnvState.init]⟩ hrun
  intro k s x s' o hk hstep
  obtain ⟨sa, ra, sb, rb, ha, hb, rfl, -⟩ := cnvStep_ok c cal s x hstep
  rw [(us_frame c cal _).2.2.2.1, updateCapStorage_eq]
  obtain ⟨eta, -, rfl, -⟩ := calcOutPower_eq c cal sa x.adc hb
  have hres := (calcInpPower_frame c s x.v x.i ha).2.2.2.2.2.2.1
  have := C18_bounds h cal.adcCA hcal sa.residue (by rw [hres]; exact hk.1) (by rw [hres]; exact hk.2)
    (min (2^18-1) (max 0 x.adc)) (by omega)
  exact this.2

theorem C18_residue_run (h : Rounding fl) (c : CnvCfg) (cal : CalEmulator) (hcal : cal.adcCA.Valid)
    (xs : List CnvIn) (s : CnvState) (os : List CnvOut)
    (hrun : cnvRun fl c cal (CnvState.init fl c cal) xs = .ok (s, os)) :
    0 ≤ s.residue ∧ s.residue ≤ 60000 := residue_range h c cal hcal xs s os hrun

/-- Outside start-up the drain covers load and leakage: with output efficiencies of at most 100 %
(table entries of at least 16/16) the drain is at least what the float unit computes for output
voltage times output current plus leakage; it is never negative. -/
theorem C14_drain (h : Rounding fl) (c : CnvCfg) (hc : c.Valid) (cal : CalEmulator)
    (hcal : cal.adcCA.Valid) (hl : ∀ e ∈ c.lutOutInvEfficiencyN4, 16 ≤ e)
    (s s' : CnvState) (adc r : ℤ) (hs : s.startupN = 0) (hv : 0 ≤ s.vOut) (hvr : fl s.vOut = s.vOut)
    (hm : 0 ≤ s.vMid) (hr0 : 0 ≤ s.residue) (hr1 : s.residue ≤ 60000)
    (hout : calcOutPower fl c cal s adc = .ok (s', r)) :
    let iOut := (convAdcRawToNA fl cal.adcCA s.residue (min (2^18-1) (max 0 adc))).1
    fl (fl (s.vOut * iOut) + fl (s.vMid * c.iIntermediateLeak)) ≤ s'.pOut ∧
      fl (s.vOut * iOut) ≤ s'.pOut ∧ 0 ≤ s'.pOut ∧ r = pyRound s'.pOut ∧ 0 ≤ r := by
  intro iOut
  have hi := (C18_bounds h cal.adcCA hcal s.residue hr0 hr1 (min (2^18-1) (max 0 adc)) (by omega)).1
  obtain ⟨eta, he, rfl, hr⟩ := calcOutPower_eq c cal s adc hout
  have he1 : 1 ≤ eta := by
    cases hb : c.enableBuck
    · rw [hb] at he
      simp only [Bool.false_eq_true, if_false] at he
      injection he with he; rw [← he]
    · rw [hb] at he
      simp only [if_true] at he
      obtain ⟨x, hx, hxe⟩ := eta_out_value h c hc he
      have : (16:ℚ) ≤ x := by exact_mod_cast hl x hx
      rw [hxe, le_div_iff₀ (by norm_num)]; linarith
  have h1 : s.vOut ≤ fl (eta * s.vOut) := by
    rw [← hvr]; apply h.mono; rw [hvr]; nlinarith
  have h2 : fl (s.vOut * iOut) ≤ fl (fl (eta * s.vOut) * iOut) :=
    h.mono (mul_le_mul_of_nonneg_right h1 hi)
  have hleak : 0 ≤ fl (s.vMid * c.iIntermediateLeak) :=
    h.nonneg (mul_nonneg hm (by positivity))
  have h4 : fl (fl (s.vOut * iOut) + fl (s.vMid * c.iIntermediateLeak)) ≤
      fl (fl (fl (eta * s.vOut) * iOut) + fl (s.vMid * c.iIntermediateLeak)) :=
    h.mono (by linarith)
  have h5 : fl (s.vOut * iOut) ≤ fl (fl (s.vOut * iOut) + fl (s.vMid * c.iIntermediateLeak)) := by
    have := h.mono (show fl (s.vOut * iOut) ≤
      fl (s.vOut * iOut) + fl (s.vMid * c.iIntermediateLeak) by linarith)
    rwa [h.idem] at this
  have h6 : 0 ≤ fl (s.vOut * iOut) := h.nonneg (mul_nonneg hv hi)
  simp only [hs, gt_iff_lt, lt_irrefl, if_false] at hr ⊢
  refine ⟨h4, le_trans h5 h4, by linarith, hr, ?_⟩
  rw [hr]; exact pyRound_nonneg (by linarith)

/-- The same along runs: from sample `n` on the storage is drained by at least output voltage times
output current of that sample. -/
theorem C14_drain_run (h : Rounding fl) (c : CnvCfg) (hc : c.Valid) (cal : CalEmulator)
    (hcal : cal.adcCA.Valid) (hl : ∀ e ∈ c.lutOutInvEfficiencyN4, 16 ≤ e)
    (xs : List CnvIn) (x : CnvIn) (s s' : CnvState) (os : List CnvOut) (o : CnvOut)
    (hrun : cnvRun fl c cal (CnvState.init fl c cal) xs = .ok (s, os))
    (hstep : cnvStep fl c cal s x = .ok (s', o)) (hk : c.intervalStartupDelayDrainN ≤ xs.length) :
    let iOut := (convAdcRawToNA fl cal.adcCA s.residue (min (2^18-1) (max 0 x.adc))).1
    0 ≤ iOut ∧ fl (s.vOut * iOut) ≤ s'.pOut ∧ o.pOut = pyRound s'.pOut ∧ 0 ≤ o.pOut := by
  intro iOut
  have hn := startup_count c cal xs s os hrun
  have hv := vOut_rep h c hc cal xs s os hrun
  have hm := vMid_nonneg h c hc cal xs s os hrun
  have hr := residue_range h c cal hcal xs s os hrun
  obtain ⟨sa, ra, sb, rb, ha, hb, rfl, rfl⟩ := cnvStep_ok c cal s x hstep
  have hf := calcInpPower_frame c s x.v x.i ha
  have hma : 0 ≤ sa.vMid := by
    rw [hf.2.2.2.2.2.2.2.1]; split_ifs
    · exact clampV_nonneg h c _
    · exact hm
  have hvo := hf.2.2.1
  have hre := hf.2.2.2.2.2.2.1
  have := C14_drain h c hc cal hcal hl sa sb x.adc rb (by rw [hf.2.1]; omega) (by rw [hvo]; exact hv.1)
    (by rw [hvo]; exact hv.2) hma (by rw [hre]; exact hr.1) (by rw [hre]; exact hr.2) hb
  simp only [hvo, hre] at this
  have hpo : (updateStatesAndOutput fl c cal (updateCapStorage fl c sb).1).1.pOut = sb.pOut := by
    rw [(us_frame c cal _).2.2.1, updateCapStorage_eq]
  rw [hpo]
  exact ⟨(C18_bounds h cal.adcCA hcal s.residue hr.1 hr.2 _ (by omega)).1, this.2.1, this.2.2.2.1,
    this.2.2.2.2⟩

example : demoCfg.Valid ∧ demoCal.adcCA.Valid ∧ (∀ e ∈ demoCfg.lutOutInvEfficiencyN4, 16 ≤ e) ∧
    demoCfg.intervalStartupDelayDrainN ≤ demoSamples.length := by
  exact ⟨demoCfg_valid, by decide +kernel, by decide, by decide⟩

/-- From sample `n` on the start-up phase is over, for good. -/
theorem C12_over (c : CnvCfg) (cal : CalEmulator) (xs : List CnvIn) (s : CnvState)
    (os : List CnvOut) (hrun : cnvRun fl c cal (CnvState.init fl c cal) xs = .ok (s, os))
    (hk : c.intervalStartupDelayDrainN ≤ xs.length) (x : CnvIn) (s' : CnvState) (o : CnvOut)
    (hstep : cnvStep fl c cal s x = .ok (s', o)) (hoff : s'.isOutputting = false) :
    s'.vOut = 0 ∧ s'.vOutRaw = 0 ∧ o.vOutRaw = 0 :=
  C10_off_is_zero c cal xs x s s' os o hrun hstep hoff (by omega)

/-! ## C13 input power -/

/-- Boost converter or direct connection (or storage without series resistor, or with the source
above the storage): the credited power is not negative and at most input voltage times input
current, as the float unit computes it. -/
theorem C13_input_power_partial (h : Rounding fl) (c : CnvCfg) (hc : c.Valid) (s s' : CnvState)
    (hm : 0 ≤ s.vMid) (hmr : fl s.vMid = s.vMid) (v i : ℚ) (hv : fl v = v) (r : ℤ)
    (hs : calcInpPower fl c s v i = .ok (s', r))
    (hmode : c.enableBoost = true ∨ c.enableStorage = false ∨
      s.vMid ≤ min (fl (v - c.vInputDrop)) c.vInputMax ∨ c.rInputN22 = 0) :
    0 ≤ s'.pInp ∧ s'.pInp ≤ fl (max 0 v * max 0 i) ∧ r = pyRound s'.pInp := by
  obtain ⟨eta, w, e, h0, h1, hw, hwr, -, hle⟩ := inp_power_form h c hc s hm hmr v i hs
  have hi := clampI_nonneg c i
  have hwv : w ≤ max 0 v := by
    refine le_trans (hle ?_) (clampV_le h c v hv)
    rcases hmode with hx | hx | hx | hx
    · exact Or.inl hx
    · exact Or.inr (Or.inl hx)
    · rcases hm.eq_or_lt with hm0 | hm0
      · right; right; left; rw [← hm0]; exact clampV_nonneg h c v
      · right; right; left
        refine le_trans hx ?_
        unfold clampV
        refine min_le_min_right _ ?_
        have hpos : 0 < fl (v - c.vInputDrop) := lt_of_lt_of_le hm0 (le_trans hx (min_le_left _ _))
        have hd : (0:ℚ) ≤ c.vInputDrop := by positivity
        have hvd : 0 < v - c.vInputDrop := by
          by_contra hn; push Not at hn
          have := h.nonpos hn; linarith
        have : max 0 v = v := max_eq_right (by linarith)
        rw [this, if_pos (by linarith)]
    · exact Or.inr (Or.inr (Or.inr hx))
  have hew : fl (eta * w) ≤ w := by
    have := h.mono (show eta * w ≤ w by nlinarith)
    rwa [hwr] at this
  have hew0 : 0 ≤ fl (eta * w) := h.nonneg (mul_nonneg h0 hw)
  refine ⟨?_, ?_, (calcInpPower_frame c s v i hs).2.2.2.2.2.2.2.2⟩
  · rw [e]; exact h.nonneg (mul_nonneg hew0 hi)
  · rw [e]
    apply h.mono
    exact mul_le_mul (le_trans hew hwv) (clampI_le c i) hi (le_max_left _ _)

/-- Diode drop and input limits: with boost or direct connection the credited power is at most
(clamped) voltage behind the diode times limited current. -/
theorem C13_input_limits (h : Rounding fl) (c : CnvCfg) (hc : c.Valid) (s s' : CnvState)
    (hm : 0 ≤ s.vMid) (hmr : fl s.vMid = s.vMid) (v i : ℚ) (r : ℤ)
    (hs : calcInpPower fl c s v i = .ok (s', r))
    (hmode : c.enableBoost = true ∨ c.enableStorage = false) :
    s'.pInp ≤ fl (min (fl (max 0 (max 0 v - c.vInputDrop))) c.vInputMax *
      min (max 0 i) c.iInputMax) := by
  obtain ⟨eta, w, e, h0, h1, hw, hwr, -, hle⟩ := inp_power_form h c hc s hm hmr v i hs
  have hi := clampI_nonneg c i
  have hwv : w ≤ min (fl (max 0 (max 0 v - c.vInputDrop))) c.vInputMax := by
    refine le_trans (hle (by tauto)) ?_
    unfold clampV
    refine min_le_min_right _ ?_
    split_ifs with hd
    · exact h.mono (le_max_right _ _)
    · exact h.nonneg (le_max_left _ _)
  have hew : fl (eta * w) ≤ w := by
    have := h.mono (show eta * w ≤ w by nlinarith)
    rwa [hwr] at this
  rw [e]
  exact h.mono (mul_le_mul (le_trans hew hwv) le_rfl hi (le_trans hw hwv))

/-- A boost converter harvests nothing from a source below its threshold (behind the diode). -/
theorem C13_boost_threshold (h : Rounding fl) (c : CnvCfg) (hb : c.enableBoost = true)
    (s s' : CnvState) (v i : ℚ) (r : ℤ) (hs : calcInpPower fl c s v i = .ok (s', r))
    (hlt : min (fl (max 0 (max 0 v - c.vInputDrop))) c.vInputMax < c.vInputBoostThreshold) :
    s'.pInp = 0 ∧ r = 0 := by
  obtain ⟨eta, -, rfl, hr⟩ := calcInpPower_boost c hb s v i hs
  have hcl : clampV fl c v < c.vInputBoostThreshold := by
    refine lt_of_le_of_lt ?_ hlt
    unfold clampV
    refine min_le_min_right _ ?_
    split_ifs with hd
    · exact h.mono (le_max_right _ _)
    · exact h.nonneg (le_max_left _ _)
  simp only [hcl, if_true, mul_zero, h.zero, zero_mul] at hr ⊢
  exact ⟨trivial, by rw [hr]; simp⟩

example : demoCfg.enableBoost = true ∧
    min (b64 (max 0 (max 0 (100000:ℚ) - demoCfg.vInputDrop))) demoCfg.vInputMax <
      demoCfg.vInputBoostThreshold := by decide +kernel

/-- In every mode the credited power is at most the larger of input and storage voltage times the
input current. -/
theorem C13_input_power_general_partial (h : Rounding fl) (c : CnvCfg) (hc : c.Valid)
    (s s' : CnvState) (hm : 0 ≤ s.vMid) (hmr : fl s.vMid = s.vMid) (v i : ℚ) (hv : fl v = v) (r : ℤ)
    (hs : calcInpPower fl c s v i = .ok (s', r)) :
    0 ≤ s'.pInp ∧ s'.pInp ≤ fl (max (max 0 v) s.vMid * max 0 i) := by
  obtain ⟨eta, w, e, h0, h1, hw, hwr, hle, -⟩ := inp_power_form h c hc s hm hmr v i hs
  have hi := clampI_nonneg c i
  have hwv : w ≤ max (max 0 v) s.vMid := le_trans hle (max_le_max_right _ (clampV_le h c v hv))
  have hew : fl (eta * w) ≤ w := by
    have := h.mono (show eta * w ≤ w by nlinarith)
    rwa [hwr] at this
  have hew0 : 0 ≤ fl (eta * w) := h.nonneg (mul_nonneg h0 hw)
  rw [e]
  exact ⟨h.nonneg (mul_nonneg hew0 hi), h.mono (mul_le_mul (le_trans hew hwv) (clampI_le c i) hi
    (le_trans (le_max_left _ _) (le_max_left _ _)))⟩

example : Rounding b64 ∧ demoCfg.Valid ∧ demoCfg.enableBoost = true ∧ b64 2000000 = 2000000 ∧
    b64 (CnvState.init b64 demoCfg demoCal).vMid = (CnvState.init b64 demoCfg demoCal).vMid :=
  ⟨b64_rounding, demoCfg_valid, by decide, by decide +kernel, by decide +kernel⟩

/-- Diode + resistor + capacitor without boost. -/
def diodeCapCfg : CnvCfg :=
  { demoCfg with converterMode := 0b0001, rInputN22 := 41943040 }

/-- The full claim fails: a source at 0 V feeding 1 mA through a series resistor into a storage at
3.5 V is credited 3.5 V · 1 mA although it delivers nothing. -/
theorem C13_input_power_violated :
    ∃ (c : CnvCfg) (cal : CalEmulator) (v i : ℚ) (s' : CnvState) (r : ℤ), c.Valid ∧
      calcInpPower exact c (CnvState.init exact c cal) v i = .ok (s', r) ∧
      max 0 v * max 0 i = 0 ∧ s'.pInp = 3500000 * 1000000 := by
  refine ⟨diodeCapCfg, demoCal, 0, 1000000, _, _, ?_, rfl, by norm_num, by decide +kernel⟩
  constructor <;> decide

/-! ## C15 power-good -/

/-- Power-good is evaluated when thresholds are checked, or in every sample with the immediate
signal. -/
def PgEvaluated (c : CnvCfg) (k : ℕ) : Prop :=
  k % max 1 c.intervalCheckThresholdsN = 0 ∨ c.immediatePwrGoodSignal ≠ 0

/-- Raised only while the output is enabled and the storage at or above its enable threshold;
dropped at the next evaluation with the storage at or below the disable threshold; kept otherwise. -/
theorem C15_power_good_partial (c : CnvCfg) (hn : c.intervalCheckThresholdsN ≤ 0xFFFFFFF1)
    (cal : CalEmulator) (xs : List CnvIn) (x : CnvIn) (s s' : CnvState) (os : List CnvOut)
    (o : CnvOut) (hrun : cnvRun fl c cal (CnvState.init fl c cal) xs = .ok (s, os))
    (hstep : cnvStep fl c cal s x = .ok (s', o)) :
    (s.powerGood = false → (s'.powerGood = true ↔ PgEvaluated c xs.length ∧
      s'.isOutputting = true ∧ (c.vPwrGoodEnableThreshold : ℚ) ≤ o.vCap)) ∧
    (s.powerGood = true → (s'.powerGood = false ↔ PgEvaluated c xs.length ∧
      o.vCap ≤ c.vPwrGoodDisableThreshold)) := by
  have hck := sample_count c hn cal xs s os hrun
  obtain ⟨t, rfl, hv, ho, hp, hc⟩ := step_states c cal hstep
  have hpg := us_powerGood (fl := fl) c cal t
  simp only at hpg
  rw [hpg, hc, hck, hp, hv]
  unfold PgEvaluated
  by_cases h1 : xs.length % max 1 c.intervalCheckThresholdsN = 0 <;>
    by_cases h2 : c.immediatePwrGoodSignal = 0 <;>
    constructor <;> intro h0 <;> simp [h0, h1, h2, and_comm]

/-- The last clause fails: the output can be switched off while power-good stays raised (direct
connection; source drops from 3 V to 1.5 V, power-good disable threshold 1 V). -/
theorem C15_power_good_violated :
    ∃ (c : CnvCfg) (cal : CalEmulator) (xs : List CnvIn) (s : CnvState) (os : List CnvOut),
      c.Valid ∧ cnvRun exact c cal (CnvState.init exact c cal) xs = .ok (s, os) ∧
      s.powerGood = true ∧ s.isOutputting = false ∧ s.vOut = 0 := by
  refine ⟨{ demoCfg with converterMode := 0, intervalStartupDelayDrainN := 0, intervalCheckThresholdsN := 1, vPwrGoodDisableThreshold := 1000000 }, demoCal,
    [⟨3000000, 0, 0⟩, ⟨1500000, 0, 0⟩], _, _, ?_, rfl, by decide +kernel, by decide +kernel,
    by decide +kernel⟩
  constructor <;> decide

/-! ## C16 storage update -/

/-- Sign: net charging never lowers the voltage below where it was (nor the configured maximum),
net discharging never raises it (above 1 uV). -/
theorem C16_sign (h : Rounding fl) (c : CnvCfg) (s : CnvState)
    (hmr : fl s.vMid = s.vMid) :
    (s.pOut ≤ s.pInp → min s.vMid c.vIntermediateMax ≤ (updateCapStorage fl c s).1.vMid) ∧
    (s.pInp ≤ s.pOut → (updateCapStorage fl c s).1.vMid ≤ max s.vMid 1) := by
  have hprot : (0:ℚ) < max 1 s.vMid := lt_of_lt_of_le one_pos (le_max_left _ _)
  have hK : 0 ≤ c.capConstant fl := h.nonneg (by positivity)
  rw [updateCapStorage_eq]
  simp only
  constructor
  · intro hp
    refine le_trans (min_le_min_right _ ?_) (le_max_left _ _)
    split_ifs
    · conv_lhs => rw [← hmr]
      apply h.mono
      have : 0 ≤ fl (fl (fl (s.pInp - s.pOut) / max 1 s.vMid) * c.capConstant fl) :=
        h.nonneg (mul_nonneg (h.nonneg (div_nonneg (h.nonneg (by linarith)) hprot.le)) hK)
      linarith
    · exact le_rfl
  · intro hp
    refine max_le_max_right _ (le_trans (min_le_left _ _) ?_)
    split_ifs
    · conv_rhs => rw [← hmr]
      apply h.mono
      have : fl (fl (fl (s.pInp - s.pOut) / max 1 s.vMid) * c.capConstant fl) ≤ 0 :=
        h.nonpos (mul_nonpos_of_nonpos_of_nonneg
          (h.nonpos (div_nonpos_of_nonpos_of_nonneg (h.nonpos (by linarith)) hprot.le)) hK)
      linarith
    · exact le_rfl

/-- Energy balance in exact arithmetic: with capacity `C` and sample time `dt` such that the
configured constant is `dt / C`, and away from the limits, the stored energy ½CV² changes by the
net energy of the sample plus the quadratic error of the explicit step. -/
theorem C16_energy (c : CnvCfg) (hst : c.enableStorage = true) (s : CnvState) (C dt : ℚ)
    (hC : 0 < C) (hconst : (c.constantN28 : ℚ) / 2^28 = dt / C) (hv : 1 ≤ s.vMid)
    (hlo : 1 ≤ s.vMid + dt * (s.pInp - s.pOut) / (C * s.vMid))
    (hhi : s.vMid + dt * (s.pInp - s.pOut) / (C * s.vMid) ≤ c.vIntermediateMax) :
    let v' := (updateCapStorage exact c s).1.vMid
    1/2 * C * v'^2 - 1/2 * C * s.vMid^2 =
      dt * (s.pInp - s.pOut) + 1/2 * C * (dt * (s.pInp - s.pOut) / (C * s.vMid))^2 := by
  have hv0 : s.vMid ≠ 0 := by linarith
  have e : (updateCapStorage exact c s).1.vMid =
      s.vMid + dt * (s.pInp - s.pOut) / (C * s.vMid) := by
    rw [updateCapStorage_eq]
    simp only [hst, if_true, CnvCfg.capConstant, hconst, max_eq_right hv]
    have : (s.pInp - s.pOut) / s.vMid * (dt / C) = dt * (s.pInp - s.pOut) / (C * s.vMid) := by
      field_simp
    rw [this, min_eq_left hhi, max_eq_left hlo]
  intro v'
  simp only [v', e]
  field_simp
  ring

/-- The demo storage, charged with 1 mW at 3.5 V. -/
example : demoCfg.enableStorage = true ∧
    (1:ℚ) ≤ (CnvState.init exact demoCfg demoCal).vMid ∧
    (1:ℚ) ≤ 3500000 + 1 * (1000000000000 - 0) / ((2^28 / 26843) * 3500000) ∧
    (3500000 : ℚ) + 1 * (1000000000000 - 0) / ((2^28 / 26843) * 3500000) ≤
      demoCfg.vIntermediateMax ∧
    (demoCfg.constantN28 : ℚ) / 2^28 = 1 / (2^28 / 26843) := by
  decide +kernel

/-! ## C69 reading the intermediate output current -/

/-- Reading the current out of the storage right after a capacitor update, or without
switch-on drop, cannot fail. -/
theorem C69_I_mid_out_partial (h : Rounding fl) (c : CnvCfg) (hc : c.Valid) (cal : CalEmulator)
    (hd : c.dVEnableOutput < c.vEnableOutputThreshold ∨ c.dVEnableOutput = 0)
    (xs : List CnvIn) (hne : xs ≠ []) (s : CnvState) (os : List CnvOut)
    (hrun : cnvRun fl c cal (CnvState.init fl c cal) xs = .ok (s, os)) :
    getIMidOut fl s = .ok (fl (s.pOut / s.vMid)) := by
  have hpos := cnvRun_inv c cal (fun k s => k = 0 ∨ 0 < s.vMid) ?_ xs 0 _ s os (Or.inl rfl) hrun
  · rcases hpos with h0 | h0
    · exact absurd (by simpa using h0) hne
    · unfold getIMidOut; rw [if_neg h0.ne']
  · intro k s x s' o _ hstep
    right
    have hb := (step_vMid_bounds h c hc cal hstep).1.1
    obtain ⟨t, rfl, hv, -⟩ := step_states c cal hstep
    rw [hv] at hb
    rw [us_vMid]
    split_ifs with hcond
    · have ht := hcond.2.2
      unfold CnvCfg.enableThreshold at ht
      have h1 : (1:ℚ) ≤ t.vMid - c.dVEnableOutput := by
        rcases hd with hd | hd
        · have : ((c.dVEnableOutput + 1 : ℕ):ℚ) ≤ ((max c.dVEnableOutput c.vEnableOutputThreshold : ℕ):ℚ) := by
            exact_mod_cast (by omega)
          push_cast at this ht; linarith
        · rw [hd]; simpa using hb
      have := h.int_le (n := 1) (by norm_num) (by simpa using h1)
      have h3 : (1:ℚ) ≤ fl (t.vMid - c.dVEnableOutput) := by simpa using this
      linarith
    · linarith

example : demoCfg.dVEnableOutput < demoCfg.vEnableOutputThreshold := by decide

/-- With a switch-on drop as large as the threshold the read divides by zero. -/
theorem C69_I_mid_out_violated :
    ∃ (c : CnvCfg) (cal : CalEmulator) (xs : List CnvIn) (s : CnvState) (os : List CnvOut),
      c.Valid ∧ cnvRun b64 c cal (CnvState.init b64 c cal) xs = .ok (s, os) ∧
      getIMidOut b64 s = .error .zeroDivisionError := by
  have hv : CnvCfg.Valid { demoCfg with dVEnableOutput := 3500000 } := by constructor <;> decide
  obtain ⟨s, os, h, -⟩ := C17_no_exception (fl := b64) { demoCfg with dVEnableOutput := 3500000 } hv
    demoCal [⟨0, 0, 0⟩]
  have key : (match cnvRun b64 { demoCfg with dVEnableOutput := 3500000 } demoCal
      (CnvState.init b64 { demoCfg with dVEnableOutput := 3500000 } demoCal) [⟨0, 0, 0⟩] with
    | .ok (s, _) => decide (getIMidOut b64 s = .error .zeroDivisionError)
    | .error _ => false) = true := by decide +kernel
  rw [h] at key
  exact ⟨_, demoCal, [⟨0, 0, 0⟩], s, os, hv, h, by simpa using key⟩

end Verif.Props
