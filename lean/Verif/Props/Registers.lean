import Verif.Props.SourceConfig
import Verif.Props.Converter

/-!
# C70: the remaining registers of the source; C15: thresholds of power good
-/

namespace Verif.Props
open Verif.Py Verif.Model

variable {fl : ℚ → ℚ} {sqrt : ℚ → ℚ}

theorem tiny_le : (2:ℚ)^(-1075 : ℤ) ≤ 1/2^100 :=
  le_trans (zpow_le_zpow_right₀ (by norm_num) (by norm_num : (-1075:ℤ) ≤ -100)) (by norm_num)

/-- The error of one operation, as multiple of 2^-53. -/
theorem acc_mag (h : AccRounding fl) {x B : ℚ} (hx : |x| ≤ B) : |fl x - x| ≤ B / 2^53 + 1/2^100 := by
  refine (h.err x).trans (add_le_add ?_ tiny_le)
  exact div_le_div_of_nonneg_right hx (by norm_num)

/-- **C70, resistance and capacity.**  The register of the input resistance holds it in kOhm times 2^22; the constant of the storage capacitor is the sample time over the capacity in
us / nF times 2^28, cut to an integer. -/
theorem C70_constants (h : AccRounding fl) (c : VsrcCfg) (hc : c.Valid fl) (dtypeIn : EnergyDType) (logMid : Bool) (p : CnvCfg) (hp : fromVsrc fl sqrt c dtypeIn logMid = .ok p) :
    Holds p.rInputN22 (c.rInput / 10^6 * 2^22) ∧
    2^28 * (10 / (1000 * max c.cIntermediate (1/1000))) - 1 - 1/10^5 ≤ p.constantN28 ∧ (p.constantN28 : ℚ) ≤ 2^28 * (10 / (1000 * max c.cIntermediate (1/1000))) + 1/10^5 := by
  have r := fromVsrc_regs hp
  constructor
  · have hx := inRange_iff.1 hc.rInput
    have e1 : |fl (1/10^6) - 1/10^6| ≤ 1/10^21 := by
      refine (acc_mag h (B := 1/10^6) (by rw [abs_of_nonneg (by norm_num)])).trans (by norm_num)
    have e2 : |fl (fl (1/10^6) * 2^22) - fl (1/10^6) * 2^22| ≤ 1/10^15 := by
      refine (acc_mag h (B := 5) ?_).trans (by norm_num)
      rw [abs_le] at e1 ⊢
      constructor <;> norm_num at e1 ⊢ <;> linarith
    have hk : |fl (fl (1/10^6) * 2^22) - 2^22/10^6| ≤ 1/10^14 := by
      rw [abs_le] at e1 e2 ⊢
      constructor <;> norm_num at e1 e2 ⊢ <;> linarith
    have hk0 : 0 ≤ fl (fl (1/10^6) * 2^22) := h.toRounding.nonneg (mul_nonneg (h.toRounding.nonneg (by norm_num)) (by norm_num))
    have hk1 : fl (fl (1/10^6) * 2^22) ≤ 5 := by
      rw [abs_le] at hk
      norm_num at hk ⊢
      linarith
    have := reg_close h (y := c.rInput / 10^6 * 2^22) (e := 1/10^7) r.rInputN22 (mul_nonneg hx.1 hk0) (by nlinarith) (by
      have : c.rInput * fl (fl (1/10^6) * 2^22) - c.rInput / 10^6 * 2^22 = c.rInput * (fl (fl (1/10^6) * 2^22) - 2^22/10^6) := by ring
      rw [this, abs_mul, abs_of_nonneg hx.1]
      calc _ ≤ 4290000 * (1/10^14) := mul_le_mul hx.2 hk (abs_nonneg _) (by norm_num)
        _ ≤ _ := by norm_num)
    unfold Holds
    linarith
  · have hm := milli_close h
    rw [abs_le] at hm
    have hM : 1/1000 ≤ max c.cIntermediate (1/1000) := le_max_right _ _
    have hcap : |max c.cIntermediate (fl (1/1000)) - max c.cIntermediate (1/1000)| ≤ 1/10^18 := by
      have h1 : max c.cIntermediate (fl (1/1000)) ≤ max c.cIntermediate (1/1000) + 1/10^18 :=
        max_le (by linarith [le_max_left c.cIntermediate (1/1000)]) (by linarith [le_max_right c.cIntermediate (1/1000)])
      have h2 : max c.cIntermediate (1/1000) ≤ max c.cIntermediate (fl (1/1000)) + 1/10^18 :=
        max_le (by linarith [le_max_left c.cIntermediate (fl (1/1000))]) (by linarith [le_max_right c.cIntermediate (fl (1/1000))])
      exact abs_le.mpr ⟨by linarith, by linarith⟩
    have hq := (u32_ok_iff.1 r.constantN28).1
    unfold VsrcCfg.capConstant at hq
    dsimp only at hq
    generalize max c.cIntermediate (1/1000) = M at hM hcap ⊢
    generalize max c.cIntermediate (fl (1/1000)) = cap at hcap hq
    rw [abs_le] at hcap
    have hy := h.err (cap * 100000)
    have hcap0 : 0 ≤ cap * 100000 := by linarith [hcap.1]
    rw [abs_of_nonneg hcap0] at hy
    have htiny := tiny_le
    generalize (2:ℚ)^(-1075 : ℤ) = t at hy htiny
    generalize fl (cap * 100000) = y at hy hq
    rw [abs_le] at hy
    have y1 : 100000 * M * (1 - 2/10^15) ≤ y := by
      norm_num at hy htiny hcap ⊢
      linarith [hy.1, hcap.1]
    have y2 : y ≤ 100000 * M * (1 + 2/10^15) := by
      norm_num at hy htiny hcap ⊢
      linarith [hy.2, hcap.2]
    have hM0 : 0 < M := by linarith
    have hy0 : 0 < y := lt_of_lt_of_le (by positivity) y1
    have hX0 : 2^28 * (10 / (1000 * M)) ≤ (27 * 10^8 : ℚ) := by
      rw [← mul_div_assoc, div_le_iff₀ (by positivity)]
      linarith
    have hXM : 2^28 * (10 / (1000 * M)) * (100000 * M) = (10^3 * 2^28 : ℚ) := by
      field_simp
      norm_num
    have hXp : 0 ≤ 2^28 * (10 / (1000 * M)) := by positivity
    generalize 2^28 * (10 / (1000 * M)) = X at hX0 hXM hXp ⊢
    have x1 : (10^3 * 2^28 : ℚ) / y ≤ X + 1/10^5 := by
      rw [div_le_iff₀ hy0, ← hXM]
      have : X * (100000 * M) ≤ (X + 1/10^5) * (100000 * M * (1 - 2/10^15)) := by
        have : X * (100000 * M) = X * M * 100000 := by ring
        have e : (X + 1/10^5) * (100000 * M * (1 - 2/10^15)) = X * M * 100000 + M * 100000 * (1/10^5 * (1 - 2/10^15) - X * (2/10^15)) := by ring
        rw [this, e]
        have : 0 ≤ 1/10^5 * (1 - 2/10^15) - X * (2/10^15) := by
          norm_num
          linarith
        nlinarith [mul_nonneg (by positivity : 0 ≤ M * 100000) this]
      exact this.trans (mul_le_mul_of_nonneg_left y1 (by positivity))
    have x2 : X - 1/10^5 ≤ (10^3 * 2^28 : ℚ) / y := by
      rw [le_div_iff₀ hy0, ← hXM]
      by_cases hs : X - 1/10^5 ≤ 0
      · exact le_trans (mul_nonpos_of_nonpos_of_nonneg hs hy0.le) (by positivity)
      · refine (mul_le_mul_of_nonneg_left y2 (by linarith)).trans ?_
        have e : (X - 1/10^5) * (100000 * M * (1 + 2/10^15)) = X * (100000 * M) - M * 100000 * (1/10^5 * (1 + 2/10^15) - X * (2/10^15)) := by ring
        rw [e]
        have : 0 ≤ 1/10^5 * (1 + 2/10^15) - X * (2/10^15) := by
          norm_num
          linarith
        linarith [mul_nonneg (by positivity : 0 ≤ M * 100000) this]
    have hf0 : 0 ≤ ⌊(10^3 * 2^28 : ℚ) / y⌋ := Int.floor_nonneg.2 (by positivity)
    have hf1 : ⌊(10^3 * 2^28 : ℚ) / y⌋ ≤ 2800000000 := by
      have h1 := Int.floor_le ((10^3 * 2^28 : ℚ) / y)
      have : ((⌊(10^3 * 2^28 : ℚ) / y⌋ : ℤ) : ℚ) ≤ 2800000000 := by linarith
      exact_mod_cast this
    rw [h.toRounding.exactInt _ (by rw [abs_of_nonneg hf0]; omega), pyInt_intCast] at hq
    have h1 := Int.floor_le ((10^3 * 2^28 : ℚ) / y)
    have h2 := Int.lt_floor_add_one ((10^3 * 2^28 : ℚ) / y)
    rw [← hq] at h1 h2
    push_cast at h1 h2
    constructor <;> linarith

/-- **C70, thresholds with a buck converter.**  The output is switched off below the higher one of the configured threshold and the lowest voltage the converter needs.  It is switched on at the
configured threshold if that is above this voltage, else at this voltage plus the drop at switch-on. -/
theorem C70_buck_thresholds (h : AccRounding fl) (hs : ∀ x, 0 ≤ x → 0 ≤ sqrt x) (c : VsrcCfg) (hc : c.Valid fl) (dtypeIn : EnergyDType) (logMid : Bool) (p : CnvCfg)
    (hp : fromVsrc fl sqrt c dtypeIn logMid = .ok p) (hb : c.enableBuck = true) :
    Holds p.vDisableOutputThreshold (max c.vDisable (c.vOutput + c.vBuckDrop) * 1000) ∧
    (c.vOutput + c.vBuckDrop + 1/1000 ≤ c.vEnable → Holds p.vEnableOutputThreshold (c.vEnable * 1000)) ∧
    (c.vEnable ≤ c.vOutput + c.vBuckDrop - 1/1000 → |(p.vEnableOutputThreshold : ℚ) - ((c.vOutput + c.vBuckDrop) * 1000 + p.dVEnableOutput)| ≤ 1 + 1/400000) := by
  have r := fromVsrc_regs hp
  have o1 := inRange_iff.1 hc.vOutput
  have o2 := inRange_iff.1 hc.vBuckDrop
  have o3 := inRange_iff.1 hc.vEnable
  have o4 := inRange_iff.1 hc.vDisable
  have st := states_bounds h.toRounding hs c o3 o4 o1 o2
  dsimp only at st
  have hpre : |fl (c.vOutput + c.vBuckDrop) - (c.vOutput + c.vBuckDrop)| ≤ 1/10^11 :=
    (acc_mag h (B := 10000) (by rw [abs_of_nonneg (by linarith)]; linarith)).trans (by norm_num)
  have hpre' := abs_le.1 hpre
  refine ⟨?_, ?_, ?_⟩
  · have hd : (c.internalStates fl sqrt).vDisable = max c.vDisable (fl (c.vOutput + c.vBuckDrop)) := by
      have : (if c.vDisable > fl (c.vOutput + c.vBuckDrop) then c.vDisable else fl (c.vOutput + c.vBuckDrop)) = max c.vDisable (fl (c.vOutput + c.vBuckDrop)) := by
        split_ifs with hlt
        · exact (max_eq_left hlt.le).symm
        · exact (max_eq_right (not_lt.1 hlt)).symm
      rw [← this]
      unfold VsrcCfg.internalStates
      rw [if_pos hb]
      dsimp only
      rw [apply_ite VsrcStates.vDisable]
      exact ite_self _
    have hmax : |max c.vDisable (fl (c.vOutput + c.vBuckDrop)) - max c.vDisable (c.vOutput + c.vBuckDrop)| ≤ 1/10^11 := by
      have h1 : max c.vDisable (fl (c.vOutput + c.vBuckDrop)) ≤ max c.vDisable (c.vOutput + c.vBuckDrop) + 1/10^11 :=
        max_le (by linarith [le_max_left c.vDisable (c.vOutput + c.vBuckDrop)]) (by linarith [le_max_right c.vDisable (c.vOutput + c.vBuckDrop)])
      have h2 : max c.vDisable (c.vOutput + c.vBuckDrop) ≤ max c.vDisable (fl (c.vOutput + c.vBuckDrop)) + 1/10^11 :=
        max_le (by linarith [le_max_left c.vDisable (fl (c.vOutput + c.vBuckDrop))]) (by linarith [le_max_right c.vDisable (fl (c.vOutput + c.vBuckDrop))])
      exact abs_le.mpr ⟨by linarith, by linarith⟩
    have h2 := st.2.1
    have hr := r.vDisableOutputThreshold
    rw [hd] at h2 hr
    have := reg_close h hr (y := max c.vDisable (c.vOutput + c.vBuckDrop) * 1000) (e := 1/10^7) (by linarith) (by linarith) (by
      rw [← sub_mul, abs_mul]
      norm_num at hmax ⊢
      linarith)
    unfold Holds
    linarith
  · intro hlt
    have he : (c.internalStates fl sqrt).vEnable = c.vEnable := by
      unfold VsrcCfg.internalStates
      rw [if_pos hb]
      dsimp only
      rw [if_pos (by linarith)]
    have hr := r.vEnableOutputThreshold
    rw [he] at hr
    exact reg_holds h hr (by linarith) (by linarith)
  · intro hle
    have he : (c.internalStates fl sqrt).vEnable = fl (fl (c.vOutput + c.vBuckDrop) + (c.internalStates fl sqrt).dVEnable) := by
      unfold VsrcCfg.internalStates
      rw [if_pos hb]
      dsimp only
      rw [if_neg (by linarith)]
    obtain ⟨⟨a0, a1⟩, -, ⟨d0, d1⟩⟩ := st
    have hr := r.vEnableOutputThreshold
    have hr2 := r.dVEnableOutput
    rw [he] at hr a0 a1
    have g1 := reg_holds h hr2 (by linarith) (by linarith)
    have g2 : |fl (fl (c.vOutput + c.vBuckDrop) + (c.internalStates fl sqrt).dVEnable) - (fl (c.vOutput + c.vBuckDrop) + (c.internalStates fl sqrt).dVEnable)| ≤ 1/10^11 :=
      (acc_mag h (B := 30000) (by rw [abs_of_nonneg (by linarith)]; linarith)).trans (by norm_num)
    have g3 := reg_holds h hr (by linarith) (by linarith)
    unfold Holds at g1 g3
    rw [abs_le] at g1 g2 g3 ⊢
    constructor <;> linarith [hpre'.1, hpre'.2, g1.1, g1.2, g2.1, g2.2, g3.1, g3.2]

/-- A square root that is accurate to 50 bits, as `pow(x, 0.5)` is. -/
def GoodSqrt (sqrt : ℚ → ℚ) : Prop := ∀ y, 0 ≤ y → 0 ≤ sqrt y ∧ |sqrt y ^ 2 - y| ≤ y / 2^50

/-- **C70, the drop at switch-on.**  If the output capacitor can be filled from the storage at the enable threshold, the register of the drop leads to the voltage `q` at which the storage has given
exactly the energy of the output capacitor: C q² = C V_enable² - C_output V_output². -/
theorem C70_switch_on (h : AccRounding fl) (hs : GoodSqrt sqrt) (c : VsrcCfg) (hc : c.Valid fl) (dtypeIn : EnergyDType) (logMid : Bool) (p : CnvCfg)
    (hp : fromVsrc fl sqrt c dtypeIn logMid = .ok p) (hC : 1/1000 ≤ c.cIntermediate) (hO : 0 < c.cOutput) (hb : c.enableBuck = false ∨ c.vOutput + c.vBuckDrop + 1/1000 ≤ c.vEnable)
    (hE : c.cOutput / c.cIntermediate * c.vOutput^2 + 1/10^6 ≤ c.vEnable^2) :
    ∃ q, 0 ≤ q ∧ |q^2 - (c.vEnable^2 - c.cOutput / c.cIntermediate * c.vOutput^2)| ≤ 1/10^6 ∧ Holds p.dVEnableOutput (max 0 (c.vEnable - q) * 1000) := by
  have r := fromVsrc_regs hp
  have o1 := inRange_iff.1 hc.vOutput
  have o2 := inRange_iff.1 hc.vBuckDrop
  have o3 := inRange_iff.1 hc.vEnable
  have hpre : |fl (c.vOutput + c.vBuckDrop) - (c.vOutput + c.vBuckDrop)| ≤ 1/10^11 :=
    (acc_mag h (B := 10000) (by rw [abs_of_nonneg (by linarith)]; linarith)).trans (by norm_num)
  rw [abs_le] at hpre
  have hd : (c.internalStates fl sqrt).dVEnable = (dVCandidates fl sqrt c).1 := by
    unfold VsrcCfg.internalStates
    rcases hb with hb | hb
    · rw [if_neg (by simp [hb])]
    · dsimp only
      rw [if_pos (by linarith [hpre.2] : c.vEnable > fl (c.vOutput + c.vBuckDrop))]
      split_ifs <;> rfl
  -- the quantity under the root
  have a1 : |fl (c.vEnable^2) - c.vEnable^2| ≤ 1/10^7 :=
    (acc_mag h (B := 10^8) (by rw [abs_of_nonneg (by positivity)]; nlinarith)).trans (by norm_num)
  have hC' : 0 < c.cIntermediate := by linarith
  have hr0 : 0 < c.cOutput / c.cIntermediate := div_pos hO hC'
  have hv0 : 0 ≤ c.vOutput^2 := by positivity
  have hv1 : c.vOutput^2 ≤ 25 * 10^6 := by nlinarith
  have hE1 : c.cOutput / c.cIntermediate * c.vOutput^2 ≤ 10^8 := by nlinarith
  have e1 := h.err (c.cOutput / c.cIntermediate)
  have e2 := h.err (c.vOutput^2)
  rw [abs_of_nonneg hr0.le] at e1
  rw [abs_of_nonneg hv0] at e2
  have hR0 : 0 ≤ fl (c.cOutput / c.cIntermediate) := h.toRounding.nonneg hr0.le
  have hW0 : 0 ≤ fl (c.vOutput^2) := h.toRounding.nonneg hv0
  have e3 := h.err (fl (c.cOutput / c.cIntermediate) * fl (c.vOutput^2))
  rw [abs_of_nonneg (mul_nonneg hR0 hW0)] at e3
  have b1 : |fl (fl (c.cOutput / c.cIntermediate) * fl (c.vOutput^2)) - c.cOutput / c.cIntermediate * c.vOutput^2| ≤ 1/10^7 := by
    have hrB : c.cOutput / c.cIntermediate ≤ 5 * 10^9 := by
      rw [div_le_iff₀ (by linarith)]
      linarith [(inRange_iff.1 hc.cOutput).2]
    generalize c.cOutput / c.cIntermediate = x at *
    generalize c.vOutput^2 = w at *
    have ht := tiny_le
    have ht0 : (0:ℚ) ≤ 2^(-1075:ℤ) := by positivity
    generalize (2:ℚ)^(-1075:ℤ) = t at *
    have f1 : |fl x - x| * w ≤ 1/10^8 * 2 := by
      refine (mul_le_mul_of_nonneg_right e1 hv0).trans ?_
      have : t * w ≤ 1/2^100 * (25 * 10^6) := mul_le_mul ht hv1 hv0 (by norm_num)
      rw [add_mul, div_mul_eq_mul_div]
      norm_num at this hE1 ⊢
      linarith
    have f2 : x * |fl w - w| ≤ 1/10^8 * 2 := by
      refine (mul_le_mul_of_nonneg_left e2 hr0.le).trans ?_
      have : x * t ≤ 5 * 10^9 * (1/2^100) := mul_le_mul hrB ht ht0 (by norm_num)
      rw [mul_add, mul_div_assoc']
      norm_num at this hE1 ⊢
      linarith
    have f3 : |fl x - x| * |fl w - w| ≤ 1/10^10 := by
      have g1 : |fl x - x| ≤ 1/10^6 := e1.trans (by norm_num at ht ⊢; linarith)
      have g2 : |fl w - w| ≤ 1/10^6 := e2.trans (by norm_num at ht hv1 ⊢; linarith)
      exact (mul_le_mul g1 g2 (abs_nonneg _) (by norm_num)).trans (by norm_num)
    have f4 : |fl x * fl w - x * w| ≤ 1/10^8 * 4 + 1/10^10 := by
      have : fl x * fl w - x * w = (fl x - x) * w + x * (fl w - w) + (fl x - x) * (fl w - w) := by ring
      rw [this]
      refine (abs_add_three _ _ _).trans ?_
      rw [abs_mul, abs_mul, abs_mul, abs_of_nonneg hv0, abs_of_nonneg hr0.le]
      linarith
    have f5 : fl x * fl w ≤ 10^8 + 1 := by linarith [(abs_le.1 f4).2]
    have f6 : |fl (fl x * fl w) - fl x * fl w| ≤ 1/10^8 * 2 := e3.trans (by norm_num at ht f5 ⊢; linarith)
    rw [abs_le] at f4 f6 ⊢
    constructor <;> linarith [f4.1, f4.2, f6.1, f6.2]
  have hS : |c.vEnable^2 - c.cOutput / c.cIntermediate * c.vOutput^2| ≤ 10^8 := by
    rw [abs_le]
    constructor <;> nlinarith
  rw [abs_le] at a1 b1 hS
  have b2 := acc_mag h (x := fl (c.vEnable^2) - fl (fl (c.cOutput / c.cIntermediate) * fl (c.vOutput^2))) (B := 10^8 + 1) (by
    rw [abs_le]; constructor <;> linarith)
  have b3 : 0 ≤ fl (fl (c.vEnable^2) - fl (fl (c.cOutput / c.cIntermediate) * fl (c.vOutput^2))) := h.toRounding.nonneg (by linarith)
  have hval : (dVCandidates fl sqrt c).1 = max 0 (fl (c.vEnable - sqrt (fl (fl (c.vEnable^2) - fl (fl (c.cOutput / c.cIntermediate) * fl (c.vOutput^2)))))) := by
    unfold dVCandidates powHalf
    rw [if_pos ⟨hC', hO⟩]
    dsimp only
    rw [if_neg (not_lt.2 b3)]
    simp only [Option.map_some, protect]
    split_ifs with hx
    · exact (max_eq_right hx).symm
    · exact (max_eq_left (not_le.1 hx).le).symm
  generalize fl (fl (c.vEnable^2) - fl (fl (c.cOutput / c.cIntermediate) * fl (c.vOutput^2))) = X at b2 b3 hval
  obtain ⟨q0, q1⟩ := hs X b3
  have b2' : |X - (c.vEnable^2 - c.cOutput / c.cIntermediate * c.vOutput^2)| ≤ 5/10^7 := by
    norm_num at b2
    rw [abs_le] at b2 ⊢
    constructor <;> norm_num at b2 a1 b1 ⊢ <;> linarith
  rw [abs_le] at b2'
  have q2 : |sqrt X ^ 2 - X| ≤ 1/10^6 * (2/5) := q1.trans (by
    have : X ≤ 10^8 + 1 := by linarith
    norm_num at this ⊢
    linarith)
  refine ⟨sqrt X, q0, ?_, ?_⟩
  · rw [abs_le] at q2 ⊢
    constructor <;> linarith
  · have hr2 := r.dVEnableOutput
    rw [hd, hval] at hr2
    have hq3 : sqrt X ≤ 10001 := by
      by_contra hcon
      push Not at hcon
      rw [abs_le] at q2
      nlinarith
    have hm : |fl (c.vEnable - sqrt X) - (c.vEnable - sqrt X)| ≤ 1/10^10 :=
      (acc_mag h (B := 20001) (by rw [abs_le]; constructor <;> linarith)).trans (by norm_num)
    rw [abs_le] at hm
    have hmax : |max 0 (fl (c.vEnable - sqrt X)) - max 0 (c.vEnable - sqrt X)| ≤ 1/10^10 := by
      have h1 : max 0 (fl (c.vEnable - sqrt X)) ≤ max 0 (c.vEnable - sqrt X) + 1/10^10 :=
        max_le (by linarith [le_max_left 0 (c.vEnable - sqrt X)]) (by linarith [le_max_right 0 (c.vEnable - sqrt X)])
      have h2 : max 0 (c.vEnable - sqrt X) ≤ max 0 (fl (c.vEnable - sqrt X)) + 1/10^10 :=
        max_le (by linarith [le_max_left 0 (fl (c.vEnable - sqrt X))]) (by linarith [le_max_right 0 (fl (c.vEnable - sqrt X))])
      exact abs_le.mpr ⟨by linarith, by linarith⟩
    have hM0 : 0 ≤ max 0 (fl (c.vEnable - sqrt X)) := le_max_left _ _
    have hM1 : max 0 (fl (c.vEnable - sqrt X)) ≤ 10002 := max_le (by norm_num) (by linarith)
    have := reg_close h hr2 (y := max 0 (c.vEnable - sqrt X) * 1000) (e := 1/10^7) (by linarith) (by linarith) (by
      rw [← sub_mul, abs_mul]
      norm_num at hmax ⊢
      linarith)
    unfold Holds
    linarith

/-- `demoVsrc` meets the hypotheses: 1 uF at the output, 100 uF of storage. -/
example : (1:ℚ)/1000 ≤ demoVsrc.cIntermediate ∧ 0 < demoVsrc.cOutput ∧ demoVsrc.cOutput / demoVsrc.cIntermediate * demoVsrc.vOutput^2 + 1/10^6 ≤ demoVsrc.vEnable^2 ∧
    demoVsrc.vOutput + demoVsrc.vBuckDrop + 1/1000 ≤ demoVsrc.vEnable := by
  decide +kernel

/-- **C70, what the converter computes with.**  The resistance in kOhm and the constant of the capacitor in us / nF are read back from the registers as they were meant. -/
theorem C70_in_use (h : AccRounding fl) (c : VsrcCfg) (hc : c.Valid fl) (dtypeIn : EnergyDType) (logMid : Bool) (p : CnvCfg) (hp : fromVsrc fl sqrt c dtypeIn logMid = .ok p) :
    |p.rInput fl - c.rInput / 10^6| ≤ 1/2^22 ∧ |p.capConstant fl - 10 / (1000 * max c.cIntermediate (1/1000))| ≤ 1/2^27 := by
  obtain ⟨h1, h2, h3⟩ := C70_constants h c hc dtypeIn logMid p hp
  have hx := inRange_iff.1 hc.rInput
  unfold Holds at h1
  constructor
  · unfold CnvCfg.rInput
    have e := acc_mag h (x := (p.rInputN22:ℚ) / 2^22) (B := 5) (by
      rw [abs_of_nonneg (by positivity), div_le_iff₀ (by norm_num)]
      rw [abs_le] at h1
      linarith [h1.2])
    rw [abs_le] at h1 e ⊢
    constructor <;> norm_num at h1 e ⊢ <;> linarith
  · unfold CnvCfg.capConstant
    have hX : (10:ℚ) / (1000 * max c.cIntermediate (1/1000)) ≤ 10 := by
      rw [div_le_iff₀ (by linarith [le_max_right c.cIntermediate (1/1000)])]
      linarith [le_max_right c.cIntermediate (1/1000)]
    generalize (10:ℚ) / (1000 * max c.cIntermediate (1/1000)) = X at *
    have e := acc_mag h (x := (p.constantN28:ℚ) / 2^28) (B := 11) (by
      rw [abs_of_nonneg (by positivity), div_le_iff₀ (by norm_num)]
      linarith)
    rw [abs_le] at e ⊢
    constructor <;> norm_num at h2 h3 e ⊢ <;> linarith

/-! ## C15: power good and the output -/

/-- One sample keeps "power good implies output". -/
theorem step_pg_output (c : CnvCfg) (cal : CalEmulator) (hthr : c.vDisableOutputThreshold ≤ c.vPwrGoodDisableThreshold) {s s' : CnvState} {x : CnvIn} {o : CnvOut}
    (hstep : cnvStep fl c cal s x = .ok (s', o)) (hs : s.powerGood = true → s.isOutputting = true) : s'.powerGood = true → s'.isOutputting = true := by
  obtain ⟨t, rfl, hv, ho, hp, hc⟩ := step_states c cal hstep
  have hpg := us_powerGood (fl := fl) c cal t
  simp only at hpg
  have hq : (c.vDisableOutputThreshold : ℚ) ≤ c.vPwrGoodDisableThreshold := by exact_mod_cast hthr
  rw [hpg]
  have hout := us_isOutputting (fl := fl) c cal t
  rw [← ho, ← hp] at hs
  cases hck : t.checks c <;> cases hP : t.powerGood <;> cases hO : t.isOutputting <;> simp [hck, hP, hO] at hs hout ⊢ <;> simp [hout]
  all_goals first | done | (intro hlt; linarith)

/-- **C15, power good means output.**  If the output is not switched off above the threshold at which power good falls, then from the first moment on where power good is low or the output on,
power good is only signalled while the output is on. -/
theorem C15_means_output_partial (c : CnvCfg) (cal : CalEmulator) (hthr : c.vDisableOutputThreshold ≤ c.vPwrGoodDisableThreshold) (xs ys : List CnvIn) (s s' : CnvState) (os os' : List CnvOut)
    (_hpast : cnvRun fl c cal (CnvState.init fl c cal) xs = .ok (s, os)) (hs : s.powerGood = false ∨ s.isOutputting = true)
    (hrun : cnvRun fl c cal s ys = .ok (s', os')) : s'.powerGood = true → s'.isOutputting = true := by
  refine cnvRun_inv c cal (fun _ s => s.powerGood = true → s.isOutputting = true) (fun k s x s' o hp hst => step_pg_output c cal hthr hst hp) ys 0 s s' os' ?_ hrun
  intro hp
  rcases hs with h | h
  · rw [hp] at h; cases h
  · exact h

/-- **C15 from the start.**  The same for the whole run if the storage, after the first sample, is not between the two thresholds: power good falls there at once or the output goes on at once. -/
theorem C15_from_start_partial (c : CnvCfg) (hn : c.intervalCheckThresholdsN ≤ 0xFFFFFFF1) (cal : CalEmulator) (hthr : c.vDisableOutputThreshold ≤ c.vPwrGoodDisableThreshold)
    (x : CnvIn) (xs : List CnvIn) (s : CnvState) (o : CnvOut) (os : List CnvOut)
    (hrun : cnvRun fl c cal (CnvState.init fl c cal) (x :: xs) = .ok (s, o :: os))
    (hfirst : o.vCap ≤ c.vPwrGoodDisableThreshold ∨ max (c.dVEnableOutput : ℚ) c.vEnableOutputThreshold ≤ o.vCap) : s.powerGood = true → s.isOutputting = true := by
  obtain ⟨s1, o1, os1, ha, hb, hos⟩ := cnvRun_cons c cal _ x xs hrun
  injection hos with ho hos
  subst ho hos
  have hnil : cnvRun fl c cal (CnvState.init fl c cal) [] = .ok (CnvState.init fl c cal, []) := rfl
  have hone : cnvRun fl c cal (CnvState.init fl c cal) [x] = .ok (s1, [o]) := by
    simp only [cnvRun]
    rw [ha]
    rfl
  refine C15_means_output_partial c cal hthr [x] xs s1 s [o] os hone ?_ hb
  rcases hfirst with h | h
  · left
    exact ((C15_power_good_partial c hn cal [] x _ s1 [] o hnil ha).2 rfl).2 ⟨Or.inl (by simp), h⟩
  · right
    exact (((C11_hysteresis c hn cal [] x _ s1 [] o hnil ha).2 (by simp)).1 rfl).2 h

/-- Between the thresholds it fails: right after the start power good is signalled although the output never was on (storage at 2.9 V; it is on from 3 V and power good falls at 2.4 V). -/
theorem C15_startup_violated :
    ∃ (c : CnvCfg) (cal : CalEmulator) (xs : List CnvIn) (s : CnvState) (os : List CnvOut), c.Valid ∧ c.vDisableOutputThreshold ≤ c.vPwrGoodDisableThreshold ∧
      c.vPwrGoodEnableThreshold ≤ c.vEnableOutputThreshold ∧ cnvRun exact c cal (CnvState.init exact c cal) xs = .ok (s, os) ∧
      s.powerGood = true ∧ s.isOutputting = false ∧ s.vOut = 0 := by
  have hv : CnvCfg.Valid { demoCfg with vIntermediateInit := 2900000, intervalStartupDelayDrainN := 0 } := by constructor <;> decide
  obtain ⟨s, os, h, -⟩ := C17_no_exception (fl := exact) { demoCfg with vIntermediateInit := 2900000, intervalStartupDelayDrainN := 0 } hv demoCal [⟨0, 0, 0⟩, ⟨0, 0, 0⟩]
  have key : (match cnvRun exact { demoCfg with vIntermediateInit := 2900000, intervalStartupDelayDrainN := 0 } demoCal
      (CnvState.init exact { demoCfg with vIntermediateInit := 2900000, intervalStartupDelayDrainN := 0 } demoCal) [⟨0, 0, 0⟩, ⟨0, 0, 0⟩] with
    | .ok (s, _) => s.powerGood && !s.isOutputting && decide (s.vOut = 0)
    | .error _ => false) = true := by decide +kernel
  rw [h] at key
  simp only [Bool.and_eq_true, Bool.not_eq_true', decide_eq_true_eq] at key
  exact ⟨_, _, _, s, os, hv, by decide, by decide, h, key.1.1, key.1.2, key.2⟩

/-- **C15 for a configuration.**  The registers meet the condition if the configuration does: the storage gives up the output only below the voltage where power good falls. -/
theorem C15_configuration (h : Rounding fl) (c : VsrcCfg) (dtypeIn : EnergyDType) (logMid : Bool) (p : CnvCfg) (hp : fromVsrc fl sqrt c dtypeIn logMid = .ok p)
    (hf : fl c.vPwrGoodDisable = c.vPwrGoodDisable) (hd : c.vDisable ≤ c.vPwrGoodDisable) (hb : c.enableBuck = true → c.vOutput + c.vBuckDrop ≤ c.vPwrGoodDisable) :
    p.vDisableOutputThreshold ≤ p.vPwrGoodDisableThreshold := by
  have r := fromVsrc_regs hp
  have h1 : (c.internalStates fl sqrt).vDisable ≤ c.vPwrGoodDisable := by
    unfold VsrcCfg.internalStates
    dsimp only
    split_ifs with h1 h2 h3 h3
    · exact hd
    · have := h.mono (hb h1); rwa [hf] at this
    · exact hd
    · have := h.mono (hb h1); rwa [hf] at this
    · exact hd
  have e1 := (u32_ok_iff.1 r.vDisableOutputThreshold).1
  have e2 := (u32_ok_iff.1 r.vPwrGoodDisableThreshold).1
  have : (p.vDisableOutputThreshold : ℤ) ≤ p.vPwrGoodDisableThreshold := by
    rw [e1, e2]
    exact pyRound_mono (h.mono (by linarith))
  exact_mod_cast this

end Verif.Props
