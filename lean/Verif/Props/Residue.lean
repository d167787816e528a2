import Verif.Props.CalFloat
import Verif.Props.Converter
import Mathlib.Algebra.Order.Archimedean.Basic

/-!
# C18: when the compensation of noise loses charge

`PruCalibration.conv_adc_raw_to_nA` (virtual_converter_model.py l.24-50) keeps what was below zero in a
residue and takes it from later samples.  The residue is limited to 60000 nA.  Here the limit is made
precise: the charge handed on is the measured charge exactly if no stretch of consecutive samples sums up
to less than -60000 nA, and beyond that the deviation grows without bound.
-/

namespace Verif.Props
open Verif.Py Verif.Model

theorem charge_lower_from (adc : CalPair) (ho : adc.offset < 0) (raws : List ℤ) (res : ℚ) :
    (plainCurrents adc raws).sum + (convSeries exact adc res raws).2 ≤ (convSeries exact adc res raws).1.sum + res := by
  induction raws generalizing res with
  | nil => simp [plainCurrents, convSeries]
  | cons r rs ih =>
    have e := convAdc_exact adc res r ho
    simp only at e
    have := ih (convAdcRawToNA exact adc res r).2
    simp only [plainCurrents, List.map_cons, List.sum_cons, convSeries] at this ⊢
    have key : ((r:ℚ) * adc.gain + adc.offset) * 10^9 + (convAdcRawToNA exact adc res r).2 ≤
        (convAdcRawToNA exact adc res r).1 + res := by
      rw [e]
      split_ifs
      · simp
      · have := min_le_left (res - ((r:ℚ) * adc.gain + adc.offset) * 10^9) 60000
        simp only; linarith
    linarith

/-- No stretch of consecutive samples sums up to less than `-limit`. -/
def NoLongDeficit (limit : ℚ) (currents : List ℚ) : Prop :=
  ∀ w, w <:+: currents → -limit ≤ w.sum

theorem charge_exact_iff_from (adc : CalPair) (ho : adc.offset < 0) (raws : List ℤ) (res : ℚ) (h0 : 0 ≤ res) (h1 : res ≤ 60000) :
    (convSeries exact adc res raws).1.sum + res = (plainCurrents adc raws).sum + (convSeries exact adc res raws).2 ↔
    (∀ w, w <+: plainCurrents adc raws → res - 60000 ≤ w.sum) ∧ NoLongDeficit 60000 (plainCurrents adc raws) := by
  induction raws generalizing res with
  | nil => simp [plainCurrents, convSeries, NoLongDeficit, h1]
  | cons r rs ih =>
    have e := convAdc_exact adc res r ho
    have low := charge_lower_from adc ho rs (convAdcRawToNA exact adc res r).2
    simp only at e
    simp only [plainCurrents, List.map_cons, List.sum_cons, convSeries, NoLongDeficit] at ih low ⊢
    generalize ((r:ℚ) * adc.gain + adc.offset) * 10^9 = i at e ⊢
    generalize hl : List.map (fun r : ℤ => ((r:ℚ) * adc.gain + adc.offset) * 10^9) rs = l at ih low ⊢
    by_cases hi : i > res
    · rw [if_pos hi] at e
      rw [e]
      have k := ih 0 le_rfl (by norm_num)
      simp only
      constructor
      · intro hh
        obtain ⟨-, kb⟩ := k.mp (by linarith)
        refine ⟨fun w hw => ?_, fun w hw => ?_⟩
        · rcases List.prefix_cons_iff.mp hw with rfl | ⟨t, rfl, ht⟩
          · simp; linarith
          · have := kb t ht.isInfix
            rw [List.sum_cons]; linarith
        · rcases List.infix_cons_iff.mp hw with hw | hw
          · rcases List.prefix_cons_iff.mp hw with rfl | ⟨t, rfl, ht⟩
            · simp
            · have := kb t ht.isInfix
              rw [List.sum_cons]; linarith
          · exact kb w hw
      · rintro ⟨-, hb⟩
        have := k.mpr ⟨fun w hw => by have := hb w (List.infix_cons_iff.mpr (.inr hw.isInfix)); linarith,
          fun w hw => hb w (List.infix_cons_iff.mpr (.inr hw))⟩
        linarith
    · rw [if_neg hi] at e
      by_cases hm : res - i ≤ 60000
      · rw [min_eq_left hm] at e
        rw [e]
        have k := ih (res - i) (by linarith) hm
        simp only
        constructor
        · intro hh
          obtain ⟨ka, kb⟩ := k.mp (by linarith)
          refine ⟨fun w hw => ?_, fun w hw => ?_⟩
          · rcases List.prefix_cons_iff.mp hw with rfl | ⟨t, rfl, ht⟩
            · simp; linarith
            · have := ka t ht
              rw [List.sum_cons]; linarith
          · rcases List.infix_cons_iff.mp hw with hw | hw
            · rcases List.prefix_cons_iff.mp hw with rfl | ⟨t, rfl, ht⟩
              · simp
              · have := ka t ht
                rw [List.sum_cons]; linarith
            · exact kb w hw
        · rintro ⟨ha, hb⟩
          have := k.mpr ⟨fun w hw => by
              have := ha (i :: w) (List.prefix_cons_iff.mpr (.inr ⟨w, rfl, hw⟩))
              rw [List.sum_cons] at this; linarith,
            fun w hw => hb w (List.infix_cons_iff.mpr (.inr hw))⟩
          linarith
      · rw [min_eq_right (by linarith)] at e
        rw [e] at low ⊢
        simp only at low ⊢
        constructor
        · intro hh; exfalso; linarith
        · rintro ⟨ha, -⟩
          have := ha [i] (List.prefix_cons_iff.mpr (.inr ⟨[], rfl, List.nil_prefix⟩))
          simp at this; exfalso; linarith

/-- **C18, exactly when nothing is added.**  The handed-on charge is the measured charge plus what waits in the residue,
exactly if no stretch of consecutive samples sums up to less than -60000 nA. -/
theorem C18_exact_iff (adc : CalPair) (ho : adc.offset < 0) (raws : List ℤ) :
    (convSeries exact adc 0 raws).1.sum = (plainCurrents adc raws).sum + (convSeries exact adc 0 raws).2 ↔
    ∀ stretch, stretch <:+: plainCurrents adc raws → -60000 ≤ stretch.sum := by
  have := charge_exact_iff_from adc ho raws 0 le_rfl (by norm_num)
  rw [add_zero] at this
  rw [this]
  constructor
  · exact fun h => h.2
  · intro h
    exact ⟨fun w hw => by have := h w hw.isInfix; linarith, h⟩

/-- **C18, in floats.**  The same without the limit of the sum of all samples below zero: noise around zero of any length is
compensated up to the precision of the float unit, as long as no stretch falls below -60000 nA. -/
theorem C18_stretches_float_partial {fl : ℚ → ℚ} (h : AccRounding fl) (adc : CalPair) (hc : adc.Valid) (ho : adc.offset < 0) (B : ℚ)
    (hB : (2^18 * adc.gain + |adc.offset|) * 10^9 ≤ B) (hB2 : 60000 ≤ B) (raws : List ℤ) (hr : ∀ r ∈ raws, 0 ≤ r ∧ r < 2^18)
    (hs : ∀ stretch, stretch <:+: plainCurrents adc raws → -60000 + raws.length * (B / 2^50) ≤ stretch.sum) :
    |(convSeries fl adc 0 raws).1.sum - ((plainCurrents adc raws).sum + (convSeries fl adc 0 raws).2)| ≤ raws.length * (B / 2^50) := by
  have lower := C18_charge_lower_float h adc hc ho B hB hB2 raws hr
  suffices H : ∀ (raws : List ℤ) (res : ℚ), 0 ≤ res → res ≤ 60000 → (∀ r ∈ raws, 0 ≤ r ∧ r < 2^18) →
      (∀ w, w <+: plainCurrents adc raws → res - 60000 + raws.length * (B / 2^50) ≤ w.sum ∨ w = []) →
      (∀ w, w <:+: plainCurrents adc raws → -60000 + raws.length * (B / 2^50) ≤ w.sum) →
      (convSeries fl adc res raws).1.sum + res ≤ (plainCurrents adc raws).sum + (convSeries fl adc res raws).2 + raws.length * (B / 2^50) by
    have := H raws 0 le_rfl (by norm_num) hr (fun w hw => .inl (by have := hs w hw.isInfix; linarith)) hs
    rw [abs_le]; constructor <;> linarith
  clear lower hs hr raws
  intro raws
  induction raws with
  | nil => intro res _ _ _ _ _; simp [plainCurrents, convSeries, add_comm]
  | cons r rs ih =>
    intro res h0 h1 hr hp hin
    have hd : 0 ≤ B / 2^50 := by positivity
    have hd2 : 0 ≤ (rs.length:ℚ) * (B / 2^50) := by positivity
    have k := convAdc_float h adc hc ho B hB hB2 r (hr r (by simp)).1 (hr r (by simp)).2 res h0 h1
    have ih' := fun p h h2 => ih p h h2 (fun x hx => hr x (by simp [hx]))
    simp only [plainCurrents, List.map_cons, List.sum_cons, convSeries, List.length_cons, Nat.cast_add, Nat.cast_one] at k hp hin ih' ⊢
    have hs : ((rs.length:ℚ) + 1) * (B / 2^50) = rs.length * (B / 2^50) + B / 2^50 := by ring
    rw [hs] at hp hin ⊢
    clear ih hs hB hr hB2
    generalize (rs.length:ℚ) * (B / 2^50) = L at *
    generalize B / 2^50 = d at *
    generalize List.map (fun r : ℤ => ((r:ℚ) * adc.gain + adc.offset) * 10^9) rs = l at *
    generalize ((r:ℚ) * adc.gain + adc.offset) * 10^9 = i at *
    obtain ⟨-, k2, k3, k4, k5⟩ := k
    have p1 : res - 60000 + (L + d) ≤ i := by
      have := hp [i] (List.prefix_cons_iff.mpr (.inr ⟨[], rfl, List.nil_prefix⟩))
      simpa using this
    have k6 := k2 (by linarith)
    have := ih' _ k3 k4 (fun w hw => by
        left
        have a := hp (i :: w) (List.prefix_cons_iff.mpr (.inr ⟨w, rfl, hw⟩))
        have b := hin w (List.infix_cons_iff.mpr (.inr hw.isInfix))
        rw [List.sum_cons] at a
        rcases a with a | a
        · rcases k5 with k5 | k5
          · rw [k5]; linarith
          · linarith
        · cases a)
      (fun w hw => by have b := hin w (List.infix_cons_iff.mpr (.inr hw)); linarith)
    linarith

theorem convSeries_replicate (h : Rounding fl) (adc : CalPair) (hc : adc.Valid) (n : ℕ) (res : ℚ) (h0 : 0 ≤ res) (h1 : res ≤ 60000) :
    0 ≤ (convSeries fl adc res (List.replicate n 0)).1.sum ∧ (convSeries fl adc res (List.replicate n 0)).2 ≤ 60000 := by
  induction n generalizing res with
  | zero => simp [convSeries, h1]
  | succ n ih =>
    obtain ⟨a, b, c⟩ := C18_bounds h adc hc res h0 h1 0 le_rfl
    rw [List.replicate_succ]
    obtain ⟨d, e⟩ := ih _ b c
    simp only [convSeries, List.sum_cons]
    exact ⟨by linarith, e⟩

/-- **C18, the limit.**  With a negative offset an input below zero is compensated only up to 60000 nA in total: for every rounding
(so in floats, too), every such calibration and every bound there is a series whose result exceeds the measurement by more than the
bound; later samples cannot make up for it, as the residue is all that is remembered. -/
theorem C18_saturation_violated (h : Rounding fl) (adc : CalPair) (hc : adc.Valid) (ho : adc.offset < 0) (bound : ℚ) :
    ∃ n, bound < (convSeries fl adc 0 (List.replicate n 0)).1.sum -
      ((plainCurrents adc (List.replicate n 0)).sum + (convSeries fl adc 0 (List.replicate n 0)).2) := by
  obtain ⟨n, hn⟩ := exists_nat_gt ((bound + 60000) / (-adc.offset * 10^9))
  refine ⟨n, ?_⟩
  obtain ⟨a, b⟩ := convSeries_replicate h adc hc n 0 le_rfl (by norm_num)
  have hp : (plainCurrents adc (List.replicate n 0)).sum = n * (adc.offset * 10^9) := by
    simp [plainCurrents, List.map_replicate, List.sum_replicate]
  rw [div_lt_iff₀ (by nlinarith)] at hn
  rw [hp]
  linarith

/-- The default gain of the current channel with an offset of -1 µA: noise of any length around zero. -/
example : (⟨1/4915200, -1/1000000⟩ : CalPair).Valid ∧ (⟨1/4915200, -1/1000000⟩ : CalPair).offset < 0 := by
  constructor <;> norm_num [CalPair.Valid]

/-- A stretch below the limit: two samples of -50 µA, then one of +150 µA; 40 µA of the deficit are
forgotten (the mean of the measurement is +17 µA, that of the result 30 µA). -/
example : plainCurrents ⟨5/10^5, -5/10^5⟩ [0, 0, 4] = [-50000, -50000, 150000] ∧
    (convSeries exact ⟨5/10^5, -5/10^5⟩ 0 [0, 0, 4]) = ([0, 0, 90000], 0) := by
  decide +kernel

/-- Below zero again and again, compensated exactly although the samples below zero sum up to -150 µA. -/
example : (convSeries exact ⟨5/10^5, -5/10^5⟩ 0 [0, 2, 0, 2, 0, 2]) = ([0, 0, 0, 0, 0, 0], 0) := by
  decide +kernel

end Verif.Props
