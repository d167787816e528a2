import Verif.Model.CalMeas
import Mathlib.Tactic.Ring
import Mathlib.Tactic.Linarith
import Mathlib.Tactic.FieldSimp
import Mathlib.Tactic.NormNum
import Mathlib.Tactic.Positivity
import Mathlib.Tactic.LinearCombination
import Mathlib.Algebra.Order.Group.Unbundled.Abs
import Mathlib.Algebra.Order.BigOperators.Group.List

/-! # C06: calibration from measurements -/

namespace Verif.Props
open Verif.Model Verif.Py

/-! ## Specification -/

/-- The sum of squared distances (in SI units) of the points from a line. -/
def squaredError (data : List MeasPair) (gain offset : ℚ) : ℚ := (data.map (fun p => (p.si - (gain * p.raw + offset)) ^ 2)).sum

/-- Measurements that pydantic accepts: two at least, raw values are positive. -/
def MeasOk (data : List MeasPair) : Prop := 2 ≤ data.length ∧ ∀ p ∈ data, 0 < p.raw

/-- There are two different raw values. -/
def TwoRaw (data : List MeasPair) : Prop := ∃ p ∈ data, ∃ q ∈ data, p.raw ≠ q.raw

/-- The mean of the reference values. -/
def meanSi (data : List MeasPair) : ℚ := (data.map (·.si)).sum / data.length

/-! ## Helpers -/

/-- The sum of a polynomial of degree two in raw and reference values. -/
theorem sum_quad (data : List MeasPair) (a b c d e f : ℚ) (g : MeasPair → ℚ)
    (hg : ∀ p, g p = a * (p.raw * p.raw) + b * (p.raw * p.si) + c * (p.si * p.si) + d * p.raw + e * p.si + f) :
    (data.map g).sum = a * measXX data + b * measXY data + c * (data.map (fun p => p.si * p.si)).sum + d * measX data + e * measY data + f * measN data := by
  induction data with
  | nil => simp [measXX, measXY, measX, measY, measN]
  | cons p t ih =>
    rw [List.map_cons, List.sum_cons, ih, hg]
    simp only [measXX, measXY, measX, measY, measN, List.map_cons, List.sum_cons, List.length_cons, Nat.cast_add, Nat.cast_one]
    ring

theorem sum_sq_nonneg (data : List MeasPair) (g : MeasPair → ℚ) : 0 ≤ (data.map (fun p => g p ^ 2)).sum :=
  List.sum_nonneg (fun x hx => by obtain ⟨p, -, rfl⟩ := List.mem_map.mp hx; positivity)

theorem sum_sq_zero {data : List MeasPair} {g : MeasPair → ℚ} (h : (data.map (fun p => g p ^ 2)).sum = 0) : ∀ p ∈ data, g p = 0 := by
  induction data with
  | nil => simp
  | cons q t ih =>
    rw [List.map_cons, List.sum_cons] at h
    have h1 := sum_sq_nonneg t g
    have h2 : 0 ≤ g q ^ 2 := by positivity
    intro p hp
    rcases List.mem_cons.mp hp with rfl | hp
    · exact pow_eq_zero_iff (two_ne_zero) |>.mp (by linarith)
    · exact ih (by linarith) p hp

theorem measN_pos {data : List MeasPair} (h : 2 ≤ data.length) : 0 < measN data := by
  unfold measN; exact_mod_cast (by omega : 0 < data.length)

/-- The determinant as sum of squares. -/
theorem measDet_eq {data : List MeasPair} (h : 2 ≤ data.length) :
    measDet data = measN data * (data.map (fun p => (p.raw - measX data / measN data) ^ 2)).sum := by
  have hn := measN_pos h
  rw [sum_quad data 1 0 0 (-2 * (measX data / measN data)) 0 ((measX data / measN data) ^ 2) _ (fun p => by ring)]
  unfold measDet
  field_simp
  ring

theorem measDet_pos {data : List MeasPair} (h : 2 ≤ data.length) (h2 : TwoRaw data) : 0 < measDet data := by
  have hn := measN_pos h
  have h0 := sum_sq_nonneg data (fun p => p.raw - measX data / measN data)
  rw [measDet_eq h]
  rcases h0.lt_or_eq with h0 | h0
  · positivity
  · exfalso
    have hz := sum_sq_zero h0.symm
    obtain ⟨p, hp, q, hq, hne⟩ := h2
    have := hz p hp; have := hz q hq
    exact hne (by linarith)

/-- The normal equations. -/
theorem normal_eqs {data : List MeasPair} (h : 2 ≤ data.length) (h2 : TwoRaw data) :
    (polyfit1 data).1 * measX data + (polyfit1 data).2 * measN data = measY data
    ∧ (polyfit1 data).1 * measXX data + (polyfit1 data).2 * measX data = measXY data := by
  have hn := (measN_pos h).ne'
  have hd := (measDet_pos h h2).ne'
  have eg : (polyfit1 data).1 * measDet data = measN data * measXY data - measX data * measY data := by
    unfold polyfit1
    rw [if_neg hd]
    exact div_mul_cancel₀ _ hd
  have eo : (polyfit1 data).2 * measN data = measY data - (polyfit1 data).1 * measX data := by
    unfold polyfit1
    rw [if_neg hd]
    exact div_mul_cancel₀ _ hn
  refine ⟨by rw [eo]; ring, ?_⟩
  have : measN data * ((polyfit1 data).1 * measXX data + (polyfit1 data).2 * measX data) = measN data * measXY data := by
    have : measN data * ((polyfit1 data).1 * measXX data + (polyfit1 data).2 * measX data)
        = (polyfit1 data).1 * (measN data * measXX data) + ((polyfit1 data).2 * measN data) * measX data := by ring
    rw [this, eo]
    unfold measDet at eg
    linear_combination eg
  exact mul_left_cancel₀ hn this

/-- The error of any line compared to the one of the fit. -/
theorem error_split {data : List MeasPair} (h : 2 ≤ data.length) (h2 : TwoRaw data) (a b : ℚ) :
    squaredError data a b = squaredError data (polyfit1 data).1 (polyfit1 data).2
      + (data.map (fun p => (((polyfit1 data).1 - a) * p.raw + ((polyfit1 data).2 - b)) ^ 2)).sum := by
  obtain ⟨e1, e2⟩ := normal_eqs h h2
  generalize (polyfit1 data).1 = g at *
  generalize (polyfit1 data).2 = o at *
  have s1 := sum_quad data (a ^ 2) (-2 * a) 1 (2 * a * b) (-2 * b) (b ^ 2) (fun p => (p.si - (a * p.raw + b)) ^ 2) (fun p => by ring)
  have s2 := sum_quad data (g ^ 2) (-2 * g) 1 (2 * g * o) (-2 * o) (o ^ 2) (fun p => (p.si - (g * p.raw + o)) ^ 2) (fun p => by ring)
  have s3 := sum_quad data ((g - a) ^ 2) 0 0 (2 * (g - a) * (o - b)) 0 ((o - b) ^ 2) (fun p => ((g - a) * p.raw + (o - b)) ^ 2) (fun p => by ring)
  unfold squaredError
  rw [s1, s2, s3, ← e1, ← e2]
  ring

/-- The variation of reference values is the one that the line explains and the error. -/
theorem tot_split {data : List MeasPair} (h : 2 ≤ data.length) (h2 : TwoRaw data) :
    ssTot data = ssReg data + squaredError data (polyfit1 data).1 (polyfit1 data).2 := by
  have hn := (measN_pos h).ne'
  have := error_split h h2 0 (measY data / measN data)
  have e : squaredError data 0 (measY data / measN data) = ssTot data := by
    unfold squaredError ssTot
    simp only
    congr 1
    apply List.map_congr_left
    intro p _
    ring
  rw [← e, this]
  have : ssReg data = (data.map (fun p => (((polyfit1 data).1 - 0) * p.raw + ((polyfit1 data).2 - measY data / measN data)) ^ 2)).sum := by
    unfold ssReg
    simp only
    congr 1
    apply List.map_congr_left
    intro p _
    ring
  rw [this]; ring

theorem squaredError_nonneg (data : List MeasPair) (a b : ℚ) : 0 ≤ squaredError data a b := sum_sq_nonneg data (fun p => p.si - (a * p.raw + b))

theorem rValue_le {data : List MeasPair} (h : 2 ≤ data.length) (h2 : TwoRaw data) {r : ℚ} (hr : rValue data = some r) : 0 ≤ r ∧ r ≤ 1 := by
  unfold rValue at hr
  split at hr
  · cases hr
  · rename_i hne
    cases hr
    have h1 := squaredError_nonneg data (polyfit1 data).1 (polyfit1 data).2
    have h3 := tot_split h h2
    have h4 : 0 ≤ ssReg data := sum_sq_nonneg data (fun p => (polyfit1 data).1 * p.raw + (polyfit1 data).2 - measY data / measN data)
    have h5 : 0 < ssTot data := lt_of_le_of_ne (by linarith) (Ne.symm hne)
    exact ⟨by positivity, by rw [div_le_one h5]; linarith⟩

theorem measToCal_ok {data : List MeasPair} {c : CalPair} (h : measToCal data = .ok c) :
    MeasOk data ∧ c = ⟨(polyfit1 data).1, (polyfit1 data).2⟩ ∧ 0 < c.gain ∧ ∀ r, rValue data = some r → 999 / 1000 ≤ r := by
  unfold measToCal at h
  split at h
  · cases h
  · rename_i h1
    split at h
    · cases h
    · rename_i h2
      split at h
      · cases h
      · rename_i h3
        cases h
        simp only [not_or, not_lt, not_not, List.all_eq_true, decide_eq_true_eq] at h1
        refine ⟨⟨h1.1, h1.2⟩, rfl, not_le.mp h3, ?_⟩
        intro r hr
        rw [hr] at h2
        simpa [tooLow] using h2

theorem measToCal_of {data : List MeasPair} (h : MeasOk data) (hr : ∀ r, rValue data = some r → 999 / 1000 ≤ r) (hg : 0 < (polyfit1 data).1) :
    measToCal data = .ok ⟨(polyfit1 data).1, (polyfit1 data).2⟩ := by
  unfold measToCal
  rw [if_neg, if_neg, if_neg (not_le.mpr hg)]
  · cases hv : rValue data with
    | none => simp [tooLow]
    | some r => simpa [tooLow] using hr r hv
  · simp only [not_or, not_lt, not_not, List.all_eq_true, decide_eq_true_eq]
    exact h

theorem twoRaw_or (data : List MeasPair) : TwoRaw data ∨ ∀ p ∈ data, ∀ q ∈ data, p.raw = q.raw := by
  by_cases h : TwoRaw data
  · exact Or.inl h
  · right
    intro p hp q hq
    by_contra hne
    exact h ⟨p, hp, q, hq, hne⟩

theorem measX_const {data : List MeasPair} {x : ℚ} (h : ∀ p ∈ data, p.raw = x) : measX data = measN data * x ∧ measDet data = 0 := by
  have h1 : measX data = measN data * x := by
    unfold measX measN
    rw [List.map_congr_left h]
    simp
  have h2 : measXX data = measN data * (x * x) := by
    unfold measXX measN
    rw [List.map_congr_left (g := fun _ => x * x) (fun p hp => by rw [h p hp])]
    simp
  refine ⟨h1, ?_⟩
  unfold measDet
  rw [h1, h2]; ring

theorem measY_const {data : List MeasPair} {y : ℚ} (h : ∀ p ∈ data, p.si = y) : measY data = measN data * y := by
  unfold measY measN
  rw [List.map_congr_left h]
  simp

/-! ## Theorems -/

/-- **C06** (exact points): if all points lie on a line with positive slope and there are two different raw values, the calibration is this line. -/
theorem C06_exact (data : List MeasPair) (h : MeasOk data) (h2 : TwoRaw data) (gain offset : ℚ) (hg : 0 < gain)
    (hl : ∀ p ∈ data, p.si = gain * p.raw + offset) : measToCal data = .ok ⟨gain, offset⟩ := by
  have hs := error_split h.1 h2 gain offset
  have hz : squaredError data gain offset = 0 := by
    unfold squaredError
    rw [List.map_congr_left (g := fun _ => (0 : ℚ)) (fun p hp => by rw [hl p hp]; ring)]
    simp
  have h1 := squaredError_nonneg data (polyfit1 data).1 (polyfit1 data).2
  have h3 := sum_sq_nonneg data (fun p => ((polyfit1 data).1 - gain) * p.raw + ((polyfit1 data).2 - offset))
  have hq := sum_sq_zero (data := data) (g := fun p => ((polyfit1 data).1 - gain) * p.raw + ((polyfit1 data).2 - offset)) (by linarith)
  obtain ⟨p, hp, q, hq', hne⟩ := h2
  have ep := hq p hp
  have eq := hq q hq'
  have e1 : ((polyfit1 data).1 - gain) * (p.raw - q.raw) = 0 := by linarith
  have e2 : (polyfit1 data).1 = gain := by
    rcases mul_eq_zero.mp e1 with e | e
    · linarith
    · exact absurd (by linarith) hne
  have e3 : (polyfit1 data).2 = offset := by rw [e2] at ep; linarith
  rw [← e2, ← e3]
  refine measToCal_of h ?_ (by rw [e2]; exact hg)
  intro r hr
  have ht := tot_split h.1 ⟨p, hp, q, hq', hne⟩
  have he : squaredError data (polyfit1 data).1 (polyfit1 data).2 = 0 := by linarith
  unfold rValue at hr
  split at hr
  · cases hr
  · rename_i hne
    cases hr
    rw [ht, he, add_zero, div_self (by rw [ht, he, add_zero] at hne; exact hne)]
    norm_num

/-- **C06** (optimum): no line has a smaller squared error than the calibration, and all other lines have a bigger one. -/
theorem C06_optimum (data : List MeasPair) (h2 : TwoRaw data) (c : CalPair) (h : measToCal data = .ok c) (gain offset : ℚ) :
    squaredError data c.gain c.offset ≤ squaredError data gain offset
    ∧ (squaredError data gain offset ≤ squaredError data c.gain c.offset → gain = c.gain ∧ offset = c.offset) := by
  obtain ⟨hm, rfl, -, -⟩ := measToCal_ok h
  have hs := error_split hm.1 h2 gain offset
  have h3 := sum_sq_nonneg data (fun p => ((polyfit1 data).1 - gain) * p.raw + ((polyfit1 data).2 - offset))
  refine ⟨by simp only; linarith, fun hle => ?_⟩
  simp only at hle ⊢
  have hq := sum_sq_zero (data := data) (g := fun p => ((polyfit1 data).1 - gain) * p.raw + ((polyfit1 data).2 - offset)) (by linarith)
  obtain ⟨p, hp, q, hq', hne⟩ := h2
  have ep := hq p hp
  have eq := hq q hq'
  have e1 : ((polyfit1 data).1 - gain) * (p.raw - q.raw) = 0 := by linarith
  have e2 : (polyfit1 data).1 = gain := by
    rcases mul_eq_zero.mp e1 with e | e
    · linarith
    · exact absurd (by linarith) hne
  exact ⟨e2.symm, by rw [e2] at ep; linarith⟩

/-- **C06** (quality): the quality value is between 0 and 1. -/
theorem C06_quality (data : List MeasPair) (h : 2 ≤ data.length) (h2 : TwoRaw data) (r : ℚ) (hr : rValue data = some r) : 0 ≤ r ∧ r ≤ 1 := rValue_le h h2 hr

/-- **C06** (gate): what is accepted has a positive gain, and the squared error is at most a thousandth of the variation of the reference values around their mean. -/
theorem C06_gate (data : List MeasPair) (h2 : TwoRaw data) (c : CalPair) (h : measToCal data = .ok c) :
    0 < c.gain ∧ squaredError data c.gain c.offset ≤ (data.map (fun p => (p.si - meanSi data) ^ 2)).sum / 1000 := by
  obtain ⟨hm, rfl, hg, hr⟩ := measToCal_ok h
  refine ⟨hg, ?_⟩
  have ht := tot_split hm.1 h2
  have e : (data.map (fun p => (p.si - meanSi data) ^ 2)).sum = ssTot data := rfl
  rw [e]
  simp only
  by_cases hz : ssTot data = 0
  · have h4 : 0 ≤ ssReg data := sum_sq_nonneg data (fun p => (polyfit1 data).1 * p.raw + (polyfit1 data).2 - measY data / measN data)
    have h1 := squaredError_nonneg data (polyfit1 data).1 (polyfit1 data).2
    rw [hz]; linarith
  · have h4 : 0 ≤ ssReg data := sum_sq_nonneg data (fun p => (polyfit1 data).1 * p.raw + (polyfit1 data).2 - measY data / measN data)
    have h1 := squaredError_nonneg data (polyfit1 data).1 (polyfit1 data).2
    have h5 : 0 < ssTot data := lt_of_le_of_ne (by linarith) (Ne.symm hz)
    have := hr (ssReg data / ssTot data) (by unfold rValue; rw [if_neg hz])
    rw [le_div_iff₀ h5] at this
    linarith

/-- **C06** (refused): measurements with two raw values are refused with a ValueError exactly if the best line does not rise or its squared error is more than a thousandth
of the variation. -/
theorem C06_refused (data : List MeasPair) (h : MeasOk data) (h2 : TwoRaw data) (gain offset : ℚ)
    (hbest : ∀ a b, squaredError data gain offset ≤ squaredError data a b) :
    measToCal data = .error .valueError ↔
      gain ≤ 0 ∨ (data.map (fun p => (p.si - meanSi data) ^ 2)).sum / 1000 < squaredError data gain offset := by
  have hs := error_split h.1 h2 gain offset
  have h3 := sum_sq_nonneg data (fun p => ((polyfit1 data).1 - gain) * p.raw + ((polyfit1 data).2 - offset))
  have hb := hbest (polyfit1 data).1 (polyfit1 data).2
  have hq := sum_sq_zero (data := data) (g := fun p => ((polyfit1 data).1 - gain) * p.raw + ((polyfit1 data).2 - offset)) (by linarith)
  obtain ⟨p, hp, q, hq', hne⟩ := id h2
  have ep := hq p hp
  have eq := hq q hq'
  have e1 : ((polyfit1 data).1 - gain) * (p.raw - q.raw) = 0 := by linarith
  have e2 : (polyfit1 data).1 = gain := by
    rcases mul_eq_zero.mp e1 with e | e
    · linarith
    · exact absurd (by linarith) hne
  have e3 : (polyfit1 data).2 = offset := by rw [e2] at ep; linarith
  have e : (data.map (fun p => (p.si - meanSi data) ^ 2)).sum = ssTot data := rfl
  have ht := tot_split h.1 h2
  have h4 : 0 ≤ ssReg data := sum_sq_nonneg data (fun p => (polyfit1 data).1 * p.raw + (polyfit1 data).2 - measY data / measN data)
  have h1 := squaredError_nonneg data (polyfit1 data).1 (polyfit1 data).2
  rw [e, ← e2, ← e3]
  constructor
  · intro herr
    by_contra hcon
    rw [not_or, not_le, not_lt] at hcon
    have : measToCal data = .ok ⟨(polyfit1 data).1, (polyfit1 data).2⟩ := by
      refine measToCal_of h ?_ hcon.1
      intro r hr
      unfold rValue at hr
      split at hr
      · cases hr
      · rename_i hz
        cases hr
        have h5 : 0 < ssTot data := lt_of_le_of_ne (by linarith) (Ne.symm hz)
        rw [le_div_iff₀ h5]
        linarith [hcon.2]
    rw [this] at herr
    cases herr
  · intro hor
    cases hres : measToCal data with
    | ok c =>
      exfalso
      have hg := C06_gate data h2 c hres
      obtain ⟨-, rfl, -, -⟩ := measToCal_ok hres
      rcases hor with ho | ho
      · exact absurd hg.1 (not_lt.mpr ho)
      · have := hg.2
        rw [e] at this
        simp only at this
        linarith
    | error er =>
      unfold measToCal at hres
      split at hres
      · cases hres; rfl
      · split at hres
        · cases hres; rfl
        · split at hres
          · cases hres; rfl
          · cases hres

/-- **C06** (one raw value): measurements that all have the same raw value and the same positive reference value do not determine a line; they are accepted nevertheless, with a line that
halves the reference value at raw value zero. -/
theorem C06_same_accepted (data : List MeasPair) (x y : ℚ) (hn : 2 ≤ data.length) (hx : 0 < x) (hy : 0 < y)
    (h : ∀ p ∈ data, p.raw = x ∧ p.si = y) : measToCal data = .ok ⟨y / (2 * x), y / 2⟩ := by
  obtain ⟨h1, h0⟩ := measX_const (fun p hp => (h p hp).1)
  have h3 := measY_const (fun p hp => (h p hp).2)
  have hN := measN_pos hn
  have hp : polyfit1 data = (y / (2 * x), y / 2) := by
    unfold polyfit1
    rw [if_pos h0, h1, h3]
    ext <;> simp only <;> field_simp
  have hz : ssTot data = 0 := by
    unfold ssTot
    simp only
    rw [h3, mul_div_cancel_left₀ _ hN.ne', List.map_congr_left (g := fun _ => (0 : ℚ)) (fun p hp => by rw [(h p hp).2]; ring)]
    simp
  have := measToCal_of (data := data) ⟨hn, fun p hp => by rw [(h p hp).1]; exact hx⟩ (by intro r hr; unfold rValue at hr; rw [if_pos hz] at hr; cases hr)
    (by rw [hp]; positivity)
  rw [hp] at this
  exact this

/-- **C06** (one raw value, differing reference): refused. -/
theorem C06_same_refused (data : List MeasPair) (h : MeasOk data) (hx : ∀ p ∈ data, ∀ q ∈ data, p.raw = q.raw) (hy : ∃ p ∈ data, ∃ q ∈ data, p.si ≠ q.si) :
    measToCal data = .error .valueError := by
  have hN := measN_pos h.1
  obtain ⟨p, hp, q, hq, hne⟩ := hy
  have hxp : ∀ r ∈ data, r.raw = p.raw := fun r hr => hx r hr p hp
  obtain ⟨h1, h0⟩ := measX_const hxp
  have hp0 := h.2 p hp
  have hreg : ssReg data = 0 := by
    unfold ssReg polyfit1
    simp only [if_pos h0, h1]
    rw [List.map_congr_left (g := fun _ => (0 : ℚ))]
    · simp
    · intro r hr
      rw [hxp r hr]
      field_simp
      ring
  have htot : ssTot data ≠ 0 := by
    intro hz
    have := sum_sq_zero (data := data) (g := fun p => p.si - measY data / measN data) hz
    have a := this p hp
    have b := this q hq
    exact hne (by linarith)
  unfold measToCal
  rw [if_neg, if_pos]
  · unfold rValue
    rw [if_neg htot, hreg, zero_div]
    simp [tooLow]
  · simp only [not_or, not_lt, not_not, List.all_eq_true, decide_eq_true_eq]
    exact h

/-- **C06** (channels): every channel of a harvester is calibrated with its own measurements; one bad channel makes the whole conversion fail. -/
theorem C06_harvester (m : MeasHarvester) (c : CalHarvester) :
    m.toCal = .ok c ↔ measToCal m.dacVHrv = .ok c.dacVHrv ∧ measToCal m.dacVSim = .ok c.dacVSim ∧ measToCal m.adcVSense = .ok c.adcVSense
      ∧ measToCal m.adcCHrv = .ok c.adcCHrv := by
  obtain ⟨c1, c2, c3, c4⟩ := c
  unfold MeasHarvester.toCal
  cases measToCal m.dacVHrv <;> cases measToCal m.dacVSim <;> cases measToCal m.adcVSense <;> cases measToCal m.adcCHrv <;>
    simp [bind, Except.bind, pure, Except.pure]

/-- **C06** (channels): every channel of an emulator is calibrated with its own measurements; one bad channel makes the whole conversion fail. -/
theorem C06_emulator (m : MeasEmulator) (c : CalEmulator) :
    m.toCal = .ok c ↔ measToCal m.dacVA = .ok c.dacVA ∧ measToCal m.dacVB = .ok c.dacVB ∧ measToCal m.adcCA = .ok c.adcCA
      ∧ measToCal m.adcCB = .ok c.adcCB := by
  obtain ⟨c1, c2, c3, c4⟩ := c
  unfold MeasEmulator.toCal
  cases measToCal m.dacVA <;> cases measToCal m.dacVB <;> cases measToCal m.adcCA <;> cases measToCal m.adcCB <;>
    simp [bind, Except.bind, pure, Except.pure]

/-- **C06** (cape): parts without measurements get the default calibration, measured parts their own; cape and host are kept. -/
theorem C06_cape (dh : CalHarvester) (de : CalEmulator) (m : MeasCape) (c : CalCape) (h : m.toCal dh de = .ok c) :
    c.cape = m.cape ∧ c.host = m.host
    ∧ (∀ hv, m.harvester = some hv → hv.toCal = .ok c.harvester) ∧ (m.harvester = none → c.harvester = dh)
    ∧ (∀ em, m.emulator = some em → em.toCal = .ok c.emulator) ∧ (m.emulator = none → c.emulator = de) := by
  obtain ⟨ca, ho, hv, em⟩ := m
  unfold MeasCape.toCal at h
  cases hv with
  | none =>
    cases em with
    | none => cases h; simp
    | some e =>
      simp only at h ⊢
      cases he : e.toCal with
      | error x => rw [he] at h; cases h
      | ok y => rw [he] at h; cases h; simp [he]
  | some v =>
    simp only at h ⊢
    cases hv : v.toCal with
    | error x => rw [hv] at h; cases h
    | ok z =>
      rw [hv] at h
      cases em with
      | none => cases h; simp [hv]
      | some e =>
        simp only at h ⊢
        cases he : e.toCal with
        | error x => rw [he] at h; cases h
        | ok y => rw [he] at h; cases h; simp [he, hv]

/-! ## Examples -/

/-- Three points on a line. -/
def exMeas : List MeasPair := [⟨100, 3⟩, ⟨200, 5⟩, ⟨400, 9⟩]

example : measToCal exMeas = .ok ⟨1 / 50, 1⟩ :=
  C06_exact exMeas ⟨by decide, by decide⟩ ⟨⟨100, 3⟩, by decide, ⟨200, 5⟩, by decide, by decide⟩ _ _ (by norm_num) (by decide +kernel)

/-- Points with a small error: accepted, the line is not one through two of the points. -/
example : measToCal [⟨100, 3⟩, ⟨200, 5⟩, ⟨400, 901 / 100⟩] = .ok ⟨561 / 28000, 199 / 200⟩ := by decide +kernel
example : TwoRaw [⟨100, 3⟩, ⟨200, 5⟩, ⟨400, 901 / 100⟩] := ⟨⟨100, 3⟩, by decide, ⟨200, 5⟩, by decide, by decide⟩
/-- A big error, a falling line, one measurement only: refused. -/
example : measToCal [⟨100, 3⟩, ⟨200, 6⟩, ⟨400, 9⟩] = .error .valueError := by decide +kernel
example : measToCal [⟨100, 5⟩, ⟨200, 3⟩] = .error .valueError := by decide +kernel
example : measToCal [⟨100, 5⟩] = .error .valueError := by decide +kernel
/-- Twice the same point: accepted with an arbitrary line. -/
example : measToCal [⟨100, 5⟩, ⟨100, 5⟩] = .ok ⟨1 / 40, 5 / 2⟩ := by
  rw [C06_same_accepted [⟨100, 5⟩, ⟨100, 5⟩] 100 5 (by decide) (by norm_num) (by norm_num) (by decide)]
  norm_num

end Verif.Props
