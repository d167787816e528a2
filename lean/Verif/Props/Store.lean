import Verif.Model.Store
import Verif.Lemmas.Recorder
import Verif.Py.Binary64

/-!
# C58, C59, C73: GPIO events, time spans and models in files
-/

namespace Verif.Props
open Verif.Py Verif.Model

/-! ## C58: GPIO events -/

/-- **C58, exact cases (partial).**  If delay and period are multiples of the same power of two and all numbers fit into the 53 bits of a float, there are exactly as many events as
requested, at `delay + i * period`. -/
theorem C58_binary_partial {fl : ℚ → ℚ} (hf : Rounding fl) (x y : ℕ) (e : ℤ) (ev : GpioEvent) (he : -1074 ≤ e) (hx : ev.delay = x * (2:ℚ)^e) (hy : ev.period = y * (2:ℚ)^e)
    (hp : 0 < ev.period) (hfit : x + ev.count * y ≤ 2^53) : ev.events fl = (List.range ev.count).map (fun i : ℕ => ev.delay + i * ev.period) := by
  have hpow : (0:ℚ) < (2:ℚ)^e := by positivity
  have hy0 : 0 < y := by
    rcases Nat.eq_zero_or_pos y with h | h
    · rw [hy, h] at hp; simp at hp
    · exact h
  have ex : ∀ n : ℕ, n ≤ 2^53 → fl (n * (2:ℚ)^e) = n * (2:ℚ)^e := by
    intro n hn
    have := hf.exact (n : ℤ) e (by rw [abs_of_nonneg (by positivity)]; exact_mod_cast hn) he
    exact_mod_cast this
  have key : ∀ i, i ≤ ev.count → x + i * y ≤ 2^53 := fun i hi => le_trans (by gcongr) hfit
  have e1 : fl (ev.count * ev.period) = ev.count * ev.period := by
    rw [hy]
    have := ex (ev.count * y) (by omega)
    push_cast at this
    rwa [← mul_assoc]
  have e2 : fl (ev.delay + ev.count * ev.period) = ev.delay + ev.count * ev.period := by
    rw [hx, hy]
    have := ex (x + ev.count * y) hfit
    push_cast at this
    rwa [add_mul, mul_assoc] at this
  have hcount : ev.count ≤ 2^53 := le_trans (Nat.le_mul_of_pos_right _ hy0) (by omega)
  have hlen : arangeLen fl ev.delay (fl (ev.delay + fl (ev.count * ev.period))) ev.period = ev.count := by
    unfold arangeLen
    rw [e1, e2, add_sub_cancel_left, e1, mul_div_assoc, div_self (ne_of_gt hp), mul_one, hf.exactNat _ hcount]
    simp
  unfold GpioEvent.events arange
  rw [hlen]
  apply List.map_congr_left
  intro i hi
  rw [List.mem_range] at hi
  have s1 : fl (ev.delay + ev.period) = ev.delay + ev.period := by
    rw [hx, hy]
    have := ex (x + y) (le_trans (by simpa using Nat.le_mul_of_pos_left y (by omega : 0 < ev.count)) hfit)
    push_cast at this
    rwa [add_mul] at this
  have s2 : fl ev.period = ev.period := by
    rw [hy]
    exact ex y (le_trans (le_trans (Nat.le_mul_of_pos_left y (by omega : 0 < ev.count)) (Nat.le_add_left _ x)) hfit)
  have s3 : fl (i * ev.period) = i * ev.period := by
    rw [hy]
    have := ex (i * y) (by have := key i hi.le; omega)
    push_cast at this
    rwa [← mul_assoc]
  have s4 : fl (ev.delay + i * ev.period) = ev.delay + i * ev.period := by
    rw [hx, hy]
    have := ex (x + i * y) (key i hi.le)
    push_cast at this
    rwa [add_mul, mul_assoc] at this
  unfold arangeAt
  by_cases h0 : i = 0
  · simp [h0]
  · rw [if_neg h0]
    by_cases h1 : i = 1
    · rw [if_pos h1, s1, h1]; simp
    · rw [if_neg h1, s1, add_sub_cancel_left, s2, s3, s4]

/-- Errors of the chain of operations behind the number of events. -/
theorem count_error {fl : ℚ → ℚ} (hf : AccRounding fl) {d p : ℚ} {n : ℕ} (hd : 0 < d) (hp : 1 / 100000 ≤ p) (hn : 1 ≤ n) (hs : d + n * p ≤ 2^48 * p) :
    |fl (fl (fl (d + fl (n * p)) - d) / p) - n| ≤ 1/2 := by
  have hn1 : (1:ℚ) ≤ n := by exact_mod_cast hn
  have hp0 : 0 < p := by linarith
  have hnp : p ≤ n * p := le_mul_of_one_le_left hp0.le hn1
  obtain ⟨a1, a2⟩ := acc_rel hf (x := n * p) (by linarith)
  set A := fl (n * p)
  have hA : 0 < A := by nlinarith
  obtain ⟨b1, b2⟩ := acc_rel hf (x := d + A) (by nlinarith)
  set B := fl (d + A)
  set S := d + n * p with hS
  have hu : S / 2^52 ≤ p / 16 := by rw [div_le_iff₀ (by norm_num)]; linarith
  have hSp : 0 < S := by positivity
  have c1 : -(3 * (S / 2^52)) ≤ B - S := by nlinarith
  have c2 : B - S ≤ 3 * (S / 2^52) := by nlinarith
  have hBd : p / 2 ≤ B - d := by linarith
  obtain ⟨g1, g2⟩ := acc_rel hf (x := B - d) (by linarith)
  set C := fl (B - d)
  have d1 : -(5 * (S / 2^52)) ≤ C - n * p := by nlinarith
  have d2 : C - n * p ≤ 5 * (S / 2^52) := by nlinarith
  have e1 : (n:ℚ) - 5/16 ≤ C / p := by rw [le_div_iff₀ hp0]; linarith
  have e2 : C / p ≤ n + 5/16 := by rw [div_le_iff₀ hp0]; linarith
  obtain ⟨f1, f2⟩ := acc_rel hf (x := C / p) (by linarith)
  have hn2 : (n:ℚ) ≤ 2^48 := by
    have : n * p ≤ 2^48 * p := by linarith
    exact le_of_mul_le_mul_right this hp0
  rw [abs_le]
  constructor <;> nlinarith

/-- **C58, number of events (partial).**  For delays up to 2^47 periods: never fewer events than requested, at most one more. -/
theorem C58_count_partial {fl : ℚ → ℚ} (hf : AccRounding fl) (ev : GpioEvent) (hv : ev.valid = true) (hs : ev.delay + ev.count * ev.period ≤ 2^48 * ev.period) :
    (ev.events fl).length = ev.count ∨ (ev.events fl).length = ev.count + 1 := by
  simp only [GpioEvent.valid, Bool.and_eq_true, decide_eq_true_eq] at hv
  obtain ⟨⟨⟨h1, h2⟩, h3⟩, -⟩ := hv
  have h := count_error hf h1 h2 h3 hs
  rw [abs_le] at h
  have hl : (ev.events fl).length = ⌈fl (fl (fl (ev.delay + fl (ev.count * ev.period)) - ev.delay) / ev.period)⌉.toNat := by
    simp [GpioEvent.events, arange, arangeLen]
  rw [hl]
  generalize fl (fl (fl (ev.delay + fl (ev.count * ev.period)) - ev.delay) / ev.period) = q at h
  have k1 : (ev.count : ℤ) - 1 < ⌈q⌉ := by
    rw [Int.lt_ceil]; push_cast; linarith
  have k2 : ⌈q⌉ ≤ (ev.count : ℤ) + 1 := by
    rw [Int.ceil_le]; push_cast; linarith
  omega

/-- **C58, times of events (partial).**  Event `i` is at `delay + i * period`, with an error of at most `7 i (delay + period) / 2^52`. -/
theorem C58_times_partial {fl : ℚ → ℚ} (hf : AccRounding fl) (ev : GpioEvent) (hv : ev.valid = true) (hs : ev.delay + ev.count * ev.period ≤ 2^48 * ev.period) (i : ℕ) (t : ℚ)
    (ht : (ev.events fl)[i]? = some t) : |t - (ev.delay + i * ev.period)| ≤ 7 * i * (ev.delay + ev.period) / 2^52 := by
  simp only [GpioEvent.valid, Bool.and_eq_true, decide_eq_true_eq] at hv
  obtain ⟨⟨⟨h1, h2⟩, h3⟩, -⟩ := hv
  have hn1 : (1:ℚ) ≤ ev.count := by exact_mod_cast h3
  simp only [GpioEvent.events, arange, List.getElem?_map, Option.map_eq_some_iff] at ht
  obtain ⟨j, hj, rfl⟩ := ht
  have hij : j = i := by
    rw [List.getElem?_range] at hj
    · exact (Option.some.inj hj).symm
    · by_contra hc
      rw [List.getElem?_eq_none (by simpa using hc)] at hj
      cases hj
  subst hij
  generalize ev.delay = d at *
  generalize ev.period = p at *
  have hp0 : 0 < p := by linarith
  have hu : (d + p) / 2^52 ≤ p / 16 := by
    rw [div_le_iff₀ (by norm_num)]
    have : p ≤ ev.count * p := le_mul_of_one_le_left hp0.le hn1
    linarith
  unfold arangeAt
  by_cases h0 : j = 0
  · simp [h0]
  · rw [if_neg h0]
    have hj1 : (1:ℚ) ≤ j := by exact_mod_cast Nat.one_le_iff_ne_zero.mpr h0
    obtain ⟨a1, a2⟩ := acc_rel hf (x := d + p) (by linarith)
    set v := fl (d + p)
    have b1 : -((d + p) / 2^52) ≤ v - (d + p) := by linarith
    have b2 : v - (d + p) ≤ (d + p) / 2^52 := by linarith
    have hdp : 0 < (d + p) / 2^52 := by positivity
    by_cases h1' : j = 1
    · rw [if_pos h1', h1', abs_le]
      constructor <;> push_cast <;> linarith
    · rw [if_neg h1']
      obtain ⟨c1, c2⟩ := acc_rel hf (x := v - d) (by linarith)
      set D := fl (v - d)
      have hvd : v - d ≤ 2 * (d + p) := by linarith
      have d1 : -(3 * ((d + p) / 2^52)) ≤ D - p := by linarith
      have d2 : D - p ≤ 3 * ((d + p) / 2^52) := by linarith
      have hD : p / 2 ≤ D := by linarith
      have hjD : p / 2 ≤ j * D := hD.trans (le_mul_of_one_le_left (by linarith) hj1)
      obtain ⟨e1, e2⟩ := acc_rel hf (x := j * D) (by linarith)
      set E := fl (j * D)
      have hE : 0 < E := by nlinarith
      obtain ⟨f1, f2⟩ := acc_rel hf (x := d + E) (by linarith)
      set F := fl (d + E)
      set u := (d + p) / 2^52 with hudef
      have hDle : D ≤ 5/4 * p := by linarith
      have g1 : -(3 * (j * u)) ≤ j * D - j * p := by nlinarith
      have g2 : j * D - j * p ≤ 3 * (j * u) := by nlinarith
      have hjp : j * D ≤ 5/4 * (j * (d + p)) := by nlinarith
      have hju : j * (d + p) / 2^52 = j * u := by rw [hudef]; ring
      have k1 : j * D / 2^52 ≤ 5/4 * (j * u) := by
        rw [← hju, ← mul_div_assoc]
        exact div_le_div_of_nonneg_right hjp (by norm_num)
      have m1 : -(17/4 * (j * u)) ≤ E - j * p := by linarith
      have m2 : E - j * p ≤ 17/4 * (j * u) := by linarith
      have hdE : d + E ≤ 2 * (j * (d + p)) := by
        have hEle : E ≤ j * p + 17/4 * (j * (p / 16)) := by
          have : j * u ≤ j * (p / 16) := by gcongr
          linarith
        nlinarith
      have k2 : (d + E) / 2^52 ≤ 2 * (j * u) := by
        rw [← hju, ← mul_div_assoc]
        exact div_le_div_of_nonneg_right hdE (by norm_num)
      have hfin : 7 * (j:ℚ) * (d + p) / 2^52 = 7 * (j * u) := by rw [← hju]; ring
      rw [hfin, abs_le]
      constructor <;> linarith

/-- **C58, resolution (partial).**  In experiments of up to 10^6 seconds (11 days) every event is at its time within the guaranteed 10 µs. -/
theorem C58_resolution_partial {fl : ℚ → ℚ} (hf : AccRounding fl) (ev : GpioEvent) (hv : ev.valid = true) (hs : ev.delay + ev.count * ev.period ≤ 1000000) (i : ℕ) (t : ℚ)
    (ht : (ev.events fl)[i]? = some t) : |t - (ev.delay + i * ev.period)| ≤ 1 / 100000 := by
  have hv' := hv
  simp only [GpioEvent.valid, Bool.and_eq_true, decide_eq_true_eq] at hv
  obtain ⟨⟨⟨h1, h2⟩, h3⟩, h4⟩ := hv
  have hs' : ev.delay + ev.count * ev.period ≤ 2^48 * ev.period := by linarith
  have h := C58_times_partial hf ev hv' hs' i t ht
  have hlen := C58_count_partial hf ev hv' hs'
  have hi : i < (ev.events fl).length := by
    by_contra hc
    rw [List.getElem?_eq_none (by omega)] at ht
    cases ht
  have hi' : (i:ℚ) ≤ 4096 := by exact_mod_cast (by omega : i ≤ 4096)
  have hn1 : (1:ℚ) ≤ ev.count := by exact_mod_cast h3
  have hp0 : 0 < ev.period := by linarith
  have : ev.period ≤ ev.count * ev.period := le_mul_of_one_le_left hp0.le hn1
  refine h.trans ?_
  rw [div_le_iff₀ (by norm_num)]
  have : 7 * (i:ℚ) * (ev.delay + ev.period) ≤ 7 * 4096 * 1000000 := by
    apply mul_le_mul
    · linarith
    · linarith
    · linarith
    · norm_num
  refine this.trans ?_
  norm_num

/-- **C58 violated.**  One event too many: delay and period 0.1 s, three events requested, four made.  None at all: delay 2^60 s, period 1 s. -/
theorem C58_count_violated : (∃ ev : GpioEvent, ev.valid = true ∧ ev.delay = b64 (1/10) ∧ ev.period = b64 (1/10) ∧ ev.count = 3 ∧ (ev.events b64).length = 4) ∧
    (∃ ev : GpioEvent, ev.valid = true ∧ ev.period = 1 ∧ ev.count = 1 ∧ ev.events b64 = []) :=
  ⟨⟨⟨b64 (1/10), b64 (1/10), 3⟩, by decide +kernel⟩, ⟨⟨2^60, 1, 1⟩, by decide +kernel⟩⟩

/-- The hypotheses are met: 5 events, half a second apart, after a quarter of a second. -/
example : (⟨1/4, 1/2, 5⟩ : GpioEvent).valid = true ∧ (1/4 : ℚ) = (1:ℕ) * (2:ℚ)^(-2:ℤ) ∧ (1/2 : ℚ) = (2:ℕ) * (2:ℚ)^(-2:ℤ) ∧
    (⟨1/4, 1/2, 5⟩ : GpioEvent).events b64 = [1/4, 3/4, 5/4, 7/4, 9/4] ∧ (1/4 : ℚ) + 5 * (1/2) ≤ 1000000 := by decide +kernel

/-! ## C59: time spans in files -/

/-- A time span after writing it to a file and reading it back. -/
def spanBack (fl : ℚ → ℚ) (us : ℤ) : Except PyErr ℤ := ofSeconds (spanToInt fl us)

/-- **C59, whole seconds (partial).**  Every time span of whole seconds is read back unchanged. -/
theorem C59_whole_partial {fl : ℚ → ℚ} (hf : Rounding fl) (us : ℤ) (h : IsSpan us) (hw : us % 1000000 = 0) : spanBack fl us = .ok us := by
  obtain ⟨k, rfl⟩ : ∃ k, us = k * 1000000 := ⟨us / 1000000, by omega⟩
  obtain ⟨h1, h2⟩ := h
  unfold spanBack spanToInt ofSeconds
  have e : (((k * 1000000 : ℤ) : ℚ) / 1000000) = (k : ℚ) := by push_cast; field_simp
  rw [e, hf.exactInt k (by rw [abs_le]; constructor <;> omega), pyInt_intCast, if_neg (by omega)]

/-- **C59 violated.**  No time span with a fraction of a second is read back unchanged. -/
theorem C59_fraction_violated (fl : ℚ → ℚ) (us : ℤ) (hw : us % 1000000 ≠ 0) : spanBack fl us ≠ .ok us := by
  unfold spanBack ofSeconds
  intro h
  by_cases hc : spanToInt fl us < -86399999913600 ∨ 86399999999999 < spanToInt fl us
  · rw [if_pos hc] at h; cases h
  · rw [if_neg hc] at h
    have := Except.ok.inj h
    omega

/-- **C59, the loss (partial).**  Below 2^32 seconds the fraction is cut off: at most one second is lost and a time span never gets longer. -/
theorem C59_loss_partial {fl : ℚ → ℚ} (hf : AccRounding fl) (us : ℤ) (h0 : 0 ≤ us) (h1 : us < 2^32 * 1000000) : spanBack fl us = .ok (us - us % 1000000) := by
  unfold spanBack spanToInt ofSeconds
  have hq : us = us / 1000000 * 1000000 + us % 1000000 := by omega
  set k := us / 1000000
  set r := us % 1000000
  have hr0 : 0 ≤ r := by omega
  have hr1 : r ≤ 999999 := by omega
  have hk0 : 0 ≤ k := by omega
  have hk1 : k < 2^32 := by omega
  have hr0' : (0:ℚ) ≤ r := by exact_mod_cast hr0
  have hr1' : (r:ℚ) ≤ 999999 := by exact_mod_cast hr1
  have hk0' : (0:ℚ) ≤ k := by exact_mod_cast hk0
  have hk1' : (k:ℚ) ≤ 2^32 := by exact_mod_cast hk1.le
  have hx : ((us : ℤ) : ℚ) / 1000000 = k + r / 1000000 := by
    rw [hq]; push_cast; field_simp
  rw [hx]
  have lo : (k:ℚ) ≤ fl (k + r / 1000000) := hf.int_le (by rw [abs_of_nonneg hk0]; omega) (by linarith [div_nonneg hr0' (by norm_num : (0:ℚ) ≤ 1000000)])
  have hi : fl (k + r / 1000000) < k + 1 := by
    have he := hf.err (k + r / 1000000)
    have hpos : (0:ℚ) ≤ k + r / 1000000 := by positivity
    rw [abs_of_nonneg hpos, abs_le] at he
    have ht : (2:ℚ)^(-1075:ℤ) ≤ (2:ℚ)^(-60:ℤ) := zpow_le_zpow_right₀ (by norm_num) (by norm_num)
    have ht2 : (2:ℚ)^(-60:ℤ) ≤ 1/10^15 := by norm_num
    have hd : (r:ℚ) / 1000000 ≤ 999999 / 1000000 := by gcongr
    have hb : (k + (r:ℚ) / 1000000) / 2^53 ≤ (2^32 + 1) / 2^53 := by
      gcongr; linarith
    have hb2 : ((2:ℚ)^32 + 1) / 2^53 ≤ 1 / 2000000 := by norm_num
    have he2 := he.2
    have ht3 := ht.trans ht2
    clear he ht ht2
    generalize (2:ℚ)^(-1075:ℤ) = T at *
    generalize (k + (r:ℚ) / 1000000) / 2^53 = U at *
    generalize ((2:ℚ)^32 + 1) / 2^53 = V at *
    norm_num at ht3 hb2
    linarith
  have hp : pyInt (fl (k + r / 1000000)) = k := by
    rw [pyInt_of_nonneg (hk0'.trans lo), Int.floor_eq_iff]
    exact ⟨lo, hi⟩
  rw [hp, if_neg (by omega)]
  congr 1
  omega

/-- A half second becomes nothing, and the longest time span can not be read back at all. -/
example : spanBack b64 500000 = .ok 0 ∧ spanBack b64 86399999999999999999 = .error .valueError ∧ IsSpan 86399999999999999999 ∧ spanBack b64 (-1500000) = .ok (-1000000) ∧
    spanBack b64 60000000 = .ok 60000000 := by
  refine ⟨by decide +kernel, by decide +kernel, ⟨by norm_num, by norm_num⟩, by decide +kernel, by decide +kernel⟩

/-! ## C73: models in files -/

mutual
/-- The value fits the type, and has only time spans of whole seconds. -/
def FitsVal : MTy → MVal → Prop
  | .plain, .plain _ => True
  | .span, .span us => IsSpan us ∧ us % 1000000 = 0
  | .sub fs, .sub vs => fs.names.Nodup ∧ FitsFields fs vs
  | _, _ => False
/-- There is one value for every field, it fits. -/
def FitsFields : MFields → MVals → Prop
  | .nil, .nil => True
  | .cons _ t _ fs, .cons _ v vs => FitsVal t v ∧ FitsFields fs vs
  | _, _ => False
end

mutual
/-- Fields that were not set have a constant default and this value. -/
def DefaultVal : MTy → MVal → Prop
  | .sub fs, .sub vs => DefaultFields fs vs
  | _, _ => True
/-- Fields that were not set have a constant default and this value. -/
def DefaultFields : MFields → MVals → Prop
  | .cons _ t d fs, .cons set v vs => (if set then DefaultVal t v else d = .value v) ∧ DefaultFields fs vs
  | _, _ => True
end

mutual
/-- The same values, all of them set explicitly. -/
def allSetVal : MVal → MVal
  | .sub vs => .sub (allSet vs)
  | v => v
/-- The same values, all of them set explicitly. -/
def allSet : MVals → MVals
  | .nil => .nil
  | .cons _ v vs => .cons true (allSetVal v) (allSet vs)
end

theorem dump_get_none (fl : ℚ → ℚ) (min : Bool) (n : String) : ∀ (fs : MFields) (vs : MVals), n ∉ fs.names → (dumpFields fl min fs vs).get n = none
  | .nil, _, _ => by simp [dumpFields, YMap.get]
  | .cons _ _ _ _, .nil, _ => by simp [dumpFields, YMap.get]
  | .cons m t d fs, .cons set v vs, h => by
    simp only [MFields.names, List.mem_cons, not_or] at h
    rw [dumpFields]
    split
    · rw [YMap.get, if_neg (Ne.symm h.1)]
      exact dump_get_none fl min n fs vs h.2
    · exact dump_get_none fl min n fs vs h.2

theorem dump_keys (fl : ℚ → ℚ) (min : Bool) : ∀ (fs : MFields) (vs : MVals), ∀ k ∈ (dumpFields fl min fs vs).keys, k ∈ fs.names
  | .nil, _ => by simp [dumpFields, YMap.keys]
  | .cons _ _ _ _, .nil => by simp [dumpFields, YMap.keys]
  | .cons m t d fs, .cons set v vs => by
    intro k hk
    rw [dumpFields] at hk
    simp only [MFields.names, List.mem_cons]
    split at hk
    · simp only [YMap.keys, List.mem_cons] at hk
      exact hk.imp_right (dump_keys fl min fs vs k)
    · exact Or.inr (dump_keys fl min fs vs k hk)

theorem dump_keys_all (fl : ℚ → ℚ) (min : Bool) (fs : MFields) (vs : MVals) : (dumpFields fl min fs vs).keys.all (fun k => decide (k ∈ fs.names)) = true := by
  rw [List.all_eq_true]
  intro k hk
  exact decide_eq_true (dump_keys fl min fs vs k hk)

section
variable {fl : ℚ → ℚ} (hf : Rounding fl) (gen : ℕ → MVal)
include hf

mutual
theorem load_dump_val : ∀ (t : MTy) (v : MVal), FitsVal t v → DefaultVal t v → loadVal gen t (dumpVal fl true t v) = .ok v
  | .plain, .plain n, _, _ => by simp [dumpVal, loadVal]
  | .span, .span us, h, _ => by
    rw [FitsVal] at h
    have := C59_whole_partial hf us h.1 h.2
    unfold spanBack at this
    rw [dumpVal, loadVal, this]
  | .sub fs, .sub vs, h, hd => by
    rw [FitsVal] at h
    rw [DefaultVal] at hd
    rw [dumpVal, loadVal, if_pos (dump_keys_all fl true fs vs), load_dump_fields fs vs _ h.1 h.2 hd (fun _ _ => rfl)]
  | .plain, .span _, h, _ => by simp [FitsVal] at h
  | .plain, .sub _, h, _ => by simp [FitsVal] at h
  | .span, .plain _, h, _ => by simp [FitsVal] at h
  | .span, .sub _, h, _ => by simp [FitsVal] at h
  | .sub _, .plain _, h, _ => by simp [FitsVal] at h
  | .sub _, .span _, h, _ => by simp [FitsVal] at h
theorem load_dump_fields : ∀ (fs : MFields) (vs : MVals) (m : YMap), fs.names.Nodup → FitsFields fs vs → DefaultFields fs vs →
    (∀ n ∈ fs.names, m.get n = (dumpFields fl true fs vs).get n) → loadFields gen fs m = .ok vs
  | .nil, .nil, m, _, _, _, _ => by simp [loadFields]
  | .nil, .cons _ _ _, _, _, h, _, _ => by simp [FitsFields] at h
  | .cons _ _ _ _, .nil, _, _, h, _, _ => by simp [FitsFields] at h
  | .cons n t d fs, .cons set v vs, m, hn, h, hd, hm => by
    rw [FitsFields] at h
    rw [DefaultFields] at hd
    simp only [MFields.names, List.nodup_cons] at hn
    have hrest : ∀ k ∈ fs.names, m.get k = (dumpFields fl true fs vs).get k := by
      intro k hk
      have hne : n ≠ k := fun e => hn.1 (e ▸ hk)
      rw [hm k (by simp [MFields.names, hk]), dumpFields]
      split
      · rw [YMap.get, if_neg hne]
      · rfl
    have hrec := load_dump_fields fs vs m hn.2 h.2 hd.2 hrest
    have hget := hm n (by simp [MFields.names])
    rw [dumpFields] at hget
    cases set with
    | true =>
      simp only [Bool.true_or, if_true, YMap.get] at hget
      have hv := load_dump_val t v h.1 (by simpa using hd.1)
      rw [loadFields, hget]
      simp only
      rw [hv]
      simp only
      rw [hrec]
    | false =>
      simp only [Bool.not_true, Bool.or_self, Bool.false_eq_true, if_false] at hget
      rw [dump_get_none fl true n fs vs hn.1] at hget
      have hdv : d = .value v := by simpa using hd.1
      rw [loadFields, hget, hdv]
      simp only [Dflt.make]
      rw [hrec]
end

mutual
theorem load_full_val : ∀ (t : MTy) (v : MVal), FitsVal t v → loadVal gen t (dumpVal fl false t v) = .ok (allSetVal v)
  | .plain, .plain n, _ => by simp [dumpVal, loadVal, allSetVal]
  | .span, .span us, h => by
    rw [FitsVal] at h
    have := C59_whole_partial hf us h.1 h.2
    unfold spanBack at this
    rw [dumpVal, loadVal, this]
    simp [allSetVal]
  | .sub fs, .sub vs, h => by
    rw [FitsVal] at h
    rw [dumpVal, loadVal, if_pos (dump_keys_all fl false fs vs), load_full_fields fs vs _ h.1 h.2 (fun _ _ => rfl)]
    simp [allSetVal]
  | .plain, .span _, h => by simp [FitsVal] at h
  | .plain, .sub _, h => by simp [FitsVal] at h
  | .span, .plain _, h => by simp [FitsVal] at h
  | .span, .sub _, h => by simp [FitsVal] at h
  | .sub _, .plain _, h => by simp [FitsVal] at h
  | .sub _, .span _, h => by simp [FitsVal] at h
theorem load_full_fields : ∀ (fs : MFields) (vs : MVals) (m : YMap), fs.names.Nodup → FitsFields fs vs →
    (∀ n ∈ fs.names, m.get n = (dumpFields fl false fs vs).get n) → loadFields gen fs m = .ok (allSet vs)
  | .nil, .nil, m, _, _, _ => by simp [loadFields, allSet]
  | .nil, .cons _ _ _, _, _, h, _ => by simp [FitsFields] at h
  | .cons _ _ _ _, .nil, _, _, h, _ => by simp [FitsFields] at h
  | .cons n t d fs, .cons set v vs, m, hn, h, hm => by
    rw [FitsFields] at h
    simp only [MFields.names, List.nodup_cons] at hn
    have hrest : ∀ k ∈ fs.names, m.get k = (dumpFields fl false fs vs).get k := by
      intro k hk
      have hne : n ≠ k := fun e => hn.1 (e ▸ hk)
      rw [hm k (by simp [MFields.names, hk]), dumpFields]
      simp only [Bool.not_false, Bool.or_true, if_true]
      rw [YMap.get, if_neg hne]
    have hrec := load_full_fields fs vs m hn.2 h.2 hrest
    have hget := hm n (by simp [MFields.names])
    rw [dumpFields] at hget
    simp only [Bool.not_false, Bool.or_true, if_true, YMap.get] at hget
    rw [loadFields, hget]
    simp only
    rw [load_full_val t v h.1]
    simp only
    rw [hrec, allSet]
end

end

/-- **C73, round trip (partial).**  A model of any class, with any nesting of sub-models, whose time spans are whole seconds and whose unset fields have constant defaults, is read
back from a file as it was. -/
theorem C73_roundtrip_partial {fl : ℚ → ℚ} (hf : Rounding fl) (gen : ℕ → MVal) (c : MClass) (vs : MVals) (hn : c.fields.names.Nodup) (h : FitsFields c.fields vs)
    (hd : DefaultFields c.fields vs) : fromFile gen c (toFile fl true c vs) = .ok vs := by
  unfold fromFile toFile
  rw [if_neg (by simp)]
  have := load_dump_val hf gen (.sub c.fields) (.sub vs) (by rw [FitsVal]; exact ⟨hn, h⟩) (by rw [DefaultVal]; exact hd)
  rw [dumpVal] at this
  rw [this]

/-- **C73, complete files (partial).**  Written with `minimal=False`, all values are read back, generated ones, too. -/
theorem C73_full_partial {fl : ℚ → ℚ} (hf : Rounding fl) (gen : ℕ → MVal) (c : MClass) (vs : MVals) (hn : c.fields.names.Nodup) (h : FitsFields c.fields vs) :
    fromFile gen c (toFile fl false c vs) = .ok (allSet vs) := by
  unfold fromFile toFile
  rw [if_neg (by simp)]
  have := load_full_val hf gen (.sub c.fields) (.sub vs) (by rw [FitsVal]; exact ⟨hn, h⟩)
  rw [dumpVal] at this
  rw [this]
  simp [allSetVal]

/-- **C73, wrong class.**  The file of one class is refused by every other class. -/
theorem C73_class (fl : ℚ → ℚ) (gen : ℕ → MVal) (min : Bool) (c c' : MClass) (vs : MVals) (h : c.name ≠ c'.name) :
    fromFile gen c' (toFile fl min c vs) = .error .valueError := by
  unfold fromFile toFile
  rw [if_pos h]

/-- **C73 violated: generated fields.**  A field that was filled by its default factory (the id, the date of creation) gets a new value when the model is read back from the file
written by default. -/
theorem C73_generated_violated (fl : ℚ → ℚ) (gen : ℕ → MVal) (c name : String) (k n : ℕ) :
    fromFile gen ⟨c, .cons name .plain (.factory k) .nil⟩ (toFile fl true ⟨c, .cons name .plain (.factory k) .nil⟩ (.cons false (.plain n) .nil)) =
      .ok (.cons false (gen k) .nil) := by
  simp [fromFile, toFile, dumpFields, loadVal, loadFields, YMap.keys, YMap.get, Dflt.make]

/-- An emulation with a duration of one minute, a source with default name and a sub-model in which one value is set. -/
example : (MFields.cons "duration" .span .required (.cons "source" (.sub (.cons "name" .plain (.value (.plain 3)) (.cons "delay" .span .required .nil))) .required .nil)).names.Nodup ∧
    FitsFields (.cons "duration" .span .required (.cons "source" (.sub (.cons "name" .plain (.value (.plain 3)) (.cons "delay" .span .required .nil))) .required .nil))
      (.cons true (.span 60000000) (.cons true (.sub (.cons false (.plain 3) (.cons true (.span 0) .nil))) .nil)) ∧
    DefaultFields (.cons "duration" .span .required (.cons "source" (.sub (.cons "name" .plain (.value (.plain 3)) (.cons "delay" .span .required .nil))) .required .nil))
      (.cons true (.span 60000000) (.cons true (.sub (.cons false (.plain 3) (.cons true (.span 0) .nil))) .nil)) := by
  refine ⟨by decide, ?_, ?_⟩
  · simp [FitsFields, FitsVal, MFields.names, IsSpan]
  · simp [DefaultFields, DefaultVal]

end Verif.Props
