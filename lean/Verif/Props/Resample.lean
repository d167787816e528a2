import Mathlib.Tactic.Linarith
import Mathlib.Tactic.FieldSimp
import Mathlib.Tactic.Ring
import Mathlib.Algebra.Order.Floor.Ring
import Mathlib.Data.Rat.Floor
import Verif.Model.Resample
import Verif.Lemmas.Num

/-!
# C120 Resampling
-/

namespace Verif.Props
open Verif.Model Verif.Py

/-! ## Specification -/

/-- The time stamps of a recording without gaps: `n` of them, the first is `t0`, the distance `d`. -/
def RegularTimes (t0 d : ℚ) (n : ℕ) : List ℚ := (List.range n).map fun (i : ℕ) => t0 + i * d

/-- `l` is the list of all times from `a` on, before `b`, on the grid with the distance `step`. -/
def GridTimes (l : List ℚ) (a b step : ℚ) : Prop := ∀ k : ℕ, l[k]? = if a + k * step < b then some (a + k * step) else none

/-- The samples from `start` up to the end of the range that was asked for. -/
def rangeEnd (n : ℕ) (endN : Option ℕ) : ℕ := min n (endN.getD n)

/-! ## Lemmas -/

theorem getD_regular {t0 d : ℚ} {n i : ℕ} (h : i < n) : (RegularTimes t0 d n).getD i 0 = t0 + i * d := by
  simp [RegularTimes, List.getD_eq_getElem?_getD, h]

theorem arangeQ_grid {a b step : ℚ} (hs : 0 < step) : GridTimes (arangeQ a b step) a b step := by
  intro k
  have key : k < ⌈(b - a) / step⌉.toNat ↔ a + k * step < b := by
    rw [Int.lt_toNat, Int.lt_ceil, lt_div_iff₀ hs]
    push_cast
    constructor <;> intro h <;> linarith
  by_cases h : a + k * step < b
  · rw [if_pos h]
    simp [arangeQ, key.2 h]
  · rw [if_neg h]
    have := mt key.1 h
    simp [arangeQ]
    omega

theorem arangeQ_length (a b step : ℚ) : (arangeQ a b step).length = ⌈(b - a) / step⌉.toNat := by simp [arangeQ]

/-- The blocks of the result. -/
def timeBlocks (src : List ℚ) (dataLen block : ℕ) (step : ℚ) (inNow k : ℕ) : List ℚ :=
  (List.range k).flatMap fun i => arangeQ (src.getD (inNow + i * block) 0) (src.getD (min (inNow + (i + 1) * block) (dataLen - 1)) 0) step

theorem timeBlocks_succ (src : List ℚ) (dataLen block : ℕ) (step : ℚ) (inNow k : ℕ) :
    timeBlocks src dataLen block step inNow (k + 1) =
      arangeQ (src.getD inNow 0) (src.getD (min (inNow + block) (dataLen - 1)) 0) step ++ timeBlocks src dataLen block step (inNow + block) k := by
  unfold timeBlocks
  rw [List.range_succ_eq_map, List.flatMap_cons, List.flatMap_map]
  congr 1
  · simp
  · congr 1
    funext i
    have e1 : inNow + (i + 1) * block = inNow + block + i * block := by ring
    have e2 : inNow + (i + 1 + 1) * block = inNow + block + (i + 1) * block := by ring
    simp only [Nat.succ_eq_add_one, e1, e2]

theorem resampleTimes_eq (src : List ℚ) (dataLen block : ℕ) (step : ℚ) : ∀ (k inNow outNow : ℕ) (dst : List ℚ), outNow ≤ dst.length →
    if outNow + (timeBlocks src dataLen block step inNow k).length ≤ dst.length then
      ∃ d, resampleTimes src dataLen block step k inNow outNow dst = .ok (outNow + (timeBlocks src dataLen block step inNow k).length, d) ∧
        d.length = dst.length ∧ d.take (outNow + (timeBlocks src dataLen block step inNow k).length) = dst.take outNow ++ timeBlocks src dataLen block step inNow k
    else resampleTimes src dataLen block step k inNow outNow dst = .error .valueError := by
  intro k
  induction k with
  | zero =>
    intro inNow outNow dst h
    simp [timeBlocks, resampleTimes, h]
  | succ k ih =>
    intro inNow outNow dst h
    rw [timeBlocks_succ]
    generalize hA : arangeQ (src.getD inNow 0) (src.getD (min (inNow + block) (dataLen - 1)) 0) step = A
    by_cases hp : outNow + A.length ≤ dst.length
    · have hput : putSlice dst outNow A = .ok (dst.take outNow ++ A ++ dst.drop (outNow + A.length)) := by simp [putSlice, hp]
      generalize hd : dst.take outNow ++ A ++ dst.drop (outNow + A.length) = dst' at hput
      have hlen : dst'.length = dst.length := by
        rw [← hd]
        simp
        omega
      have hres : resampleTimes src dataLen block step (k + 1) inNow outNow dst =
          resampleTimes src dataLen block step k (inNow + block) (outNow + A.length) dst' := by
        simp only [resampleTimes, hA, hput, bind, Except.bind]
      have := ih (inNow + block) (outNow + A.length) dst' (by omega)
      rw [hres, List.length_append, ← Nat.add_assoc, ← hlen]
      split at this
      · rename_i hc
        rw [if_pos hc]
        obtain ⟨d, h1, h2, h3⟩ := this
        refine ⟨d, h1, h2, ?_⟩
        rw [h3, ← List.append_assoc]
        congr 1
        rw [← hd, List.take_append_of_le_length (by simp; omega)]
        rw [List.take_of_length_le]
        simp
      · rename_i hc
        rw [if_neg hc]
        exact this
    · rw [if_neg (by rw [List.length_append]; omega)]
      have hput : putSlice dst outNow A = .error .valueError := by simp [putSlice, hp]
      simp only [resampleTimes, hA, hput, bind, Except.bind]

theorem resizeDest_length (l : List ℚ) (n : ℕ) : (resizeDest l n).length = n := by
  simp [resizeDest]
  omega

theorem resizeDest_le {l : List ℚ} {n : ℕ} (h : n ≤ l.length) : resizeDest l n = l.take n := by
  simp [resizeDest, h]

theorem rangeEnd_eq (n : ℕ) (endN : Option ℕ) : resampleEnd n endN = rangeEnd n endN := by
  cases endN <;> simp [rangeEnd, resampleEnd]

theorem resampleBlock_down {c : ResampleCfg} {dl : ℕ} {ratio : ℚ} (h : ratio ≤ 1) : resampleBlock c dl ratio = min c.maxElements dl := by
  simp [resampleBlock, h]

theorem resampleBlock_one {c : ResampleCfg} {dl : ℕ} {ratio : ℚ} (h : dl ≤ c.maxElements) (h' : dl * ratio ≤ c.maxElements) :
    resampleBlock c dl ratio = dl := by
  by_cases hr : ratio ≤ 1
  · rw [resampleBlock_down hr]
    omega
  · have h0 : ratio ≠ 0 := by intro h; rw [h] at hr; norm_num at hr
    rw [resampleBlock, if_neg hr, min_eq_right h', mul_div_cancel_right₀ _ h0]
    simp

/-- Resampling of times: the blocks one after the other, or an error if the destination is too short. -/
theorem resample_time_eq (c : ResampleCfg) (src : List ℚ) (dst : Option (List ℚ)) (startN : ℕ) (endN : Option ℕ) (rate : ℚ)
    (hc : c.ivcurve = false) (hb : resampleBlock c (rangeEnd src.length endN - startN) (rate / c.samplerate) ≠ 0) (hn : startN < rangeEnd src.length endN) :
    resample c src dst startN endN rate true =
      (let dl := rangeEnd src.length endN - startN
       let block := resampleBlock c dl (rate / c.samplerate)
       let out := timeBlocks src dl block (10 ^ 9 / rate) startN ((dl + block - 1) / block)
       if out.length ≤ ⌊dl * (rate / c.samplerate)⌋.toNat + 1 then .ok (some out) else .error .valueError) := by
  have hmin : min (rangeEnd src.length endN) startN = startN := by omega
  have hdl : rangeEnd src.length endN - startN ≠ 0 := by omega
  simp only [resample, hc, Bool.false_eq_true, if_false, rangeEnd_eq, hmin, hdl, if_true, hb]
  generalize rangeEnd src.length endN - startN = dl at *
  generalize resampleBlock c dl (rate / c.samplerate) = block at *
  have := resampleTimes_eq src dl block (10 ^ 9 / rate) ((dl + block - 1) / block) startN 0
    (resizeDest (dst.getD []) (⌊dl * (rate / c.samplerate)⌋.toNat + 1)) (by omega)
  rw [resizeDest_length] at this
  simp only [Nat.zero_add, List.take_zero, List.nil_append] at this
  split at this
  · rename_i hlen
    rw [if_pos hlen]
    obtain ⟨d, h1, h2, h3⟩ := this
    rw [h1]
    simp only
    rw [resizeDest_le (by omega), h3]
  · rename_i hlen
    rw [if_neg hlen, this]

/-! ## Theorems -/

/-- **C120** Recordings of curves and empty ranges leave the destination as it is. -/
theorem C120_untouched (c : ResampleCfg) (src : List ℚ) (dst : Option (List ℚ)) (startN : ℕ) (endN : Option ℕ) (rate : ℚ) (isTime : Bool)
    (h : c.ivcurve = true ∨ rangeEnd src.length endN ≤ startN) : resample c src dst startN endN rate isTime = .ok dst := by
  unfold resample
  rcases h with h | h
  · simp [h]
  · have : rangeEnd src.length endN - min (rangeEnd src.length endN) startN = 0 := by omega
    by_cases hc : c.ivcurve = true
    · simp [hc]
    · simp only [hc, rangeEnd_eq, this]
      simp

/-- **C120, violated**: whatever the samples are, the result is empty, and a destination that was filled is emptied. -/
theorem C120_samples_violated (c : ResampleCfg) (src : List ℚ) (dst : Option (List ℚ)) (startN : ℕ) (endN : Option ℕ) (rate : ℚ)
    (hc : c.ivcurve = false) (hn : startN < rangeEnd src.length endN) :
    (∀ r, resample c src dst startN endN rate false = .ok r → r = some []) ∧
    (0 < c.maxElements → rate / c.samplerate ≤ 1 → resample c src dst startN endN rate false = .ok (some [])) := by
  have hmin : min (rangeEnd src.length endN) startN = startN := by omega
  have hdl : rangeEnd src.length endN - startN ≠ 0 := by omega
  have h0 (l : List ℚ) : resizeDest l 0 = [] := by simp [resizeDest]
  constructor
  · intro r hr
    simp only [resample, hc, Bool.false_eq_true, if_false, rangeEnd_eq, hmin, hdl, h0] at hr
    split at hr
    · simp at hr
    · simpa using hr.symm
  · intro hm hr
    have hb : min c.maxElements (rangeEnd src.length endN - startN) ≠ 0 := by omega
    simp only [resample, hc, Bool.false_eq_true, if_false, rangeEnd_eq, hmin, hdl, resampleBlock, hr, if_true, hb, h0]

/-- One block, from any start: the grid begins with the first sample of the range, but its end is counted from the start of the recording. -/
theorem resample_one_block (c : ResampleCfg) (t0 d rate : ℚ) (n startN : ℕ) (endN : Option ℕ) (dst : Option (List ℚ))
    (hc : c.ivcurve = false) (hs : 0 < c.samplerate) (hd : c.samplerate * d = 10 ^ 9) (hr : 0 < rate)
    (hn : startN < rangeEnd n endN) (hm : rangeEnd n endN - startN ≤ c.maxElements)
    (hm' : (rangeEnd n endN - startN : ℕ) * rate ≤ c.maxElements * c.samplerate) :
    ∃ l, resample c (RegularTimes t0 d n) dst startN endN rate true = .ok (some l) ∧
      GridTimes l (t0 + startN * d) (t0 + (rangeEnd n endN - startN - 1 : ℕ) * d) (10 ^ 9 / rate) := by
  have hlen : (RegularTimes t0 d n).length = n := by simp [RegularTimes]
  have hle : rangeEnd n endN ≤ n := by simp [rangeEnd]
  have hd0 : 0 < d := by
    by_contra hcon
    have : c.samplerate * d ≤ 0 := mul_nonpos_of_nonneg_of_nonpos hs.le (by linarith)
    norm_num [hd] at this
  have hstep : (0 : ℚ) < 10 ^ 9 / rate := by positivity
  have hblock : resampleBlock c (rangeEnd n endN - startN) (rate / c.samplerate) = rangeEnd n endN - startN := by
    apply resampleBlock_one hm
    rw [← mul_div_assoc, div_le_iff₀ hs]
    exact hm'
  have := resample_time_eq c (RegularTimes t0 d n) dst startN endN rate hc (by rw [hlen, hblock]; omega) (by rw [hlen]; exact hn)
  rw [hlen] at this
  simp only at this
  generalize hdl : rangeEnd n endN - startN = dl at *
  have hit : (dl + dl - 1) / dl = 1 := by
    rw [Nat.div_eq_iff (by omega)]
    omega
  have hone : timeBlocks (RegularTimes t0 d n) dl dl (10 ^ 9 / rate) startN 1 =
      arangeQ (t0 + startN * d) (t0 + (dl - 1 : ℕ) * d) (10 ^ 9 / rate) := by
    have h1 : min (startN + dl) (dl - 1) = dl - 1 := by omega
    rw [timeBlocks_succ, h1, getD_regular (by omega), getD_regular (by omega)]
    simp [timeBlocks]
  rw [hblock, hit, hone] at this
  have hfit : (arangeQ (t0 + startN * d) (t0 + (dl - 1 : ℕ) * d) (10 ^ 9 / rate)).length ≤ ⌊dl * (rate / c.samplerate)⌋.toNat + 1 := by
    rw [arangeQ_length]
    have hdr : d / (10 ^ 9 / rate) = rate / c.samplerate := by
      rw [← hd]
      field_simp
    have hx : (t0 + (dl - 1 : ℕ) * d - (t0 + startN * d)) / (10 ^ 9 / rate) ≤ dl * (rate / c.samplerate) := by
      rw [← hdr, ← mul_div_assoc]
      apply div_le_div_of_nonneg_right _ hstep.le
      have h1 : ((dl - 1 : ℕ) : ℚ) ≤ dl := by exact_mod_cast Nat.sub_le _ _
      have h2 := mul_le_mul_of_nonneg_right h1 hd0.le
      have h3 : (0 : ℚ) ≤ startN * d := by positivity
      linarith
    have hce := (Int.ceil_mono hx).trans (Int.ceil_le_floor_add_one _)
    have hfl : 0 ≤ ⌊(dl : ℚ) * (rate / c.samplerate)⌋ := Int.floor_nonneg.2 (by positivity)
    omega
  rw [if_pos hfit] at this
  exact ⟨_, this, arangeQ_grid hstep⟩

/-- **C120, in part**: with one block from the beginning of the recording, the times are those on the new grid, from the first sample on and before the last one. -/
theorem C120_time_partial (c : ResampleCfg) (t0 d rate : ℚ) (n : ℕ) (endN : Option ℕ) (dst : Option (List ℚ))
    (hc : c.ivcurve = false) (hs : 0 < c.samplerate) (hd : c.samplerate * d = 10 ^ 9) (hr : 0 < rate)
    (hn : 0 < rangeEnd n endN) (hm : rangeEnd n endN ≤ c.maxElements) (hm' : rangeEnd n endN * rate ≤ c.maxElements * c.samplerate) :
    ∃ l, resample c (RegularTimes t0 d n) dst 0 endN rate true = .ok (some l) ∧
      GridTimes l t0 (t0 + (rangeEnd n endN - 1 : ℕ) * d) (10 ^ 9 / rate) := by
  obtain ⟨l, h1, h2⟩ := resample_one_block c t0 d rate n 0 endN dst hc hs hd hr hn hm (by simpa using hm')
  refine ⟨l, h1, ?_⟩
  simpa using h2

/-- **C120, violated**: a range in the second half of a recording has no times at all. -/
theorem C120_start_violated (c : ResampleCfg) (t0 d rate : ℚ) (n startN : ℕ) (endN : Option ℕ) (dst : Option (List ℚ))
    (hc : c.ivcurve = false) (hs : 0 < c.samplerate) (hd : c.samplerate * d = 10 ^ 9) (hr : 0 < rate)
    (hn : startN < rangeEnd n endN) (hm : rangeEnd n endN - startN ≤ c.maxElements)
    (hm' : (rangeEnd n endN - startN : ℕ) * rate ≤ c.maxElements * c.samplerate) (hhalf : rangeEnd n endN ≤ 2 * startN + 1) :
    resample c (RegularTimes t0 d n) dst startN endN rate true = .ok (some []) := by
  obtain ⟨l, h1, h2⟩ := resample_one_block c t0 d rate n startN endN dst hc hs hd hr hn hm hm'
  have h0 := h2 0
  have hd0 : 0 < d := by
    by_contra hcon
    have : c.samplerate * d ≤ 0 := mul_nonpos_of_nonneg_of_nonpos hs.le (by linarith)
    norm_num [hd] at this
  have hle : ((rangeEnd n endN - startN - 1 : ℕ) : ℚ) ≤ startN := by
    have : rangeEnd n endN - startN - 1 ≤ startN := by omega
    exact_mod_cast this
  have := mul_le_mul_of_nonneg_right hle hd0.le
  rw [if_neg (by push_cast; linarith)] at h0
  have hl : l = [] := List.eq_nil_of_length_eq_zero (by simpa using h0)
  rw [h1, hl]

/-- **C120, violated**: with more than one block the grid starts anew with every block, so that times beside the grid are in the result whenever a block is not a multiple of the new distance. -/
theorem C120_border_violated (c : ResampleCfg) (t0 d rate : ℚ) (n : ℕ) (dst : Option (List ℚ)) (l : List ℚ)
    (hc : c.ivcurve = false) (hs : 0 < c.samplerate) (hd : c.samplerate * d = 10 ^ 9) (hr : 0 < rate) (hrs : rate ≤ c.samplerate)
    (hm : 0 < c.maxElements) (hn : c.maxElements + 1 < n) (hgrid : ¬ ∃ k : ℕ, (c.maxElements : ℚ) * rate = k * c.samplerate)
    (h : resample c (RegularTimes t0 d n) dst 0 none rate true = .ok (some l)) :
    ∃ t ∈ l, ¬ ∃ k : ℕ, t = t0 + k * (10 ^ 9 / rate) := by
  have hlen : (RegularTimes t0 d n).length = n := by simp [RegularTimes]
  have hd0 : 0 < d := by
    by_contra hcon
    have : c.samplerate * d ≤ 0 := mul_nonpos_of_nonneg_of_nonpos hs.le (by linarith)
    norm_num [hd] at this
  have hstep : (0 : ℚ) < 10 ^ 9 / rate := by positivity
  have hratio : rate / c.samplerate ≤ 1 := by rw [div_le_one hs]; exact hrs
  have hre : rangeEnd n none = n := by simp [rangeEnd]
  rw [resample_time_eq c (RegularTimes t0 d n) dst 0 none rate hc (by rw [hlen, hre, resampleBlock_down hratio]; omega) (by rw [hlen, hre]; omega), hlen, hre] at h
  simp only [Nat.sub_zero] at h
  have hblock : min c.maxElements n = c.maxElements := by omega
  rw [resampleBlock_down hratio, hblock] at h
  split at h
  swap
  · simp at h
  have hl : timeBlocks (RegularTimes t0 d n) n c.maxElements (10 ^ 9 / rate) 0 ((n + c.maxElements - 1) / c.maxElements) = l := by simpa using h
  have hit : 2 ≤ (n + c.maxElements - 1) / c.maxElements := by
    rw [Nat.le_div_iff_mul_le hm]
    omega
  obtain ⟨k, hk⟩ := Nat.exists_eq_add_of_le' hit
  rw [hk, timeBlocks_succ, timeBlocks_succ] at hl
  refine ⟨t0 + c.maxElements * d, ?_, ?_⟩
  · rw [← hl]
    apply List.mem_append_right
    apply List.mem_append_left
    rw [getD_regular (by omega), getD_regular (by omega)]
    have hg := arangeQ_grid (a := t0 + (0 + c.maxElements : ℕ) * d)
      (b := t0 + (min (0 + c.maxElements + c.maxElements) (n - 1) : ℕ) * d) hstep 0
    have hlt : ((0 + c.maxElements : ℕ) : ℚ) < (min (0 + c.maxElements + c.maxElements) (n - 1) : ℕ) := by
      exact_mod_cast (by omega : 0 + c.maxElements < min (0 + c.maxElements + c.maxElements) (n - 1))
    have hlt' := mul_lt_mul_of_pos_right hlt hd0
    rw [if_pos (by linarith)] at hg
    have := List.mem_of_getElem? hg
    simpa using this
  · rintro ⟨k, hk⟩
    apply hgrid
    refine ⟨k, ?_⟩
    have : (c.maxElements : ℚ) * d = k * (10 ^ 9 / rate) := by linarith
    rw [← hd] at this
    field_simp at this
    linarith

/-- **C120, violated**: the space in the destination is counted for the whole recording, but every block is rounded up. For every length of blocks there are recordings and rates that fail with an error. -/
theorem C120_error_violated (c : ResampleCfg) (t0 d : ℚ) (k : ℕ) (dst : Option (List ℚ))
    (hc : c.ivcurve = false) (hs : 0 < c.samplerate) (hd : c.samplerate * d = 10 ^ 9)
    (hm : 1 < c.maxElements) (hk : 0 < c.maxElements % k) (hk2 : c.maxElements % k + 2 < k) :
    resample c (RegularTimes t0 d (c.maxElements + 2)) dst 0 none (c.samplerate / k) true = .error .valueError := by
  have hlen : (RegularTimes t0 d (c.maxElements + 2)).length = c.maxElements + 2 := by simp [RegularTimes]
  have hk0 : (0 : ℚ) < k := by exact_mod_cast (by omega : 0 < k)
  have hk1 : (1 : ℚ) ≤ k := by exact_mod_cast (by omega : 1 ≤ k)
  have hd0 : 0 < d := by
    by_contra hcon
    have : c.samplerate * d ≤ 0 := mul_nonpos_of_nonneg_of_nonpos hs.le (by linarith)
    norm_num [hd] at this
  have hrat : c.samplerate / k / c.samplerate = 1 / k := by field_simp
  have hratio : c.samplerate / k / c.samplerate ≤ 1 := by rw [hrat, div_le_one hk0]; exact hk1
  have hre : rangeEnd (c.maxElements + 2) none = c.maxElements + 2 := by simp [rangeEnd]
  rw [resample_time_eq c _ dst 0 none _ hc (by rw [hlen, hre, resampleBlock_down hratio]; omega) (by rw [hlen, hre]; omega), hlen, hre]
  simp only [Nat.sub_zero]
  rw [resampleBlock_down hratio, hrat]
  have hblock : min c.maxElements (c.maxElements + 2) = c.maxElements := by omega
  have hit : (c.maxElements + 2 + c.maxElements - 1) / c.maxElements = 2 := by
    rw [Nat.div_eq_iff (by omega)]
    omega
  have hstep : 10 ^ 9 / (c.samplerate / k) = k * d := by
    rw [← hd]
    field_simp
  rw [hblock, hit, hstep, if_neg]
  rw [timeBlocks_succ, timeBlocks_succ, getD_regular (by omega), getD_regular (by omega), getD_regular (by omega), getD_regular (by omega)]
  have hm1 : min (0 + c.maxElements) (c.maxElements + 2 - 1) = c.maxElements := by omega
  have hm2 : min (0 + c.maxElements + c.maxElements) (c.maxElements + 2 - 1) = c.maxElements + 1 := by omega
  rw [hm1, hm2]
  have hq := Nat.div_add_mod c.maxElements k
  generalize c.maxElements = m at *
  generalize hqq : m / k = q at *
  generalize m % k = r at *
  have hmq : (m : ℚ) = k * q + r := by exact_mod_cast hq.symm
  have hr0 : (0 : ℚ) < r := by exact_mod_cast hk
  have hr2 : (r : ℚ) + 2 < k := by exact_mod_cast hk2
  have hA : q + 1 ≤ ⌈(t0 + m * d - (t0 + (0 : ℕ) * d)) / (k * d)⌉.toNat := by
    have : (q : ℤ) < ⌈(t0 + m * d - (t0 + (0 : ℕ) * d)) / (k * d)⌉ := by
      rw [Int.lt_ceil, lt_div_iff₀ (by positivity)]
      have : (q : ℚ) * (k * d) < (k * q + r) * d := by
        have := mul_pos hr0 hd0
        linarith
      rw [hmq]
      push_cast
      linarith
    omega
  have hB : 1 ≤ ⌈(t0 + (m + 1 : ℕ) * d - (t0 + (0 + m : ℕ) * d)) / (k * d)⌉.toNat := by
    have : (0 : ℤ) < ⌈(t0 + (m + 1 : ℕ) * d - (t0 + (0 + m : ℕ) * d)) / (k * d)⌉ := by
      rw [Int.ceil_pos]
      apply div_pos _ (by positivity)
      push_cast
      linarith
    omega
  have hF : ⌊((m + 2 : ℕ) : ℚ) * (1 / k)⌋ < (q : ℤ) + 1 := by
    rw [Int.floor_lt, mul_one_div, div_lt_iff₀ hk0]
    push_cast
    rw [hmq]
    linarith
  simp only [List.length_append, arangeQ_length]
  omega

/-! ## The hypotheses are met -/

/-- A recording of a harvest: 100 kHz, 40 s per block. -/
def exResample : ResampleCfg := ⟨false, 100000, 4000000⟩

example : exResample.ivcurve = false ∧ 0 < exResample.samplerate ∧ exResample.samplerate * 10000 = 10 ^ 9 ∧ (0 : ℚ) < 1000 
    ∧ 0 < rangeEnd 3000000 (some 2000000) ∧ rangeEnd 3000000 (some 2000000) ≤ exResample.maxElements
    ∧ rangeEnd 3000000 (some 2000000) * 1000 ≤ exResample.maxElements * exResample.samplerate := by
  norm_num [exResample, rangeEnd]

example : (1500000 : ℕ) < rangeEnd 3000000 (some 2000000) ∧ rangeEnd 3000000 (some 2000000) - 1500000 ≤ exResample.maxElements
    ∧ rangeEnd 3000000 (some 2000000) ≤ 2 * 1500000 + 1 := by
  norm_num [exResample, rangeEnd]

example : 1 < exResample.maxElements ∧ 0 < exResample.maxElements % 7 ∧ exResample.maxElements % 7 + 2 < 7 := by
  norm_num [exResample]

/-- A higher rate. -/
example : resample ⟨false, 100, 50⟩ (RegularTimes 0 10000000 4) none 0 none 250 true =
    .ok (some [0, 4000000, 8000000, 12000000, 16000000, 20000000, 24000000, 28000000]) := by decide +kernel

/-- Samples at 10 ms, 12.5 ms instead: two blocks of five samples, and the second block begins on the grid, at 50 ms. -/
example : resample ⟨false, 100, 5⟩ (RegularTimes 0 10000000 9) none 0 none 80 true =
    .ok (some [0, 12500000, 25000000, 37500000, 50000000, 62500000, 75000000]) := by decide +kernel

/-- The same in blocks of six, where the grid breaks: 60 ms is not a multiple of 12.5 ms. -/
example : resample ⟨false, 100, 6⟩ (RegularTimes 0 10000000 9) none 0 none 80 true =
    .ok (some [0, 12500000, 25000000, 37500000, 50000000, 60000000, 72500000]) := by decide +kernel

end Verif.Props
