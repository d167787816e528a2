import Verif.Props.Decimate
import Verif.Props.Harvester
import Verif.Props.Converter
import Verif.Props.Source
import Verif.Props.Store
import Verif.Props.Mppt
import Verif.Props.Cli
import Verif.Props.DataTools
import Verif.Props.Registers

/-!
# C10, C21, C22, C24, C63, C66, C68, C73: details
-/

namespace Verif.Props
open Verif.Py Verif.Model

variable {fl : ℚ → ℚ}

/-! ## First adaptation of the trackers -/

theorem first_run (c : HrvCfg) (g : List HrvIn → ℕ) (h0 : g [] = c.intervalN - 2 * c.windowSize) (hi : 2 * c.windowSize < c.intervalN)
    (hstep : ∀ xs x, g (xs ++ [x]) = g xs + 1 ∧ g (xs ++ [x]) < c.intervalN ∨ g (xs ++ [x]) = 0 ∧ c.intervalN ≤ g xs + 1) (xs : List HrvIn) (hlen : xs.length < 2 * c.windowSize) :
    g xs = c.intervalN - 2 * c.windowSize + xs.length := by
  induction xs using List.reverseRecOn with
  | nil => simpa using h0
  | append_singleton xs x ih =>
    rw [List.length_append, List.length_singleton] at hlen ⊢
    have := ih (by omega)
    rcases hstep xs x with h | h
    · omega
    · omega

/-- **C22, first adaptation.**  If the interval is longer than two curves, the tracker adapts for the first time after exactly two curves. -/
theorem C22_start (c : HrvCfg) (hw : 1 < c.windowSize) (ha : 2^13 ≤ c.algorithm) (hb : c.algorithm < 2^14) (hi : 2 * c.windowSize < c.intervalN) (xs : List HrvIn) :
    (xs.length < 2 * c.windowSize → (after fl c xs).intervalStep ≠ 0) ∧ (xs.length = 2 * c.windowSize → (after fl c xs).intervalStep = 0) := by
  have h0 : (after fl c []).intervalStep = c.intervalN - 2 * c.windowSize := if_pos hi
  have key := first_run c (fun xs => (after fl c xs).intervalStep) h0 hi (C22_interval c hw ha hb)
  constructor
  · intro h
    have := key xs h
    omega
  · intro h
    obtain rfl | ⟨ys, x, rfl⟩ := List.eq_nil_or_concat xs
    · simp at h; omega
    · rw [List.concat_eq_append] at *
      rw [List.length_append, List.length_singleton] at h
      have := key ys (by omega)
      rcases C22_interval (fl := fl) c hw ha hb ys x with h' | h' <;> omega

/-- **C21, first measurement.**  Likewise for the open-circuit tracker: its counter is 0, so that it measures, for the first time after exactly two curves. -/
theorem C21_start (c : HrvCfg) (hw : 1 < c.windowSize) (ha : 2^12 ≤ c.algorithm) (hb : c.algorithm < 2^13) (hi : 2 * c.windowSize < c.intervalN) (xs : List HrvIn) :
    (xs.length < 2 * c.windowSize → (after fl c xs).intervalStep = c.intervalN - 2 * c.windowSize + xs.length) ∧ (xs.length = 2 * c.windowSize → (after fl c xs).intervalStep = 0) := by
  have h0 : (after fl c []).intervalStep = c.intervalN - 2 * c.windowSize := if_pos hi
  have hstep : ∀ xs x, (after fl c (xs ++ [x])).intervalStep = (after fl c xs).intervalStep + 1 ∧ (after fl c (xs ++ [x])).intervalStep < c.intervalN ∨
      (after fl c (xs ++ [x])).intervalStep = 0 ∧ c.intervalN ≤ (after fl c xs).intervalStep + 1 := by
    intro xs x
    unfold after
    rw [hrvRun_snoc]
    obtain ⟨q, hq⟩ := hrvStep_state fl c (hrvRun fl c (HrvState.init c) xs).1 x
    dsimp only
    rw [hq, sample_voc fl c _ _ hw ha hb]
    obtain ⟨f1, f2, _⟩ := cv_frame fl c (vocTrack c (hrvRun fl c (HrvState.init c) xs).1 x.toSample) x.toSample
    obtain ⟨g1, _, _, _, _, _, g2⟩ := vocTrack_frame c (hrvRun fl c (HrvState.init c) xs).1 x.toSample
    unfold ivcurveVoc
    dsimp only
    rw [f2, g2]
    unfold nextInterval
    split_ifs with h
    · exact Or.inr ⟨rfl, h⟩
    · exact Or.inl ⟨rfl, by omega⟩
  have key := first_run c (fun xs => (after fl c xs).intervalStep) h0 hi hstep
  refine ⟨key xs, ?_⟩
  intro h
  obtain rfl | ⟨ys, x, rfl⟩ := List.eq_nil_or_concat xs
  · simp at h; omega
  · rw [List.concat_eq_append] at *
    rw [List.length_append, List.length_singleton] at h
    have := key ys (by omega)
    rcases hstep ys x with h' | h' <;> omega

/-- Two curves of 3 samples each within an interval of 20. -/
example : 1 < ({ demoHrv (2^12) 3 with intervalN := 20 } : HrvCfg).windowSize ∧ 2 * ({ demoHrv (2^12) 3 with intervalN := 20 } : HrvCfg).windowSize < ({ demoHrv (2^12) 3 with intervalN := 20 } : HrvCfg).intervalN := by
  decide

/-! ## Units of simulated streams -/

theorem trunc_close {y b : ℚ} (hy : |y - b| ≤ 1/10^3) : |((pyInt y : ℤ) : ℚ) - b| < 1 + 1/10^3 := by
  have h1 : |((pyInt y : ℤ) : ℚ) - y| < 1 := by
    rcases le_or_gt 0 y with h | h
    · have := pyInt_le h
      have := lt_pyInt_add_one h
      rw [abs_lt]; constructor <;> linarith
    · unfold pyInt
      rw [if_neg (by linarith)]
      rw [abs_lt]
      have := Int.ceil_lt_add_one y
      have := Int.le_ceil y
      constructor <;> linarith
  have : |((pyInt y : ℤ) : ℚ) - b| ≤ |((pyInt y : ℤ) : ℚ) - y| + |y - b| := abs_sub_le _ _ _
  linarith

/-- **C24, units.**  The integers given to the simulated harvester or source are the micro-volts and nano-amperes of the recorded values, cut to whole numbers (voltages up to 10 kV and
currents up to 1000 A). -/
theorem C24_units (h : AccRounding fl) (cal : CalSeries) (x : RawSample) (hv : |cal.voltage.rawToSi fl x.v| ≤ 10^4) (hi : |cal.current.rawToSi fl x.i| ≤ 10^3) :
    |((toSample fl cal x).v : ℚ) - cal.voltage.rawToSi fl x.v * 10^6| < 1 + 1/10^3 ∧ |((toSample fl cal x).i : ℚ) - cal.current.rawToSi fl x.i * 10^9| < 1 + 1/10^3 := by
  constructor
  · refine trunc_close ?_
    refine (acc_mag h (B := 10^10) ?_).trans (by norm_num)
    rw [abs_mul, abs_of_pos (by norm_num : (0:ℚ) < 10^6)]
    linarith
  · refine trunc_close ?_
    refine (acc_mag h (B := 10^12) ?_).trans (by norm_num)
    rw [abs_mul, abs_of_pos (by norm_num : (0:ℚ) < 10^9)]
    linarith

/-! ## Code of the storage -/

/-- **C10, code of the storage.**  In exact arithmetic the code for the voltage of the storage stands for that voltage, up to half a step, if it is in the range of the converter. -/
theorem C10_storage_code (cal : CalEmulator) (hc : cal.dacVA.Valid) (s : CnvState) (h0 : cal.dacVA.offset ≤ s.vMid / 10^6) (h1 : getVIntermediateRaw exact cal s < 65535) :
    |(getVIntermediateRaw exact cal s * cal.dacVA.gain + cal.dacVA.offset) - s.vMid / 10^6| ≤ cal.dacVA.gain / 2 := by
  unfold getVIntermediateRaw convUVToDacRaw at *
  have e : min (cal.dacVA.siToRaw exact (exact (s.vMid / 10^6))) (2^16 - 1) = cal.dacVA.siToRaw exact (s.vMid / 10^6) := by
    rcases le_total (cal.dacVA.siToRaw exact (exact (s.vMid / 10^6))) (2^16 - 1) with h | h
    · exact min_eq_left h
    · rw [min_eq_right h] at h1; norm_num at h1
  rw [e]
  have := C02_si_raw_si cal.dacVA hc (s.vMid / 10^6) h0
  rwa [CalPair.rawToSi_id] at this

/-- In floating point the code is a monotone function of the voltage of the storage alone. -/
theorem C10_storage_code_mono (h : Rounding fl) (cal : CalEmulator) (hc : cal.dacVA.Valid) (s t : CnvState) (hst : s.vMid ≤ t.vMid) :
    getVIntermediateRaw fl cal s ≤ getVIntermediateRaw fl cal t := by
  unfold getVIntermediateRaw convUVToDacRaw
  exact min_le_min_right _ (C03_si_to_raw_mono h cal.dacVA hc _ _ (h.mono (by linarith)))

/-! ## Tables of trackers -/

/-- **C66, exceptions.**  A table is tracked exactly if every row is; otherwise the exception is that of the first row that fails. -/
theorem C66_table_error (track : IvCoeffs → Except PyErr (ℝ × ℝ)) (ks : List IvCoeffs) (e : PyErr) :
    trackTable track ks = .error e ↔ ∃ pre k post, ks = pre ++ k :: post ∧ (∀ j ∈ pre, ∃ r, track j = .ok r) ∧ track k = .error e := by
  induction ks with
  | nil =>
    constructor
    · intro h; cases h
    · rintro ⟨pre, k, post, h, -⟩; simp at h
  | cons k t ih =>
    unfold trackTable
    cases hk : track k with
    | error e' =>
      dsimp only
      constructor
      · intro h
        cases h
        exact ⟨[], k, t, rfl, by simp, hk⟩
      · rintro ⟨pre, j, post, h, h1, h2⟩
        cases pre with
        | nil =>
          simp at h
          rw [h.1, h2] at hk
          rw [Except.error.inj hk]
        | cons a pre =>
          simp at h
          obtain ⟨r, hr⟩ := h1 a (by simp)
          rw [← h.1, hk] at hr
          cases hr
    | ok r =>
      dsimp only
      have hm : (trackTable track t).map (fun l => r :: l) = .error e ↔ trackTable track t = .error e := by
        cases trackTable track t with
        | ok l => simp [Except.map]
        | error e' => simp [Except.map]
      rw [hm, ih]
      constructor
      · rintro ⟨pre, j, post, h, h1, h2⟩
        refine ⟨k :: pre, j, post, by rw [h]; rfl, ?_, h2⟩
        intro i hi
        rcases List.mem_cons.1 hi with rfl | hi
        · exact ⟨r, hk⟩
        · exact h1 i hi
      · rintro ⟨pre, j, post, h, h1, h2⟩
        cases pre with
        | nil =>
          simp at h
          rw [← h.1, hk] at h2
          cases h2
        | cons a pre =>
          simp at h
          exact ⟨pre, j, post, h.2, fun i hi => h1 i (by simp [hi]), h2⟩

/-! ## Unreadable files -/

/-- **C68, unreadable files.**  They are skipped by `downsample`. -/
theorem C68_unreadable {σ : Type} (f : SampleFilter ℤ σ) (start stop : Option ℚ) (rate : Option ℤ) (srcs : List (String × DiskFile)) (factor : Option ℚ) (fs : Files) :
    cliDownsample fl f start stop rate srcs factor fs =
      cliDownsample fl f start stop rate (srcs.filter (fun x => match x.2 with | .notHdf5 => false | .hdf5 _ => true)) factor fs := by
  induction srcs generalizing factor fs with
  | nil => rfl
  | cons a t ih =>
    obtain ⟨n, d⟩ := a
    cases d with
    | notHdf5 =>
      rw [List.filter_cons_of_neg (by simp), ← ih]
      rw [cliDownsample]
      rfl
    | hdf5 g =>
      rw [List.filter_cons_of_pos (by simp)]
      unfold cliDownsample
      simp only [ih]

/-! ## Missing fields -/

/-- The required fields of a class. -/
def requiredFields : MFields → List String
  | .nil => []
  | .cons n _ .required r => n :: requiredFields r
  | .cons _ _ _ r => requiredFields r

theorem loadFields_missing (gen : ℕ → MVal) (m : YMap) (n : String) (hm : m.get n = none) : ∀ (fs : MFields) (vs : MVals), n ∈ requiredFields fs → loadFields gen fs m ≠ .ok vs
  | .nil, _, h => by cases h
  | .cons k t d r, vs, h => by
    have ih := loadFields_missing gen m n hm r
    rw [loadFields]
    by_cases hd : k = n ∧ d = .required
    · obtain ⟨rfl, rfl⟩ := hd
      rw [hm]
      simp [Dflt.make]
    · have hr : n ∈ requiredFields r := by
        cases d with
        | required =>
          rcases List.mem_cons.1 h with h | h
          · exact absurd ⟨h.symm, rfl⟩ hd
          · exact h
        | value v => exact h
        | factory j => exact h
      have hno : ∀ v, loadFields gen r m ≠ .ok v := fun v => ih v hr
      cases he : loadFields gen r m with
      | ok v => exact absurd he (hno v)
      | error e =>
        intro hc
        repeat' split at hc
        all_goals (exfalso; simp_all)

/-- **C73, required fields.**  A file without one of the required fields is refused. -/
theorem C73_missing (gen : ℕ → MVal) (c : MClass) (f : YFile) (n : String) (hn : n ∈ requiredFields c.fields) (hm : f.parameters.get n = none) (vs : MVals) : fromFile gen c f ≠ .ok vs := by
  have key := fun v => loadFields_missing gen f.parameters n hm c.fields v hn
  intro h
  unfold fromFile at h
  split_ifs at h
  rw [loadVal] at h
  cases he : loadFields gen c.fields f.parameters with
  | ok v => exact key v he
  | error e =>
    rw [he] at h
    split_ifs at h

/-! ## Blocks behind the end -/

/-- **C63, blocks behind the end.**  A last block that begins at or behind the end of the destination changes nothing, if it has at most one value more than is missing; otherwise it raises,
except for datasets of a file. -/
theorem C63_overrun {α σ : Type} (f : SampleFilter α σ) (h5 filtered : Bool) (src : List α) (start iblock oblock ds destLen iter : ℕ) (s : σ) (dst : List α) (hds : 0 < ds)
    (hlen : dst.length ≤ iter * oblock) (hover : destLen < iter * oblock) (raw : List α) (hraw : raw = (src.take (start + (iter + 1) * iblock)).drop (start + iter * iblock)) :
    dsPass f h5 filtered src start iblock oblock ds destLen iter s dst =
      if h5 = true ∨ (raw.length + ds - 1) / ds + destLen ≤ iter * oblock + 1 then .ok (if filtered then (f.run s raw).2 else s, dst) else .error .valueError := by
  unfold dsPass
  dsimp only
  have hneg : min ((destLen : ℤ) - iter * oblock) oblock = -((iter * oblock - destLen : ℕ) : ℤ) := by
    have : ((iter * oblock : ℕ) : ℤ) = (iter : ℤ) * oblock := by push_cast; ring
    omega
  have hr : dsSlice src (start + iter * iblock) (start + (iter + 1) * iblock) = raw := hraw.symm
  rw [hneg, hr, takeInt, if_neg (by omega)]
  obtain ⟨r, hrr⟩ : ∃ r, r = (if filtered = true then f.run s raw else (raw, s)) := ⟨_, rfl⟩
  have hrl : r.1.length = raw.length := by rw [hrr]; split_ifs <;> simp [run_length]
  have hr2 : (if filtered = true then (f.run s raw).2 else s) = r.2 := by rw [hrr]; split_ifs <;> rfl
  rw [← hrr, hr2]
  have hst := stride_length ds hds r.1
  rw [hrl] at hst
  rw [← hst]
  have hn : (dsSlice dst (iter * oblock) ((iter + 1) * oblock)).length = 0 := by
    unfold dsSlice
    rw [List.length_drop, List.length_take]
    omega
  unfold assignSlice
  dsimp only
  rw [hn]
  have hk : (- -((iter * oblock - destLen : ℕ) : ℤ)).toNat = iter * oblock - destLen := by omega
  rw [hk]
  have hd0 : dst.take (iter * oblock) = dst := List.take_of_length_le hlen
  have hd1 : dst.drop (iter * oblock) = [] := List.drop_eq_nil_of_le hlen
  cases h5 with
  | true => simp
  | false =>
    simp only [Bool.false_eq_true, false_and, if_false, false_or]
    set v := List.take ((stride ds r.1).length - (iter * oblock - destLen)) (stride ds r.1) with hv
    have hvl : v.length = (stride ds r.1).length - (iter * oblock - destLen) := by
      rw [hv, List.length_take]; omega
    by_cases hs : (stride ds r.1).length + destLen ≤ iter * oblock + 1
    · rw [if_pos hs]
      clear_value v
      match v, hvl with
      | [], _ => simp [hd0, hd1]
      | [x], _ => simp [hd0, hd1]
      | x :: y :: z, hvl =>
        simp at hvl
        omega
    · rw [if_neg hs]
      clear_value v
      match v, hvl with
      | [], hvl => simp at hvl; omega
      | [x], hvl => simp at hvl; omega
      | x :: y :: z, _ => simp

/-- **C63, blocks behind the end, all passes.**  If the blocks before the last one fill the destination (because every block gives up to half a result too many), the outcome depends on the last block:
the result is complete if it is written to a dataset or if the last block has at most one result more than were too many; otherwise down-sampling to an array fails.  The recording goes on behind the
range or not. -/
theorem C63_late {α σ : Type} {fl : ℚ → ℚ} (h : AccRounding fl) (zero : α) (f : SampleFilter α σ) (h5 isTime : Bool) (maxElements : ℕ) (src dst : List α)
    (startN : ℕ) (endN : Option ℕ) (factor L o n : ℕ) (hm : 0 < maxElements) (hsize : src.length ≤ 2 ^ 50) (hfac : factor ≤ 2 ^ 50)
    (hL : (selected src startN endN).length = L) (hL0 : maxElements < L) (hn : n = blocksOf L maxElements) (ho : o = (pyRound ((maxElements : ℚ) / (max 1 factor : ℕ))).toNat)
    (hover : L / max 1 factor < (n - 1) * o) (hprev : (n - 2) * o ≤ L / max 1 factor)
    (c : ℕ) (hc : c = (min maxElements (src.length - (startN + (n - 1) * maxElements)) + max 1 factor - 1) / max 1 factor) :
    if h5 = true ∨ c + L / max 1 factor ≤ (n - 1) * o + 1 then
      ∃ out, downsample fl zero f h5 isTime maxElements src dst startN endN factor = .ok out ∧ out.length = L / max 1 factor ∧
        ∀ q r, r < o → q * o + r < out.length →
          out[q * o + r]? = (if isTime ∨ factor ≤ 1 then selected src startN endN else lowpass f (selected src startN endN))[q * maxElements + r * max 1 factor]?
    else downsample fl zero f h5 isTime maxElements src dst startN endN factor = .error .valueError := by
  obtain ⟨hsel, hsellen⟩ := selected_eq src startN endN
  set e := dsEnd src.length endN with he
  have hele : e ≤ src.length := by
    rw [he]; cases endN <;> simp [dsEnd]
  have hSe : min e startN = startN := by omega
  rw [hSe] at hsel hsellen
  have hLe : e - startN = L := by rw [← hsellen, hL]
  set ds := max 1 factor with hds
  have hds0 : 0 < ds := by omega
  have hSL : startN + L ≤ src.length := by omega
  obtain ⟨hit, hdl, hn1, hn2, hn3⟩ := downsample_numbers h maxElements L factor hm (by omega) (by omega) hfac
  have hmin : min maxElements L = maxElements := by omega
  rw [hmin] at hit hn1 hn2 hn3
  rw [← hn] at hit hn1 hn2 hn3
  rw [← hds] at hdl
  have hhalf := round_div_half h (a := maxElements) hds0 (by omega) (by omega)
  rw [← round_div_exact h hds0 (by omega) (by omega)] at ho
  rw [← ho] at hhalf
  set filtered := (!isTime && decide (1 < ds)) with hfilt
  have hfit : ∀ k, k < n - 1 → (0 + k) * o ≤ L / ds ∧ ∀ j, j < min (L / ds - (0 + k) * o) o → j * ds < min maxElements (L - (0 + k) * maxElements) := by
    intro k hk
    rw [Nat.zero_add]
    have h1 : k * o ≤ (n - 2) * o := Nat.mul_le_mul_right o (by omega)
    have h2 : (k + 1) * maxElements ≤ (n - 1) * maxElements := Nat.mul_le_mul_right maxElements (by omega)
    exact ⟨by omega, fun j hj => full_blocks hhalf.1 k (by omega) j (by omega) hds0⟩
  obtain ⟨d', s', e1, hlen, -, hrest, hget⟩ := dsLoop_blocks f h5 filtered src startN maxElements o ds L hds0 (by omega) (n - 1) 0 f.init (resizeTo zero (L / ds) dst) hfit
    (by intro _; simp [SampleFilter.run]) (resizeTo_length zero _ _) (by intro q r hq; omega)
  have hloop := hrest 1
  rw [show n - 1 + 1 = n by omega, Nat.zero_add] at hloop
  obtain ⟨raw, hraw⟩ : ∃ raw, raw = (src.take (startN + (n - 1 + 1) * maxElements)).drop (startN + (n - 1) * maxElements) := ⟨_, rfl⟩
  have hrawlen : raw.length = min maxElements (src.length - (startN + (n - 1) * maxElements)) := by
    rw [hraw, List.length_drop, List.length_take, Nat.add_mul, Nat.one_mul]; omega
  have hpass := C63_overrun f h5 filtered src startN maxElements o ds (L / ds) (n - 1) s' d' hds0 (by omega) hover raw hraw
  have hcl : (raw.length + ds - 1) / ds = c := by rw [hrawlen, hc]
  rw [hcl] at hpass
  rw [dsLoop, hpass] at hloop
  have hfinal : (((o * (n - 1) : ℕ) : ℤ) + min (((L / ds : ℕ) : ℤ) - (((n - 1 : ℕ) : ℕ) : ℤ) * o) o).toNat = L / ds := by
    have h2 : ((n - 1 : ℕ) : ℤ) * (o : ℤ) = (((n - 1) * o : ℕ) : ℤ) := by push_cast; ring
    have h3 : ((o * (n - 1) : ℕ) : ℤ) = (((n - 1) * o : ℕ) : ℤ) := by rw [Nat.mul_comm]
    rw [h2, h3]
    omega
  by_cases hcase : h5 = true ∨ c + L / ds ≤ (n - 1) * o + 1
  · rw [if_pos hcase] at hloop ⊢
    refine ⟨d', ?_, hlen, ?_⟩
    · unfold downsample
      simp only []
      rw [← hds, ← he, hSe, hLe, if_neg (by omega), hmin, ← ho, hit, hdl, ← hfilt, hloop]
      simp only [dsLoop]
      rw [hfinal]
      unfold resizeTo
      rw [show L / ds - d'.length = 0 by omega, ← hlen]
      simp
    · intro q r hr hlt
      rw [hlen] at hlt
      have hqn : q < n - 1 := by
        by_contra hq
        have := Nat.mul_le_mul_right o (not_lt.mp hq)
        omega
      have hiL : q * maxElements + r * ds < L := by
        have hk := (hfit q hqn).2 r (by rw [Nat.zero_add]; omega)
        rw [Nat.zero_add] at hk
        omega
      rw [hget q r (by omega) hr hlt]
      have hf : filtered = true ↔ ¬ (isTime = true ∨ factor ≤ 1) := by
        rw [hfilt, hds]
        cases isTime <;> simp
      rw [hLe] at hsel
      by_cases hx : isTime = true ∨ factor ≤ 1
      · have : ¬ filtered = true := fun hy => hf.mp hy hx
        rw [if_pos hx, if_neg this, hsel, List.getElem?_take_of_lt hiL]
      · rw [if_neg hx, if_pos (hf.mpr hx), lowpass_eq, hsel, run_take, List.getElem?_take_of_lt hiL]
  · rw [if_neg hcase] at hloop ⊢
    unfold downsample
    simp only []
    rw [← hds, ← he, hSe, hLe, if_neg (by omega), hmin, ← ho, hit, hdl, ← hfilt, hloop]

/-- **C63, violated: too many results.**  A recording of 28000015 samples (280 s at 100 kHz) can not be down-sampled to an array by 7. -/
theorem C63_late_violated {α σ : Type} {fl : ℚ → ℚ} (h : AccRounding fl) (zero : α) (f : SampleFilter α σ) (isTime : Bool) (src dst : List α) (hlen : src.length = 28000015) :
    downsample fl zero f false isTime 4000000 src dst 0 none 7 = .error .valueError := by
  have hs : (selected src 0 none).length = 28000015 := by
    obtain ⟨-, hl⟩ := selected_eq src 0 none
    rw [hl]; simp [dsEnd, hlen]
  have := C63_late h zero f false isTime 4000000 src dst 0 none 7 28000015 571429 8 (by norm_num) (by omega) (by norm_num) hs (by norm_num) (by decide) (by decide +kernel)
    (by decide) (by decide) 3 (by rw [hlen]; decide)
  exact this

end Verif.Props
