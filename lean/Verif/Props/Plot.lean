import Verif.Model.Plot
import Verif.Props.Decimate
import Verif.Props.CutName

/-!
# C78: data for plots
-/

namespace Verif.Props
open Verif.Py Verif.Model

variable {σ : Type}

/-! ## Specification -/

/-- Start of the range in seconds: what is asked for, not before the recording. -/
def plotStart (start : Option ℚ) : ℚ := max 0 (start.getD 0)
/-- End of the range: what is asked for, not behind the recording. -/
def plotStop (fl : ℚ → ℚ) (s : Session) (stop : Option ℚ) : ℚ := min (s.runtimeS fl) (stop.getD (s.runtimeS fl))

/-- The samples of a dataset between two times, as floats. -/
def plotRange (fl : ℚ → ℚ) (s : Session) (start stop : Option ℚ) (n : DsName) : List ℚ :=
  (selected (s.get n) (s.sampleAt fl (plotStart start)).toNat (some (s.sampleAt fl (plotStop fl s stop)).toNat)).map (fun x : ℤ => fl x)

/-- Every `k`-th one, in physical units. -/
def ShowsEvery (k : ℕ) (unit : ℚ → ℚ) (l r : List ℚ) : Prop := r.length = l.length / k ∧ ∀ i, i < r.length → r[i]? = (l[i * k]?).map unit

/-! ## Theorems -/

theorem arr_get (fl : ℚ → ℚ) (c : CalPair) (l : List ℚ) (i : ℕ) : (c.rawToSiArr fl l)[i]? = (l[i]?).map (fun x => c.rawToSi fl x) := by
  unfold CalPair.rawToSiArr CalPair.rawToSi
  simp [Function.comp_def]

theorem arr_length (fl : ℚ → ℚ) (c : CalPair) (l : List ℚ) : (c.rawToSiArr fl l).length = l.length := by
  unfold CalPair.rawToSiArr; simp

theorem selected_map (g : ℤ → ℚ) (l : List ℤ) (a : ℕ) (b : ℕ) : selected (l.map g) a (some b) = (selected l a (some b)).map g := by
  simp [selected, List.map_drop, List.map_take]

theorem plotSeries_ok {fl : ℚ → ℚ} (h : AccRounding fl) (f : SampleFilter ℚ σ) (s : Session) (n : DsName) (a b : ℤ) (k : ℕ) (hsize : (s.get n).length ≤ 2 ^ 50) (hk : k ≤ 2 ^ 50)
    (hne : selected (s.get n) a.toNat (some b.toNat) ≠ []) (hfit : max 1 k ∣ 4000000 ∨ (selected (s.get n) a.toNat (some b.toNat)).length ≤ 4000000) :
    ∃ out, s.plotSeries fl f n a b k = .ok out ∧
      IsDecimated (max 1 k) (if n = .time ∨ k ≤ 1 then (selected (s.get n) a.toNat (some b.toNat)).map (fun x : ℤ => fl x) else lowpass f ((selected (s.get n) a.toNat (some b.toNat)).map (fun x : ℤ => fl x))) out := by
  obtain ⟨out, e, hd⟩ := C63_downsample_partial h 0 f false (decide (n = .time)) 4000000 ((s.get n).map (fun x : ℤ => fl x)) [] a.toNat (some b.toNat) k (by norm_num)
    (by rw [List.length_map]; exact hsize) hk (by rw [selected_map, List.length_map]; exact hfit) (by rw [selected_map]; simpa using hne)
  refine ⟨out, ?_, ?_⟩
  · unfold Session.plotSeries
    rw [if_neg]
    · exact e
    · intro h0
      exact hne (List.length_eq_zero_iff.mp h0)
  · rw [selected_map] at hd
    simpa using hd

/-- **C78, plots (partial: factors that divide the size of the blocks, or ranges of one block).**  Unless the range has fewer than five samples, the data for a plot consists of the three series of the range, which
have the same length; each shows every `k`-th sample in physical units, the time counted from the first time stamp of the recording if wanted, voltage and current after the low-pass.
Missing: other factors, see `C78_360s_violated`. -/
theorem C78_plot_partial {fl : ℚ → ℚ} (h : AccRounding fl) (f : SampleFilter ℚ σ) (s : Session) (start stop : Option ℚ) (relative : Bool) (h0 : EqualLengths s) (k : ℕ)
    (hsize : (s.get .voltage).length ≤ 2 ^ 50) (hk : k = max 1 (s.plotFactor fl (plotStart start) (plotStop fl s stop))) (hk2 : k ≤ 2 ^ 50)
    (hfive : 5 ≤ s.sampleAt fl (plotStop fl s stop) - s.sampleAt fl (plotStart start)) (hne : plotRange fl s start stop .voltage ≠ [])
    (hfit : k ∣ 4000000 ∨ (plotRange fl s start stop .voltage).length ≤ 4000000) :
    ∃ d, s.plotData fl f start stop relative = .ok (some d) ∧ d.start = plotStart start ∧ d.stop = plotStop fl s stop ∧
      d.time.length = d.voltage.length ∧ d.current.length = d.voltage.length ∧
      ShowsEvery k (fun t => if relative then fl (s.cal.time.rawToSi fl t - s.cal.time.rawToSi fl ((s.get .time).getD 0 0)) else s.cal.time.rawToSi fl t)
        (plotRange fl s start stop .time) d.time ∧
      ShowsEvery k (fun v => s.cal.voltage.rawToSi fl v) (if k = 1 then plotRange fl s start stop .voltage else lowpass f (plotRange fl s start stop .voltage)) d.voltage ∧
      ShowsEvery k (fun c => s.cal.current.rawToSi fl c) (if k = 1 then plotRange fl s start stop .current else lowpass f (plotRange fl s start stop .current)) d.current := by
  obtain ⟨i, hi⟩ : ∃ i, i = s.sampleAt fl (plotStart start) := ⟨_, rfl⟩
  obtain ⟨j, hj⟩ : ∃ j, j = s.sampleAt fl (plotStop fl s stop) := ⟨_, rfl⟩
  have hi' : s.sampleAt fl (cutStart start) = i := hi.symm
  have hj' : s.sampleAt fl (s.cutEnd fl stop) = j := hj.symm
  have hk' : k = max 1 (s.plotFactor fl (cutStart start) (s.cutEnd fl stop)) := hk
  unfold plotRange at hne hfit ⊢
  rw [← hi, ← hj] at hne hfit ⊢
  rw [← hi, ← hj] at hfive
  have hl : ∀ n, (selected (s.get n) i.toNat (some j.toNat)).length = (selected (s.get .voltage) i.toNat (some j.toNat)).length := by
    intro n
    simp only [selected, List.length_drop, List.length_take]
    rw [h0 n]
  have hne' : ∀ n, selected (s.get n) i.toNat (some j.toNat) ≠ [] := by
    intro n h1
    apply hne
    rw [List.map_eq_nil_iff, ← List.length_eq_zero_iff, ← hl n, h1]; rfl
  rw [List.length_map] at hfit
  have hkk : max 1 (s.plotFactor fl (cutStart start) (s.cutEnd fl stop)) ≤ 2 ^ 50 := hk' ▸ hk2
  have get : ∀ n, ∃ out, s.plotSeries fl f n i j (s.plotFactor fl (cutStart start) (s.cutEnd fl stop)) = .ok out ∧ IsDecimated k (if n = .time ∨ k = 1 then
      (selected (s.get n) i.toNat (some j.toNat)).map (fun x : ℤ => fl x) else lowpass f ((selected (s.get n) i.toNat (some j.toNat)).map (fun x : ℤ => fl x))) out := by
    intro n
    obtain ⟨out, e, hd⟩ := plotSeries_ok h f s n i j (s.plotFactor fl (cutStart start) (s.cutEnd fl stop)) (by rw [h0 n]; exact hsize) (by omega) (hne' n) (by rw [hl n, ← hk']; exact hfit)
    refine ⟨out, e, ?_⟩
    rw [← hk'] at hd
    have : (s.plotFactor fl (cutStart start) (s.cutEnd fl stop) ≤ 1) ↔ k = 1 := by omega
    simp only [this] at hd
    exact hd
  obtain ⟨t, et, dt⟩ := get .time
  obtain ⟨v, ev, dv⟩ := get .voltage
  obtain ⟨c, ec, dc⟩ := get .current
  rw [if_pos (Or.inl rfl)] at dt
  simp only [reduceCtorEq, false_or] at dv dc
  have len : ∀ (q : Prop) [Decidable q] (l : List ℤ), (if q then l.map (fun x : ℤ => fl x) else lowpass f (l.map (fun x : ℤ => fl x))).length = l.length := by
    intro q _ l
    split_ifs
    · simp
    · rw [lowpass_eq, run_length, List.length_map]
  have lt : t.length = v.length := by rw [dt.1, dv.1, List.length_map, len, hl .time]
  have lc : c.length = v.length := by rw [dc.1, dv.1, len, len, hl .current]
  have sh : ∀ (cal : CalPair) (l r : List ℚ), IsDecimated k l r → ShowsEvery k (fun x => cal.rawToSi fl x) l (cal.rawToSiArr fl r) := by
    intro cal l r hd
    refine ⟨by rw [arr_length]; exact hd.1, ?_⟩
    intro m hm
    rw [arr_length] at hm
    rw [arr_get, hd.2 m hm]
  refine ⟨⟨cutStart start, s.cutEnd fl stop, if relative then (s.cal.time.rawToSiArr fl t).map (fun x => fl (x - s.cal.time.rawToSi fl ((s.get .time).getD 0 0))) else s.cal.time.rawToSiArr fl t,
    s.cal.voltage.rawToSiArr fl v, s.cal.current.rawToSiArr fl c⟩, ?_, rfl, rfl, ?_, ?_, ?_, sh _ _ _ dv, sh _ _ _ dc⟩
  · unfold Session.plotData
    dsimp only
    rw [hi', hj', if_neg (by omega), et]
    dsimp only
    rw [ev]
    dsimp only
    rw [ec]
  · cases relative <;> simp [arr_length, lt]
  · simp [arr_length, lc]
  · have := sh s.cal.time _ _ dt
    cases relative with
    | false => exact this
    | true =>
      refine ⟨by simpa using this.1, ?_⟩
      intro m hm
      simp only [if_true, List.length_map] at hm
      simp only [if_true, List.getElem?_map]
      rw [this.2 m hm]
      simp [Function.comp_def]

/-- **C78, small ranges.**  With fewer than five samples there is no plot, and no failure. -/
theorem C78_small (fl : ℚ → ℚ) (f : SampleFilter ℚ σ) (s : Session) (start stop : Option ℚ) (relative : Bool)
    (hfew : s.sampleAt fl (plotStop fl s stop) - s.sampleAt fl (plotStart start) < 5) : s.plotData fl f start stop relative = .ok none := by
  unfold Session.plotData
  dsimp only
  exact if_pos hfew

/-- The rate for a plot is close to four million samples over the range. -/
theorem plotRate_close {fl : ℚ → ℚ} (h : AccRounding fl) (a b T : ℚ) (hT : fl (b - a) = T) (h1 : 1 ≤ T) (h2 : T ≤ 100000) :
    |plotRate fl a b - 4000000 / T| ≤ 1 / 1000 := by
  have hT0 : (0 : ℚ) < T := by linarith
  have hx0 : (40 : ℚ) ≤ 4000000 / T := by rw [le_div_iff₀ hT0]; linarith
  have hx1 : 4000000 / T ≤ 4000000 := by rw [div_le_iff₀ hT0]; linarith
  have e1 := abs_le.mp (err_small h (4000000 / T) 4000000 (by linarith) hx1)
  unfold plotRate
  rw [hT]
  generalize 4000000 / T = x at *
  generalize fl x = y at *
  have r1 := pyRound_sub_le (1000 * y)
  have r2 := sub_pyRound_le (1000 * y)
  generalize pyRound (1000 * y) = z at *
  norm_num at e1
  have hz0 : (39999 : ℚ) ≤ z := by linarith [e1.1]
  have hz1 : (z : ℚ) ≤ 4000000001 := by linarith [e1.2]
  have e2 := abs_le.mp (err_small h ((z : ℚ) / 1000) 4000001 (by linarith) (by linarith))
  have e3 := abs_le.mp (err_small h ((1 : ℚ) / 1000) 1 (by norm_num) (by norm_num))
  norm_num at e2 e3
  rw [max_eq_left]
  · rw [abs_le]
    constructor <;> linarith [e1.1, e1.2, e2.1, e2.2]
  · norm_num
    linarith [e2.1, e3.2]

/-- **C78, short ranges are shown completely.**  At 100 kHz ranges of 1 s to 79.91 s are not down-sampled. -/
theorem C78_complete {fl : ℚ → ℚ} (h : AccRounding fl) (s : Session) (start stop : Option ℚ) (hrate : s.stats.samplerate = 100000)
    (h1 : 1 ≤ plotStop fl s stop - plotStart start) (h2 : plotStop fl s stop - plotStart start ≤ 7991 / 100) :
    max 1 (s.plotFactor fl (plotStart start) (plotStop fl s stop)) = 1 := by
  obtain ⟨T, hT⟩ : ∃ T, fl (plotStop fl s stop - plotStart start) = T := ⟨_, rfl⟩
  have e := abs_le.mp (err_small h (plotStop fl s stop - plotStart start) 80 (by linarith) (by linarith))
  have hT1 : 1 ≤ T := by rw [← hT]; have := h.toRounding.int_le (n := 1) (x := plotStop fl s stop - plotStart start) (by norm_num) (by exact_mod_cast h1); exact_mod_cast this
  rw [hT] at e
  norm_num at e
  have hT2 : T ≤ 79911 / 1000 := by linarith [e.2]
  have hc := abs_le.mp (plotRate_close h _ _ T hT hT1 (by linarith))
  have hx : (50055 : ℚ) ≤ 4000000 / T := by rw [le_div_iff₀ (by linarith)]; linarith
  have hr : (50054 : ℚ) ≤ plotRate fl (plotStart start) (plotStop fl s stop) := by linarith [hc.1]
  unfold Session.plotFactor
  rw [hrate]
  generalize plotRate fl (plotStart start) (plotStop fl s stop) = r at *
  have hq : (((100000 : ℤ) : ℚ)) / r ≤ 1998 / 1000 := by rw [div_le_iff₀ (by linarith)]; push_cast; linarith
  have e4 := abs_le.mp (err_small h (((100000 : ℤ) : ℚ) / r) 2 (by positivity) (by linarith))
  norm_num at e4
  have : ⌊fl (((100000 : ℤ) : ℚ) / r)⌋ < 2 := by
    rw [Int.floor_lt]; push_cast at *; linarith [e4.2]
  omega

/-- **C78, size.**  At 100 kHz ranges of 1 s to 99999 s are shown with not much more than eight million points (twice the number aimed at). -/
theorem C78_size {fl : ℚ → ℚ} (h : AccRounding fl) (s : Session) (start stop : Option ℚ) (hrate : s.stats.samplerate = 100000) (hmax : plotStop fl s stop ≤ 2 ^ 30)
    (h1 : 1 ≤ plotStop fl s stop - plotStart start) (h2 : plotStop fl s stop - plotStart start ≤ 99999) :
    (plotRange fl s start stop .voltage).length / max 1 (s.plotFactor fl (plotStart start) (plotStop fl s stop)) ≤ 8001000 := by
  have ha0 : 0 ≤ plotStart start := le_max_left _ _
  have hi0 : 0 ≤ s.sampleAt fl (plotStart start) := by
    unfold Session.sampleAt
    rw [hrate]
    exact pyRound_nonneg (h.toRounding.nonneg (by positivity))
  have hL : ((plotRange fl s start stop .voltage).length : ℤ) ≤ max 0 (s.sampleAt fl (plotStop fl s stop) - s.sampleAt fl (plotStart start)) := by
    unfold plotRange
    rw [List.length_map]
    simp only [selected, List.length_drop, List.length_take]
    omega
  have hji : ((s.sampleAt fl (plotStop fl s stop) - s.sampleAt fl (plotStart start) : ℤ) : ℚ) ≤ 100000 * (plotStop fl s stop - plotStart start) + 2 := by
    unfold Session.sampleAt
    rw [hrate]
    push_cast
    generalize plotStop fl s stop = b at *
    generalize plotStart start = a at *
    have e1 := abs_le.mp (err_small h (b * 100000) (2 ^ 30 * 100000) (by nlinarith) (by nlinarith))
    have e2 := abs_le.mp (err_small h (a * 100000) (2 ^ 30 * 100000) (by nlinarith) (by nlinarith))
    have r1 := pyRound_sub_le (fl (b * 100000))
    have r2 := sub_pyRound_le (fl (a * 100000))
    norm_num at e1 e2
    linarith [e1.2, e2.1]
  obtain ⟨T, hT⟩ : ∃ T, fl (plotStop fl s stop - plotStart start) = T := ⟨_, rfl⟩
  have e := abs_le.mp (err_small h (plotStop fl s stop - plotStart start) 99999 (by linarith) (by linarith))
  have hT1 : 1 ≤ T := by rw [← hT]; have := h.toRounding.int_le (n := 1) (x := plotStop fl s stop - plotStart start) (by norm_num) (by exact_mod_cast h1); exact_mod_cast this
  rw [hT] at e
  norm_num at e
  have hT2 : T ≤ 100000 := by linarith [e.2]
  have hc := abs_le.mp (plotRate_close h _ _ T hT hT1 hT2)
  have hx : (40 : ℚ) ≤ 4000000 / T := by rw [le_div_iff₀ (by linarith)]; linarith
  have hr : (39 : ℚ) ≤ plotRate fl (plotStart start) (plotStop fl s stop) := by linarith [hc.1]
  have hrT : plotRate fl (plotStart start) (plotStop fl s stop) * T ≤ 4000100 := by
    have : plotRate fl (plotStart start) (plotStop fl s stop) * T ≤ (4000000 / T + 1 / 1000) * T := mul_le_mul_of_nonneg_right (by linarith [hc.2]) (by linarith)
    have h3 : (4000000 / T + 1 / 1000) * T = 4000000 + T / 1000 := by field_simp
    linarith
  have hK : (100000 : ℚ) * T / 4000100 - 1 / 100000 < s.plotFactor fl (plotStart start) (plotStop fl s stop) + 1 := by
    unfold Session.plotFactor
    rw [hrate]
    generalize plotRate fl (plotStart start) (plotStop fl s stop) = r at *
    have hr0 : (0 : ℚ) < r := by linarith
    have hq : (100000 : ℚ) * T / 4000100 ≤ ((100000 : ℤ) : ℚ) / r := by
      rw [div_le_div_iff₀ (by norm_num) hr0]; push_cast; nlinarith
    have hq2 : ((100000 : ℤ) : ℚ) / r ≤ 3000 := by rw [div_le_iff₀ hr0]; push_cast; linarith
    have e4 := abs_le.mp (err_small h (((100000 : ℤ) : ℚ) / r) 3000 (by positivity) hq2)
    have hfl := Int.lt_floor_add_one (fl (((100000 : ℤ) : ℚ) / r))
    have hnn : 0 ≤ ⌊fl (((100000 : ℤ) : ℚ) / r)⌋ := Int.floor_nonneg.mpr (h.toRounding.nonneg (by positivity))
    have hcast : ((⌊fl (((100000 : ℤ) : ℚ) / r)⌋.toNat : ℕ) : ℚ) = (⌊fl (((100000 : ℤ) : ℚ) / r)⌋ : ℚ) := by
      have := Int.toNat_of_nonneg hnn
      exact_mod_cast this
    rw [hcast]
    generalize ((100000 : ℤ) : ℚ) / r = q at *
    generalize ⌊fl q⌋ = w at *
    norm_num at e4
    linarith [e4.1]
  apply Nat.div_le_of_le_mul
  generalize s.plotFactor fl (plotStart start) (plotStop fl s stop) = F at *
  have hF : (F : ℚ) + 1 ≤ 2 * ((max 1 F : ℕ) : ℚ) := by exact_mod_cast (by omega : F + 1 ≤ 2 * max 1 F)
  generalize max 1 F = K at *
  have hLq : ((plotRange fl s start stop .voltage).length : ℚ) ≤ 100000 * (plotStop fl s stop - plotStart start) + 2 := by
    have : ((plotRange fl s start stop .voltage).length : ℚ) ≤ ((max 0 (s.sampleAt fl (plotStop fl s stop) - s.sampleAt fl (plotStart start)) : ℤ) : ℚ) := by exact_mod_cast hL
    rw [Int.cast_max] at this
    refine this.trans (max_le ?_ hji)
    push_cast; linarith
  generalize (plotRange fl s start stop .voltage).length = L at *
  have : (L : ℚ) ≤ K * 8001000 := by linarith [e.1]
  exact_mod_cast this

/-- **C78, violated: many recordings cannot be plotted.**  At 100 kHz no recording of full buffers between 360.1 s and 399.9 s can be plotted: the attempt fails, and there is no picture. -/
theorem C78_360s_violated {fl : ℚ → ℚ} (h : AccRounding fl) (f : SampleFilter ℚ σ) (s : Session) (h0 : EqualLengths s) (k : ℕ) (hk : 3601 ≤ k ∧ k ≤ 3999) (hrate : s.stats.samplerate = 100000)
    (hlen : (s.get .voltage).length = 10000 * k) (relative : Bool) (pics : String → Option PlotData) (stem : String) :
    s.plotData fl f none none relative = .error .valueError ∧ s.plotToFile fl f pics stem none none = (pics, .error .valueError) := by
  have key : ∀ relative, s.plotData fl f none none relative = .error .valueError := by
    intro relative
    obtain ⟨ha, hb⟩ := C64_whole h s k (by omega) hrate hlen
    have hrt : s.cutEnd fl none = fl ((k : ℚ) / 10) := by
      unfold Session.cutEnd
      rw [Option.getD_none, min_self, runtime_100kHz h s k 0 (by omega) (by norm_num) hrate (by omega)]
    have hst : cutStart none = 0 := by simp [cutStart]
    have hT : fl (s.cutEnd fl none - cutStart none) = fl ((k : ℚ) / 10) := by rw [hrt, hst, sub_zero, h.toRounding.idem]
    have hk1 : (3601 : ℚ) ≤ k := by exact_mod_cast hk.1
    have hk2 : (k : ℚ) ≤ 3999 := by exact_mod_cast hk.2
    have e := abs_le.mp (err_small h ((k : ℚ) / 10) 400 (by positivity) (by linarith))
    generalize fl ((k : ℚ) / 10) = T at *
    norm_num at e
    have hT1 : 36009 / 100 ≤ T := by linarith [e.1]
    have hT2 : T ≤ 39991 / 100 := by linarith [e.2]
    have hc := abs_le.mp (plotRate_close h _ _ T hT (by linarith) (by linarith))
    have hx1 : (10002 : ℚ) ≤ 4000000 / T := by rw [le_div_iff₀ (by linarith)]; linarith
    have hx2 : 4000000 / T ≤ 11109 := by rw [div_le_iff₀ (by linarith)]; linarith
    have hfac : s.plotFactor fl (cutStart none) (s.cutEnd fl none) = 9 := by
      unfold Session.plotFactor
      rw [hrate]
      have hr1 : (10001 : ℚ) ≤ plotRate fl (cutStart none) (s.cutEnd fl none) := by linarith [hc.1]
      have hr2 : plotRate fl (cutStart none) (s.cutEnd fl none) ≤ 11110 := by linarith [hc.2]
      generalize plotRate fl (cutStart none) (s.cutEnd fl none) = r at *
      have hq1 : 90009 / 10000 ≤ (((100000 : ℤ) : ℚ)) / r := by rw [le_div_iff₀ (by linarith)]; push_cast; linarith
      have hq2 : (((100000 : ℤ) : ℚ)) / r ≤ 9999999 / 1000000 := by rw [div_le_iff₀ (by linarith)]; push_cast; linarith
      have e4 := abs_le.mp (err_small h (((100000 : ℤ) : ℚ) / r) 10 (by positivity) (by linarith))
      norm_num at e4
      have : ⌊fl (((100000 : ℤ) : ℚ) / r)⌋ = 9 := by
        rw [Int.floor_eq_iff]; push_cast at *; constructor <;> linarith [e4.1, e4.2]
      rw [this]; rfl
    have hlt : (s.get .time).length = 10000 * k := by rw [h0 .time, hlen]
    unfold Session.plotData
    dsimp only
    rw [ha, hb, if_neg (by rw [hlen]; push_cast; omega), hfac]
    have hs : s.plotSeries fl f .time 0 (((s.get .voltage).length : ℕ) : ℤ) 9 = .error .valueError := by
      unfold Session.plotSeries
      rw [if_neg (by rw [dsSlice_length, hlt, hlen]; simp; omega), hlen, Int.toNat_natCast, Int.toNat_zero]
      obtain ⟨M, hM⟩ : ∃ M : ℕ, M = 4000000 := ⟨_, rfl⟩
      obtain ⟨o, hO⟩ : ∃ o : ℕ, o = 444444 := ⟨_, rfl⟩
      obtain ⟨L, hL⟩ : ∃ L : ℕ, L = 10000 * k := ⟨_, rfl⟩
      have ho : o = (pyRound ((M : ℚ) / (max 1 9 : ℕ))).toNat := by
        rw [pyRound_eq_of_lt (n := 444444), hO]
        · rfl
        · rw [abs_lt, hM]; norm_num
      have hbl : 10 = blocksOf L M := by unfold blocksOf; rw [hM, hL]; omega
      rw [← hL] at hlt ⊢
      rw [← hM]
      exact C63_short_violated h 0 f false _ M ((s.get .time).map (fun x : ℤ => fl x)) [] 0 (some L) (by intro e he; cases he; rw [List.length_map, hlt]) 9 L o 10
        (by omega) (by rw [List.length_map, hlt]; omega) (by norm_num) (by rw [List.length_map, hlt, Nat.zero_add]) (by omega) hbl ho (by rw [show max 1 9 = 9 from rfl]; omega)
        (by rw [show max 1 9 = 9 from rfl]; omega) (by rw [show max 1 9 = 9 from rfl]; omega)
    rw [hs]
  refine ⟨key relative, ?_⟩
  unfold Session.plotToFile
  rw [key true]

/-- **C78, pictures are never overwritten**, and nothing but the picture named by the range is written; a successful plot exists, unless the range is too small. -/
theorem C78_files (fl : ℚ → ℚ) (f : SampleFilter ℚ σ) (s : Session) (pics pics' : String → Option PlotData) (stem : String) (start stop : Option ℚ) (r : Except PyErr Unit)
    (hrun : s.plotToFile fl f pics stem start stop = (pics', r)) :
    (∀ p d, pics p = some d → pics' p = some d) ∧
    (∀ p, p ≠ stem ++ ".plot_" ++ secStr (plotStart start) ++ "_to_" ++ secStr (plotStop fl s stop) ++ ".png" → pics' p = pics p) ∧
    (r ≠ .ok () → pics' = pics) ∧
    (r = .ok () → 5 ≤ s.sampleAt fl (plotStop fl s stop) - s.sampleAt fl (plotStart start) →
      (pics' (stem ++ ".plot_" ++ secStr (plotStart start) ++ "_to_" ++ secStr (plotStop fl s stop) ++ ".png")).isSome) := by
  have hp : ∀ d, s.plotData fl f start stop true = .ok (some d) → d.start = plotStart start ∧ d.stop = plotStop fl s stop := by
    intro d hd
    unfold Session.plotData at hd
    dsimp only at hd
    split at hd
    · cases hd
    · split at hd
      · cases hd
      · split at hd
        · cases hd
        · split at hd
          · cases hd
          · cases hd
            exact ⟨rfl, rfl⟩
  unfold Session.plotToFile at hrun
  cases hd : s.plotData fl f start stop true with
  | error e =>
    rw [hd] at hrun
    cases hrun
    exact ⟨fun _ _ h => h, fun _ _ => rfl, fun _ => rfl, fun h => by cases h⟩
  | ok o =>
    rw [hd] at hrun
    cases o with
    | none =>
      cases hrun
      refine ⟨fun _ _ h => h, fun _ _ => rfl, fun _ => rfl, fun _ h5 => ?_⟩
      exfalso
      unfold Session.plotData at hd
      dsimp only at hd
      rw [if_neg (by have : ¬ s.sampleAt fl (plotStop fl s stop) - s.sampleAt fl (plotStart start) < 5 := by omega
                     exact this)] at hd
      split at hd
      · cases hd
      · split at hd
        · cases hd
        · split at hd
          · cases hd
          · cases hd
    | some d =>
      obtain ⟨h1, h2⟩ := hp d hd
      dsimp only at hrun
      rw [h1, h2] at hrun
      generalize stem ++ ".plot_" ++ secStr (plotStart start) ++ "_to_" ++ secStr (plotStop fl s stop) ++ ".png" = path at *
      split_ifs at hrun with hex
      · cases hrun
        exact ⟨fun _ _ h => h, fun _ _ => rfl, fun _ => rfl, fun _ _ => hex⟩
      · cases hrun
        refine ⟨?_, ?_, fun h => absurd rfl h, fun _ _ => by simp⟩
        · intro p d' h
          dsimp only
          rw [if_neg, h]
          rintro rfl
          rw [h] at hex
          exact hex rfl
        · intro p hne
          simp [hne]

/-- **C78, whole recordings.**  A recording of full buffers at 100 kHz of 1 s to 79.9 s is plotted completely: every sample in physical units. -/
theorem C78_whole {fl : ℚ → ℚ} (h : AccRounding fl) (f : SampleFilter ℚ σ) (s : Session) (h0 : EqualLengths s) (k : ℕ) (hk : 10 ≤ k ∧ k ≤ 799) (hrate : s.stats.samplerate = 100000)
    (hlen : (s.get .voltage).length = 10000 * k) :
    ∃ d, s.plotData fl f none none true = .ok (some d) ∧
      d.voltage = (s.get .voltage).map (fun x : ℤ => s.cal.voltage.rawToSi fl (fl x)) ∧ d.current = (s.get .current).map (fun x : ℤ => s.cal.current.rawToSi fl (fl x)) ∧
      d.time = (s.get .time).map (fun x : ℤ => fl (s.cal.time.rawToSi fl (fl x) - s.cal.time.rawToSi fl ((s.get .time).getD 0 0))) := by
  obtain ⟨ha, hb⟩ := C64_whole h s k (by omega) hrate hlen
  have hrt : plotStop fl s none = fl ((k : ℚ) / 10) := by
    unfold plotStop
    rw [Option.getD_none, min_self, runtime_100kHz h s k 0 (by omega) (by norm_num) hrate (by omega)]
  have hst : plotStart none = 0 := by simp [plotStart]
  have hk1 : (10 : ℚ) ≤ k := by exact_mod_cast hk.1
  have hk2 : (k : ℚ) ≤ 799 := by exact_mod_cast hk.2
  have hi : s.sampleAt fl (plotStart none) = 0 := ha
  have hj : s.sampleAt fl (plotStop fl s none) = ((s.get .voltage).length : ℕ) := hb
  have hone : max 1 (s.plotFactor fl (plotStart none) (plotStop fl s none)) = 1 := by
    have hge : 1 ≤ plotStop fl s none - plotStart none := by
      rw [hrt, hst, sub_zero]
      have := h.toRounding.int_le (n := 1) (x := (k : ℚ) / 10) (by norm_num) (by push_cast; linarith)
      exact_mod_cast this
    refine C78_complete h s none none hrate hge ?_
    rw [hrt, hst, sub_zero]
    have e := abs_le.mp (err_small h ((k : ℚ) / 10) 80 (by positivity) (by linarith))
    norm_num at e
    linarith [e.2]
  have hr : ∀ n, plotRange fl s none none n = (s.get n).map (fun x : ℤ => fl x) := by
    intro n
    unfold plotRange
    rw [hi, hj, Int.toNat_natCast, Int.toNat_zero]
    simp only [selected, List.drop_zero]
    rw [List.take_of_length_le (by rw [h0 n])]
  obtain ⟨d, e, -, -, l1, l2, dt, dv, dc⟩ := C78_plot_partial h f s none none true h0 1 (by rw [hlen]; omega) hone.symm (by norm_num) (by rw [hi, hj, hlen]; push_cast; omega)
    (by rw [hr, ← List.length_pos_iff, List.length_map, hlen]; omega) (.inl (one_dvd _))
  have fin : ∀ (u : ℚ → ℚ) (n : DsName) (r : List ℚ), ShowsEvery 1 u (plotRange fl s none none n) r → r = (s.get n).map (fun x : ℤ => u (fl x)) := by
    intro u n r hd
    rw [hr] at hd
    obtain ⟨hl, hg⟩ := hd
    rw [Nat.div_one, List.length_map] at hl
    apply List.ext_getElem?
    intro m
    by_cases hm : m < r.length
    · rw [hg m hm, Nat.mul_one]
      simp [Function.comp_def]
    · rw [List.getElem?_eq_none (by omega), List.getElem?_eq_none (by rw [List.length_map]; omega)]
  rw [if_pos rfl] at dv dc
  exact ⟨d, e, fin _ _ _ dv, fin _ _ _ dc, fin _ _ _ dt⟩

/-- The hypotheses of `C78_whole` are met by a file that can be opened: 1.2 s of data. -/
example (f : SampleFilter ℚ σ) : ∃ s d, openSession b64 (demoFile b64 120000) = .ok s ∧ s.plotData b64 f none none true = .ok (some d) ∧ d.voltage.length = 120000 := by
  obtain ⟨st, h1, h2⟩ := demo_open b64_accRounding 120000 (by norm_num) (by norm_num)
  obtain ⟨a, b, -⟩ := demo_facts b64_accRounding 120000 st
  obtain ⟨d, e, hv, -⟩ := C78_whole b64_accRounding f _ a 12 (by norm_num) h2 b
  exact ⟨_, d, h1, e, by rw [hv, List.length_map, b]⟩

/-- The hypotheses of `C78_360s_violated` are met by a file that can be opened: 365 s of data. -/
example (f : SampleFilter ℚ σ) : ∃ s, openSession b64 (demoFile b64 36500000) = .ok s ∧ s.plotData b64 f none none true = .error .valueError := by
  obtain ⟨st, h1, h2⟩ := demo_open b64_accRounding 36500000 (by norm_num) (by norm_num)
  obtain ⟨a, b, -⟩ := demo_facts b64_accRounding 36500000 st
  exact ⟨_, h1, (C78_360s_violated b64_accRounding f _ a 3650 (by norm_num) h2 b true (fun _ => none) "rec").1⟩

end Verif.Props
