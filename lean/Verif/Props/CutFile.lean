import Verif.Model.CutFile
import Verif.Props.Recorder
import Verif.Props.DataTools

/-! # C64: cutting and down-sampling to a file -/

namespace Verif.Props
open Verif.Model Verif.Py

section
variable {σ : Type}

/-! ## No file is harmed -/

/-- **C64, existing files.**  Whatever is asked for, no file that exists is changed: not the source, not an output of an earlier run. -/
theorem C64_untouched (fl : ℚ → ℚ) (f : SampleFilter ℤ σ) (s : Session) (fs : Files) (stem : String) (start stop : Option ℚ) (factor : ℚ) (p : String)
    (hp : (fs p).isSome) : (s.cutToFile fl f fs stem start stop factor).1 p = fs p := by
  have put : ∀ h, fs (s.cutName fl stem start stop factor) = none → (fs.put (s.cutName fl stem start stop factor) h) p = fs p := by
    intro h hn
    unfold Files.put
    rw [if_neg]
    rintro rfl
    rw [hn] at hp
    cases hp
  unfold Session.cutToFile
  split
  · rfl
  · dsimp only
    split_ifs with h1
    · rfl
    · have hn : fs (s.cutName fl stem start stop factor) = none := by simpa using h1
      split
      · exact put _ hn
      · split
        · exact put _ hn
        · split <;> exact put _ hn

/-- **C64, one output.**  At most one file is created: `<source>[.cut_<start>_to_<end>][.downsample_x<factor>].h5`. -/
theorem C64_one_output (fl : ℚ → ℚ) (f : SampleFilter ℤ σ) (s : Session) (fs : Files) (stem : String) (start stop : Option ℚ) (factor : ℚ) (p : String)
    (hp : p ≠ s.cutName fl stem start stop factor) : (s.cutToFile fl f fs stem start stop factor).1 p = fs p := by
  have put : ∀ h, (fs.put (s.cutName fl stem start stop factor) h) p = fs p := by
    intro h
    unfold Files.put
    rw [if_neg hp]
  unfold Session.cutToFile
  split
  · rfl
  · dsimp only
    split_ifs with h1
    · rfl
    · split
      · exact put _
      · split
        · exact put _
        · split <;> exact put _

/-- **C64, what is refused.**  A factor below 1, an end that is not behind the start, and a selection with less than 1000 samples in the result are refused
with a ValueError, and nothing is written. -/
theorem C64_refused {fl : ℚ → ℚ} (h : Rounding fl) (f : SampleFilter ℤ σ) (s : Session) (fs : Files) (stem : String) (start stop : Option ℚ) (factor : ℚ)
    (hr : 0 ≤ s.stats.samplerate)
    (hbad : factor < 1 ∨ (∃ e, stop = some e ∧ e ≤ max 0 (start.getD 0)) ∨ s.runtimeS fl ≤ start.getD 0 ∨
      ((s.sampleAt fl (s.cutEnd fl stop) - s.sampleAt fl (cutStart start) : ℤ) : ℚ) ≤ 999 * factor) :
    s.cutToFile fl f fs stem start stop factor = (fs, .error .valueError) := by
  have key : s.cutCheck fl start stop factor = .error .valueError := by
    unfold Session.cutCheck
    dsimp only
    split_ifs with h1 h2 h3
    · rfl
    · rfl
    · rfl
    · exfalso
      push Not at h1 h2 h3
      have hf0 : (0 : ℚ) < factor := by linarith
      have small : ((s.sampleAt fl (s.cutEnd fl stop) - s.sampleAt fl (cutStart start) : ℤ) : ℚ) ≤ 999 * factor := by
        have zero : s.cutEnd fl stop ≤ cutStart start → ((s.sampleAt fl (s.cutEnd fl stop) - s.sampleAt fl (cutStart start) : ℤ) : ℚ) ≤ 999 * factor := by
          intro hle
          have hm : s.sampleAt fl (s.cutEnd fl stop) ≤ s.sampleAt fl (cutStart start) := by
            unfold Session.sampleAt
            apply pyRound_mono
            apply h.mono
            exact mul_le_mul_of_nonneg_right hle (by exact_mod_cast hr)
          have : ((s.sampleAt fl (s.cutEnd fl stop) - s.sampleAt fl (cutStart start) : ℤ) : ℚ) ≤ 0 := by exact_mod_cast (by omega : s.sampleAt fl (s.cutEnd fl stop) - s.sampleAt fl (cutStart start) ≤ 0)
          linarith
        rcases hbad with hb | ⟨e, he, hb⟩ | hb | hb
        · linarith
        · apply zero
          unfold Session.cutEnd cutStart
          rw [he]
          exact le_trans (min_le_right _ _) hb
        · apply zero
          unfold Session.cutEnd cutStart
          exact le_trans (min_le_left _ _) (le_trans hb (le_max_right _ _))
        · exact hb
      have : fl (((s.sampleAt fl (s.cutEnd fl stop) - s.sampleAt fl (cutStart start) : ℤ) : ℚ) / factor) ≤ ((999 : ℤ) : ℚ) := by
        apply h.le_int (by norm_num)
        rw [div_le_iff₀ hf0]
        exact_mod_cast small
      rw [show ((999 : ℤ) : ℚ) = 999 by norm_num] at this
      linarith
  unfold Session.cutToFile
  rw [key]

/-- **C64, the range.**  The samples where a cut begins and ends are the ones nearest to the times given (in exact arithmetic; floats add a relative error of 2⁻⁵³). -/
theorem C64_range {fl : ℚ → ℚ} (h : AccRounding fl) (s : Session) (t : ℚ) (ht : 0 ≤ t) (hr : 0 ≤ s.stats.samplerate) :
    |(s.sampleAt fl t : ℚ) - t * s.stats.samplerate| ≤ 1 / 2 + t * s.stats.samplerate / 2 ^ 53 + 2 ^ (-1075 : ℤ) := by
  have h1 := pyRound_sub_le (fl (t * s.stats.samplerate))
  have h2 := sub_pyRound_le (fl (t * s.stats.samplerate))
  have h3 := h.err (t * s.stats.samplerate)
  have h0 : (0 : ℚ) ≤ t * s.stats.samplerate := mul_nonneg ht (by exact_mod_cast hr)
  rw [abs_of_nonneg h0] at h3
  have h4 := abs_le.mp h3
  generalize (2 : ℚ) ^ (-1075 : ℤ) = tiny at *
  unfold Session.sampleAt
  rw [abs_le]
  constructor <;> linarith [h4.1, h4.2]

/-! ## What is in the output -/

/-- What a result is made of: the samples from `a` to `b`, filtered unless it is the time or the factor is 1. -/
def cutSource (f : SampleFilter ℤ σ) (s : Session) (n : DsName) (a b : ℤ) (k : ℕ) : List ℤ :=
  if n = .time ∨ k ≤ 1 then selected (s.get n) a.toNat (some b.toNat) else lowpass f (selected (s.get n) a.toNat (some b.toNat))

theorem cutSource_length (f : SampleFilter ℤ σ) (s : Session) (n : DsName) (a b : ℤ) (k : ℕ) (h0 : EqualLengths s) :
    (cutSource f s n a b k).length = (selected (s.get .voltage) a.toNat (some b.toNat)).length := by
  have : ∀ m, (selected (s.get m) a.toNat (some b.toNat)).length = (selected (s.get .voltage) a.toNat (some b.toNat)).length := by
    intro m
    simp only [selected, List.length_drop, List.length_take, h0 m]
  unfold cutSource
  split_ifs
  · exact this n
  · rw [lowpass_eq, run_length]; exact this n

/-- One dataset. -/
theorem cutOne_spec {fl : ℚ → ℚ} (h : AccRounding fl) (f : SampleFilter ℤ σ) (s : Session) (n : DsName) (a b : ℤ) (factor : ℚ) (h1 : 1 ≤ factor)
    (hsize : (s.get n).length ≤ 2 ^ 50) (hfac : factor ≤ 2 ^ 50)
    (hfit : ⌊factor⌋.toNat ∣ 4000000 ∨ (selected (s.get n) a.toNat (some b.toNat)).length ≤ 4000000) :
    ∃ out, s.cutOne fl f n a b factor = .ok out ∧ IsDecimated ⌊factor⌋.toNat (cutSource f s n a b ⌊factor⌋.toNat) out := by
  have hfl : 1 ≤ ⌊factor⌋ := Int.le_floor.mpr (by exact_mod_cast h1)
  have hmax : max 1 ⌊factor⌋.toNat = ⌊factor⌋.toNat := by omega
  by_cases hne : selected (s.get n) a.toNat (some b.toNat) = []
  · refine ⟨[], C63_empty fl 0 f true _ 4000000 (s.get n) [] a.toNat (some b.toNat) _ hne, ?_, ?_⟩
    · unfold cutSource
      rw [hne]
      split_ifs <;> simp [lowpass_eq, SampleFilter.run]
    · intro i hi
      simp at hi
  · have hfn : ⌊factor⌋.toNat ≤ 2 ^ 50 := by
      have : ⌊factor⌋ ≤ 2 ^ 50 := by
        have := Int.floor_le factor
        have h2 : (⌊factor⌋ : ℚ) ≤ ((2 ^ 50 : ℤ) : ℚ) := le_trans this (by push_cast; exact hfac)
        exact_mod_cast h2
      omega
    obtain ⟨out, e, hd⟩ := C63_downsample_partial h (0 : ℤ) f true (n = .time) 4000000 (s.get n) [] a.toNat (some b.toNat) ⌊factor⌋.toNat (by norm_num) hsize hfn
      (by rw [hmax]; exact hfit) hne
    refine ⟨out, e, ?_⟩
    rw [hmax] at hd
    unfold cutSource
    simpa using hd

/-- All three datasets. -/
theorem cutData_spec {fl : ℚ → ℚ} (h : AccRounding fl) (f : SampleFilter ℤ σ) (s w : Session) (a b : ℤ) (factor : ℚ) (h1 : 1 ≤ factor) (h0 : EqualLengths s)
    (hsize : (s.get .voltage).length ≤ 2 ^ 50) (hfac : factor ≤ 2 ^ 50)
    (hfit : ⌊factor⌋.toNat ∣ 4000000 ∨ (selected (s.get .voltage) a.toNat (some b.toNat)).length ≤ 4000000) :
    ∃ w', s.cutData fl f w a b factor = .ok w' ∧ SameMeta w' w ∧ w'.stats = w.stats ∧ ∀ n, IsDecimated ⌊factor⌋.toNat (cutSource f s n a b ⌊factor⌋.toNat) (w'.get n) := by
  have hl : ∀ m, (selected (s.get m) a.toNat (some b.toNat)).length = (selected (s.get .voltage) a.toNat (some b.toNat)).length := by
    intro m
    simp only [selected, List.length_drop, List.length_take, h0 m]
  have one := fun n => cutOne_spec h f s n a b factor h1 (by rw [h0 n]; exact hsize) hfac (by rw [hl n]; exact hfit)
  obtain ⟨t, et, ht⟩ := one .time
  obtain ⟨v, ev, hv⟩ := one .voltage
  obtain ⟨c, ec, hc⟩ := one .current
  refine ⟨{ w with ds := fun n => { w.ds n with data := match n with | .time => t | .voltage => v | .current => c } }, ?_, ⟨rfl, rfl, rfl, rfl, fun _ => rfl⟩, rfl, ?_⟩
  · unfold Session.cutData
    rw [et, ev, ec]
    rfl
  · intro n
    cases n
    · exact ht
    · exact hv
    · exact hc

/-- What an accepted request that creates a file does. -/
theorem cutToFile_ok {fl : ℚ → ℚ} {f : SampleFilter ℤ σ} {s : Session} {fs fs' : Files} {stem : String} {start stop : Option ℚ} {factor : ℚ} {dst : String}
    (hnew : fs (s.cutName fl stem start stop factor) = none) (hrun : s.cutToFile fl f fs stem start stop factor = (fs', .ok dst)) :
    dst = s.cutName fl stem start stop factor ∧ 1 ≤ factor ∧ ∃ g w w' h, writerOpen fl none s.cutArgs = (g, .ok w) ∧
      s.cutData fl f (s.cutMeta w factor) (s.sampleAt fl (cutStart start)) (s.sampleAt fl (s.cutEnd fl stop)) factor = .ok w' ∧ w'.close fl = .ok h ∧ fs' dst = some h := by
  unfold Session.cutToFile at hrun
  cases hck : s.cutCheck fl start stop factor with
  | error e => rw [hck] at hrun; cases hrun
  | ok _ =>
    rw [hck] at hrun
    have hf1 : 1 ≤ factor := by
      unfold Session.cutCheck at hck
      dsimp only at hck
      split_ifs at hck with h1 h2
      linarith
    dsimp only at hrun
    rw [if_neg (by rw [hnew]; decide)] at hrun
    rcases hw : writerOpen fl none s.cutArgs with ⟨g, e | w⟩
    · rw [hw] at hrun; cases hrun
    · rw [hw] at hrun
      dsimp only at hrun
      cases hd : s.cutData fl f (s.cutMeta w factor) (s.sampleAt fl (cutStart start)) (s.sampleAt fl (s.cutEnd fl stop)) factor with
      | error e => rw [hd] at hrun; cases hrun
      | ok w' =>
        rw [hd] at hrun
        dsimp only at hrun
        cases hc : w'.close fl with
        | error e => rw [hc] at hrun; cases hrun
        | ok h =>
          rw [hc] at hrun
          simp only [Prod.mk.injEq, Except.ok.injEq] at hrun
          refine ⟨hrun.2.symm, hf1, g, w, w', h, rfl, hd, hc, ?_⟩
          rw [← hrun.1, ← hrun.2, Files.put, if_pos rfl]

/-- **C64, contents.**  When a file is created, all its datasets are every n-th sample of the selected range of the source (filtered, except for the time stamps and a factor
below 2), at the end cut alike to full buffers or not at all.  Missing: factors that do not divide the block size of four million, on longer ranges. -/
theorem C64_content_partial {fl : ℚ → ℚ} (h : AccRounding fl) (f : SampleFilter ℤ σ) (s : Session) (fs fs' : Files) (stem : String) (start stop : Option ℚ)
    (factor : ℚ) (dst : String) (h0 : EqualLengths s) (hsize : (s.get .voltage).length ≤ 2 ^ 50) (hfac : factor ≤ 2 ^ 50)
    (hfit : ⌊factor⌋.toNat ∣ 4000000 ∨ (selected (s.get .voltage) (s.sampleAt fl (cutStart start)).toNat (some (s.sampleAt fl (s.cutEnd fl stop)).toNat)).length ≤ 4000000)
    (hnew : fs dst = none) (hrun : s.cutToFile fl f fs stem start stop factor = (fs', .ok dst)) :
    ∃ file k, fs' dst = some file ∧ ∀ n, ∃ out,
      IsDecimated ⌊factor⌋.toNat (cutSource f s n (s.sampleAt fl (cutStart start)) (s.sampleAt fl (s.cutEnd fl stop)) ⌊factor⌋.toNat) out ∧
      contents file n = some (out.take k) ∧ (k = out.length ∨ Kept out.length k) := by
  have hd : dst = s.cutName fl stem start stop factor := by
    by_contra hc
    have := hrun
    unfold Session.cutToFile at this
    split at this
    · cases this
    · dsimp only at this
      split_ifs at this with h1
      · exact hc (Except.ok.inj (Prod.mk.inj this).2).symm
      · split at this
        · cases this
        · split at this
          · cases this
          · split at this
            · cases this
            · exact hc (Except.ok.inj (Prod.mk.inj this).2).symm
  rw [hd] at hnew
  obtain ⟨-, hf1, g, w, w', file, -, hdata, hclose, hput⟩ := cutToFile_ok hnew hrun
  obtain ⟨w2, e2, hm, -, hdec⟩ := cutData_spec h f s (s.cutMeta w factor) _ _ factor hf1 h0 hsize hfac hfit
  rw [hdata] at e2
  cases e2
  have hlen : ∀ n, (w'.get n).length = (w'.get .voltage).length := by
    intro n
    rw [(hdec n).1, (hdec .voltage).1, cutSource_length _ _ _ _ _ _ h0, cutSource_length _ _ _ _ _ _ h0]
  have hle : (w'.get .voltage).length < 10000 * 2 ^ 39 := by
    rw [(hdec .voltage).1, cutSource_length _ _ _ _ _ _ h0]
    refine lt_of_le_of_lt (Nat.div_le_self _ _) ?_
    simp only [selected, List.length_drop, List.length_take]
    omega
  obtain ⟨k, hk, hcont, -⟩ := C33_close fl h.toRounding w' file hlen hle hclose
  refine ⟨file, k, hput, fun n => ⟨w'.get n, hdec n, hcont n, ?_⟩⟩
  rw [hlen n]; exact hk

/-- **C64, meta data.**  Mode, window, calibration and host of the source are found in the output, its data type (if it has one), and the factor asked for. -/
theorem C64_meta {fl : ℚ → ℚ} (h : AccRounding fl) (f : SampleFilter ℤ σ) (s : Session) (fs fs' : Files) (stem : String) (start stop : Option ℚ)
    (factor : ℚ) (dst : String) (h0 : EqualLengths s) (hsize : (s.get .voltage).length ≤ 2 ^ 50) (hfac : factor ≤ 2 ^ 50)
    (hfit : ⌊factor⌋.toNat ∣ 4000000 ∨ (selected (s.get .voltage) (s.sampleAt fl (cutStart start)).toNat (some (s.sampleAt fl (s.cutEnd fl stop)).toNat)).length ≤ 4000000)
    (hdst : dst = s.cutName fl stem start stop factor) (hnew : fs dst = none) (hrun : s.cutToFile fl f fs stem start stop factor = (fs', .ok dst)) :
    ∃ file, fs' dst = some file ∧ ∀ r, openSession fl file = .ok r → getMode r.attrs = getMode s.attrs ∧ getWindow r.dattrs = getWindow s.dattrs ∧ r.cal = s.cal ∧
      getHostname r.attrs = getHostname s.attrs ∧ (∀ t, getDatatype s.dattrs = some t → getDatatype r.dattrs = some t) ∧ r.attrs "ds_factor" = some (.num factor) := by
  subst hdst
  obtain ⟨-, hf1, g, w, w', file, hopen, hdata, hclose, hput⟩ := cutToFile_ok hnew hrun
  obtain ⟨w2, e2, hm, -, hdec⟩ := cutData_spec h f s (s.cutMeta w factor) _ _ factor hf1 h0 hsize hfac hfit
  rw [hdata] at e2
  cases e2
  have hle : (w'.get .voltage).length < 10000 * 2 ^ 39 := by
    rw [(hdec .voltage).1, cutSource_length _ _ _ _ _ _ h0]
    refine lt_of_le_of_lt (Nat.div_le_self _ _) ?_
    simp only [selected, List.length_drop, List.length_take]
    omega
  refine ⟨file, hput, fun r hr => ?_⟩
  obtain ⟨gg, dt, l, t, hg, hp, a1, a2, -, -, -, ht', hd, -, hcal⟩ := open_session_facts hopen
  obtain ⟨st, u, -, hu, rfl, -⟩ := close_ok h.toRounding hclose hle
  obtain ⟨hrf, hrc, -, -⟩ := openSession_ok hr
  simp only [Session.file, H5File.mk.injEq, Option.some.injEq, DataGroup.mk.injEq] at hrf
  obtain ⟨r1, ⟨r2, r3⟩, -⟩ := hrf
  simp only [Option.getD_none, skeleton, Option.some.injEq] at hg
  have hat : r.attrs = (s.cutMeta w factor).attrs := by rw [r1, hu.1, hm.1]
  have hda : r.dattrs = w.dattrs := by rw [r2, hu.2.1, hm.2.1]; rfl
  have hds : ∀ n, (r.ds n).attrs = (w.ds n).attrs := by
    intro n
    have := congrFun r3 n
    simp only [Option.some.injEq] at this
    rw [this, hu.2.2.2.2 n, hm.2.2.2.2 n]; rfl
  have hmeta : ∀ k, (s.cutMeta w factor).attrs k = if k = "config" then some (.cfg ((getConfig s.dattrs).getD { hrvVoltageStep := none, rest := "{}" }))
      else if k = "hostname" then some (.str (getHostname s.attrs)) else if k = "ds_factor" then some (.num factor) else w.attrs k := by
    intro k
    simp only [Session.cutMeta, Session.storeConfig, Session.storeHostname, Session.setRoot, Attrs.set]
  have hmode : w.attrs "mode" = some (.str (getMode s.attrs)) := by
    rw [a1]
    unfold putMode
    exact setDefault_some (Attrs.set _ "mode" (.str (getMode s.attrs))) "mode" _ (.str (getMode s.attrs)) (set_same _ _ _)
  refine ⟨?_, ?_, ?_, ?_, ?_, ?_⟩
  · have : r.attrs "mode" = some (.str (getMode s.attrs)) := by
      rw [hat, hmeta, if_neg (by decide), if_neg (by decide), if_neg (by decide), hmode]
    rw [getMode, this]
  · have : r.dattrs "window_samples" = some (.num (getWindow s.dattrs)) := by
      rw [hda, a2]
      unfold putWindow
      exact setDefault_some (Attrs.set _ "window_samples" (.num (getWindow s.dattrs))) "window_samples" _ (.num (getWindow s.dattrs)) (set_same _ _ _)
    rw [getWindow, this]
    simp [pyInt_intCast]
  · rw [hrc]
    unfold calOf
    rw [hds, hds, hds]
    have hp : ∀ n e, pairOf (w.ds n).attrs e = s.cal.get n := by
      intro n e
      obtain ⟨d, -, hdn⟩ := hd n
      rw [hdn]
      exact pairOf_put _ _ ((CalSeries.default fl).get n) _
    rw [hp, hp, hp]
    rfl
  · have : r.attrs "hostname" = some (.str (getHostname s.attrs)) := by
      rw [hat, hmeta, if_neg (by decide), if_pos rfl]
    rw [getHostname, this]
  · intro t2 ht2
    have hdt : dt = some t2 := by
      have : parseDatatype (some t2.name) = .ok dt := by
        have := hp
        simpa [Session.cutArgs, ht2] using this
      simp only [parseDatatype, dtypeOfName_name, Except.ok.injEq] at this
      exact this.symm
    rw [hda, a2]
    unfold getDatatype
    rw [putWindow_other _ _ (by decide), hdt]
    have := getDatatype_put gg.attrs t2
    unfold getDatatype at this
    exact this
  · rw [hat, hmeta, if_neg (by decide), if_neg (by decide), if_pos rfl]

/-! ## A file is created -/

theorem exists_pair {α β : Type} (a : α) (b : Except PyErr β) (h : ∃ w, b = .ok w) : ∃ g w, (a, b) = (g, .ok w) := by
  obtain ⟨w, rfl⟩ := h
  exact ⟨a, w, rfl⟩

/-- A valid recording can be written again with its own meta data. -/
theorem writerOpen_cutArgs {fl : ℚ → ℚ} {s : Session} (hv : s.file.isValid = true)
    (hcal : s.cal.voltage.Valid ∧ s.cal.current.Valid ∧ s.cal.time.Valid) : ∃ g w, writerOpen fl none s.cutArgs = (g, .ok w) := by
  obtain ⟨g, m, sd, t, w, hg, hm, hsd, hw, hnt, hmt, hds, hcurve⟩ := (C36_valid_meaning s.file).mp hv
  cases hg
  have hmode : getMode s.attrs = m := by
    have : s.attrs "mode" = some (.str m) := hm
    simp [getMode, this]
  have hdt : getDatatype s.dattrs = some t := by
    have : s.dattrs "datatype" = some (.str sd) := hsd
    simp [getDatatype, this, (dtypeOfName_iff sd t).mpr hnt]
  obtain ⟨l, hl, htl⟩ : ∃ l, modeDtypes m = some l ∧ t ∈ l := by
    rcases hmt with rfl | ⟨rfl, rfl⟩
    · exact ⟨_, rfl, by cases t <;> decide⟩
    · exact ⟨_, rfl, by decide⟩
  have hwin : t = .ivcurve → 1 ≤ getWindow s.dattrs := by
    intro ht
    obtain ⟨q, rfl, hq⟩ := hcurve ht
    have : s.dattrs "window_samples" = some (.num q) := hw
    simp only [getWindow, this]
    exact one_le_pyInt.mpr hq
  have e1 : modeArgOk s.cutArgs.mode = true := by simp [modeArgOk, Session.cutArgs, hmode, hl]
  have e2 : getMode (putMode skeleton.attrs s.cutArgs.mode) = m := by
    have : putMode skeleton.attrs s.cutArgs.mode "mode" = some (.str m) := by
      unfold putMode
      rw [← hmode]
      exact setDefault_some (Attrs.set _ "mode" (.str (getMode s.attrs))) "mode" _ (.str (getMode s.attrs)) (set_same _ _ _)
    simp [getMode, this]
  have e3 : parseDatatype s.cutArgs.datatype = .ok (some t) := by
    simp [Session.cutArgs, hdt, parseDatatype, dtypeOfName_name]
  have e4 : ∀ d : Attrs, getWindow (putWindow d s.cutArgs.window) = getWindow s.dattrs := by
    intro d
    have : putWindow d s.cutArgs.window "window_samples" = some (.num (getWindow s.dattrs)) := by
      unfold putWindow
      exact setDefault_some (Attrs.set _ "window_samples" (.num (getWindow s.dattrs))) "window_samples" _ (.num (getWindow s.dattrs)) (set_same _ _ _)
    rw [getWindow, this]
    simp [pyInt_intCast]
  unfold writerOpen
  dsimp only
  rw [Option.getD_none, if_neg (by rw [e1]; decide), e2, hl]
  dsimp only
  unfold openDatatype
  rw [e3]
  dsimp only
  rw [if_neg (by simp [dtypeArgOk, htl])]
  simp only [skeleton]
  rw [if_neg (by rw [getDatatype_put]; simp [dtypeStoredOk, htl])]
  unfold openWindow
  dsimp only
  rw [if_neg (by rw [e4]; rintro ⟨h1, h2⟩; have := hwin (Option.some.inj h1); omega), if_neg (by simp)]
  apply exists_pair
  have hp : ∀ n a d e, pairOf (putPair a (some (s.cal.get n)) d) e = s.cal.get n := fun n a d e => pairOf_put _ _ _ _
  simp only [openSession, putCal, Option.map_some, Session.cutArgs, hp]
  have h1 : (s.cal.get .voltage).Valid := hcal.1
  have h2 : (s.cal.get .current).Valid := hcal.2.1
  have h3 : (s.cal.get .time).Valid := hcal.2.2
  rw [if_pos ⟨h1, h2, h3⟩]
  simp only [refreshStats, List.length_nil, gt_iff_lt, lt_irrefl, false_and, if_false]
  exact ⟨_, rfl⟩

/-- Refreshing the statistics only fails when a positive duration becomes zero. -/
theorem refresh_total {fl : ℚ → ℚ} (s : Session) (hd : ∀ d : ℤ, 0 < d → s.cal.time.rawToSi fl d ≠ 0) : ∃ st, s.refresh fl = .ok { s with stats := st } := by
  have : ∃ st, refreshStats fl s.cal (s.get .time) s.stats = .ok st := by
    unfold refreshStats
    dsimp only
    set d := (if (s.get .time).length > 0 then (s.get .time).getD ((s.get .time).length - 1) 0 - (s.get .time).getD 0 0 else 0)
    by_cases h1 : (s.get .time).length > 0 ∧ d > 0
    · rw [if_pos h1, if_neg (hd d h1.2)]
      exact ⟨_, rfl⟩
    · rw [if_neg h1]
      exact ⟨_, rfl⟩
  obtain ⟨st, h⟩ := this
  unfold Session.refresh
  rw [h]
  exact ⟨st, rfl⟩

theorem close_total {fl : ℚ → ℚ} (s : Session) (hd : ∀ d : ℤ, 0 < d → s.cal.time.rawToSi fl d ≠ 0) : ∃ file, s.close fl = .ok file := by
  obtain ⟨st, h1⟩ := refresh_total s hd
  have hal : ∃ s', s.align fl = .ok s' ∧ s'.cal = s.cal := by
    unfold Session.align
    rw [h1]
    dsimp only
    split
    · split
      · exact ⟨_, rfl, rfl⟩
      · exact ⟨_, rfl, (foldl_prim_same _ _).2.2.2.1⟩
    · exact ⟨_, rfl, rfl⟩
  obtain ⟨s', h2, h3⟩ := hal
  obtain ⟨st2, h4⟩ := refresh_total (fl := fl) s' (by rw [h3]; exact hd)
  unfold Session.close
  rw [h2]
  dsimp only
  rw [h4]
  exact ⟨_, rfl⟩

/-- **C64, success.**  For a valid recording, a factor of at least 1 that divides the block size (or a range that fits into a block) and a range with at least 1001 samples in the result, the
output is there afterwards. -/
theorem C64_created {fl : ℚ → ℚ} (h : AccRounding fl) (f : SampleFilter ℤ σ) (s : Session) (fs : Files) (stem : String) (start stop : Option ℚ)
    (factor : ℚ) (h0 : EqualLengths s) (hsize : (s.get .voltage).length ≤ 2 ^ 50) (h1 : 1 ≤ factor) (hfac : factor ≤ 2 ^ 50)
    (hv : s.file.isValid = true) (hcal : s.cal.voltage.Valid ∧ s.cal.current.Valid ∧ s.cal.time.Valid)
    (hd : ∀ d : ℤ, 0 < d → s.cal.time.rawToSi fl d ≠ 0)
    (hfit : ⌊factor⌋.toNat ∣ 4000000 ∨ (selected (s.get .voltage) (s.sampleAt fl (cutStart start)).toNat (some (s.sampleAt fl (s.cutEnd fl stop)).toNat)).length ≤ 4000000)
    (hlong : 1000 * factor ≤ ((s.sampleAt fl (s.cutEnd fl stop) - s.sampleAt fl (cutStart start) : ℤ) : ℚ)) :
    ∃ fs' file, s.cutToFile fl f fs stem start stop factor = (fs', .ok (s.cutName fl stem start stop factor)) ∧ fs' (s.cutName fl stem start stop factor) = some file := by
  have hf0 : (0 : ℚ) < factor := by linarith
  have hck : s.cutCheck fl start stop factor = .ok () := by
    have hb : s.sampleAt fl (cutStart start) ≤ s.sampleAt fl (s.cutEnd fl stop) := by
      have : (0 : ℚ) ≤ ((s.sampleAt fl (s.cutEnd fl stop) - s.sampleAt fl (cutStart start) : ℤ) : ℚ) := by linarith
      have : (0 : ℤ) ≤ s.sampleAt fl (s.cutEnd fl stop) - s.sampleAt fl (cutStart start) := by exact_mod_cast this
      omega
    have hq : ((1000 : ℤ) : ℚ) ≤ fl (((s.sampleAt fl (s.cutEnd fl stop) - s.sampleAt fl (cutStart start) : ℤ) : ℚ) / factor) := by
      apply h.int_le (by norm_num)
      rw [le_div_iff₀ hf0]
      exact_mod_cast hlong
    rw [show ((1000 : ℤ) : ℚ) = 1000 by norm_num] at hq
    unfold Session.cutCheck
    dsimp only
    rw [if_neg (by omega), if_neg (by linarith), if_neg (by linarith)]
  unfold Session.cutToFile
  rw [hck]
  dsimp only
  cases hex : fs (s.cutName fl stem start stop factor) with
  | some file => exact ⟨fs, file, by simp, hex⟩
  | none =>
    obtain ⟨g, w, hw⟩ := writerOpen_cutArgs (fl := fl) hv hcal
    obtain ⟨w', e2, hm, -, -⟩ := cutData_spec h f s (s.cutMeta w factor) (s.sampleAt fl (cutStart start)) (s.sampleAt fl (s.cutEnd fl stop)) factor h1 h0 hsize hfac hfit
    have hwcal : w'.cal = s.cal := by
      rw [hm.2.2.1]
      show w.cal = s.cal
      obtain ⟨gg, dt, l, t, -, -, -, -, -, -, -, -, hdd, -, hc⟩ := open_session_facts hw
      rw [hc]
      unfold calOf
      have hp : ∀ n e, pairOf (w.ds n).attrs e = s.cal.get n := by
        intro n e
        obtain ⟨d, -, hdn⟩ := hdd n
        rw [hdn]
        exact pairOf_put _ _ ((CalSeries.default fl).get n) _
      rw [hp, hp, hp]
      rfl
    obtain ⟨file, hfile⟩ := close_total (fl := fl) w' (by rw [hwcal]; exact hd)
    refine ⟨fs.put (s.cutName fl stem start stop factor) file, file, ?_, by simp [Files.put]⟩
    rw [hw]
    dsimp only
    rw [e2]
    dsimp only
    rw [hfile]
    rfl

/-! ## The default range -/

/-- A tight bound for the error of one float operation. -/
theorem err_small {fl : ℚ → ℚ} (h : AccRounding fl) (x b : ℚ) (h0 : 0 ≤ x) (hb : x ≤ b) : |fl x - x| ≤ b / 2 ^ 53 + 1 / 2 ^ 53 := by
  have e := h.err x
  rw [abs_of_nonneg h0] at e
  have h2 : (2 : ℚ) ^ (-1075 : ℤ) ≤ 2 ^ (-53 : ℤ) := by apply zpow_le_zpow_right₀ (by norm_num) (by norm_num)
  rw [show (2 : ℚ) ^ (-53 : ℤ) = 1 / 2 ^ 53 by norm_num] at h2
  have h3 : x / 2 ^ 53 ≤ b / 2 ^ 53 := by apply div_le_div_of_nonneg_right hb (by norm_num)
  linarith

/-- The length in seconds of a recording at 100 kHz, rounded to tenths. -/
theorem runtime_100kHz {fl : ℚ → ℚ} (h : AccRounding fl) (s : Session) (k r : ℕ) (hk : k ≤ 2 ^ 30) (hr : r < 5000) (hrate : s.stats.samplerate = 100000)
    (hlen : (s.get .voltage).length = 10000 * k + r) : s.runtimeS fl = fl ((k : ℚ) / 10) := by
  have hkq : (k : ℚ) ≤ 2 ^ 30 := by exact_mod_cast hk
  have hk0 : (0 : ℚ) ≤ k := by positivity
  have hrq : (r : ℚ) ≤ 4999 := by exact_mod_cast (by omega : r ≤ 4999)
  have hr0 : (0 : ℚ) ≤ r := by positivity
  have hx : (((s.get .voltage).length : ℚ)) / s.stats.samplerate = (k : ℚ) / 10 + r / 100000 := by
    rw [hlen, hrate]; push_cast; ring
  have e := abs_le.mp (err_small h ((k : ℚ) / 10 + r / 100000) (2 ^ 30) (by positivity) (by linarith))
  have hp : pyRound (10 * fl ((k : ℚ) / 10 + r / 100000)) = (k : ℤ) := by
    apply pyRound_eq_of_lt
    rw [abs_lt]
    norm_num at e
    push_cast
    constructor <;> linarith [e.1, e.2]
  unfold Session.runtimeS
  rw [hx, hp]
  push_cast
  rfl

/-- The sample at a multiple of a tenth of a second. -/
theorem sampleAt_tenth {fl : ℚ → ℚ} (h : AccRounding fl) (s : Session) (k : ℕ) (hk : k ≤ 2 ^ 30) (hrate : s.stats.samplerate = 100000) :
    s.sampleAt fl (fl ((k : ℚ) / 10)) = 10000 * k := by
  have hkq : (k : ℚ) ≤ 2 ^ 30 := by exact_mod_cast hk
  have hk0 : (0 : ℚ) ≤ k := by positivity
  have e := abs_le.mp (err_small h ((k : ℚ) / 10) (2 ^ 30 / 10) (by positivity) (by linarith))
  have h0 : 0 ≤ fl ((k : ℚ) / 10) := h.toRounding.nonneg (by positivity)
  have e2 := abs_le.mp (err_small h (fl ((k : ℚ) / 10) * 100000) (2 ^ 44) (by positivity) (by norm_num at e ⊢; linarith [e.2]))
  unfold Session.sampleAt
  rw [hrate]
  push_cast
  apply pyRound_eq_of_lt
  rw [abs_lt]
  norm_num at e e2
  push_cast
  constructor <;> linarith [e.1, e.2, e2.1, e2.2]

/-- **C64, the whole recording.**  Without start and end all samples of a recording at 100 kHz are taken, if it consists of full buffers (as the writer leaves it). -/
theorem C64_whole {fl : ℚ → ℚ} (h : AccRounding fl) (s : Session) (k : ℕ) (hk : k ≤ 2 ^ 30) (hrate : s.stats.samplerate = 100000)
    (hlen : (s.get .voltage).length = 10000 * k) : s.sampleAt fl (cutStart none) = 0 ∧ s.sampleAt fl (s.cutEnd fl none) = (s.get .voltage).length := by
  constructor
  · simp only [Session.sampleAt, cutStart, Option.getD_none, max_self, zero_mul, h.toRounding.zero]
    exact pyRound_intCast 0
  · unfold Session.cutEnd
    rw [Option.getD_none, min_self, runtime_100kHz h s k 0 hk (by norm_num) hrate (by omega), sampleAt_tenth h s k hk hrate, hlen]
    push_cast; rfl

/-- The name for a factor of 2 without a cut. -/
theorem cutName_x2 (fl : ℚ → ℚ) (s : Session) (stem : String) : s.cutName fl stem none none 2 = stem ++ ".downsample_x2" ++ ".h5" := by
  unfold Session.cutName
  have h1 : cutStart none = 0 := by simp [cutStart]
  have h2 : s.cutEnd fl none = s.runtimeS fl := by simp [Session.cutEnd]
  have h3 : toString (pyRound 2) = "2" := by
    rw [show pyRound 2 = 2 from pyRound_intCast 2]; rfl
  simp only [h1, h2, ne_eq, not_true_eq_false, or_self, if_false, String.append_empty]
  rw [if_pos (by norm_num), h3]
  rfl

/-- **C64, violated: the end is lost.**  A recording with some more samples (up to 4999, 50 ms at 100 kHz) loses them without any cut being asked for, and the name of the output does not tell. -/
theorem C64_tail_violated {fl : ℚ → ℚ} (h : AccRounding fl) (s : Session) (stem : String) (k r : ℕ) (hk : k ≤ 2 ^ 30) (hr : r < 5000) (hr0 : 0 < r)
    (hrate : s.stats.samplerate = 100000) (hlen : (s.get .voltage).length = 10000 * k + r) :
    s.sampleAt fl (s.cutEnd fl none) < (s.get .voltage).length ∧ s.cutName fl stem none none 2 = stem ++ ".downsample_x2" ++ ".h5" := by
  constructor
  · unfold Session.cutEnd
    rw [Option.getD_none, min_self, runtime_100kHz h s k r hk hr hrate hlen, sampleAt_tenth h s k hk hrate, hlen]
    push_cast; omega
  · exact cutName_x2 fl s stem

/-- **C64, violated: another request gets the same file.**  Factors are rounded for the name, but rounded down for the work: a file with every third sample (factor 3) is handed out for a factor of 2.6,
which stands for every second sample. -/
theorem C64_collision_violated (fl : ℚ → ℚ) (f : SampleFilter ℤ σ) (s : Session) (fs : Files) (stem : String) (start stop : Option ℚ) :
    s.cutName fl stem start stop (13 / 5) = s.cutName fl stem start stop 3 ∧ ⌊(13 / 5 : ℚ)⌋.toNat = 2 ∧
    ∀ file, fs (s.cutName fl stem start stop 3) = some file → s.cutCheck fl start stop (13 / 5) = .ok () →
      s.cutToFile fl f fs stem start stop (13 / 5) = (fs, .ok (s.cutName fl stem start stop 3)) := by
  have hn : s.cutName fl stem start stop (13 / 5) = s.cutName fl stem start stop 3 := by
    unfold Session.cutName
    have h1 : pyRound (13 / 5) = 3 := pyRound_eq_of_lt (by norm_num [abs_lt])
    have h2 : pyRound 3 = 3 := pyRound_intCast 3
    have h3 : (1 : ℚ) < 13 / 5 := by norm_num
    have h4 : (1 : ℚ) < 3 := by norm_num
    simp only [h1, h2, h3, h4, if_true]
  refine ⟨hn, ?_, ?_⟩
  · rw [show ⌊(13 / 5 : ℚ)⌋ = 2 by rw [Int.floor_eq_iff]; norm_num]; rfl
  · intro file hfile hck
    unfold Session.cutToFile
    rw [hck]
    dsimp only
    rw [hn, hfile]
    simp only [Option.isSome_some, if_true]

/-- **C64, violated: failures leave a file.**  Down-sampling the time stamps of a valid recording of 120.3 s by 3 fails (see `C63_fails_violated`), and leaves a file; asked again, that file is
presented as the result. -/
theorem C64_leftover_violated {fl : ℚ → ℚ} (h : AccRounding fl) (f : SampleFilter ℤ σ) (s : Session) (fs : Files) (stem : String) (h0 : EqualLengths s)
    (hv : s.file.isValid = true) (hcal : s.cal.voltage.Valid ∧ s.cal.current.Valid ∧ s.cal.time.Valid)
    (hrate : s.stats.samplerate = 100000) (hlen : (s.get .voltage).length = 12030000) (hnew : fs (s.cutName fl stem none none 3) = none) :
    ∃ fs' file, s.cutToFile fl f fs stem none none 3 = (fs', .error .typeError) ∧ fs' (s.cutName fl stem none none 3) = some file ∧
      s.cutToFile fl f fs' stem none none 3 = (fs', .ok (s.cutName fl stem none none 3)) := by
  obtain ⟨ha, hb⟩ := C64_whole h s 1203 (by norm_num) hrate hlen
  rw [hlen] at hb
  have hck : s.cutCheck fl none none 3 = .ok () := by
    have hq : ((1000 : ℤ) : ℚ) ≤ fl ((((12030000 : ℕ) : ℤ) - 0 : ℤ) / 3) := h.int_le (by norm_num) (by norm_num)
    rw [show ((1000 : ℤ) : ℚ) = 1000 by norm_num] at hq
    unfold Session.cutCheck
    dsimp only
    rw [ha, hb, if_neg (by norm_num), if_neg (by norm_num), if_neg (not_lt.mpr hq)]
  obtain ⟨g, w, hw⟩ := writerOpen_cutArgs (fl := fl) hv hcal
  have hfail : s.cutOne fl f .time 0 ((12030000 : ℕ) : ℤ) 3 = .error .typeError := by
    have hl : (s.get .time).length = 12000000 + 3 * 10000 := by rw [h0, hlen]
    have := C63_fails_violated h (0 : ℤ) f true (s.get .time) [] 10000 (by norm_num) (by norm_num) hl
    rw [← this]
    unfold Session.cutOne downsample
    have h3 : ⌊(3 : ℚ)⌋.toNat = 3 := by rw [show ⌊(3 : ℚ)⌋ = 3 from Int.floor_intCast 3]; rfl
    have h4 : dsEnd (s.get .time).length (some (((12030000 : ℕ) : ℤ)).toNat) = dsEnd (s.get .time).length none := by
      rw [hl]; rfl
    rw [h3, h4]
    rfl
  have hdata : s.cutData fl f (s.cutMeta w 3) 0 ((12030000 : ℕ) : ℤ) 3 = .error .typeError := by
    unfold Session.cutData
    rw [hfail]
  refine ⟨fs.put (s.cutName fl stem none none 3) (s.cutMeta w 3).file, (s.cutMeta w 3).file, ?_, by simp [Files.put], ?_⟩
  · unfold Session.cutToFile
    rw [hck]
    dsimp only
    rw [hnew, if_neg (by decide), hw]
    dsimp only
    rw [ha, hb, hdata]
  · unfold Session.cutToFile
    rw [hck]
    dsimp only
    rw [if_pos (by simp [Files.put])]

/-! ## A recording that meets the hypotheses -/

/-- A dataset of the recording: time stamps 10 µs apart, constant values. -/
def demoDset (fl : ℚ → ℚ) (m : ℕ) (n : DsName) : Dset where
  data := match n with | .time => regular 0 m | .voltage => List.replicate m 1000 | .current => List.replicate m 7
  attrs := fun k => if k = "gain" then some (.num ((CalSeries.default fl).get n).gain) else if k = "offset" then some (.num 0) else none

/-- A recording of `m` samples at 100 kHz with default calibration, opened. -/
def demoSession (fl : ℚ → ℚ) (m : ℕ) (st : Stats) : Session where
  attrs := fun k => if k = "mode" then some (.str "harvester") else none
  dattrs := fun k => if k = "datatype" then some (.str "ivsample") else if k = "window_samples" then some (.num 0) else none
  ds := demoDset fl m
  logLevels := none
  cal := CalSeries.default fl
  stats := st

/-- The file of the recording. -/
def demoFile (fl : ℚ → ℚ) (m : ℕ) : H5File := (demoSession fl m (Stats.init fl)).file

theorem demo_wellFormed (fl : ℚ → ℚ) (m : ℕ) : WellFormed (demoFile fl m) := by
  refine ⟨_, "harvester", "ivsample", .ivsample, .num 0, rfl, by simp [demoFile, Session.file, demoSession], by simp [demoSession], by simp [demoSession], .inl rfl, .inl rfl, ?_, by simp⟩
  intro n
  exact ⟨_, rfl, by simp [demoSession, demoDset], by simp [demoSession, demoDset]⟩

theorem fl_pos {fl : ℚ → ℚ} (h : Rounding fl) (x : ℚ) (hx : 1 / 2 ^ 40 ≤ x) : 1 / 2 ^ 40 ≤ fl x := by
  have h1 := h.mono hx
  have h3 := h.exact 1 (-40) (by norm_num) (by norm_num)
  rw [show ((1 : ℤ) : ℚ) * 2 ^ (-40 : ℤ) = 1 / 2 ^ 40 by norm_num] at h3
  linarith

theorem demo_cal {fl : ℚ → ℚ} (h : Rounding fl) : (CalSeries.default fl).voltage.Valid ∧ (CalSeries.default fl).current.Valid ∧ (CalSeries.default fl).time.Valid := by
  have a := fl_pos h (1 / 10 ^ 9) (by norm_num)
  have b := fl_pos h (1 / 10 ^ 12) (by norm_num)
  have c := fl_pos h (3 * fl (1 / 10 ^ 9)) (by linarith)
  have d := fl_pos h (250 * fl (1 / 10 ^ 12)) (by linarith)
  have e : (0 : ℚ) < 1 / 2 ^ 40 := by norm_num
  exact ⟨lt_of_lt_of_le e c, lt_of_lt_of_le e d, lt_of_lt_of_le e a⟩

/-- It can be opened, whatever its length. -/
theorem demo_open {fl : ℚ → ℚ} (h : AccRounding fl) (m : ℕ) (h2 : 2 ≤ m) (hm : m ≤ 2 ^ 39) :
    ∃ st, openSession fl (demoFile fl m) = .ok (demoSession fl m st) ∧ st.samplerate = 100000 := by
  obtain ⟨st, hst, hrate, -⟩ := refresh_regular h (CalSeries.default fl) rfl 0 m h2 hm (Stats.init fl)
  refine ⟨st, ?_, hrate⟩
  have hp : ∀ n, pairOf (demoDset fl m n).attrs ((CalSeries.default fl).get n) = (CalSeries.default fl).get n := by
    intro n
    have h0 : ((CalSeries.default fl).get n).offset = 0 := by cases n <;> rfl
    unfold pairOf demoDset
    simp only [String.reduceEq, if_true, if_false]
    rw [← h0]
  unfold openSession demoFile Session.file
  dsimp only [demoSession]
  rw [show pairOf (demoDset fl m .voltage).attrs (CalSeries.default fl).voltage = (CalSeries.default fl).voltage from hp .voltage,
    show pairOf (demoDset fl m .current).attrs (CalSeries.default fl).current = (CalSeries.default fl).current from hp .current,
    show pairOf (demoDset fl m .time).attrs (CalSeries.default fl).time = (CalSeries.default fl).time from hp .time, if_pos (demo_cal h.toRounding),
    show (demoDset fl m .time).data = regular 0 m from rfl, hst]
  dsimp only
  congr 2
  funext n
  cases n <;> rfl

theorem demo_facts {fl : ℚ → ℚ} (h : AccRounding fl) (m : ℕ) (st : Stats) : EqualLengths (demoSession fl m st) ∧ ((demoSession fl m st).get .voltage).length = m ∧
    (demoSession fl m st).file.isValid = true ∧
    ((demoSession fl m st).cal.voltage.Valid ∧ (demoSession fl m st).cal.current.Valid ∧ (demoSession fl m st).cal.time.Valid) ∧
    (∀ d : ℤ, 0 < d → (demoSession fl m st).cal.time.rawToSi fl d ≠ 0) := by
  refine ⟨?_, by simp [Session.get, demoSession, demoDset], (C36_valid_meaning _).mpr (demo_wellFormed fl m), demo_cal h.toRounding, ?_⟩
  · intro n
    cases n <;> simp [Session.get, demoSession, demoDset]
  · intro d hd
    have h1 : ((1 : ℤ) : ℚ) ≤ fl (d : ℚ) := h.int_le (by norm_num) (by exact_mod_cast hd)
    have a := fl_pos h.toRounding (1 / 10 ^ 9) (by norm_num)
    have b := fl_pos h.toRounding (fl d * fl (1 / 10 ^ 9)) (by push_cast at h1; nlinarith)
    have c := fl_pos h.toRounding (fl (fl d * fl (1 / 10 ^ 9)) + 0) (by linarith)
    have e : (0 : ℚ) < 1 / 2 ^ 40 := by norm_num
    have : (demoSession fl m st).cal.time.rawToSi fl d = fl (fl (fl d * fl (1 / 10 ^ 9)) + 0) := by
      simp only [CalPair.rawToSi, Bool.not_true, Bool.false_eq_true, if_false]; rfl
    rw [this]
    linarith

/-- The hypotheses of `C64_created` (and so of `C64_content_partial` and `C64_meta`) are met: 1.2 s of data, reduced by 2. -/
example (fs : Files) (f : SampleFilter ℤ σ) :
    ∃ fs' file, (demoSession b64 120000 ⟨100000, 10000, 0⟩).cutToFile b64 f fs "rec" none none 2 = (fs', .ok "rec.downsample_x2.h5") ∧ fs' "rec.downsample_x2.h5" = some file := by
  obtain ⟨h0, h1, hv, hcal, hd⟩ := demo_facts b64_accRounding 120000 ⟨100000, 10000, 0⟩
  obtain ⟨ha, hb⟩ := C64_whole b64_accRounding (demoSession b64 120000 ⟨100000, 10000, 0⟩) 12 (by norm_num) rfl (by rw [h1])
  rw [h1] at hb
  have := C64_created b64_accRounding f (demoSession b64 120000 ⟨100000, 10000, 0⟩) fs "rec" none none 2 h0 (by rw [h1]; norm_num) (by norm_num) (by norm_num) hv hcal hd
    (.inl (by rw [show ⌊(2 : ℚ)⌋ = 2 from Int.floor_intCast 2]; decide)) (by rw [ha, hb]; norm_num)
  have hn : (demoSession b64 120000 ⟨100000, 10000, 0⟩).cutName b64 "rec" none none 2 = "rec.downsample_x2.h5" := by
    rw [cutName_x2]; rfl
  rw [hn] at this
  exact this

/-- The hypotheses of `C64_tail_violated` are met by a file that can be opened: 1.04 s of data. -/
example : ∃ s, openSession b64 (demoFile b64 104000) = .ok s ∧ s.stats.samplerate = 100000 ∧ (s.get .voltage).length = 10000 * 10 + 4000 := by
  obtain ⟨st, h1, h2⟩ := demo_open b64_accRounding 104000 (by norm_num) (by norm_num)
  exact ⟨_, h1, h2, (demo_facts b64_accRounding 104000 st).2.1⟩

/-- The hypotheses of `C64_leftover_violated` are met by a file that can be opened: 120.3 s of data. -/
example : ∃ s, openSession b64 (demoFile b64 12030000) = .ok s ∧ s.stats.samplerate = 100000 ∧ EqualLengths s ∧ (s.get .voltage).length = 12030000 ∧ s.file.isValid = true ∧
    (s.cal.voltage.Valid ∧ s.cal.current.Valid ∧ s.cal.time.Valid) := by
  obtain ⟨st, h1, h2⟩ := demo_open b64_accRounding 12030000 (by norm_num) (by norm_num)
  obtain ⟨a, b, c, d, -⟩ := demo_facts b64_accRounding 12030000 st
  exact ⟨_, h1, h2, a, b, c, d⟩

/-- The hypotheses of `C64_refused`: a factor below 1, an end before the start, a start behind the end of the recording. -/
example : ((1 / 2 : ℚ) < 1) ∧ (∃ e, some (1 / 10 : ℚ) = some e ∧ e ≤ max 0 ((some (2 / 10 : ℚ)).getD 0)) := ⟨by norm_num, _, rfl, by norm_num⟩

end
end Verif.Props
