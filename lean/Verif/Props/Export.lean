import Verif.Model.Export
import Verif.Props.CutFile
import Verif.Lemmas.Reports

/-!
# C65, C74, C75: export of data and logs
-/

namespace Verif.Props
open Verif.Py Verif.Model

/-! ## Time stamps -/

/-- A time stamp is rounded to the nearest microsecond. -/
theorem microStamp_err {fl : ℚ → ℚ} (h : AccRounding fl) (x : ℚ) : |(microStamp fl x : ℚ) - 10 ^ 6 * x| ≤ 1 / 2 + 1 / 2 ^ 32 := by
  have h0 : 0 ≤ x - ⌊x⌋ := by have := Int.floor_le x; linarith
  have h1 : x - ⌊x⌋ < 1 := by have := Int.lt_floor_add_one x; linarith
  have e := abs_le.mp (err_small h ((x - ⌊x⌋) * 10 ^ 6) (10 ^ 6) (by positivity) (by nlinarith))
  have r1 := pyRound_sub_le (fl ((x - ⌊x⌋) * 10 ^ 6))
  have r2 := sub_pyRound_le (fl ((x - ⌊x⌋) * 10 ^ 6))
  unfold microStamp
  push_cast
  have h2 : x = (x - ⌊x⌋) + ⌊x⌋ := by ring
  generalize x - ⌊x⌋ = f at *
  generalize fl (f * 10 ^ 6) = y at *
  rw [abs_le]
  norm_num at *
  constructor <;> linarith [e.1, e.2]

/-- Seconds from nanoseconds, up to a factor that has an error of two roundings. -/
theorem seconds_err {fl : ℚ → ℚ} (h : AccRounding fl) (t g : ℚ) (ht : 0 ≤ t) (hg1 : 1 / 10 ^ 9 * (1 - 1 / 2 ^ 52) ≤ g) (hg2 : g ≤ 1 / 10 ^ 9 * (1 + 1 / 2 ^ 52)) :
    |10 ^ 9 * fl (fl t * g) - t| ≤ 1 / 10 ^ 6 + 5 * t / 2 ^ 53 := by
  have tiny : (2 : ℚ) ^ (-1075 : ℤ) ≤ 1 / 10 ^ 20 := by
    calc (2 : ℚ) ^ (-1075 : ℤ) ≤ 2 ^ (-100 : ℤ) := zpow_le_zpow_right₀ (by norm_num) (by norm_num)
      _ ≤ 1 / 10 ^ 20 := by norm_num
  have e1 := h.err t
  rw [abs_of_nonneg ht] at e1
  have f0 : 0 ≤ fl t := h.toRounding.nonneg ht
  have g0 : 0 ≤ g := le_trans (by norm_num) hg1
  have e2 := h.err (fl t * g)
  rw [abs_of_nonneg (mul_nonneg f0 g0)] at e2
  generalize (2 : ℚ) ^ (-1075 : ℤ) = δ at *
  have e1' := abs_le.mp e1
  have e2' := abs_le.mp e2
  have u : fl t * g ≤ (t + t / 2 ^ 53 + 1 / 10 ^ 20) * (1 / 10 ^ 9 * (1 + 1 / 2 ^ 52)) :=
    mul_le_mul (by linarith [e1'.2]) hg2 g0 (by positivity)
  have l : (t - t / 2 ^ 53 - 1 / 10 ^ 20) * (1 / 10 ^ 9 * (1 - 1 / 2 ^ 52)) ≤ fl t * g := by
    have h1 : t - t / 2 ^ 53 - 1 / 10 ^ 20 ≤ fl t := by linarith [e1'.1]
    calc (t - t / 2 ^ 53 - 1 / 10 ^ 20) * (1 / 10 ^ 9 * (1 - 1 / 2 ^ 52)) ≤ fl t * (1 / 10 ^ 9 * (1 - 1 / 2 ^ 52)) := mul_le_mul_of_nonneg_right h1 (by norm_num)
      _ ≤ fl t * g := mul_le_mul_of_nonneg_left hg1 f0
  generalize fl t * g = y at *
  rw [abs_le]
  norm_num at *
  constructor <;> linarith [e2'.1, e2'.2]

/-- **C65, time stamps.**  The microseconds in the file are those of the recorded time stamp, rounded, and off by another `5 t / 2^53` ns at most: less than 2 µs for all time
stamps below 2^61 ns (until the year 2043), less than 0.51 µs for recordings that start at zero. -/
theorem C65_time {fl : ℚ → ℚ} (h : AccRounding fl) (t : ℕ) : |1000 * (microStamp fl (fl (fl t * fl (1 / 10 ^ 9))) : ℚ) - t| ≤ 501 + 5 * t / 2 ^ 53 := by
  obtain ⟨g1, g2⟩ := acc_rel h (x := 1 / 10 ^ 9) (by norm_num)
  have e1 := abs_le.mp (seconds_err h (t : ℚ) (fl (1 / 10 ^ 9)) (by positivity) g1 g2)
  have e2 := abs_le.mp (microStamp_err h (fl (fl t * fl (1 / 10 ^ 9))))
  generalize fl (fl (t : ℚ) * fl (1 / 10 ^ 9)) = x at *
  rw [abs_le]
  norm_num at *
  constructor <;> linarith [e1.1, e1.2, e2.1, e2.2]

/-- The time stamps stay in order. -/
theorem C65_time_mono {fl : ℚ → ℚ} (h : Rounding fl) (x y : ℚ) (hxy : x ≤ y) : microStamp fl x ≤ microStamp fl y := by
  unfold microStamp
  have hb : ∀ z : ℚ, 0 ≤ pyRound (fl ((z - ⌊z⌋) * 10 ^ 6)) ∧ pyRound (fl ((z - ⌊z⌋) * 10 ^ 6)) ≤ 10 ^ 6 := by
    intro z
    have h0 : 0 ≤ z - ⌊z⌋ := by have := Int.floor_le z; linarith
    have h1 : z - ⌊z⌋ < 1 := by have := Int.lt_floor_add_one z; linarith
    constructor
    · exact pyRound_nonneg (h.nonneg (by positivity))
    · have : fl ((z - ⌊z⌋) * 10 ^ 6) ≤ ((10 ^ 6 : ℤ) : ℚ) := h.le_int (by norm_num) (by push_cast; nlinarith)
      exact pyRound_le_intCast this
  rcases (Int.floor_mono hxy).lt_or_eq with hlt | heq
  · have := (hb x).2
    have := (hb y).1
    have : ⌊x⌋ + 1 ≤ ⌊y⌋ := hlt
    nlinarith
  · rw [heq]
    have : pyRound (fl ((x - ⌊y⌋) * 10 ^ 6)) ≤ pyRound (fl ((y - ⌊y⌋) * 10 ^ 6)) := pyRound_mono (h.mono (by nlinarith))
    omega

/-! ## C65: values -/

theorem csvRow_ok (fl : ℚ → ℚ) (raw : Bool) (idx : ℕ) (ds : List CsvDset) (h : ∀ d ∈ ds, idx < d.rows.length) :
    csvRow fl raw idx ds = .ok (ds.map (fun d => (d.rows.getD idx []).map (csvValue fl raw d.gain d.offset))) := by
  induction ds with
  | nil => rfl
  | cons d t ih =>
    have h1 := h d (by simp)
    unfold csvRow
    rw [List.getElem?_eq_getElem h1]
    dsimp only
    rw [ih (fun d hd => h d (List.mem_cons_of_mem _ hd))]
    simp [List.getD_eq_getElem?_getD, List.getElem?_eq_getElem h1]

theorem csvRows_ok (fl : ℚ → ℚ) (raw : Bool) (gain : ℚ) (ds : List CsvDset) (ts : List ℤ) (idx : ℕ) (h : ∀ d ∈ ds, idx + ts.length ≤ d.rows.length) :
    ∃ rows, csvRows fl raw gain ds idx ts = (rows, none) ∧ rows.length = ts.length ∧
      ∀ (i : ℕ) (t : ℤ), ts[i]? = some t → rows[i]? = some (microStamp fl (fl (fl t * gain)), ds.map (fun d => (d.rows.getD (idx + i) []).map (csvValue fl raw d.gain d.offset))) := by
  induction ts generalizing idx with
  | nil => exact ⟨[], rfl, rfl, by simp⟩
  | cons t ts ih =>
    obtain ⟨rows, h1, h2, h3⟩ := ih (idx + 1) (fun d hd => by have := h d hd; simp at this; omega)
    unfold csvRows
    rw [csvRow_ok fl raw idx ds (fun d hd => by have := h d hd; simp at this; omega), h1]
    refine ⟨_, rfl, by simp [h2], ?_⟩
    intro i x hx
    cases i with
    | zero => simp at hx; simp [hx]
    | succ i =>
      simp only [List.getElem?_cons_succ] at hx ⊢
      rw [h3 i x hx]
      simp only [Nat.add_comm i 1, Nat.add_assoc]

/-- Complete: every description is there and no dataset is shorter than the time. -/
def CsvComplete (g : CsvGroup) : Prop :=
  g.timeDescription ≠ none ∧ (∀ d ∈ g.others, d.description ≠ none) ∧ ∀ d ∈ g.others, g.time.length ≤ d.rows.length

/-- **C65, the file.**  For a complete group with data, and no file of that name, a file with exactly one row for each time stamp is written and their number returned.  Row `i` holds the `i`-th time stamp
and the values of all datasets at `i`, in their order, each value converted on its own. -/
theorem C65_rows (fl : ℚ → ℚ) (raw : Bool) (g : CsvGroup) (hne : g.time ≠ []) (hc : CsvComplete g) :
    ∃ f, saveCsv fl raw none (some g) = (some f, .ok g.time.length) ∧ f.rows.length = g.time.length ∧
      f.header.map some = g.timeDescription :: g.others.map CsvDset.description ∧
      ∀ (i : ℕ) (t : ℤ), g.time[i]? = some t → f.rows[i]? =
        some (microStamp fl (fl (fl t * g.timeGain.getD (fl (1 / 10 ^ 9)))), g.others.map (fun d => (d.rows.getD i []).map (csvValue fl raw d.gain d.offset))) := by
  obtain ⟨c1, c2, c3⟩ := hc
  obtain ⟨rows, h1, h2, h3⟩ := csvRows_ok fl raw (g.timeGain.getD (fl (1 / 10 ^ 9))) g.others g.time 0 (fun d hd => by have := c3 d hd; omega)
  have hall : (g.timeDescription :: g.others.map CsvDset.description).all Option.isSome = true := by
    rw [List.all_eq_true]
    intro x hx
    rw [Option.isSome_iff_ne_none]
    rcases List.mem_cons.mp hx with rfl | hx
    · exact c1
    · obtain ⟨d, hd, rfl⟩ := List.mem_map.mp hx
      exact c2 d hd
  have hlen : ∀ l : List (Option String), l.all Option.isSome = true → (l.filterMap id).map some = l := by
    intro l
    induction l with
    | nil => simp
    | cons x t ih =>
      intro h
      rw [List.all_cons, Bool.and_eq_true] at h
      cases x with
      | none => simp at h
      | some x =>
        show some x :: (t.filterMap id).map some = some x :: t
        rw [ih h.2]
  refine ⟨⟨(g.timeDescription :: g.others.map CsvDset.description).filterMap id, rows⟩, ?_, h2, ?_, ?_⟩
  · unfold saveCsv csvHeader
    have : ¬ g.time.length < 1 := by
      have := List.length_pos_iff.mpr hne
      omega
    simp only [this, if_false, hall, if_true, h1, Option.isSome_none, Bool.false_eq_true]
  · exact hlen _ hall
  · simpa using h3

/-- **C65, raw values**: on demand the file has the values of all datasets as they are, without gain and offset. -/
theorem C65_raw (fl : ℚ → ℚ) (g : CsvGroup) (hne : g.time ≠ []) (hc : CsvComplete g) :
    ∃ f, saveCsv fl true none (some g) = (some f, .ok g.time.length) ∧ f.rows.map Prod.snd = (List.range g.time.length).map fun i => g.others.map fun d => d.rows.getD i [] := by
  obtain ⟨f, h1, h2, -, h4⟩ := C65_rows fl true g hne hc
  refine ⟨f, h1, ?_⟩
  apply List.ext_getElem (by simp [h2])
  intro i hi _
  have hi' : i < g.time.length := by simpa [h2] using hi
  have := h4 i g.time[i] (List.getElem?_eq_getElem hi')
  rw [List.getElem?_eq_some_iff] at this
  obtain ⟨hl, he⟩ := this
  rw [List.getElem_map, he, List.getElem_map, List.getElem_range]
  apply List.map_congr_left
  intro d _
  have : csvValue fl true d.gain d.offset = id := rfl
  rw [this, List.map_id]

/-- **C65, calibrated values (partial: datasets with gain and offset).**  The value is the one the reader reports for the raw value, `raw * gain + offset` up to three roundings. -/
theorem C65_calibrated_partial {fl : ℚ → ℚ} (h : AccRounding fl) (c : CalPair) (v : ℤ) (hv : |v| ≤ 2 ^ 53) :
    csvValue fl false (some c.gain) (some c.offset) v = c.rawToSi fl v ∧
    |csvValue fl false (some c.gain) (some c.offset) v - (v * c.gain + c.offset)| ≤ (3 * |v * c.gain| + |c.offset|) / 2 ^ 53 + 1 / 2 ^ 1000 := by
  have e0 : fl (v : ℚ) = v := h.toRounding.exactInt v hv
  constructor
  · simp only [csvValue, CalPair.rawToSi, Option.getD_some, Bool.not_true, Bool.false_eq_true, if_false]
  · simp only [csvValue, Option.getD_some, Bool.false_eq_true, if_false, e0]
    have e1 := h.err (v * c.gain)
    have e2 := h.err (fl (v * c.gain) + c.offset)
    have tiny : (2 : ℚ) ^ (-1075 : ℤ) ≤ 1 / 2 ^ 1000 / 4 := by
      calc (2 : ℚ) ^ (-1075 : ℤ) ≤ 2 ^ (-1002 : ℤ) := zpow_le_zpow_right₀ (by norm_num) (by norm_num)
        _ = 1 / 2 ^ 1000 / 4 := by
          rw [zpow_neg, show ((1002 : ℤ)) = ((1002 : ℕ) : ℤ) by rfl, zpow_natCast, show (1002 : ℕ) = 1000 + 2 by rfl, pow_add]
          rw [mul_inv, one_div, div_eq_mul_inv]; norm_num
    have d0 : (0 : ℚ) ≤ 2 ^ (-1075 : ℤ) := by positivity
    generalize (2 : ℚ) ^ (-1075 : ℤ) = δ at *
    generalize (1 : ℚ) / 2 ^ 1000 = ε at *
    generalize (v : ℚ) * c.gain = a at *
    generalize fl a = b at *
    generalize fl (b + c.offset) = r at *
    have t1 : |b + c.offset| ≤ |b - a| + |a| + |c.offset| := by
      calc |b + c.offset| = |(b - a) + a + c.offset| := by ring_nf
        _ ≤ _ := (abs_add_le _ _).trans (add_le_add_left (abs_add_le _ _) _)
    have t2 : |r - (a + c.offset)| ≤ |r - (b + c.offset)| + |b - a| := by
      calc |r - (a + c.offset)| = |(r - (b + c.offset)) + (b - a)| := by ring_nf
        _ ≤ _ := abs_add_le _ _
    have a0 := abs_nonneg a
    clear hv
    norm_num at e1 e2 t1 t2 tiny ⊢
    linarith

/-- **C65, violated: values without calibration.**  A dataset without gain and offset, like CPU load or temperature in a log, is exported with every value increased by one. -/
theorem C65_uncalibrated_violated {fl : ℚ → ℚ} (h : Rounding fl) (v : ℤ) (hv : |v| < 2 ^ 53) : csvValue fl false none none v = v + 1 := by
  have h1 : |v + 1| ≤ 2 ^ 53 := by rw [abs_lt] at hv; rw [abs_le]; omega
  simp only [csvValue, Option.getD_none, Bool.false_eq_true, if_false, mul_one, h.exactInt v hv.le]
  have := h.exactInt (v + 1) h1
  push_cast at this
  exact this

/-- **C65, existing files** are never touched, and neither is anything written for a group without data. -/
theorem C65_existing (fl : ℚ → ℚ) (raw : Bool) (old : Option CsvFile) (g : Option CsvGroup) (h : old.isSome ∨ g = none ∨ ∃ x, g = some x ∧ x.time = []) :
    saveCsv fl raw old g = (old, .ok 0) := by
  cases g with
  | none => rfl
  | some x =>
    unfold saveCsv
    dsimp only
    split_ifs with h1 h2
    · rfl
    · rfl
    · exfalso
      rcases h with h | h | ⟨y, h, hy⟩
      · exact h2 h
      · cases h
      · cases h; simp [hy] at h1

/-- **C65, undescribed data.**  If the time or a dataset has no description, the export fails before a file is made. -/
theorem C65_undescribed (fl : ℚ → ℚ) (raw : Bool) (g : CsvGroup) (hne : g.time ≠ []) (h : g.timeDescription = none ∨ ∃ d ∈ g.others, d.description = none) :
    saveCsv fl raw none (some g) = (none, .error .keyError) := by
  have hlen : ¬ g.time.length < 1 := by
    have := List.length_pos_of_ne_nil hne; omega
  have hall : (g.timeDescription :: g.others.map CsvDset.description).all Option.isSome = false := by
    rw [List.all_eq_false]
    rcases h with h | ⟨d, hd, h⟩
    · exact ⟨g.timeDescription, by simp, by simp [h]⟩
    · exact ⟨none, by rw [← h]; simp [List.mem_map_of_mem hd], by simp⟩
  unfold saveCsv csvHeader
  simp only [hlen, hall, if_false, Option.isSome_none, Bool.false_eq_true]

example : saveCsv b64 false none (some ⟨some "time [s]", none, [1, 2], [⟨none, none, none, [[1], [2]]⟩]⟩) = (none, .error .keyError) :=
  C65_undescribed _ _ _ (by simp) (.inr ⟨_, List.mem_singleton_self _, rfl⟩)

/-- **C65, violated: incomplete files.**  If a dataset is shorter than the time stamps, an exception is raised but a file with the rows so far is left; asked again, the export is skipped as if it was complete. -/
theorem C65_leftover_violated (fl : ℚ → ℚ) (raw : Bool) : ∃ g : CsvGroup, ∃ f, saveCsv fl raw none (some g) = (some f, .error .indexError) ∧ f.rows.length < g.time.length ∧
    saveCsv fl raw (some f) (some g) = (some f, .ok 0) := by
  exact ⟨{ timeDescription := some "time", timeGain := none, time := [1, 2], others := [{ description := some "value", gain := none, offset := none, rows := [[5]] }] }, _,
    rfl, by simp, rfl⟩

/-! ## C74: logs -/

theorem logMessages_ok (idx : ℕ) (ms : List (List (Option String))) (h : ∀ m ∈ ms, idx < m.length) :
    logMessages idx (ms.map .dset) = .ok (ms.map (fun m => (m.getD idx none).getD "[[[ extractor - faulty element ]]]")) := by
  induction ms with
  | nil => rfl
  | cons m t ih =>
    have h1 := h m (by simp)
    rw [List.map_cons]
    unfold logMessages
    rw [List.getElem?_eq_getElem h1]
    dsimp only
    rw [ih (fun d hd => h d (List.mem_cons_of_mem _ hd))]
    simp [List.getD_eq_getElem?_getD, List.getElem?_eq_getElem h1]

theorem logLines_ok (fl : ℚ → ℚ) (stamped : Bool) (ms : List (List (Option String))) (ts : List ℤ) (idx : ℕ) (h : ∀ m ∈ ms, idx + ts.length ≤ m.length) :
    ∃ rows, logLines fl stamped (ms.map .dset) idx ts = (rows, none) ∧ rows.length = ts.length ∧
      ∀ (i : ℕ) (t : ℤ), ts[i]? = some t → rows[i]? = some (if stamped then some (microStamp fl (fl (fl t / 10 ^ 9))) else none,
        ms.map (fun m => (m.getD (idx + i) none).getD "[[[ extractor - faulty element ]]]")) := by
  induction ts generalizing idx with
  | nil => exact ⟨[], rfl, rfl, by simp⟩
  | cons t ts ih =>
    obtain ⟨rows, h1, h2, h3⟩ := ih (idx + 1) (fun d hd => by have := h d hd; simp at this; omega)
    unfold logLines
    rw [logMessages_ok idx ms (fun d hd => by have := h d hd; simp at this; omega), h1]
    refine ⟨_, rfl, by simp [h2], ?_⟩
    intro i x hx
    cases i with
    | zero => simp at hx; simp [hx]
    | succ i =>
      simp only [List.getElem?_cons_succ] at hx ⊢
      rw [h3 i x hx]
      simp only [Nat.add_comm i 1, Nat.add_assoc]

/-- **C74.**  For a group of datasets, none shorter than the time stamps, the log has exactly one line per time stamp, in order, with the element of every dataset; elements that can not be read are
marked and do no harm to the others. -/
theorem C74_lines (fl : ℚ → ℚ) (stamped : Bool) (ts : List ℤ) (ms : List (List (Option String))) (hne : ts ≠ []) (h : ∀ m ∈ ms, ts.length ≤ m.length) :
    ∃ f, saveLog fl stamped none (some ts) (ms.map .dset) = (some f, .ok ts.length) ∧ f.length = ts.length ∧
      ∀ (i : ℕ) (t : ℤ), ts[i]? = some t → ∃ line : List String, f[i]? = some (if stamped then some (microStamp fl (fl (fl t / 10 ^ 9))) else none, line) ∧ line.length = ms.length ∧
        ∀ (k : ℕ) (m : List (Option String)), ms[k]? = some m → (∀ s, m[i]? = some (some s) → line[k]? = some s) ∧ (m[i]? = some none → line[k]? = some "[[[ extractor - faulty element ]]]") := by
  obtain ⟨rows, h1, h2, h3⟩ := logLines_ok fl stamped ms ts 0 (fun m hm => by have := h m hm; omega)
  refine ⟨rows, ?_, h2, ?_⟩
  · unfold saveLog
    have : ¬ ts.length < 1 := by
      have := List.length_pos_iff.mpr hne
      omega
    simp only [this, if_false, h1, Option.isSome_none, Bool.false_eq_true]
  · intro i t ht
    refine ⟨_, h3 i t ht, by simp, ?_⟩
    intro k m hm
    have : (ms.map (fun m => (m.getD (0 + i) none).getD "[[[ extractor - faulty element ]]]"))[k]? = some ((m.getD (0 + i) none).getD "[[[ extractor - faulty element ]]]") := by
      rw [List.getElem?_map, hm]; rfl
    rw [this]
    constructor
    · intro s hs; simp [List.getD_eq_getElem?_getD, hs]
    · intro hs; simp [List.getD_eq_getElem?_getD, hs]

/-- The time stamps in logs: two roundings, otherwise as in `C65_time`. -/
theorem C74_time {fl : ℚ → ℚ} (h : AccRounding fl) (t : ℕ) : |1000 * (microStamp fl (fl (fl t / 10 ^ 9)) : ℚ) - t| ≤ 501 + 5 * t / 2 ^ 53 := by
  have e1 := abs_le.mp (seconds_err h (t : ℚ) (1 / 10 ^ 9) (by positivity) (by norm_num) (by norm_num))
  have e2 := abs_le.mp (microStamp_err h (fl (fl t * (1 / 10 ^ 9))))
  rw [show fl (t : ℚ) / 10 ^ 9 = fl t * (1 / 10 ^ 9) by ring]
  generalize fl (fl (t : ℚ) * (1 / 10 ^ 9)) = x at *
  rw [abs_le]
  norm_num at *
  constructor <;> linarith [e1.1, e1.2, e2.1, e2.2]

/-- **C74, existing logs** are never touched. -/
theorem C74_existing (fl : ℚ → ℚ) (stamped : Bool) (f : List (Option ℤ × List String)) (time : Option (List ℤ)) (ms : List LogMember) :
    saveLog fl stamped (some f) time ms = (some f, .ok 0) := by
  cases time with
  | none => rfl
  | some ts =>
    unfold saveLog
    dsimp only
    split_ifs <;> simp_all

/-- **C74, violated: groups inside.**  A subgroup in the group makes the export fail on the first line, and an empty log is left. -/
theorem C74_subgroup_violated (fl : ℚ → ℚ) (stamped : Bool) (t : ℤ) (ts : List ℤ) (ms : List LogMember) :
    saveLog fl stamped none (some (t :: ts)) (.group :: ms) = (some [], .error .typeError) := rfl

/-! ## C75: warnings from the log -/

/-- **C75.**  With a limit of at least one the entries shown are the first `limit` ones at or above the level, in order; the number returned is the number of all of them. -/
theorem C75_shown (minLevel limit : ℤ) (hl : 1 ≤ limit) (log : List LogEntry) :
    warnLogs minLevel limit true log = ((log.filter (fun e => minLevel ≤ e.level)).take limit.toNat, (log.filter (fun e => minLevel ≤ e.level)).length) := by
  have hloop : ∀ (log : List LogEntry) (limit : ℤ), 1 ≤ limit → warnLoop minLevel limit log = (log.filter (fun e => minLevel ≤ e.level)).take limit.toNat := by
    intro log
    induction log with
    | nil => intro limit _; simp [warnLoop]
    | cons e t ih =>
      intro limit hl
      unfold warnLoop
      by_cases h1 : e.level < minLevel
      · rw [if_pos h1, ih limit hl, List.filter_cons_of_neg (by simpa using h1)]
      · rw [if_neg h1, List.filter_cons_of_pos (by simpa using h1)]
        obtain ⟨k, rfl⟩ : ∃ k : ℕ, limit = k + 1 := ⟨(limit - 1).toNat, by omega⟩
        rw [show ((k : ℤ) + 1).toNat = k + 1 by omega, List.take_succ_cons]
        by_cases h2 : (k : ℤ) + 1 - 1 < 1
        · rw [if_pos h2, show k = 0 by omega]; simp
        · rw [if_neg h2, ih _ (by omega), show ((k : ℤ) + 1 - 1).toNat = k by omega]
  have hcount : countErrors (some (log.map LogEntry.level)) minLevel = (log.filter (fun e => minLevel ≤ e.level)).length := by
    simp only [countErrors, List.filter_map, List.length_map]
    rfl
  unfold warnLogs
  simp only [hcount]
  split_ifs with h1 h2
  · have : log.filter (fun e => decide (minLevel ≤ e.level)) = [] := List.length_eq_zero_iff.mp (by omega)
    rw [this]; simp
  · simp at h2
  · rw [hloop log limit hl]

/-- Nothing is shown if that is not wanted, the number is the same. -/
theorem C75_silent (minLevel limit : ℤ) (log : List LogEntry) : (warnLogs minLevel limit false log).1 = [] ∧ (warnLogs minLevel limit false log).2 = (warnLogs minLevel limit true log).2 := by
  unfold warnLogs
  dsimp only
  split_ifs <;> simp_all

/-- **C75, violated: a limit below one** shows one entry. -/
theorem C75_limit_violated (minLevel limit : ℤ) (hl : limit ≤ 0) (e : LogEntry) (log : List LogEntry) (he : minLevel ≤ e.level) : (warnLogs minLevel limit true (e :: log)).1 = [e] := by
  have h0 : ¬ countErrors (some ((e :: log).map LogEntry.level)) minLevel < 1 := by
    simp [countErrors, he]
  unfold warnLogs
  dsimp only
  rw [if_neg h0]
  simp only [Bool.not_true, Bool.false_eq_true, if_false]
  unfold warnLoop
  rw [if_neg (by omega), if_pos (by omega)]

/-! ### The hypotheses are met -/

/-- A group of a log: CPU load without, and a voltage with calibration. -/
def demoCsv : CsvGroup where
  timeDescription := some "time [ns]"
  timeGain := none
  time := [1500000000, 2500000000]
  others := [⟨some "cpu [%]", none, none, [[10], [20]]⟩, ⟨some "voltage [V]", some (1 / 2), some 3, [[4], [5]]⟩]

example : CsvComplete demoCsv := by
  refine ⟨by simp [demoCsv], ?_, ?_⟩ <;> simp [demoCsv]

example : saveCsv b64 false none (some demoCsv) =
    (some ⟨["time [ns]", "cpu [%]", "voltage [V]"], [(1500000, [[11], [5]]), (2500000, [[21], [11 / 2]])]⟩, .ok 2) := by
  decide +kernel

example : (saveLog b64 true none (some [1000000000, 2000000000]) [.dset [some "boot", none], .dset [some "a", some "b"]]).1 =
    some [(some 1000000, ["boot", "a"]), (some 2000000, ["[[[ extractor - faulty element ]]]", "b"])] := by decide +kernel

example : warnLogs 30 2 true [⟨1, 20, "a"⟩, ⟨2, 30, "b"⟩, ⟨3, 40, "c"⟩, ⟨4, 50, "d"⟩] = ([⟨2, 30, "b"⟩, ⟨3, 40, "c"⟩], 3) := by decide +kernel

end Verif.Props
