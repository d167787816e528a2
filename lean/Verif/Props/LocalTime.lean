import Verif.Model.LocalTime
import Verif.Props.Export

/-!
# C84: dates and times that are shown or given are local ones
-/

namespace Verif.Props
open Verif.Py Verif.Model

/-- What a clock on the wall shows. -/
def wallClock (z : Zone) (t : ℤ) : ℤ := t + (if z.daylight && z.inDst t then z.dst else z.std) * 10 ^ 6

/-- In a zone without daylight saving time, and during it, times in exported logs, CSV files and dates of calibrations are local ones. -/
theorem C84_shown_partial (z : Zone) (t : ℤ) (h : z.daylight = false ∨ z.inDst t = true) : shownTime z t = wallClock z t ∧ localIsoDate z t = wallClock z t / (86400 * 10 ^ 6) := by
  have : shownTime z t = wallClock z t := by
    unfold shownTime wallClock localTz
    rcases h with h | h
    · simp [h]
    · cases z.daylight <;> simp [h]
  exact ⟨this, by unfold localIsoDate; rw [this]⟩

/-- The time in between is preserved everywhere, so that the order of entries is too. -/
theorem C84_spacing (z : Zone) (t t' : ℤ) : shownTime z t' - shownTime z t = t' - t := by
  unfold shownTime; ring

/-- In a zone with daylight saving time, every time outside of it is shown with the offset of the summer. -/
theorem C84_winter_violated (z : Zone) (t : ℤ) (h : z.daylight = true) (ht : z.inDst t = false) : shownTime z t - wallClock z t = (z.dst - z.std) * 10 ^ 6 := by
  unfold shownTime wallClock localTz
  simp [h, ht]; ring

/-- Central Europe with the changes of one year. -/
def zoneBerlin : Zone := ⟨3600, 7200, true, fun t => 1711846800 * 10 ^ 6 ≤ t && t < 1729990800 * 10 ^ 6⟩

/-- 2024-01-15 23:30 in Berlin: the log shows 00:30, and a calibration gets the date of the next day. -/
theorem C84_date_violated : ∃ z t, localIsoDate z t = wallClock z t / (86400 * 10 ^ 6) + 1 ∧ shownTime z t = wallClock z t + 3600 * 10 ^ 6 :=
  ⟨zoneBerlin, 1705357800 * 10 ^ 6, by decide +kernel⟩

/-- The age of a file does not depend on the zone. -/
theorem C84_age (fl : ℚ → ℚ) (z : Zone) (now : ℤ) (mtime : ℚ) (delta : ℤ) : fileOlderThan fl z now mtime delta = true ↔ delta < now - microStamp fl mtime := by
  unfold fileOlderThan shownTime
  rw [decide_eq_true_iff]
  constructor <;> intro h <;> omega

/-- A start given as a number is that point in time in every zone, one with an offset too. -/
theorem C84_start_number (fl : ℚ → ℚ) (z : Zone) (x : ℚ) : startInstant fl z (.number x) = microStamp fl x := by
  unfold startInstant shownTime; simp

/-- A start with an offset, what a clock with this offset shows, is that point in time in every zone. -/
theorem C84_start_aware (fl : ℚ → ℚ) (z : Zone) (t offset : ℤ) : startInstant fl z (.aware (t + offset * 10 ^ 6) offset) = t := by
  unfold startInstant; simp

/-- A start without offset is meant as local time: when the clock on the wall shows it for the first time, also in winter. -/
theorem C84_start_naive (fl : ℚ → ℚ) (z : Zone) (hd : z.std ≤ z.dst) (wall : ℤ) (hreal : ∃ t, wallClock z t = wall) :
    wallClock z (startInstant fl z (.naive wall)) = wall ∧ ∀ t, wallClock z t = wall → startInstant fl z (.naive wall) ≤ t := by
  unfold startInstant astimezone
  simp only
  by_cases h : (z.daylight && z.inDst (wall - z.dst * 10 ^ 6)) = true
  · rw [if_pos h]
    constructor
    · unfold wallClock; rw [if_pos h]; ring
    · intro t ht
      unfold wallClock at ht
      split_ifs at ht <;> nlinarith
  · rw [if_neg h]
    have huniq : ∀ t, wallClock z t = wall → t = wall - z.std * 10 ^ 6 := by
      intro t ht
      unfold wallClock at ht
      split_ifs at ht with h1
      · have : t = wall - z.dst * 10 ^ 6 := by omega
        rw [this] at h1
        exact absurd h1 h
      · omega
    obtain ⟨t, ht⟩ := hreal
    refine ⟨by rw [← huniq t ht]; exact ht, fun t' ht' => (huniq t' ht').ge⟩

/-- A start in winter in Berlin and a time in summer. -/
example : wallClock zoneBerlin (startInstant b64 zoneBerlin (.naive (1705361400 * 10 ^ 6))) = 1705361400 * 10 ^ 6 ∧ shownTime zoneBerlin (1720000000 * 10 ^ 6) = wallClock zoneBerlin (1720000000 * 10 ^ 6) ∧
    zoneBerlin.std ≤ zoneBerlin.dst := by decide +kernel

end Verif.Props
