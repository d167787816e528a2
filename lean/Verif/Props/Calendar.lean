import Verif.Model.Calendar
import Verif.Props.Export
import Verif.Py.Binary64
import Mathlib.Tactic.Linarith
import Mathlib.Tactic.IntervalCases
import Mathlib.Data.Char
import Mathlib.Data.List.Lex

/-!
# C112: time stamps as text
-/

namespace Verif.Props
open Verif.Py Verif.Model

/-! ## Specification: the Gregorian calendar, day by day -/

/-- Leap years. -/
def LeapYear (y : ℕ) : Prop := y % 4 = 0 ∧ (y % 100 ≠ 0 ∨ y % 400 = 0)

instance (y : ℕ) : Decidable (LeapYear y) := by unfold LeapYear; infer_instance

/-- Thirty days have September, April, June and November. -/
def monthLength (leap : Bool) (m : ℕ) : ℕ := if m = 2 then (if leap then 29 else 28) else if m = 4 ∨ m = 6 ∨ m = 9 ∨ m = 11 then 30 else 31

/-- The day after. -/
def dayAfter (d : Ymd) : Ymd :=
  if d.day < monthLength (LeapYear d.year) d.month then ⟨d.year, d.month, d.day + 1⟩
  else if d.month < 12 then ⟨d.year, d.month + 1, 1⟩
  else ⟨d.year + 1, 1, 1⟩

/-- A date that exists. -/
def RealDate (d : Ymd) : Prop := 1 ≤ d.year ∧ 1 ≤ d.month ∧ d.month ≤ 12 ∧ 1 ≤ d.day ∧ d.day ≤ monthLength (LeapYear d.year) d.month

/-! ## The calendar -/

/-- Days before a year. -/
def daysBefore (y : ℕ) : ℕ := 365 * (y - 1) + (y - 1) / 4 + (y - 1) / 400 - (y - 1) / 100

theorem daysBefore_succ (y : ℕ) (hy : 1 ≤ y) : daysBefore (y + 1) = daysBefore y + 365 + (if LeapYear y then 1 else 0) := by
  obtain ⟨x, rfl⟩ : ∃ x, y = x + 1 := ⟨y - 1, by omega⟩
  unfold daysBefore
  simp only [Nat.add_sub_cancel]
  have hd : x / 100 ≤ x / 4 := Nat.div_le_div_left (by norm_num) (by norm_num)
  by_cases h : LeapYear (x + 1)
  · rw [if_pos h]
    obtain ⟨h1, h2⟩ := h
    have q1 : (x + 1) / 4 = x / 4 + 1 := by omega
    by_cases h3 : (x + 1) % 400 = 0
    · have q2 : (x + 1) / 100 = x / 100 + 1 := by omega
      have q3 : (x + 1) / 400 = x / 400 + 1 := by omega
      rw [q1, q2, q3]; omega
    · have q2 : (x + 1) / 100 = x / 100 := by omega
      have q3 : (x + 1) / 400 = x / 400 := by omega
      rw [q1, q2, q3]; omega
  · rw [if_neg h]
    unfold LeapYear at h
    by_cases h1 : (x + 1) % 4 = 0
    · have q1 : (x + 1) / 4 = x / 4 + 1 := by omega
      have q2 : (x + 1) / 100 = x / 100 + 1 := by omega
      have q3 : (x + 1) / 400 = x / 400 := by omega
      rw [q1, q2, q3]; omega
    · have q1 : (x + 1) / 4 = x / 4 := by omega
      have q2 : (x + 1) / 100 = x / 100 := by omega
      have q3 : (x + 1) / 400 = x / 400 := by omega
      rw [q1, q2, q3]; omega

theorem daysBefore_mono {y y' : ℕ} (h : y ≤ y') : daysBefore y ≤ daysBefore y' := by
  induction y', h using Nat.le_induction with
  | base => exact le_rfl
  | succ n hn ih =>
    rcases Nat.eq_zero_or_pos n with h0 | h0
    · subst h0; exact ih.trans (by decide)
    · have := daysBefore_succ n h0
      omega

theorem ord_repr (n : ℕ) : ∃ y k, 1 ≤ y ∧ k < 365 + (if LeapYear y then 1 else 0) ∧ n = daysBefore y + k ∧ ordToYmd n = ⟨y, (monthDay (LeapYear y) k).1, (monthDay (LeapYear y) k).2⟩ := by
  unfold ordToYmd
  simp only
  set a := n / 146097 with ha
  set r := n % 146097 with hr
  have e0 : n = 146097 * a + r := by omega
  have r0 : r < 146097 := by omega
  set b := r / 36524 with hb
  set s := r % 36524 with hs
  have e1 : r = 36524 * b + s := by omega
  have s0 : s < 36524 := by omega
  set c := s / 1461 with hc
  set t := s % 1461 with ht
  have e2 : s = 1461 * c + t := by omega
  have t0 : t < 1461 := by omega
  set d := t / 365 with hd
  set u := t % 365 with hu
  have e3 : t = 365 * d + u := by omega
  have u0 : u < 365 := by omega
  by_cases hsp : d = 4 ∨ b = 4
  · rw [if_pos hsp]
    refine ⟨a * 400 + 1 + b * 100 + c * 4 + d - 1, 365, by omega, ?_, ?_, ?_⟩
    · have : LeapYear (a * 400 + 1 + b * 100 + c * 4 + d - 1) := by
        unfold LeapYear
        omega
      rw [if_pos this]; omega
    · unfold daysBefore
      rcases hsp with h | h
      · have q1 : (a * 400 + 1 + b * 100 + c * 4 + d - 1 - 1) / 4 = 100 * a + 25 * b + c := by omega
        have q2 : (a * 400 + 1 + b * 100 + c * 4 + d - 1 - 1) / 100 = 4 * a + b := by omega
        have q3 : (a * 400 + 1 + b * 100 + c * 4 + d - 1 - 1) / 400 = a := by omega
        rw [q1, q2, q3]
        omega
      · have q1 : (a * 400 + 1 + b * 100 + c * 4 + d - 1 - 1) / 4 = 100 * a + 99 := by omega
        have q2 : (a * 400 + 1 + b * 100 + c * 4 + d - 1 - 1) / 100 = 4 * a + 3 := by omega
        have q3 : (a * 400 + 1 + b * 100 + c * 4 + d - 1 - 1) / 400 = a := by omega
        rw [q1, q2, q3]
        omega
    · have : LeapYear (a * 400 + 1 + b * 100 + c * 4 + d - 1) := by
        unfold LeapYear
        omega
      simp only [this, decide_true]
      rfl
  · rw [if_neg hsp]
    have d3 : d ≤ 3 := by omega
    have b3 : b ≤ 3 := by omega
    have hl : (decide (d = 3 ∧ (c ≠ 24 ∨ b = 3))) = decide (LeapYear (a * 400 + 1 + b * 100 + c * 4 + d)) := by
      apply decide_eq_decide.mpr
      unfold LeapYear
      omega
    refine ⟨a * 400 + 1 + b * 100 + c * 4 + d, u, by omega, by omega, ?_, by rw [hl]⟩
    unfold daysBefore
    have q1 : (a * 400 + 1 + b * 100 + c * 4 + d - 1) / 4 = 100 * a + 25 * b + c := by omega
    have q2 : (a * 400 + 1 + b * 100 + c * 4 + d - 1) / 100 = 4 * a + b := by omega
    have q3 : (a * 400 + 1 + b * 100 + c * 4 + d - 1) / 400 = a := by omega
    rw [q1, q2, q3]
    omega

theorem ord_year_unique {y k y' k' : ℕ} (hy : 1 ≤ y) (hy' : 1 ≤ y') (hk : k < 365 + (if LeapYear y then 1 else 0)) (hk' : k' < 365 + (if LeapYear y' then 1 else 0))
    (h : daysBefore y + k = daysBefore y' + k') : y = y' ∧ k = k' := by
  have e1 := daysBefore_succ y hy
  have e2 := daysBefore_succ y' hy'
  have : y = y' := by
    rcases Nat.lt_trichotomy y y' with hl | hl | hl
    · have := daysBefore_mono (show y + 1 ≤ y' from hl); omega
    · exact hl
    · have := daysBefore_mono (show y' + 1 ≤ y from hl); omega
  subst this
  exact ⟨rfl, by omega⟩

/-- All days of both kinds of years. -/
theorem month_days : ∀ leap : Bool, ∀ k < 365 + (if leap then 1 else 0), 1 ≤ (monthDay leap k).1 ∧ (monthDay leap k).1 ≤ 12 ∧ 1 ≤ (monthDay leap k).2 ∧ (monthDay leap k).2 ≤ monthLength leap (monthDay leap k).1 ∧
    (k + 1 < 365 + (if leap then 1 else 0) → monthDay leap (k + 1) = if (monthDay leap k).2 < monthLength leap (monthDay leap k).1 then ((monthDay leap k).1, (monthDay leap k).2 + 1) else ((monthDay leap k).1 + 1, 1)) ∧
    (k + 1 < 365 + (if leap then 1 else 0) → (monthDay leap k).2 < monthLength leap (monthDay leap k).1 ∨ (monthDay leap k).1 < 12) ∧
    (k + 1 = 365 + (if leap then 1 else 0) → monthDay leap k = (12, 31)) := by
  decide +kernel

/-- **C112, the calendar.**  Day 0 is the first of January of the year 1, each day has the date after that of the day before, all dates exist, and day 719162 is the first of January 1970. -/
theorem C112_calendar : ordToYmd 0 = ⟨1, 1, 1⟩ ∧ (∀ n, ordToYmd (n + 1) = dayAfter (ordToYmd n)) ∧ (∀ n, RealDate (ordToYmd n)) ∧ ordToYmd 719162 = ⟨1970, 1, 1⟩ := by
  refine ⟨by decide +kernel, ?_, ?_, by decide +kernel⟩
  · intro n
    obtain ⟨y, k, hy, hk, hn, he⟩ := ord_repr n
    obtain ⟨y', k', hy', hk', hn', he'⟩ := ord_repr (n + 1)
    have hm := month_days (decide (LeapYear y)) k (by simpa using hk)
    obtain ⟨m1, m2, m3, m4, m5, m6, m7⟩ := hm
    rw [he, he']
    unfold dayAfter
    simp only
    by_cases hlast : k + 1 < 365 + (if LeapYear y then 1 else 0)
    · obtain ⟨rfl, rfl⟩ := ord_year_unique hy' hy hk' hlast (by omega)
      rw [m5 (by simpa using hlast)]
      by_cases hlt : (monthDay (decide (LeapYear y')) k).2 < monthLength (decide (LeapYear y')) (monthDay (decide (LeapYear y')) k).1
      · rw [if_pos hlt, if_pos hlt]
      · rw [if_neg hlt, if_neg hlt, if_pos ((m6 (by simpa using hlast)).resolve_left hlt)]
    · have hk1 : k + 1 = 365 + (if LeapYear y then 1 else 0) := by omega
      obtain ⟨rfl, rfl⟩ := ord_year_unique hy' (show 1 ≤ y + 1 by omega) hk' (show 0 < 365 + (if LeapYear (y + 1) then 1 else 0) by omega) (by
        have := daysBefore_succ y hy
        omega)
      rw [m7 (by simpa using hk1)]
      have : ¬ (31 < monthLength (decide (LeapYear y)) 12) := by unfold monthLength; simp
      rw [if_neg this]
      simp [monthDay, daysBeforeMonth]
  · intro n
    obtain ⟨y, k, hy, hk, hn, he⟩ := ord_repr n
    obtain ⟨m1, m2, m3, m4, -⟩ := month_days (decide (LeapYear y)) k (by simpa using hk)
    rw [he]
    exact ⟨hy, m1, m2, m3, m4⟩

/-- The order of dates. -/
def DateLt (a b : Ymd) : Prop := a.year < b.year ∨ a.year = b.year ∧ (a.month < b.month ∨ a.month = b.month ∧ a.day < b.day)

theorem dateLt_trans {a b c : Ymd} (h1 : DateLt a b) (h2 : DateLt b c) : DateLt a c := by
  unfold DateLt at *
  omega

theorem dayAfter_lt (d : Ymd) : DateLt d (dayAfter d) := by
  unfold DateLt dayAfter
  by_cases h1 : d.day < monthLength (LeapYear d.year) d.month
  · rw [if_pos h1]; simp
  · rw [if_neg h1]
    by_cases h2 : d.month < 12
    · rw [if_pos h2]; simp
    · rw [if_neg h2]; simp

theorem ord_lt {m n : ℕ} (h : m < n) : DateLt (ordToYmd m) (ordToYmd n) := by
  induction n with
  | zero => omega
  | succ n ih =>
    rw [C112_calendar.2.1 n]
    rcases Nat.lt_succ_iff_lt_or_eq.mp h with h1 | h1
    · exact dateLt_trans (ih h1) (dayAfter_lt _)
    · rw [h1]; exact dayAfter_lt _

/-! ## Texts -/

theorem digitOf_lt : ∀ a < 10, ∀ b < 10, a < b → digitOf a < digitOf b := by decide +kernel

theorem digitOf_mod (n : ℕ) : digitOf n = digitOf (n % 10) := by simp [digitOf]

theorem fixedDigits_lt (k m n : ℕ) (h : m % 10^k < n % 10^k) (r r' : List Char) : fixedDigits k m ++ r < fixedDigits k n ++ r' := by
  induction k with
  | zero => simp [Nat.mod_one] at h
  | succ k ih =>
    rw [Nat.mod_pow_succ, Nat.mod_pow_succ] at h
    have hm := Nat.mod_lt m (show 0 < 10^k by positivity)
    have hn := Nat.mod_lt n (show 0 < 10^k by positivity)
    have ha := Nat.mod_lt (m / 10^k) (show 0 < 10 by norm_num)
    have hb := Nat.mod_lt (n / 10^k) (show 0 < 10 by norm_num)
    simp only [fixedDigits, List.cons_append]
    rw [List.cons_lt_cons_iff]
    rcases Nat.lt_trichotomy (m / 10^k % 10) (n / 10^k % 10) with hl | hl | hl
    · left
      rw [digitOf_mod (m / 10^k), digitOf_mod (n / 10^k)]
      exact digitOf_lt _ ha _ hb hl
    · right
      refine ⟨by rw [digitOf_mod (m / 10^k), digitOf_mod (n / 10^k), hl], ih ?_⟩
      rw [hl] at h
      omega
    · exfalso
      have : 10^k * (n / 10^k % 10) + 10^k ≤ 10^k * (m / 10^k % 10) := by
        have : n / 10^k % 10 + 1 ≤ m / 10^k % 10 := hl
        calc 10^k * (n / 10^k % 10) + 10^k = 10^k * (n / 10^k % 10 + 1) := by ring
          _ ≤ _ := Nat.mul_le_mul_left _ this
      omega

theorem block_lt (k m n : ℕ) (hmn : m < n) (hn : n < 10^k) (r r' : List Char) : fixedDigits k m ++ r < fixedDigits k n ++ r' :=
  fixedDigits_lt k m n (by rw [Nat.mod_eq_of_lt (hmn.trans hn), Nat.mod_eq_of_lt hn]; exact hmn) r r'

theorem append_lt (p : List Char) {r r' : List Char} (h : r < r') : p ++ r < p ++ r' := by
  induction p with
  | nil => exact h
  | cons x t ih => rw [List.cons_append, List.cons_append, List.cons_lt_cons_iff]; exact Or.inr ⟨rfl, ih⟩

theorem cons_lt (c : Char) {r r' : List Char} (h : r < r') : c :: r < c :: r' := append_lt [c] h

theorem fixedDigits_length (k n : ℕ) : (fixedDigits k n).length = k := by
  induction k with
  | zero => rfl
  | succ k ih => simp [fixedDigits, ih]

/-- The years with four digits, as local times. -/
def FourDigits (wall : ℤ) : Prop := -30610224000000000 ≤ wall ∧ wall < 253402300800000000

theorem fourDigits_year {wall : ℤ} (h : FourDigits wall) : 1000 ≤ (ordToYmd (dayOf wall)).year ∧ (ordToYmd (dayOf wall)).year ≤ 9999 := by
  obtain ⟨h1, h2⟩ := h
  have hd : 364877 ≤ dayOf wall ∧ dayOf wall < 3652059 := by unfold dayOf; omega
  have e1 : (ordToYmd 364877).year = 1000 := by decide +kernel
  have e2 : (ordToYmd 3652058).year = 9999 := by decide +kernel
  constructor
  · rcases Nat.eq_or_lt_of_le hd.1 with h | h
    · rw [← h, e1]
    · have := ord_lt h
      unfold DateLt at this
      omega
  · rcases Nat.eq_or_lt_of_le (show dayOf wall ≤ 3652058 by omega) with h | h
    · rw [h, e2]
    · have := ord_lt h
      unfold DateLt at this
      omega

theorem yearText_four {y : ℕ} (h : 1000 ≤ y) : yearText y = fixedDigits 4 y := by
  unfold yearText
  rw [if_neg (by omega), if_neg (by omega), if_neg (by omega)]

theorem time_split {wall wall' : ℤ} (h : wall < wall') : dayOf wall < dayOf wall' ∨ dayOf wall = dayOf wall' ∨ dayOf wall' = 0 := by
  unfold dayOf; omega

/-- Date and time of the day as text. -/
theorem stamp_lt {a b : ℤ} (ha : FourDigits a) (hb : FourDigits b) (h : a < b) : stampText a < stampText b := by
  obtain ⟨ya, ya'⟩ := fourDigits_year ha
  obtain ⟨yb, yb'⟩ := fourDigits_year hb
  obtain ⟨-, ma1, ma2, da1, da2⟩ := C112_calendar.2.2.1 (dayOf a)
  obtain ⟨-, mb1, mb2, db1, db2⟩ := C112_calendar.2.2.1 (dayOf b)
  have hml : ∀ l m, monthLength l m ≤ 31 := by
    intro l m; unfold monthLength; split_ifs <;> omega
  have da3 := da2.trans (hml _ _)
  have db3 := db2.trans (hml _ _)
  unfold stampText
  simp only [yearText_four ya, yearText_four yb, List.append_assoc, List.cons_append]
  by_cases hday : dayOf a < dayOf b
  · have hd := ord_lt hday
    generalize ordToYmd (dayOf a) = x at *
    generalize ordToYmd (dayOf b) = y at *
    rcases hd with h1 | ⟨h1, h2 | ⟨h2, h3⟩⟩
    · exact block_lt _ _ _ h1 (by omega) _ _
    · rw [h1]
      exact append_lt _ (cons_lt _ (block_lt _ _ _ h2 (by omega) _ _))
    · rw [h1, h2]
      exact append_lt _ (cons_lt _ (append_lt _ (cons_lt _ (block_lt _ _ _ h3 (by omega) _ _))))
  · have heq : dayOf a = dayOf b := by
      obtain ⟨h1, h2⟩ := ha
      obtain ⟨h3, h4⟩ := hb
      unfold dayOf at *; omega
    have ht : timeOfDay a < timeOfDay b := by
      obtain ⟨h1, h2⟩ := ha
      obtain ⟨h3, h4⟩ := hb
      unfold dayOf at heq; unfold timeOfDay; omega
    have hb2 : timeOfDay b < 86400000000 := by unfold timeOfDay; omega
    rw [heq]
    refine append_lt _ (cons_lt _ (append_lt _ (cons_lt _ (append_lt _ (cons_lt _ ?_)))))
    generalize timeOfDay a = x at *
    generalize timeOfDay b = y at *
    by_cases h1 : x / 3600000000 < y / 3600000000
    · exact block_lt _ _ _ h1 (by omega) _ _
    · have e1 : x / 3600000000 = y / 3600000000 := by omega
      rw [e1]
      refine append_lt _ (cons_lt _ ?_)
      by_cases h2 : x / 60000000 % 60 < y / 60000000 % 60
      · exact block_lt _ _ _ h2 (by omega) _ _
      · have e2 : x / 60000000 % 60 = y / 60000000 % 60 := by omega
        rw [e2]
        refine append_lt _ (cons_lt _ ?_)
        by_cases h3 : x / 1000000 % 60 < y / 1000000 % 60
        · exact block_lt _ _ _ h3 (by omega) _ _
        · have e3 : x / 1000000 % 60 = y / 1000000 % 60 := by omega
          rw [e3]
          refine append_lt _ (cons_lt _ ?_)
          have := block_lt 6 (x % 1000000) (y % 1000000) (by omega) (by omega) [] []
          simpa using this

/-- **C112, texts sort like times.**  For all times of the years 1000 to 9999: the texts, compared character by character, have the order of the times; so different times have different texts.  All have 26 characters. -/
theorem C112_sorted (z : Zone) (t t' : ℤ) (h : FourDigits (shownTime z t)) (h' : FourDigits (shownTime z t')) :
    (rowStamp z t < rowStamp z t' ↔ t < t') ∧ (rowStamp z t = rowStamp z t' ↔ t = t') ∧ (rowStamp z t).length = 26 := by
  have key : ∀ a b, FourDigits (shownTime z a) → FourDigits (shownTime z b) → a < b → rowStamp z a < rowStamp z b := by
    intro a b ha hb hab
    exact stamp_lt ha hb (by unfold shownTime; omega)
  refine ⟨⟨fun hl => ?_, key t t' h h'⟩, ⟨fun he => ?_, fun he => by rw [he]⟩, ?_⟩
  · by_contra hge
    rcases (not_lt.mp hge).eq_or_lt with e | e
    · rw [e] at hl; exact lt_irrefl _ hl
    · exact lt_asymm hl (key t' t h' h e)
  · rcases lt_trichotomy t t' with e | e | e
    · have := key t t' h h' e; rw [he] at this; exact absurd this (lt_irrefl _)
    · exact e
    · have := key t' t h' h e; rw [he] at this; exact absurd this (lt_irrefl _)
  · unfold rowStamp stampText
    simp [yearText_four (fourDigits_year h).1, fixedDigits_length]

/-- Non-vacuity: a time stamp of the year 2023 in Berlin. -/
example : FourDigits (1690000000123456 + 7200 * 10^6) ∧ stampText (1690000000123456 + 7200 * 10^6) = "2023-07-22 06:26:40.123456".toList := by
  constructor
  · unfold FourDigits; norm_num
  · decide +kernel

/-- Digits read as a number. -/
def readDigits (l : List Char) : ℕ := l.foldl (fun n c => 10 * n + (c.toNat - 48)) 0

theorem digitOf_value : ∀ a < 10, (digitOf a).toNat - 48 = a := by decide +kernel

theorem readDigits_from (k n : ℕ) : ∀ acc, (fixedDigits k n).foldl (fun n c => 10 * n + (c.toNat - 48)) acc = acc * 10^k + n % 10^k := by
  induction k with
  | zero => intro acc; simp [fixedDigits, Nat.mod_one]
  | succ k ih =>
    intro acc
    simp only [fixedDigits, List.foldl_cons]
    rw [ih, digitOf_mod, digitOf_value _ (Nat.mod_lt _ (by norm_num)), Nat.mod_pow_succ]
    ring

/-- **C112, numbers.**  A number of at most `k` digits is written with `k` digits and can be read back. -/
theorem C112_digits (k n : ℕ) (h : n < 10^k) : readDigits (fixedDigits k n) = n ∧ (fixedDigits k n).length = k ∧ ∀ c ∈ fixedDigits k n, '0' ≤ c ∧ c ≤ '9' := by
  refine ⟨by unfold readDigits; rw [readDigits_from, Nat.mod_eq_of_lt h]; simp, fixedDigits_length k n, ?_⟩
  clear h
  induction k with
  | zero => simp [fixedDigits]
  | succ k ih =>
    intro c hc
    rcases List.mem_cons.mp hc with e | e
    · rw [e, digitOf_mod]
      have : ∀ a < 10, '0' ≤ digitOf a ∧ digitOf a ≤ '9' := by decide +kernel
      exact this _ (Nat.mod_lt _ (by norm_num))
    · exact ih c e

theorem ord_iterate (n : ℕ) : ordToYmd (719162 + n) = dayAfter^[n] ⟨1970, 1, 1⟩ := by
  induction n with
  | zero => exact C112_calendar.2.2.2
  | succ n ih => rw [← Nat.add_assoc, C112_calendar.2.1, ih, Function.iterate_succ_apply']

/-- **C112, what is written.**  `n` days, `H` hours, `M` minutes, `S` seconds and `f` microseconds after the beginning of 1970 (local time) the text is the date `n` days after the first of January 1970, up to the year 9999,
and the time of the day. -/
theorem C112_text (n H M S f : ℕ) (hH : H < 24) (hM : M < 60) (hS : S < 60) (hf : f < 1000000) (hn : n < 2932897) :
    stampText ((((n * 24 + H) * 60 + M) * 60 + S) * 1000000 + f) =
      fixedDigits 4 (dayAfter^[n] ⟨1970, 1, 1⟩).year ++ ['-'] ++ fixedDigits 2 (dayAfter^[n] ⟨1970, 1, 1⟩).month ++ ['-'] ++ fixedDigits 2 (dayAfter^[n] ⟨1970, 1, 1⟩).day ++ [' '] ++
      fixedDigits 2 H ++ [':'] ++ fixedDigits 2 M ++ [':'] ++ fixedDigits 2 S ++ ['.'] ++ fixedDigits 6 f ∧
    (dayAfter^[n] ⟨1970, 1, 1⟩).year < 10^4 ∧ (dayAfter^[n] ⟨1970, 1, 1⟩).month < 10^2 ∧ (dayAfter^[n] ⟨1970, 1, 1⟩).day < 10^2 := by
  set w : ℤ := (((n * 24 + H) * 60 + M) * 60 + S) * 1000000 + f with hw
  have h4 : FourDigits w := by unfold FourDigits; omega
  have hd : dayOf w = 719162 + n := by unfold dayOf; omega
  have ht : timeOfDay w = ((H * 60 + M) * 60 + S) * 1000000 + f := by unfold timeOfDay; omega
  have hy := fourDigits_year h4
  obtain ⟨-, m1, m2, d1, d2⟩ := C112_calendar.2.2.1 (dayOf w)
  have hml : ∀ l m, monthLength l m ≤ 31 := by
    intro l m; unfold monthLength; split_ifs <;> omega
  have d3 := d2.trans (hml _ _)
  rw [hd, ord_iterate] at hy m2 d3
  refine ⟨?_, by omega, by omega, by omega⟩
  unfold stampText
  simp only [hd, ord_iterate, yearText_four hy.1, ht]
  rw [show (((H * 60 + M) * 60 + S) * 1000000 + f) / 3600000000 = H by omega, show (((H * 60 + M) * 60 + S) * 1000000 + f) / 60000000 % 60 = M by omega,
    show (((H * 60 + M) * 60 + S) * 1000000 + f) / 1000000 % 60 = S by omega, show (((H * 60 + M) * 60 + S) * 1000000 + f) % 1000000 = f by omega]
  simp

/-- Non-vacuity: the last microsecond of the leap day of 2024. -/
example : dayAfter^[19782] ⟨1970, 1, 1⟩ = ⟨2024, 2, 29⟩ ∧ stampText ((((19782 * 24 + 23) * 60 + 59) * 60 + 59) * 1000000 + 999999) = "2024-02-29 23:59:59.999999".toList := by
  rw [← ord_iterate]
  decide +kernel

/-! ## Tables and logs -/

/-- **C112, samples.**  Two samples of a recording that are at least 10 µs apart, up to 2^61 ns after 1970 (the year 2043), have different texts, the earlier one the smaller. -/
theorem C112_samples {fl : ℚ → ℚ} (h : AccRounding fl) (z : Zone) (t t' : ℕ) (htt : t + 10000 ≤ t') (ht' : t' ≤ 2^61)
    (h1 : FourDigits (shownTime z (microStamp fl (fl (fl t * fl (1 / 10 ^ 9)))))) (h2 : FourDigits (shownTime z (microStamp fl (fl (fl t' * fl (1 / 10 ^ 9)))))) :
    rowStamp z (microStamp fl (fl (fl t * fl (1 / 10 ^ 9)))) < rowStamp z (microStamp fl (fl (fl t' * fl (1 / 10 ^ 9)))) := by
  rw [(C112_sorted z _ _ h1 h2).1]
  have e1 := (abs_le.mp (C65_time h t)).2
  have e2 := (abs_le.mp (C65_time h t')).1
  have q1 : (t : ℚ) + 10000 ≤ t' := by exact_mod_cast htt
  have q2 : (t' : ℚ) ≤ 2^61 := by exact_mod_cast ht'
  have : (microStamp fl (fl (fl t * fl (1 / 10 ^ 9))) : ℚ) < microStamp fl (fl (fl t' * fl (1 / 10 ^ 9))) := by linarith
  exact_mod_cast this

theorem csvRows_stamps {fl : ℚ → ℚ} (raw : Bool) (gain : ℚ) (ds : List CsvDset) : ∀ (ts : List ℤ) (idx : ℕ), ∃ k, (csvRows fl raw gain ds idx ts).1.map Prod.fst = (ts.take k).map (fun t : ℤ => microStamp fl (fl (fl (t : ℚ) * gain)))
  | [], idx => ⟨0, rfl⟩
  | t :: ts, idx => by
    unfold csvRows
    cases csvRow fl raw idx ds with
    | error e => exact ⟨0, rfl⟩
    | ok r =>
      obtain ⟨k, hk⟩ := csvRows_stamps raw gain ds ts (idx + 1)
      refine ⟨k + 1, ?_⟩
      simp only [List.map_cons, List.take_succ_cons]
      rw [hk]

/-- **C112, tables.**  If the times of the recording do not fall, the first column of the exported table does not fall as text: the file is sorted, also one that was not finished. -/
theorem C112_table {fl : ℚ → ℚ} (h : Rounding fl) (z : Zone) (raw : Bool) (g : CsvGroup) (file : CsvFile) (hg : 0 ≤ g.timeGain.getD (fl (1 / 10^9))) (hs : (saveCsv fl raw none (some g)).1 = some file)
    (hmono : g.time.Pairwise (· ≤ ·)) (hy : ∀ r ∈ file.rows, FourDigits (shownTime z r.1)) : (csvStamps z file).Pairwise (· ≤ ·) := by
  have hf : ∃ k, file.rows.map Prod.fst = (g.time.take k).map (fun t : ℤ => microStamp fl (fl (fl (t : ℚ) * g.timeGain.getD (fl (1 / 10^9))))) := by
    unfold saveCsv at hs
    simp only at hs
    by_cases h0 : g.time.length < 1
    · rw [if_pos h0] at hs; cases hs
    · rw [if_neg h0] at hs
      simp only [Option.isSome_none, Bool.false_eq_true, if_false] at hs
      cases hh : csvHeader (g.timeDescription :: g.others.map CsvDset.description) with
      | error e => rw [hh] at hs; cases hs
      | ok header =>
        rw [hh] at hs
        obtain ⟨k, hk⟩ := csvRows_stamps (fl := fl) raw (g.timeGain.getD (fl (1 / 10^9))) g.others g.time 0
        cases hr : csvRows fl raw (g.timeGain.getD (fl (1 / 10^9))) g.others 0 g.time with
        | mk rows e =>
          simp only [hr] at hs hk
          cases e with
          | none => simp only [Option.some.injEq] at hs; subst hs; exact ⟨k, hk⟩
          | some e => simp only [Option.some.injEq] at hs; subst hs; exact ⟨k, hk⟩
  obtain ⟨k, hk⟩ := hf
  have hp : (file.rows.map Prod.fst).Pairwise (· ≤ ·) := by
    rw [hk, List.pairwise_map]
    refine (hmono.sublist (List.take_sublist k g.time)).imp ?_
    intro a b hab
    apply C65_time_mono h
    exact h.mono (mul_le_mul_of_nonneg_right (h.mono (by exact_mod_cast hab)) hg)
  unfold csvStamps
  rw [List.pairwise_map] at hp ⊢
  refine hp.imp_of_mem ?_
  intro a b ha hb hab
  rcases hab.eq_or_lt with e | e
  · rw [e]
  · exact ((C112_sorted z _ _ (hy a ha) (hy b hb)).1.mpr e).le

/-! ## Directories for results -/

theorem dirStamp_length {wall : ℤ} (h : FourDigits wall) : (dirStamp wall).length = 19 := by
  unfold dirStamp
  simp [yearText_four (fourDigits_year h).1, fixedDigits_length]

theorem dirStamp_second (wall : ℤ) : dirStamp wall = dirStamp (wall / 1000000 * 1000000) := by
  have h1 : dayOf wall = dayOf (wall / 1000000 * 1000000) := by unfold dayOf; omega
  have h2 : timeOfDay wall / 1000000 = timeOfDay (wall / 1000000 * 1000000) / 1000000 := by unfold timeOfDay; omega
  have h3 : timeOfDay wall / 3600000000 = timeOfDay (wall / 1000000 * 1000000) / 3600000000 := by omega
  have h4 : timeOfDay wall / 60000000 = timeOfDay (wall / 1000000 * 1000000) / 60000000 := by omega
  unfold dirStamp
  simp only [h1, h2, h3, h4]

theorem fixedDigits_inj {k m n : ℕ} (hm : m < 10^k) (hn : n < 10^k) (h : fixedDigits k m = fixedDigits k n) : m = n := by
  rw [← (C112_digits k m hm).1, ← (C112_digits k n hn).1, h]

theorem dirStamp_inj {a b : ℤ} (ha : FourDigits a) (hb : FourDigits b) (h : dirStamp a = dirStamp b) : a / 1000000 = b / 1000000 := by
  have hya := fourDigits_year ha
  have hyb := fourDigits_year hb
  obtain ⟨-, ma1, ma2, da1, da2⟩ := C112_calendar.2.2.1 (dayOf a)
  obtain ⟨-, mb1, mb2, db1, db2⟩ := C112_calendar.2.2.1 (dayOf b)
  have hml : ∀ l m, monthLength l m ≤ 31 := by
    intro l m; unfold monthLength; split_ifs <;> omega
  have da3 := da2.trans (hml _ _)
  have db3 := db2.trans (hml _ _)
  have ta : timeOfDay a < 86400000000 := by unfold timeOfDay; omega
  have tb : timeOfDay b < 86400000000 := by unfold timeOfDay; omega
  unfold dirStamp at h
  simp only [yearText_four hya.1, yearText_four hyb.1, List.append_assoc, List.cons_append] at h
  obtain ⟨e1, h⟩ := List.append_inj h (by simp [fixedDigits_length])
  obtain ⟨e2, h⟩ := List.append_inj (List.cons.inj h).2 (by simp [fixedDigits_length])
  obtain ⟨e3, h⟩ := List.append_inj (List.cons.inj h).2 (by simp [fixedDigits_length])
  obtain ⟨e4, h⟩ := List.append_inj (List.cons.inj h).2 (by simp [fixedDigits_length])
  obtain ⟨e5, h⟩ := List.append_inj (List.cons.inj h).2 (by simp [fixedDigits_length])
  have e6 := (List.cons.inj h).2
  have f1 := fixedDigits_inj (by omega) (by omega) e1
  have f2 := fixedDigits_inj (by omega) (by omega) e2
  have f3 := fixedDigits_inj (by omega) (by omega) e3
  have f4 := fixedDigits_inj (by omega) (by omega) e4
  have f5 := fixedDigits_inj (by omega) (by omega) e5
  have f6 := fixedDigits_inj (by omega) (by omega) e6
  have hday : dayOf a = dayOf b := by
    rcases Nat.lt_trichotomy (dayOf a) (dayOf b) with hl | hl | hl
    · have := ord_lt hl; unfold DateLt at this; omega
    · exact hl
    · have := ord_lt hl; unfold DateLt at this; omega
  have htime : timeOfDay a / 1000000 = timeOfDay b / 1000000 := by omega
  obtain ⟨a1, a2⟩ := ha
  obtain ⟨b1, b2⟩ := hb
  unfold dayOf at hday
  unfold timeOfDay at htime
  omega

/-- **C112, directories.**  Two experiments have the same directory for their results exactly if they have the same name and their start shows the same second on the clock of its own zone. -/
theorem C112_directory (name name' : List Char) (start start' offset offset' : ℤ) (h : FourDigits (start + offset * 10^6)) (h' : FourDigits (start' + offset' * 10^6)) :
    xpDirName name start offset = xpDirName name' start' offset' ↔ name = name' ∧ (start + offset * 10^6) / 1000000 = (start' + offset' * 10^6) / 1000000 := by
  unfold xpDirName
  constructor
  · intro he
    obtain ⟨e1, e2⟩ := List.append_inj' he (by rw [List.length_cons, List.length_cons, dirStamp_length h, dirStamp_length h'])
    exact ⟨e1, dirStamp_inj h h' (List.cons.inj e2).2⟩
  · rintro ⟨rfl, e⟩
    rw [dirStamp_second (start + offset * 10^6), dirStamp_second (start' + offset' * 10^6), e]

/-- **C112, violated: different starts.**  Two experiments of the same name that start an hour apart, given with offsets an hour apart (before and after the end of daylight saving time), share a directory; so do two that start
in the same second. -/
theorem C112_directory_violated (name : List Char) (start offset : ℤ) :
    xpDirName name start offset = xpDirName name (start + 3600 * 10^6) (offset - 3600) ∧
    (start % 1000000 = 0 → xpDirName name start offset = xpDirName name (start + 999999) offset) := by
  constructor
  · unfold xpDirName
    rw [show start + 3600 * 10 ^ 6 + (offset - 3600) * 10 ^ 6 = start + offset * 10^6 by ring]
  · intro h
    unfold xpDirName
    rw [dirStamp_second (start + offset * 10^6), dirStamp_second (start + 999999 + offset * 10^6)]
    congr 3
    omega

/-- The text of the start in the tasks of an experiment (observer_tasks.py l.61), for dates with a fixed offset. -/
def startText (offset start : ℤ) : String := String.ofList (dirStamp (start + offset * 10^6))

/-- **C112, violated: one experiment, several directories.**  Without a start the tasks of each target are placed in a directory named after the clock when they are made; if the clock goes to another second in between, the
results of one experiment are in different directories. -/
theorem C112_spread_violated (offset now now' : ℤ) (xp : Xp) (tb : TestbedDev) (hx : xp.timeStart = none) (h : FourDigits (now + 180000000 + offset * 10^6)) (h' : FourDigits (now' + 180000000 + offset * 10^6))
    (hn : now / 1000000 ≠ now' / 1000000) : xpRoot (startText offset) now xp tb ≠ xpRoot (startText offset) now' xp tb := by
  intro he
  unfold xpRoot startTime at he
  rw [hx] at he
  simp only [Option.getD_none] at he
  have he := List.append_cancel_left he
  simp only [List.cons.injEq, and_true, true_and] at he
  have he : startText offset (now + 180000000) = startText offset (now' + 180000000) := by
    have := congrArg String.toList he
    simp only [String.toList_append] at this
    have := List.append_cancel_left this
    exact String.toList_injective this
  unfold startText at he
  have he2 := congrArg String.toList he
  simp only [String.toList_ofList] at he2
  have := dirStamp_inj h h' he2
  omega

/-- With a start all targets share the directory, whatever the clock. -/
theorem C112_together (fmt : ℤ → String) (now now' : ℤ) (xp : Xp) (tb : TestbedDev) (s : ℤ) (hx : xp.timeStart = some s) : xpRoot fmt now xp tb = xpRoot fmt now' xp tb := by
  unfold xpRoot startTime
  rw [hx]
  rfl

/-! ## Dates -/

/-- **C112, dates of calibrations.**  The text of `local_iso_date` sorts like the days. -/
theorem C112_iso (z : Zone) (now now' : ℤ) (h : FourDigits (shownTime z now)) (h' : FourDigits (shownTime z now')) :
    (localIsoDate z now < localIsoDate z now' → isoDateText z now < isoDateText z now') ∧ (localIsoDate z now = localIsoDate z now' → isoDateText z now = isoDateText z now') ∧ (isoDateText z now).length = 10 := by
  have hd : (localIsoDate z now + 719162).toNat = dayOf (shownTime z now) := by unfold localIsoDate dayOf; norm_num
  have hd' : (localIsoDate z now' + 719162).toNat = dayOf (shownTime z now') := by unfold localIsoDate dayOf; norm_num
  have hy := fourDigits_year h
  have hy' := fourDigits_year h'
  obtain ⟨-, mb1, mb2, db1, db2⟩ := C112_calendar.2.2.1 (dayOf (shownTime z now'))
  have hml : ∀ l m, monthLength l m ≤ 31 := by
    intro l m; unfold monthLength; split_ifs <;> omega
  have db3 := db2.trans (hml _ _)
  refine ⟨fun hl => ?_, fun he => by unfold isoDateText; rw [he], by simp [isoDateText, fixedDigits_length]⟩
  have hlt : dayOf (shownTime z now) < dayOf (shownTime z now') := by
    rw [← hd, ← hd']
    obtain ⟨a1, a2⟩ := h
    have : -719162 < localIsoDate z now := by unfold localIsoDate; omega
    omega
  unfold isoDateText
  rw [hd, hd']
  simp only [List.append_assoc, List.cons_append]
  have hd := ord_lt hlt
  generalize ordToYmd (dayOf (shownTime z now)) = x at *
  generalize ordToYmd (dayOf (shownTime z now')) = y at *
  rcases hd with h1 | ⟨h1, h2 | ⟨h2, h3⟩⟩
  · exact block_lt _ _ _ h1 (by omega) _ _
  · rw [h1]
    exact append_lt _ (cons_lt _ (block_lt _ _ _ h2 (by omega) _ _))
  · rw [h1, h2]
    refine append_lt _ (cons_lt _ (append_lt _ (cons_lt _ ?_)))
    have := block_lt 2 x.day y.day h3 (by omega) [] []
    simpa using this

/-- Non-vacuity: a table of three rows, in a zone two hours ahead. -/
def demoTable : CsvGroup := ⟨some "time [s]", none, [1690000000000000000, 1690000000000010000, 1690000000000020000], [⟨some "value", some 1, some 0, [[1], [2], [3]]⟩]⟩

example : Rounding b64 ∧ demoTable.time.Pairwise (· ≤ ·) ∧ ∃ file, (saveCsv b64 false none (some demoTable)).1 = some file ∧ file.rows.length = 3 ∧
    (∀ r ∈ file.rows, FourDigits (shownTime ⟨3600, 7200, true, fun _ => true⟩ r.1)) ∧
    csvStamps ⟨3600, 7200, true, fun _ => true⟩ file = ["2023-07-22 06:26:40.000000".toList, "2023-07-22 06:26:40.000010".toList, "2023-07-22 06:26:40.000020".toList] := by
  refine ⟨b64_accRounding.toRounding, by decide, ((saveCsv b64 false none (some demoTable)).1).get (by decide +kernel), by simp, by decide +kernel, ?_, by decide +kernel⟩
  unfold FourDigits
  decide +kernel

/-- Non-vacuity: two names and two starts. -/
example : xpDirName "test".toList (1690000000 * 10^6) 7200 = "test_2023-07-22_06-26-40".toList ∧ xpDirName "test".toList (1690003600 * 10^6) 3600 = "test_2023-07-22_06-26-40".toList ∧
    FourDigits (1690000000 * 10^6 + 7200 * 10^6) := by
  refine ⟨by decide +kernel, by decide +kernel, ?_⟩
  unfold FourDigits; norm_num

end Verif.Props
