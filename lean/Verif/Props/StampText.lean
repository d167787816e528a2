import Verif.Model.StampText
import Verif.Props.Calendar

/-!
# Dates in the files of models (C122)
-/

namespace Verif.Props
open Verif.Model Verif.Py

/-- A date that exists (years 1 to 9999), a time of the day, and an offset of less than a day. -/
def RealStamp : PyStamp → Prop
  | .date d => RealDate d ∧ d.year ≤ 9999
  | .time d h m s f off => (RealDate d ∧ d.year ≤ 9999) ∧ h < 24 ∧ m < 60 ∧ s < 60 ∧ f < 1000000 ∧ ∀ us, off = some us → -86400000000 < us ∧ us < 86400000000

/-- The offset to UTC, if there is one, is a number of minutes. -/
def WholeMinutes : PyStamp → Prop
  | .date _ => True
  | .time _ _ _ _ _ off => ∀ us, off = some us → ∃ k : ℤ, us = k * 60000000

/-! ## Reading digits -/

theorem oneDigit_digitOf (a : ℕ) (r : List Char) : oneDigit (digitOf a :: r) = some (a % 10, r) := by
  have h : ∀ b < 10, '0' ≤ digitOf b ∧ digitOf b ≤ '9' := by decide +kernel
  have hb := Nat.mod_lt a (show 0 < 10 by norm_num)
  rw [digitOf_mod]
  simp only [oneDigit]
  rw [if_pos (h _ hb), digitOf_value _ hb]

theorem someDigits_fixed (k n : ℕ) (r : List Char) : ∀ acc, someDigits k acc (fixedDigits k n ++ r) = some (acc * 10^k + n % 10^k, r) := by
  induction k with
  | zero => intro acc; simp [fixedDigits, someDigits, Nat.mod_one]
  | succ k ih =>
    intro acc
    simp only [fixedDigits, List.cons_append, someDigits, oneDigit_digitOf]
    rw [ih, Nat.mod_pow_succ]
    congr 2
    ring

theorem oneOrTwo_fixed (n : ℕ) (h : n < 100) (r : List Char) : oneOrTwo (fixedDigits 2 n ++ r) = some (n, r) := by
  simp only [fixedDigits, List.cons_append, List.nil_append, oneOrTwo, oneDigit_digitOf]
  congr 2
  simp
  omega

theorem fixedDigits_are (k n : ℕ) : ∀ c ∈ fixedDigits k n, '0' ≤ c ∧ c ≤ '9' := by
  induction k with
  | zero => simp [fixedDigits]
  | succ k ih =>
    intro c hc
    rcases List.mem_cons.mp hc with e | e
    · rw [e, digitOf_mod]
      have : ∀ a < 10, '0' ≤ digitOf a ∧ digitOf a ≤ '9' := by decide +kernel
      exact this _ (Nat.mod_lt _ (by norm_num))
    · exact ih c e

theorem allDigits_append (l r : List Char) (hl : ∀ c ∈ l, '0' ≤ c ∧ c ≤ '9') (hr : ∀ c r', r = c :: r' → ¬ ('0' ≤ c ∧ c ≤ '9')) : allDigits (l ++ r) = (l, r) := by
  induction l with
  | nil =>
    cases r with
    | nil => rfl
    | cons c r' => simp only [List.nil_append, allDigits]; rw [if_neg (hr c r' rfl)]
  | cons a l ih =>
    simp only [List.cons_append, allDigits]
    rw [if_pos (hl a (by simp)), ih (fun c hc => hl c (by simp [hc]))]

theorem fraction_fixed (f : ℕ) (h : f < 1000000) : fractionValue (fixedDigits 6 f) = f := by
  unfold fractionValue
  rw [fixedDigits_length, List.take_of_length_le (by rw [fixedDigits_length])]
  simp only [Nat.sub_self, List.replicate_zero, List.append_nil]
  rw [readDigits_from]
  omega

/-! ## Parts of a date -/

theorem head_read (d : Ymd) (hy : d.year < 10000) (hm : d.month < 100) (hd : d.day < 100) (r : List Char) : readHead (isoDate d ++ r) = some (d, r) := by
  unfold readHead isoDate
  simp only [List.append_assoc, List.cons_append]
  rw [someDigits_fixed]
  simp only [Option.bind_eq_bind, Option.bind_some, lit, if_true]
  rw [oneOrTwo_fixed _ hm]
  simp only [Option.bind_some, if_true]
  rw [oneOrTwo_fixed _ hd]
  simp [Nat.mod_eq_of_lt hy]

theorem clock_read (h m s : ℕ) (hh : h < 24) (hm : m < 60) (hs : s < 60) (r : List Char) :
    readClock (fixedDigits 2 h ++ ':' :: (fixedDigits 2 m ++ ':' :: (fixedDigits 2 s ++ r))) = some ((h, m, s), r) := by
  unfold readClock
  rw [oneOrTwo_fixed _ (by omega)]
  simp only [Option.bind_eq_bind, Option.bind_some, lit, if_true]
  rw [someDigits_fixed]
  simp only [Option.bind_some, if_true]
  rw [someDigits_fixed]
  simp only [Option.bind_some, pure]
  congr 2
  simp
  omega

/-- What can follow the seconds: nothing or an offset. -/
def offsetText : Option ℤ → List Char
  | none => []
  | some us => isoOffset us

theorem offset_head (off : Option ℤ) (c : Char) (r : List Char) (h : offsetText off = c :: r) : c = '+' ∨ c = '-' := by
  cases off with
  | none => simp [offsetText] at h
  | some us =>
    unfold offsetText isoOffset at h
    rw [List.cons.injEq] at h
    by_cases hu : us < 0
    · rw [if_pos hu] at h; exact Or.inr h.1.symm
    · rw [if_neg hu] at h; exact Or.inl h.1.symm

theorem fraction_read (f : ℕ) (hf : f < 1000000) (off : Option ℤ) : readFraction ((if f = 0 then [] else '.' :: fixedDigits 6 f) ++ offsetText off) = (f, offsetText off) := by
  by_cases h0 : f = 0
  · rw [if_pos h0, List.nil_append]
    unfold readFraction
    have : lit '.' (offsetText off) = none := by
      cases he : offsetText off with
      | nil => rfl
      | cons c r =>
        simp only [lit]
        rw [if_neg]
        rintro rfl
        rcases offset_head off _ r he with h | h <;> exact absurd h (by decide)
    rw [this, h0]
  · rw [if_neg h0]
    unfold readFraction
    simp only [List.cons_append, lit, if_true]
    rw [allDigits_append _ _ (fixedDigits_are 6 f) (by
      intro c r' h hc
      rcases offset_head off c r' h with e | e <;> (subst e; exact absurd hc (by decide)))]
    rw [fraction_fixed f hf]

theorem sign_blank (us : ℤ) : ¬ ((if us < 0 then '-' else '+') = ' ' ∨ (if us < 0 then '-' else '+') = '\t') := by
  by_cases h : us < 0
  · rw [if_pos h]; decide
  · rw [if_neg h]; decide

theorem sign_sign (us : ℤ) : (if us < 0 then '-' else '+') = '+' ∨ (if us < 0 then '-' else '+') = '-' := by
  by_cases h : us < 0
  · rw [if_pos h]; decide
  · rw [if_neg h]; decide

/-- Reading an offset: the part after the minutes decides. -/
theorem offset_steps (us : ℤ) (rest : List Char) (hb : us.natAbs < 86400000000) :
    readOffset ((if us < 0 then '-' else '+') :: (fixedDigits 2 (us.natAbs / 3600000000) ++ ':' :: (fixedDigits 2 (us.natAbs / 60000000 % 60) ++ rest))) =
      if rest = [] then some (some (if us < 0 then -((us.natAbs / 60000000 * 60000000 : ℕ) : ℤ) else ((us.natAbs / 60000000 * 60000000 : ℕ) : ℤ))) else none := by
  have hne : ∀ r : List Char, (if us < 0 then '-' else '+') :: r ≠ ['Z'] := by
    intro r h
    have := (List.cons.inj h).1
    by_cases hu : us < 0
    · rw [if_pos hu] at this; exact absurd this (by decide)
    · rw [if_neg hu] at this; exact absurd this (by decide)
  have hz : (if us < 0 then '-' else '+') ≠ 'Z' := by
    by_cases hu : us < 0
    · rw [if_pos hu]; decide
    · rw [if_neg hu]; decide
  have hminus : ((if us < 0 then '-' else '+') = '-') ↔ us < 0 := by
    by_cases hu : us < 0
    · simp [hu]
    · simp [hu]
  have hsgn := sign_sign us
  have hbl := sign_blank us
  generalize (if us < 0 then '-' else '+') = c at *
  unfold readOffset
  simp only [skipBlanks]
  rw [if_neg hbl]
  split
  · rename_i h; exact absurd h (hne _)
  · rename_i c' r' hnz h
    obtain ⟨rfl, rfl⟩ := List.cons.inj h
    rw [if_pos hsgn, oneOrTwo_fixed _ (by omega)]
    simp only [lit, if_true]
    rw [someDigits_fixed]
    by_cases hr : rest = []
    · rw [if_pos hr, hr]
      simp only [hminus]
      refine congrArg (fun x : ℤ => some (some x)) ?_
      by_cases hu : us < 0
      · rw [if_pos hu, if_pos hu]; push_cast; omega
      · rw [if_neg hu, if_neg hu]; push_cast; omega
    · rw [if_neg hr]
      cases rest with
      | nil => exact absurd rfl hr
      | cons => rfl
  · rename_i h; simp at h

open Classical in
theorem offset_read (off : Option ℤ) (hb : ∀ us, off = some us → -86400000000 < us ∧ us < 86400000000) :
    readOffset (offsetText off) = if (∀ us, off = some us → ∃ k : ℤ, us = k * 60000000) then some off else none := by
  cases off with
  | none => simp [offsetText, readOffset]
  | some us =>
    have hb := hb us rfl
    unfold offsetText isoOffset
    rw [offset_steps us _ (by omega)]
    by_cases hw : us.natAbs % 60000000 = 0
    · have hk : ∀ us', some us = some us' → ∃ k : ℤ, us' = k * 60000000 := by
        intro us' h
        obtain rfl := Option.some.inj h
        exact ⟨us / 60000000, by omega⟩
      simp only [hw, if_true]
      rw [if_pos hk]
      congr 2
      by_cases hu : us < 0
      · rw [if_pos hu]; omega
      · rw [if_neg hu]; omega
    · have hk : ¬ ∀ us', some us = some us' → ∃ k : ℤ, us' = k * 60000000 := by
        intro h
        obtain ⟨k, hk⟩ := h us rfl
        omega
      simp only [hw, if_false]
      rw [if_neg hk, if_neg (by simp)]

theorem dateOk_real {d : Ymd} (h : RealDate d) (hy : d.year ≤ 9999) : dateOk d = true ∧ d.month < 100 ∧ d.day < 100 := by
  obtain ⟨h1, h2, h3, h4, h5⟩ := h
  have hl : monthLength (LeapYear d.year) d.month = daysInMonth d.year d.month := by
    unfold monthLength daysInMonth
    simp only [decide_eq_true_eq]
    by_cases hl : LeapYear d.year
    · rw [if_pos hl, if_pos (show _ ∧ _ from hl)]
    · rw [if_neg hl, if_neg (show ¬ (_ ∧ _) from hl)]
  have h31 : monthLength (LeapYear d.year) d.month ≤ 31 := by unfold monthLength; split_ifs <;> omega
  refine ⟨?_, by omega, by omega⟩
  unfold dateOk
  rw [decide_eq_true_eq]
  exact ⟨h1, hy, h2, h3, h4, hl ▸ h5⟩

theorem read_iso (s : PyStamp) (h : RealStamp s) [Decidable (WholeMinutes s)] : readStamp (isoText s) = if WholeMinutes s then .ok s else .error .noMatch := by
  cases s with
  | date d =>
    obtain ⟨hr, hy⟩ := h
    obtain ⟨hok, hm, hd⟩ := dateOk_real hr hy
    have := head_read d (by omega) hm hd []
    rw [List.append_nil] at this
    unfold readStamp isoText
    rw [this, if_pos (show WholeMinutes (.date d) from trivial)]
    simp [hok]
  | time d hh mm ss f off =>
    obtain ⟨⟨hr, hy⟩, h1, h2, h3, h4, h5⟩ := h
    obtain ⟨hok, hm, hd⟩ := dateOk_real hr hy
    have e : isoText (.time d hh mm ss f off) = isoDate d ++ ' ' :: (fixedDigits 2 hh ++ ':' :: (fixedDigits 2 mm ++ ':' :: (fixedDigits 2 ss ++ ((if f = 0 then [] else '.' :: fixedDigits 6 f) ++ offsetText off)))) := by
      cases off <;> rfl
    have hnb : ∀ r, skipBlanks (fixedDigits 2 hh ++ r) = fixedDigits 2 hh ++ r := by
      intro r
      simp only [fixedDigits, List.cons_append, skipBlanks]
      rw [if_neg]
      have := fixedDigits_are 2 hh (digitOf (hh / 10^1)) (by simp [fixedDigits])
      rintro (h | h) <;> (rw [h] at this; exact absurd this (by decide))
    rw [e]
    unfold readStamp
    rw [head_read d (by omega) hm hd]
    simp only [readGap]
    rw [if_neg (by decide), if_pos (by decide), hnb]
    simp only [clock_read hh mm ss h1 h2 h3, fraction_read f h4 off, offset_read off h5]
    by_cases hw : ∀ us, off = some us → ∃ k : ℤ, us = k * 60000000
    · rw [if_pos hw, if_pos (show WholeMinutes (.time d hh mm ss f off) from hw)]
      have hto : timeOk hh mm ss off = true := by
        unfold timeOk
        cases off with
        | none => simp; omega
        | some us => have := h5 us rfl; simp; omega
      simp [hok, hto]
    · rw [if_neg hw, if_neg (show ¬ WholeMinutes (.time d hh mm ss f off) from hw)]

/-! ## The claims -/

/-- **C122, dates are read back.**  A date or time in a model is written with the tag for time stamps, and reading the file gives exactly the same date, time of the day, fraction and offset to UTC. -/
theorem C122_read_partial (fl : ℚ → ℚ) (tx : YTexts) (s : PyStamp) (h : RealStamp s) (hw : WholeMinutes s) :
    ∃ node, represent fl tx (.datetime (isoText s)) = .ok node ∧ readDateNode node = .ok s := by
  refine ⟨_, by rw [represent], ?_⟩
  classical
  simp only [readDateNode]
  rw [read_iso s h, if_pos hw]

/-- **C122 does not hold for offsets with seconds.**  A time with an offset that is not a number of minutes is written without an error, but the file cannot be read: reading stops with an exception. -/
theorem C122_seconds_violated (fl : ℚ → ℚ) (tx : YTexts) (d : Ymd) (hour minute second micro : ℕ) (us : ℤ) (h : RealStamp (.time d hour minute second micro (some us))) (hw : us % 60000000 ≠ 0) :
    ∃ node, represent fl tx (.datetime (isoText (.time d hour minute second micro (some us)))) = .ok node ∧ readDateNode node = .error .noMatch := by
  refine ⟨_, by rw [represent], ?_⟩
  classical
  simp only [readDateNode]
  rw [read_iso _ h, if_neg]
  intro hk
  obtain ⟨k, hk⟩ := hk us rfl
  omega

/-- **C122, different dates have different texts.** -/
theorem C122_different (s s' : PyStamp) (h : RealStamp s) (h' : RealStamp s') (hw : WholeMinutes s) (hw' : WholeMinutes s') (e : isoText s = isoText s') : s = s' := by
  classical
  have a := read_iso s h
  have b := read_iso s' h'
  rw [if_pos hw] at a
  rw [if_pos hw', ← e, a] at b
  exact Except.ok.inj b

/-- Points in time in the years 1 to 9999 of a zone. -/
def InCalendar (offset t : ℤ) : Prop := -62135596800000000 ≤ t + offset * 1000000 ∧ t + offset * 1000000 < 253402300800000000

theorem stampAt_real (offset t : ℤ) (h : InCalendar offset t) (ho : -86400 < offset ∧ offset < 86400) : RealStamp (stampAt offset t) := by
  have hr := C112_calendar.2.2.1 (dayOf (t + offset * 1000000))
  have hy : (ordToYmd (dayOf (t + offset * 1000000))).year ≤ 9999 := by
    have h9 : (ordToYmd 3652058).year = 9999 := by decide +kernel
    have hd : dayOf (t + offset * 1000000) ≤ 3652058 := by unfold dayOf; obtain ⟨-, h⟩ := h; omega
    rcases hd.lt_or_eq with hl | he
    · rcases ord_lt hl with h1 | h1 <;> omega
    · rw [he, h9]
  have ht : timeOfDay (t + offset * 1000000) < 86400000000 := by unfold timeOfDay; omega
  refine ⟨⟨hr, hy⟩, by omega, by omega, by omega, by omega, ?_⟩
  intro us e
  have := Option.some.inj e
  omega

theorem stampAt_inj (offset t t' : ℤ) (h : InCalendar offset t) (h' : InCalendar offset t') (e : stampAt offset t = stampAt offset t') : t = t' := by
  unfold stampAt at e
  simp only [PyStamp.time.injEq] at e
  obtain ⟨e1, e2, e3, e4, e5, -⟩ := e
  have hd : dayOf (t + offset * 1000000) = dayOf (t' + offset * 1000000) := by
    by_contra hne
    rcases Nat.lt_or_gt_of_ne hne with hl | hl
    · have := ord_lt hl; rw [e1] at this; unfold DateLt at this; omega
    · have := ord_lt hl; rw [e1] at this; unfold DateLt at this; omega
  have htd : timeOfDay (t + offset * 1000000) = timeOfDay (t' + offset * 1000000) := by
    have h1 : timeOfDay (t + offset * 1000000) < 86400000000 := by unfold timeOfDay; omega
    have h2 : timeOfDay (t' + offset * 1000000) < 86400000000 := by unfold timeOfDay; omega
    omega
  unfold InCalendar at h h'
  unfold dayOf at hd
  unfold timeOfDay at htd
  omega

/-- **C122, points in time.**  The time a file was created, or the start of a task given in seconds, is read back as the time that was written; two points in time of a zone, even a microsecond apart, have different texts. -/
theorem C122_instants (offset t t' : ℤ) (k : ℤ) (ho : offset = 60 * k) (hb : -86400 < offset ∧ offset < 86400) (h : InCalendar offset t) (h' : InCalendar offset t') :
    readStamp (isoText (stampAt offset t)) = .ok (stampAt offset t) ∧ (isoText (stampAt offset t) = isoText (stampAt offset t') ↔ t = t') := by
  have hw : ∀ u, WholeMinutes (stampAt offset u) := by
    intro u us e
    have := Option.some.inj e
    exact ⟨k, by omega⟩
  classical
  refine ⟨by rw [read_iso _ (stampAt_real offset t h hb), if_pos (hw t)], fun e => ?_, fun e => by rw [e]⟩
  exact stampAt_inj offset t t' h h' (C122_different _ _ (stampAt_real offset t h hb) (stampAt_real offset t' h' hb) (hw t) (hw t') e)

theorem monthDay_ord : ∀ leap : Bool, ∀ k < 365 + (if leap then 1 else 0),
    daysBeforeMonth (monthDay leap k).1 + (if 2 < (monthDay leap k).1 ∧ leap = true then 1 else 0) + ((monthDay leap k).2 - 1) = k := by decide +kernel

/-- **C122, the calendar backwards.**  The number of a day, computed from its date, is the number the date was made from. -/
theorem C122_ordinal (n : ℕ) : ymdToOrd (ordToYmd n) = n := by
  obtain ⟨y, k, hy, hk, hn, he⟩ := ord_repr n
  have hm := monthDay_ord (LeapYear y) k (by simpa using hk)
  have hlp : (if 2 < (monthDay (LeapYear y) k).1 ∧ y % 4 = 0 ∧ (y % 100 ≠ 0 ∨ y % 400 = 0) then 1 else 0) =
      (if 2 < (monthDay (LeapYear y) k).1 ∧ decide (LeapYear y) = true then 1 else 0) := by
    simp only [decide_eq_true_eq]
    rfl
  rw [he]
  unfold ymdToOrd
  simp only
  rw [hlp]
  unfold daysBefore at hn
  omega

/-- **C122, starts.**  The start of a task or the time of creation of a file names the same point in time after it was written and read, whatever the zone it was written in. -/
theorem C122_moment (offset t k : ℤ) (ho : offset = 60 * k) (hb : -86400 < offset ∧ offset < 86400) (h : InCalendar offset t) :
    ∃ s, readStamp (isoText (stampAt offset t)) = .ok s ∧ stampInstant s = some t := by
  refine ⟨_, (C122_instants offset t t k ho hb h h).1, ?_⟩
  unfold stampAt stampInstant
  simp only [C122_ordinal]
  unfold InCalendar at h
  unfold dayOf timeOfDay
  congr 1
  omega

/-! ## Dates written by hand -/

theorem readDigits_append (a b : List Char) : readDigits (a ++ b) = readDigits a * 10 ^ b.length + readDigits b := by
  have h : ∀ (b : List Char) (acc : ℕ), b.foldl (fun n c => 10 * n + (c.toNat - 48)) acc = acc * 10 ^ b.length + readDigits b := by
    intro b
    induction b with
    | nil => intro acc; simp [readDigits]
    | cons c b ih =>
      intro acc
      unfold readDigits
      simp only [List.foldl_cons, List.length_cons]
      rw [ih, ih (10 * 0 + _)]
      ring
  unfold readDigits
  rw [List.foldl_append, h b]
  rfl

theorem readDigits_lt (b : List Char) (hb : ∀ c ∈ b, '0' ≤ c ∧ c ≤ '9') : readDigits b < 10 ^ b.length := by
  induction b with
  | nil => simp [readDigits]
  | cons c b ih =>
    have h1 := readDigits_append [c] b
    rw [List.singleton_append] at h1
    rw [h1, List.length_cons, pow_succ]
    have h2 := ih (fun x hx => hb x (by simp [hx]))
    have h3 : readDigits [c] ≤ 9 := by
      have h4 : c.toNat ≤ 57 := (hb c (by simp)).2
      have : readDigits [c] = c.toNat - 48 := by simp [readDigits]
      omega
    have h5 : readDigits [c] * 10 ^ b.length ≤ 9 * 10 ^ b.length := Nat.mul_le_mul_right _ h3
    omega

theorem fraction_value (ds : List Char) (hd : ∀ c ∈ ds, '0' ≤ c ∧ c ≤ '9') : fractionValue ds = readDigits ds * 1000000 / 10 ^ ds.length := by
  have e : fractionValue ds = readDigits (ds.take 6 ++ List.replicate (6 - ds.length) '0') := rfl
  rw [e]
  by_cases hl : ds.length ≤ 6
  · have hz : ∀ k, readDigits (List.replicate k '0') = 0 := by
      intro k
      induction k with
      | zero => rfl
      | succ k ih => rw [List.replicate_succ, ← List.singleton_append, readDigits_append, ih]; simp [readDigits]
    rw [List.take_of_length_le hl, readDigits_append, hz, List.length_replicate]
    have h6 : (1000000 : ℕ) = 10 ^ (6 - ds.length) * 10 ^ ds.length := by rw [← pow_add, Nat.sub_add_cancel hl]; norm_num
    rw [h6, ← mul_assoc, Nat.mul_div_cancel _ (by positivity)]
    simp
  · have hs := readDigits_append (ds.take 6) (ds.drop 6)
    rw [List.take_append_drop] at hs
    have hlt := readDigits_lt (ds.drop 6) (fun c hc => hd c (List.mem_of_mem_drop hc))
    have h6 : 10 ^ ds.length = 10 ^ (ds.drop 6).length * 1000000 := by
      rw [List.length_drop, show (1000000 : ℕ) = 10 ^ 6 by norm_num, ← pow_add]; congr 1; omega
    rw [h6, Nat.mul_div_mul_right _ _ (by norm_num), show 6 - ds.length = 0 by omega]
    simp only [List.replicate_zero, List.append_nil]
    rw [hs]
    symm
    rw [Nat.div_eq_iff (by positivity)]
    constructor
    · omega
    · have : 0 < 10 ^ (ds.drop 6).length := by positivity
      omega

/-- **C122, days written by hand.**  A day in a file is accepted exactly if there is such a day, and taken as it is written. -/
theorem C122_days (d : Ymd) (hy : d.year < 10000) (hm : d.month < 100) (hd : d.day < 100) :
    (RealDate d → readStamp (isoText (.date d)) = .ok (.date d)) ∧ (¬ RealDate d → readStamp (isoText (.date d)) = .error .badValue) := by
  have := head_read d hy hm hd []
  rw [List.append_nil] at this
  unfold readStamp isoText
  rw [this]
  refine ⟨fun h => by simp [(dateOk_real h (by omega)).1], fun h => ?_⟩
  · have hn : dateOk d = false := by
      unfold dateOk
      rw [decide_eq_false_iff_not]
      rintro ⟨a, -, b, c, e, f⟩
      refine h ⟨a, b, c, e, ?_⟩
      have hl : monthLength (LeapYear d.year) d.month = daysInMonth d.year d.month := by
        unfold monthLength daysInMonth
        simp only [decide_eq_true_eq]
        by_cases hl : LeapYear d.year
        · rw [if_pos hl, if_pos (show _ ∧ _ from hl)]
        · rw [if_neg hl, if_neg (show ¬ (_ ∧ _) from hl)]
      rw [hl]
      exact f
    simp [hn]

/-- **C122, fractions written by hand.**  A fraction of a second with any number of digits is cut to microseconds: `.5` is half a second. -/
theorem C122_fractions (d : Ymd) (h m s : ℕ) (ds : List Char) (hr : RealDate d) (hy : d.year ≤ 9999) (hh : h < 24) (hm : m < 60) (hs : s < 60) (hd : ∀ c ∈ ds, '0' ≤ c ∧ c ≤ '9') :
    readStamp (isoText (.time d h m s 0 none) ++ '.' :: ds) = .ok (.time d h m s (readDigits ds * 1000000 / 10 ^ ds.length) none) := by
  obtain ⟨hok, hm', hd'⟩ := dateOk_real hr hy
  have e : isoText (.time d h m s 0 none) ++ '.' :: ds = isoDate d ++ ' ' :: (fixedDigits 2 h ++ ':' :: (fixedDigits 2 m ++ ':' :: (fixedDigits 2 s ++ '.' :: ds))) := by
    simp [isoText]
  have hnb : ∀ r, skipBlanks (fixedDigits 2 h ++ r) = fixedDigits 2 h ++ r := by
    intro r
    simp only [fixedDigits, List.cons_append, skipBlanks]
    rw [if_neg]
    have := fixedDigits_are 2 h (digitOf (h / 10^1)) (by simp [fixedDigits])
    rintro (h | h) <;> (rw [h] at this; exact absurd this (by decide))
  have ha := allDigits_append ds [] hd (by simp)
  rw [List.append_nil] at ha
  have hf : readFraction ('.' :: ds) = (readDigits ds * 1000000 / 10 ^ ds.length, []) := by
    simp only [readFraction, lit, if_true, ha, fraction_value ds hd]
  have hto : timeOk h m s none = true := by simp [timeOk]; omega
  rw [e]
  unfold readStamp
  rw [head_read d (by omega) hm' hd']
  simp only [readGap]
  rw [if_neg (by decide), if_pos (by decide), hnb]
  simp only [clock_read h m s hh hm hs, hf]
  simp [readOffset, hok, hto]

/-- Non-vacuity: the 29th of February of 1900 does not exist; half a second. -/
example : ¬ RealDate ⟨1900, 2, 29⟩ ∧ RealDate ⟨2000, 2, 29⟩ ∧ readStamp "2000-02-29 12:00:07.5".toList = .ok (.time ⟨2000, 2, 29⟩ 12 0 7 500000 none) ∧
    readStamp "1900-02-29".toList = .error .badValue := by
  refine ⟨by unfold RealDate monthLength LeapYear; decide, by unfold RealDate monthLength LeapYear; decide, by decide +kernel, by decide +kernel⟩

/-- Non-vacuity: a leap day with a fraction in a zone behind UTC, a time without offset, the text of both; a zone with half an hour; an offset with seconds. -/
example : RealStamp (.time ⟨2024, 2, 29⟩ 23 59 58 120 (some (-12600000000))) ∧ WholeMinutes (.time ⟨2024, 2, 29⟩ 23 59 58 120 (some (-12600000000))) ∧
    isoText (.time ⟨2024, 2, 29⟩ 23 59 58 120 (some (-12600000000))) = "2024-02-29 23:59:58.000120-03:30".toList ∧ isoText (.time ⟨2024, 2, 29⟩ 0 0 7 0 none) = "2024-02-29 00:00:07".toList ∧
    RealStamp (.time ⟨1890, 1, 1⟩ 1 2 3 0 (some 3208000000)) ∧ isoText (.time ⟨1890, 1, 1⟩ 1 2 3 0 (some 3208000000)) = "1890-01-01 01:02:03+00:53:28".toList ∧ (3208000000 : ℤ) % 60000000 ≠ 0 ∧
    isoText (stampAt 7200 1690000000000010) = "2023-07-22 06:26:40.000010+02:00".toList ∧ InCalendar 7200 1690000000000010 := by
  refine ⟨⟨⟨by unfold RealDate monthLength LeapYear; decide, by decide⟩, by decide, by decide, by decide, by decide, ?_⟩, ?_, by decide +kernel, by decide +kernel,
    ⟨⟨by unfold RealDate monthLength LeapYear; decide, by decide⟩, by decide, by decide, by decide, by decide, ?_⟩, by decide +kernel, by decide, by decide +kernel, by unfold InCalendar; decide⟩
  · intro us e; obtain rfl := Option.some.inj e; decide
  · intro us e; obtain rfl := Option.some.inj e; exact ⟨-210, by norm_num⟩
  · intro us e; obtain rfl := Option.some.inj e; decide

end Verif.Props
