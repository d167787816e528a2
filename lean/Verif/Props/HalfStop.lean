import Verif.Model.HalfStop
import Verif.Py.Binary64
import Mathlib.Tactic.Linarith
import Mathlib.Tactic.Positivity
import Mathlib.Tactic.NormNum

/-!
# C105 — half stop bits

A line with one and a half stop bits has pauses of half a tick; the decoder says in `half_stop`
whether it saw such spacings.
-/

namespace Verif.Props
open Verif.Py Verif.Model

variable {fl : ℚ → ℚ}

/-- Specification: among the first thousand states of the line one lasts about one and a half
ticks. -/
def UsesHalfStop (evs : List UartEv) : Prop :=
  ∃ e ∈ evs.take 1000, (1333/1000 : ℚ) < e.steps ∧ e.steps < 1667/1000

theorem halfStop_upper (h : Rounding fl) {baud : ℤ} (hb : 2 ≤ baud) :
    fl (fl (1667/1000) * fl (1 / baud)) ≤ 7/8 := by
  have e1 : fl (1667/1000) ≤ 7/4 := by
    have := h.mono (show (1667/1000 : ℚ) ≤ (7:ℤ) * (2:ℚ)^(-2 : ℤ) by norm_num)
    rw [h.exact 7 (-2) (by norm_num) (by norm_num)] at this
    refine le_trans this ?_
    norm_num
  have e0 : 0 ≤ fl (1667/1000) := h.nonneg (by norm_num)
  have hb' : (2:ℚ) ≤ baud := by exact_mod_cast hb
  have e2 : fl (1 / (baud:ℚ)) ≤ 1/2 := by
    have := h.mono (show (1 / (baud:ℚ)) ≤ (1:ℤ) * (2:ℚ)^(-1 : ℤ) by
      rw [div_le_iff₀ (by linarith)]; norm_num; linarith)
    rw [h.exact 1 (-1) (by norm_num) (by norm_num)] at this
    refine le_trans this ?_
    norm_num
  have e3 : 0 ≤ fl (1 / (baud:ℚ)) := h.nonneg (by positivity)
  have := h.mono (show fl (1667/1000) * fl (1 / (baud:ℚ)) ≤ (7:ℤ) * (2:ℚ)^(-3 : ℤ) by
    refine le_trans (mul_le_mul e1 e2 e3 (by norm_num)) ?_
    norm_num)
  rw [h.exact 7 (-3) (by norm_num) (by norm_num)] at this
  refine le_trans this ?_
  norm_num

theorem halfStop_lower (h : Rounding fl) {baud : ℤ} (hb : 2 ≤ baud) :
    0 ≤ fl (fl (1333/1000) * fl (1 / baud)) := by
  have hb' : (2:ℚ) ≤ baud := by exact_mod_cast hb
  exact h.nonneg (mul_nonneg (h.nonneg (by norm_num)) (h.nonneg (by positivity)))

/-- **C105, what is reported.**  At every baud rate from 2 on, for every line whose states last at
least nine tenths of a tick: whether half stop bits are reported depends on the time stamps alone —
it says that some state began at about one and a half ticks on the clock of the recording. -/
theorem C105_reported (h : Rounding fl) (baud : ℤ) (hb : 2 ≤ baud) (evs : List UartEv)
    (hs : ∀ e ∈ evs, 9/10 ≤ e.steps) :
    detectHalfStop fl (fl (1 / baud)) evs = true ↔
      ∃ e ∈ evs.take 1000, fl (fl (1333/1000) * fl (1 / baud)) < e.time ∧
        e.time < fl (fl (1667/1000) * fl (1 / baud)) := by
  have hu := halfStop_upper h hb
  have hl := halfStop_lower h hb
  unfold detectHalfStop
  rw [List.any_eq_true]
  constructor
  · rintro ⟨e, he, hx⟩
    refine ⟨e, he, ?_⟩
    have h9 := hs e (List.mem_of_mem_take he)
    have hst : inHalfStop fl (fl (1 / baud)) e.steps = false := by
      unfold inHalfStop
      rw [Bool.and_eq_false_iff]
      right
      rw [decide_eq_false_iff_not]
      linarith
    have hhi : inHalfStop fl (fl (1 / baud)) (ofBool e.high) = false := by
      unfold inHalfStop ofBool
      rw [Bool.and_eq_false_iff, decide_eq_false_iff_not, decide_eq_false_iff_not]
      split_ifs
      · right; linarith
      · left; linarith
    rw [hst, hhi, Bool.or_false, Bool.or_false] at hx
    unfold inHalfStop at hx
    simpa using hx
  · rintro ⟨e, he, h1, h2⟩
    refine ⟨e, he, ?_⟩
    have : inHalfStop fl (fl (1 / baud)) e.time = true := by
      unfold inHalfStop
      rw [decide_eq_true h1, decide_eq_true h2]; rfl
    rw [this]; rfl

/-- Half stop bits go unseen: at every baud rate from 2 on, in no recording whose clock has passed
its first second are they reported, however many there are. -/
theorem C105_missed_violated (h : Rounding fl) (baud : ℤ) (hb : 2 ≤ baud) (evs : List UartEv)
    (hs : ∀ e ∈ evs, 9/10 ≤ e.steps) (ht : ∀ e ∈ evs, 1 ≤ e.time) :
    detectHalfStop fl (fl (1 / baud)) evs = false := by
  rw [Bool.eq_false_iff]
  intro hd
  obtain ⟨e, he, -, h2⟩ := (C105_reported h baud hb evs hs).mp hd
  have := ht e (List.mem_of_mem_take he)
  have := halfStop_upper h hb
  linarith

/-- Half stop bits are reported where there are none: at every baud rate up to 2³², whatever the
line looks like, if the recording's clock shows one and a half ticks at the begin of one of its first
states. -/
theorem C105_invented_violated (h : AccRounding fl) (baud : ℤ) (h0 : 0 < baud) (hb : baud ≤ 2^32)
    (evs : List UartEv) (e : UartEv) (he : e ∈ evs.take 1000) (ht : e.time = 3/2 * fl (1 / baud)) :
    detectHalfStop fl (fl (1 / baud)) evs = true := by
  have hR := h.toRounding
  have hbq : (0:ℚ) < baud := by exact_mod_cast h0
  have hT : (2:ℚ)^(-32 : ℤ) ≤ fl (1 / (baud:ℚ)) := by
    have hb' : (baud:ℚ) ≤ 2^32 := by exact_mod_cast hb
    have := hR.mono (show ((1:ℤ):ℚ) * (2:ℚ)^(-32 : ℤ) ≤ 1 / (baud:ℚ) by
      rw [le_div_iff₀ hbq]
      have : ((1:ℤ):ℚ) * (2:ℚ)^(-32 : ℤ) * baud ≤ ((1:ℤ):ℚ) * (2:ℚ)^(-32 : ℤ) * 2^32 :=
        mul_le_mul_of_nonneg_left hb' (by positivity)
      refine le_trans this ?_
      norm_num)
    rw [hR.exact 1 (-32) (by norm_num) (by norm_num)] at this
    simpa using this
  obtain ⟨T, hTd⟩ : ∃ T, T = fl (1 / (baud:ℚ)) := ⟨_, rfl⟩
  rw [← hTd] at hT ht ⊢
  have hT0 : (0:ℚ) < T := lt_of_lt_of_le (by positivity) hT
  have hsmall : (2:ℚ)^(-1075 : ℤ) ≤ T / 2^20 := by
    have h1 : (2:ℚ)^(-1075 : ℤ) ≤ (2:ℚ)^(-52 : ℤ) := zpow_le_zpow_right₀ (by norm_num) (by norm_num)
    have h2 : (2:ℚ)^(-52 : ℤ) = (2:ℚ)^(-32 : ℤ) / 2^20 := by norm_num
    rw [h2] at h1
    exact le_trans h1 (div_le_div_of_nonneg_right hT (by positivity))
  have ha : fl (1333/1000) ≤ 11/8 := by
    have := hR.mono (show (1333/1000 : ℚ) ≤ (11:ℤ) * (2:ℚ)^(-3 : ℤ) by norm_num)
    rw [hR.exact 11 (-3) (by norm_num) (by norm_num)] at this
    refine le_trans this ?_
    norm_num
  have hb1 : 13/8 ≤ fl (1667/1000) := by
    have := hR.mono (show (13:ℤ) * (2:ℚ)^(-3 : ℤ) ≤ (1667/1000 : ℚ) by norm_num)
    rw [hR.exact 13 (-3) (by norm_num) (by norm_num)] at this
    refine le_trans ?_ this
    norm_num
  have hlo : fl (fl (1333/1000) * T) < 3/2 * T := by
    have e1 := hR.mono (show fl (1333/1000) * T ≤ 11/8 * T from mul_le_mul_of_nonneg_right ha hT0.le)
    have e2 := (abs_le.mp (h.err (11/8 * T))).2
    rw [abs_of_nonneg (by positivity)] at e2
    have e3 : 11/8 * T / 2^53 ≤ 1/100 * T := by
      rw [div_le_iff₀ (by positivity)]; nlinarith
    have e4 : T / 2^20 ≤ 1/100 * T := by rw [div_le_iff₀ (by positivity)]; nlinarith
    linarith
  have hhi : 3/2 * T < fl (fl (1667/1000) * T) := by
    have e1 := hR.mono (show 13/8 * T ≤ fl (1667/1000) * T from mul_le_mul_of_nonneg_right hb1 hT0.le)
    have e2 := (abs_le.mp (h.err (13/8 * T))).1
    rw [abs_of_nonneg (by positivity)] at e2
    have e3 : 13/8 * T / 2^53 ≤ 1/100 * T := by
      rw [div_le_iff₀ (by positivity)]; nlinarith
    have e4 : T / 2^20 ≤ 1/100 * T := by rw [div_le_iff₀ (by positivity)]; nlinarith
    linarith
  unfold detectHalfStop
  rw [List.any_eq_true]
  refine ⟨e, he, ?_⟩
  have : inHalfStop fl T e.time = true := by
    unfold inHalfStop
    rw [ht]
    simp [hlo, hhi]
  rw [this]; rfl

/-- A line with a half stop bit, begun after 10 s: nothing reported. -/
example : UsesHalfStop [⟨10, false, 1⟩, ⟨10 + 1/9600, true, 3/2⟩] ∧
    detectHalfStop b64 (b64 (1 / (9600:ℤ))) [⟨10, false, 1⟩, ⟨10 + 1/9600, true, 3/2⟩] = false := by
  refine ⟨⟨⟨10 + 1/9600, true, 3/2⟩, by simp, by norm_num, by norm_num⟩, ?_⟩
  decide +kernel

/-- A line without, begun one and a half ticks after the clock was started: reported. -/
example : ¬ UsesHalfStop [⟨3/2 * b64 (1/(9600:ℤ)), false, 1⟩, ⟨5/2 * b64 (1/(9600:ℤ)), true, 2⟩] ∧
    detectHalfStop b64 (b64 (1 / (9600:ℤ)))
      [⟨3/2 * b64 (1/(9600:ℤ)), false, 1⟩, ⟨5/2 * b64 (1/(9600:ℤ)), true, 2⟩] = true := by
  refine ⟨?_, by decide +kernel⟩
  rintro ⟨e, he, h1, h2⟩
  simp only [List.take, List.mem_cons, List.not_mem_nil, or_false] at he
  rcases he with rfl | rfl
  · norm_num at h1
  · norm_num at h2

end Verif.Props
