import Verif.Props.CutFile
import Mathlib.Data.List.Basic

/-!
# C77: names of cut and down-sampled files
-/

namespace Verif.Props
open Verif.Py Verif.Model

/-! ## Specification -/

/-- A text of digits stands for a number. -/
def IsDecimal (t : List Char) (n : ℕ) : Prop := t ≠ [] ∧ (∀ c ∈ t, c.isDigit = true) ∧ Nat.ofDigitChars 10 t 0 = n

/-- A text such as "12s050" stands for a number of milliseconds: seconds, the letter, and always three digits. -/
def IsSeconds (t : String) (ms : ℕ) : Prop :=
  ∃ w f a b, t.toList = w ++ 's' :: f ∧ f.length = 3 ∧ IsDecimal w a ∧ IsDecimal f b ∧ 1000 * a + b = ms

/-- What a request shows of itself: start and end in milliseconds if it is a cut, and the whole factor if it is more than one. -/
def shown (fl : ℚ → ℚ) (s : Session) (start stop : Option ℚ) (factor : ℚ) : Option (ℤ × ℤ) × Option ℤ :=
  (if max 0 (start.getD 0) = 0 ∧ (∀ e ∈ stop, s.runtimeS fl ≤ e) then none
    else some (pyRound (1000 * max 0 (start.getD 0)), pyRound (1000 * min (s.runtimeS fl) (stop.getD (s.runtimeS fl)))),
   if factor ≤ 1 then none else some (pyRound factor))

/-! ## Proof -/

theorem repr_decimal (n : ℕ) : IsDecimal (Nat.toDigits 10 n) n :=
  ⟨Nat.toDigits_ne_nil, fun _ hc => Nat.isDigit_of_mem_toDigits (by decide) (by decide) hc, Nat.ofDigitChars_ten_toDigits⟩

theorem toDigits_len (n k : ℕ) (hk : 0 < k) : (Nat.toDigits 10 n).length ≤ k ↔ n < 10 ^ k := Nat.length_toDigits_le_iff (by decide) hk

theorem secStr_seconds (x : ℚ) : IsSeconds (secStr x) (pyRound (1000 * x)).toNat := by
  unfold secStr
  dsimp only
  generalize (pyRound (1000 * x)).toNat = m
  have hlt : m % 1000 < 1000 := Nat.mod_lt _ (by norm_num)
  obtain ⟨h1, h2, h3⟩ := repr_decimal (m % 1000)
  have hpos : 1 ≤ (Nat.toDigits 10 (m % 1000)).length := Nat.length_toDigits_pos
  have l1 := toDigits_len (m % 1000) 1 (by norm_num)
  have l2 := toDigits_len (m % 1000) 2 (by norm_num)
  have l3 := toDigits_len (m % 1000) 3 (by norm_num)
  have hdm : 1000 * (m / 1000) + m % 1000 = m := Nat.div_add_mod m 1000
  generalize m % 1000 = r at *
  norm_num at l1 l2 l3
  by_cases hr : r < 10
  · refine ⟨Nat.toDigits 10 (m / 1000), '0' :: '0' :: Nat.toDigits 10 r, m / 1000, r, ?_, ?_, repr_decimal _, ⟨by simp, ?_, ?_⟩, hdm⟩
    · rw [if_pos hr]; simp
    · have := l1.mpr hr; simp only [List.length_cons]; omega
    · intro c hc; rcases List.mem_cons.mp hc with rfl | hc
      · rfl
      · rcases List.mem_cons.mp hc with rfl | hc
        · rfl
        · exact h2 c hc
    · simp [Nat.ofDigitChars_cons]
  · by_cases hr2 : r < 100
    · refine ⟨Nat.toDigits 10 (m / 1000), '0' :: Nat.toDigits 10 r, m / 1000, r, ?_, ?_, repr_decimal _, ⟨by simp, ?_, ?_⟩, hdm⟩
      · rw [if_neg hr, if_pos hr2]; simp
      · have := l2.mpr hr2
        have : ¬ (Nat.toDigits 10 r).length ≤ 1 := fun hc => hr (l1.mp hc)
        simp only [List.length_cons]; omega
      · intro c hc; rcases List.mem_cons.mp hc with rfl | hc
        · rfl
        · exact h2 c hc
      · simp [Nat.ofDigitChars_cons]
    · refine ⟨Nat.toDigits 10 (m / 1000), Nat.toDigits 10 r, m / 1000, r, ?_, ?_, repr_decimal _, ⟨h1, h2, h3⟩, hdm⟩
      · rw [if_neg hr, if_neg hr2]; simp
      · have := l3.mpr hlt
        have : ¬ (Nat.toDigits 10 r).length ≤ 2 := fun hc => hr2 (l2.mp hc)
        omega

theorem digits_split {a b : Char} (ha : a.isDigit = false) (hb : b.isDigit = false) : ∀ (x y u v : List Char), (∀ c ∈ x, c.isDigit = true) → (∀ c ∈ y, c.isDigit = true) →
    x ++ a :: u = y ++ b :: v → x = y ∧ a = b ∧ u = v
  | [], [], u, v, _, _, h => by simpa using h
  | [], d :: y, u, v, _, hy, h => by
    simp only [List.nil_append, List.cons_append, List.cons.injEq] at h
    have := hy d (by simp)
    rw [← h.1, ha] at this; cases this
  | c :: x, [], u, v, hx, _, h => by
    simp only [List.nil_append, List.cons_append, List.cons.injEq] at h
    have := hx c (by simp)
    rw [h.1, hb] at this; cases this
  | c :: x, d :: y, u, v, hx, hy, h => by
    simp only [List.cons_append, List.cons.injEq] at h
    obtain ⟨h1, h2, h3⟩ := digits_split ha hb x y u v (fun e he => hx e (by simp [he])) (fun e he => hy e (by simp [he])) h.2
    exact ⟨by rw [h.1, h1], h2, h3⟩

/-- Texts of times can be read, whatever follows that is not a digit. -/
theorem seconds_split {p q : String} {m n : ℕ} (hp : IsSeconds p m) (hq : IsSeconds q n) {a b : Char} (ha : a.isDigit = false) (hb : b.isDigit = false) {u v : List Char}
    (h : p.toList ++ a :: u = q.toList ++ b :: v) : m = n ∧ a :: u = b :: v := by
  obtain ⟨w, f, x, y, e, -, hw, hf, hm⟩ := hp
  obtain ⟨w', f', x', y', e', -, hw', hf', hn⟩ := hq
  rw [e, e', List.append_assoc, List.append_assoc, List.cons_append, List.cons_append] at h
  obtain ⟨h1, -, h2⟩ := digits_split (by decide) (by decide) _ _ _ _ hw.2.1 hw'.2.1 h
  obtain ⟨h3, h4, h5⟩ := digits_split ha hb _ _ _ _ hf.2.1 hf'.2.1 h2
  have e1 : x = x' := by rw [← hw.2.2, ← hw'.2.2, h1]
  have e2 : y = y' := by rw [← hf.2.2, ← hf'.2.2, h3]
  exact ⟨by rw [← hm, ← hn, e1, e2], by rw [h4, h5]⟩

theorem factor_text {factor : ℚ} (h : 1 < factor) : (toString (pyRound factor)).toList = Nat.toDigits 10 (pyRound factor).toNat := by
  have h1 : 1 ≤ pyRound factor := by
    have := pyRound_mono h.le
    rwa [show pyRound 1 = 1 from pyRound_intCast 1] at this
  obtain ⟨n, hn⟩ : ∃ n : ℕ, pyRound factor = n := ⟨(pyRound factor).toNat, by omega⟩
  rw [hn]
  show (Nat.repr n).toList = _
  simp

/-- The end of a name: factor and suffix. -/
def tailOf (factor : ℚ) : List Char := ((if 1 < factor then ".downsample_x" ++ toString (pyRound factor) else "") ++ ".h5").toList

theorem tailOf_head (factor : ℚ) : ∃ u, tailOf factor = '.' :: u := by
  unfold tailOf; split_ifs <;> exact ⟨_, by simp [String.toList_append]; rfl⟩

theorem tailOf_inj {p q : ℚ} (h : tailOf p = tailOf q) : (if p ≤ 1 then none else some (pyRound p)) = (if q ≤ 1 then none else some (pyRound q)) := by
  unfold tailOf at h
  by_cases hp : p ≤ 1 <;> by_cases hq : q ≤ 1
  · rw [if_pos hp, if_pos hq]
  · rw [if_neg (not_lt.mpr hp), if_pos (not_le.mp hq)] at h
    simp [String.toList_append] at h
  · rw [if_pos (not_le.mp hp), if_neg (not_lt.mpr hq)] at h
    simp [String.toList_append] at h
  · have hp' := not_le.mp hp
    have hq' := not_le.mp hq
    rw [if_pos hp', if_pos hq', String.toList_append, String.toList_append, String.toList_append, String.toList_append, factor_text hp', factor_text hq',
      List.append_assoc, List.append_assoc] at h
    have h := List.append_cancel_left h
    obtain ⟨h1, -, -⟩ := digits_split (a := '.') (b := '.') (u := ['h', '5']) (v := ['h', '5']) (by decide) (by decide) _ _
      (repr_decimal _).2.1 (repr_decimal _).2.1 h
    have e : (pyRound p).toNat = (pyRound q).toNat := by
      rw [← (repr_decimal (pyRound p).toNat).2.2, ← (repr_decimal (pyRound q).toNat).2.2, h1]
    have m1 := pyRound_mono hp'.le
    have m2 := pyRound_mono hq'.le
    rw [show pyRound 1 = 1 from pyRound_intCast 1] at m1 m2
    rw [if_neg hp, if_neg hq]
    congr 1; omega

theorem cutName_list (fl : ℚ → ℚ) (s : Session) (stem : String) (start stop : Option ℚ) (factor : ℚ) :
    (s.cutName fl stem start stop factor).toList = stem.toList ++
      ((if cutStart start ≠ 0 ∨ s.cutEnd fl stop ≠ s.runtimeS fl then ".cut_" ++ secStr (cutStart start) ++ "_to_" ++ secStr (s.cutEnd fl stop) else "").toList ++ tailOf factor) := by
  unfold Session.cutName tailOf
  simp only [String.toList_append, List.append_assoc]

theorem uncut_iff (fl : ℚ → ℚ) (s : Session) (start stop : Option ℚ) :
    (cutStart start ≠ 0 ∨ s.cutEnd fl stop ≠ s.runtimeS fl) ↔ ¬ (max 0 (start.getD 0) = 0 ∧ (∀ e ∈ stop, s.runtimeS fl ≤ e)) := by
  unfold cutStart Session.cutEnd
  cases stop with
  | none => simp
  | some e => simp only [Option.getD_some, ne_eq, min_eq_left_iff, Option.mem_def, Option.some.injEq, forall_eq', not_and_or]

/-- **C77, names tell requests apart.**  Two requests for the same recording, that differ in the milliseconds of start or end or in the whole factor, get different names; and requests that show the
same get the same name. -/
theorem C77_names (fl : ℚ → ℚ) (s : Session) (stem : String) (start stop start' stop' : Option ℚ) (factor factor' : ℚ)
    (hr : 0 ≤ s.runtimeS fl) (hs : ∀ e ∈ stop, 0 ≤ e) (hs' : ∀ e ∈ stop', 0 ≤ e) :
    s.cutName fl stem start stop factor = s.cutName fl stem start' stop' factor' ↔ shown fl s start stop factor = shown fl s start' stop' factor' := by
  have endpos : ∀ st : Option ℚ, (∀ e ∈ st, 0 ≤ e) → 0 ≤ pyRound (1000 * s.cutEnd fl st) := by
    intro st h
    have : 0 ≤ s.cutEnd fl st := by
      unfold Session.cutEnd
      cases st with
      | none => simpa using hr
      | some e => exact le_min hr (h e rfl)
    have := pyRound_mono (show (0:ℚ) ≤ 1000 * s.cutEnd fl st by positivity)
    rwa [show pyRound 0 = 0 from pyRound_intCast 0] at this
  have startpos : ∀ st : Option ℚ, 0 ≤ pyRound (1000 * cutStart st) := by
    intro st
    have h0 : 0 ≤ cutStart st := le_max_left _ _
    have := pyRound_mono (show (0:ℚ) ≤ 1000 * cutStart st by positivity)
    rwa [show pyRound 0 = 0 from pyRound_intCast 0] at this
  have e1 := endpos stop hs
  have e2 := endpos stop' hs'
  have b1 := startpos start
  have b2 := startpos start'
  have c1 := uncut_iff fl s start stop
  have c2 := uncut_iff fl s start' stop'
  rw [← String.toList_inj, cutName_list, cutName_list, List.append_cancel_left_eq]
  unfold shown
  rw [Prod.mk.injEq]
  change _ ↔ (if _ then none else some (pyRound (1000 * cutStart start), pyRound (1000 * s.cutEnd fl stop))) =
    (if _ then none else some (pyRound (1000 * cutStart start'), pyRound (1000 * s.cutEnd fl stop'))) ∧ _
  obtain ⟨t, ht⟩ := tailOf_head factor
  obtain ⟨t', ht'⟩ := tailOf_head factor'
  have tails : tailOf factor = tailOf factor' ↔ (if factor ≤ 1 then none else some (pyRound factor)) = (if factor' ≤ 1 then none else some (pyRound factor')) := by
    constructor
    · exact tailOf_inj
    · intro h
      unfold tailOf
      by_cases hp : factor ≤ 1 <;> by_cases hq : factor' ≤ 1
      · rw [if_neg (not_lt.mpr hp), if_neg (not_lt.mpr hq)]
      · rw [if_pos hp, if_neg hq] at h; cases h
      · rw [if_neg hp, if_pos hq] at h; cases h
      · rw [if_neg hp, if_neg hq, Option.some.injEq] at h
        rw [if_pos (not_le.mp hp), if_pos (not_le.mp hq), h]
  by_cases hc : cutStart start ≠ 0 ∨ s.cutEnd fl stop ≠ s.runtimeS fl <;> by_cases hc' : cutStart start' ≠ 0 ∨ s.cutEnd fl stop' ≠ s.runtimeS fl
  · rw [if_pos hc, if_pos hc', if_neg (c1.mp hc), if_neg (c2.mp hc'), Option.some.injEq, Prod.mk.injEq]
    simp only [String.toList_append, List.append_assoc]
    constructor
    · intro h
      have h := List.append_cancel_left h
      obtain ⟨m1, h⟩ := seconds_split (a := '_') (b := '_') (secStr_seconds _) (secStr_seconds _) (by decide) (by decide) h
      have h : ['_', 't', 'o', '_'] ++ _ = ['_', 't', 'o', '_'] ++ _ := h
      have h := List.append_cancel_left h
      rw [ht, ht'] at h
      obtain ⟨m2, h⟩ := seconds_split (secStr_seconds _) (secStr_seconds _) (by decide) (by decide) h
      exact ⟨⟨by omega, by omega⟩, tails.mp (by rw [ht, ht', h])⟩
    · rintro ⟨⟨h1, h2⟩, h3⟩
      have s1 : secStr (cutStart start) = secStr (cutStart start') := by unfold secStr; rw [h1]
      have s2 : secStr (s.cutEnd fl stop) = secStr (s.cutEnd fl stop') := by unfold secStr; rw [h2]
      rw [s1, s2, tails.mpr h3]
  · rw [if_pos hc, if_neg hc', if_neg (c1.mp hc), if_pos (by by_contra hn; exact hc' (c2.mpr hn))]
    constructor
    · intro h
      exfalso
      unfold tailOf at h
      split_ifs at h <;> simp [String.toList_append] at h
    · rintro ⟨h, -⟩; cases h
  · rw [if_neg hc, if_pos hc', if_neg (c2.mp hc'), if_pos (by by_contra hn; exact hc (c1.mpr hn))]
    constructor
    · intro h
      exfalso
      unfold tailOf at h
      split_ifs at h <;> simp [String.toList_append] at h
    · rintro ⟨h, -⟩; cases h
  · rw [if_neg hc, if_neg hc', if_pos (by by_contra hn; exact hc (c1.mpr hn)), if_pos (by by_contra hn; exact hc' (c2.mpr hn))]
    simpa using tails

/-- **C77, names can be read.**  The name of a cut is the name of the source with the marks in seconds and milliseconds and the factor. -/
theorem C77_readable (fl : ℚ → ℚ) (s : Session) (stem : String) (start stop : Option ℚ) (factor : ℚ) (hf : 1 < factor)
    (hc : 0 < start.getD 0 ∨ ∃ e ∈ stop, e < s.runtimeS fl) :
    ∃ a b c, s.cutName fl stem start stop factor = stem ++ ".cut_" ++ a ++ "_to_" ++ b ++ ".downsample_x" ++ c ++ ".h5" ∧
      IsSeconds a (pyRound (1000 * max 0 (start.getD 0))).toNat ∧ IsSeconds b (pyRound (1000 * min (s.runtimeS fl) (stop.getD (s.runtimeS fl)))).toNat ∧
      IsDecimal c.toList (pyRound factor).toNat := by
  have hcut : cutStart start ≠ 0 ∨ s.cutEnd fl stop ≠ s.runtimeS fl := by
    rw [uncut_iff]
    rintro ⟨h1, h2⟩
    rcases hc with h | ⟨e, he, h⟩
    · have := le_max_right 0 (start.getD 0); linarith
    · have := h2 e he; linarith
  refine ⟨secStr (cutStart start), secStr (s.cutEnd fl stop), toString (pyRound factor), ?_, secStr_seconds _, secStr_seconds _, ?_⟩
  · rw [← String.toList_inj, cutName_list, if_pos hcut, tailOf, if_pos hf]
    simp only [String.toList_append, List.append_assoc]
  · rw [factor_text hf]; exact repr_decimal _

/-- **C77, only the whole recording in full resolution keeps its name.**  With a suffix of ".h5" this is the source itself, which then is the "result". -/
theorem C77_source (fl : ℚ → ℚ) (s : Session) (stem : String) (start stop : Option ℚ) (factor : ℚ) (hr : 0 ≤ s.runtimeS fl) (hs : ∀ e ∈ stop, 0 ≤ e) :
    s.cutName fl stem start stop factor = stem ++ ".h5" ↔ factor ≤ 1 ∧ start.getD 0 ≤ 0 ∧ ∀ e ∈ stop, s.runtimeS fl ≤ e := by
  have h0 : s.cutName fl stem none none 1 = stem ++ ".h5" := by
    rw [← String.toList_inj, cutName_list, if_neg (by rw [uncut_iff]; simp), tailOf, if_neg (by norm_num)]
    simp
  rw [← h0, C77_names fl s stem start stop none none factor 1 hr hs (by simp)]
  unfold shown
  rw [Prod.mk.injEq]
  have e1 : (if (max (0:ℚ) ((none : Option ℚ).getD 0) = 0 ∧ ∀ e ∈ (none : Option ℚ), s.runtimeS fl ≤ e) then (none : Option (ℤ × ℤ)) else
      some (pyRound (1000 * max 0 ((none : Option ℚ).getD 0)), pyRound (1000 * min (s.runtimeS fl) ((none : Option ℚ).getD (s.runtimeS fl))))) = none := by
    rw [if_pos]; simp
  rw [e1, if_pos (le_refl (1:ℚ))]
  constructor
  · rintro ⟨h1, h2⟩
    split_ifs at h1 h2 with a b
    exact ⟨b, by have := le_max_right 0 (start.getD 0); linarith [a.1], a.2⟩
  · rintro ⟨h1, h2, h3⟩
    exact ⟨if_pos ⟨max_eq_left h2, h3⟩, if_pos h1⟩

/-- Half a second to 2.05 s of a recording of 10 s. -/
example : (secStr (1/2), secStr (41/20), secStr 12) = ("0s500", "2s050", "12s000") := by decide +kernel

/-- The hypotheses are met by a recording of 1.2 s. -/
example : 0 ≤ (demoSession b64 120000 ⟨100000, 10000, 0⟩).runtimeS b64 ∧ ∀ e ∈ some (1/2 : ℚ), 0 ≤ e := by
  refine ⟨?_, by simp⟩
  rw [runtime_100kHz b64_accRounding _ 12 0 (by norm_num) (by norm_num) rfl (demo_facts b64_accRounding _ _).2.1]
  exact b64_rounding.nonneg (by norm_num)

end Verif.Props
