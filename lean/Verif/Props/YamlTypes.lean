import Verif.Model.YamlTypes
import Verif.Props.YamlText
import Verif.Props.StampText
import Verif.Props.FloatText

/-!
# Types of values in the files of models (C124)
-/

namespace Verif.Props
open Verif.Model Verif.Py

theorem digit_ne {c d : Char} (hc : c.isDigit = true) (hd : d.isDigit = false) : c ≠ d := by
  rintro rfl; rw [hc] at hd; exact absurd hd (by decide)

theorem skipDigits_all (t r : List Char) (ht : AllDigits t) (hr : ∀ c r', r = c :: r' → (c.isDigit || c = '_') = false) : skipDigits (t ++ r) = r := by
  unfold skipDigits
  induction t with
  | nil =>
    cases r with
    | nil => rfl
    | cons c r' => rw [List.nil_append, List.dropWhile_cons_of_neg (by rw [hr c r' rfl]; decide)]
  | cons a t ih => rw [List.cons_append, List.dropWhile_cons_of_pos (by simp [ht a (by simp)])]; exact ih (fun c hc => ht c (by simp [hc]))

theorem dec_head (k : ℕ) : ∃ c r, dec k = c :: r ∧ c.isDigit = true ∧ AllDigits r ∧ (c = '0' → r = []) := by
  have hall := (decValue_dec k).2
  by_cases hk : k = 0
  · exact ⟨'0', [], by simp [dec, hk], by decide, by simp [AllDigits], fun _ => rfl⟩
  · have hne : Nat.digits 10 k ≠ [] := by simpa [Nat.digits_ne_nil_iff_ne_zero] using hk
    have hlast := Nat.getLast_digit_ne_zero 10 hk
    have hlt : (Nat.digits 10 k).getLast hne < 10 := Nat.digits_lt_base (by norm_num) (List.getLast_mem hne)
    have e : dec k = Nat.digitChar ((Nat.digits 10 k).getLast hne) :: ((Nat.digits 10 k).dropLast.map Nat.digitChar).reverse := by
      unfold dec
      rw [if_neg hk]
      conv_lhs => rw [← List.dropLast_append_getLast hne]
      simp
    refine ⟨_, _, e, ?_, ?_, ?_⟩
    · exact hall _ (by rw [e]; simp)
    · exact fun c hc => hall c (by rw [e]; exact List.mem_cons_of_mem _ hc)
    · intro h
      have : ∀ d < 10, d ≠ 0 → Nat.digitChar d ≠ '0' := by decide
      exact absurd h (this _ hlt hlast)

/-! ## Integers -/

/-- The sign of a number as text. -/
def Sign (s : List Char) : Prop := s = [] ∨ s = ['-']

theorem unsign_sign {s : List Char} (hs : Sign s) (c : Char) (r : List Char) (hc : c.isDigit = true) : unsign (s ++ c :: r) = c :: r := by
  rcases hs with rfl | rfl
  · simp [unsign, digit_ne hc (show '+'.isDigit = false by decide), digit_ne hc (show '-'.isDigit = false by decide)]
  · simp [unsign]

/-- Numbers are no flags. -/
theorem number_no_bool {s : List Char} (hs : Sign s) (c : Char) (r : List Char) (hc : c.isDigit = true) : boolMatch (s ++ c :: r) = false ∧ nullMatch (s ++ c :: r) = false := by
  have h1 : ∀ x ∈ ["yes", "Yes", "YES", "no", "No", "NO", "true", "True", "TRUE", "false", "False", "FALSE", "on", "On", "ON", "off", "Off", "OFF"].map String.toList,
      ∃ a b, x = a :: b ∧ a.isDigit = false ∧ a ≠ '-' := by
    intro x hx
    cases x with
    | nil => exact absurd hx (by decide)
    | cons a b =>
      refine ⟨a, b, rfl, ?_⟩
      have : ∀ y ∈ ["yes", "Yes", "YES", "no", "No", "NO", "true", "True", "TRUE", "false", "False", "FALSE", "on", "On", "ON", "off", "Off", "OFF"].map String.toList,
        ((y.head?.getD 'a').isDigit = false ∧ y.head?.getD 'a' ≠ '-') := by decide
      exact this _ hx
  have h2 : ∀ y ∈ ["~", "null", "Null", "NULL", ""].map String.toList, ((y.head?.getD 'a').isDigit = false ∧ y.head?.getD 'a' ≠ '-') := by decide
  constructor
  · unfold boolMatch
    rw [decide_eq_false_iff_not]
    intro h
    obtain ⟨a, b, e, ha, hm⟩ := h1 _ h
    rcases hs with rfl | rfl
    · exact digit_ne hc ha (List.cons.inj e).1
    · exact hm (List.cons.inj e).1.symm
  · unfold nullMatch
    rw [decide_eq_false_iff_not]
    intro h
    have := h2 _ h
    rcases hs with rfl | rfl
    · simp [hc] at this
    · simp at this

theorem sixties_none (r : List Char) (h : ∀ r', r ≠ ':' :: r') : skipSixties false r = none := by
  unfold skipSixties
  split
  · exact absurd rfl (h _)
  · exact absurd rfl (h _)
  · rfl

theorem pointFloat_no (t : List Char) (h : ∀ r, t ≠ '.' :: r) : pointFloat t = false := by
  unfold pointFloat
  split
  · exact absurd rfl (h _)
  · rfl

theorem int_no_float {s : List Char} (hs : Sign s) (c : Char) (r : List Char) (hc : c.isDigit = true) (hr : AllDigits r) : floatMatch (s ++ c :: r) = false := by
  have hsk : skipDigits r = [] := by simpa using skipDigits_all r [] hr (by simp)
  unfold floatMatch
  simp only [unsign_sign hs c r hc, hsk, sixties_none [] (by simp)]
  have hp : c ≠ '.' := digit_ne hc (by decide)
  have h4 : c :: r ∉ [".inf".toList, ".Inf".toList, ".INF".toList] := by
    intro h
    have : ∀ y ∈ [".inf".toList, ".Inf".toList, ".INF".toList], y.head? = some '.' := by decide
    exact hp (Option.some.inj (this _ h))
  have h5 : s ++ c :: r ∉ [".nan".toList, ".NaN".toList, ".NAN".toList] := by
    intro h
    have : ∀ y ∈ [".nan".toList, ".NaN".toList, ".NAN".toList], y.head? = some '.' := by decide
    have := this _ h
    rcases hs with rfl | rfl
    · exact hp (Option.some.inj this)
    · exact absurd (Option.some.inj this) (by decide)
  have h3 : pointFloat (s ++ c :: r) = false := by
    refine pointFloat_no _ fun r' e => ?_
    rcases hs with rfl | rfl
    · exact absurd (List.cons.inj e).1 hp
    · exact absurd (List.cons.inj e).1 (by decide)
  rw [h3, decide_eq_false h4, decide_eq_false h5]
  simp

theorem int_resolves (i : ℤ) : ∃ s c r, intText i = s ++ c :: r ∧ Sign s ∧ (s = ['-'] ↔ i < 0) ∧ dec i.natAbs = c :: r ∧ c.isDigit = true ∧ AllDigits r ∧ (c = '0' → r = []) := by
  obtain ⟨c, r, e, h1, h2, h3⟩ := dec_head i.natAbs
  unfold intText
  by_cases hi : i < 0
  · exact ⟨['-'], c, r, by rw [if_pos hi, e]; rfl, Or.inr rfl, by simp [hi], e, h1, h2, h3⟩
  · exact ⟨[], c, r, by rw [if_neg hi, e]; rfl, Or.inl rfl, by simp [hi], e, h1, h2, h3⟩

theorem intText_tag (i : ℤ) : resolveTag (intText i) = some .int := by
  obtain ⟨s, c, r, e, hs, -, -, hc, hr, h0⟩ := int_resolves i
  have hm : intMatch (intText i) = true := by
    unfold intMatch
    rw [e, unsign_sign hs c r hc]
    by_cases hz : c = '0'
    · rw [h0 hz, hz]; decide
    · have hsk : skipDigits r = [] := by simpa using skipDigits_all r [] hr (by simp)
      split
      · rename_i h; exact absurd (List.cons.inj h).1 hz
      · rename_i h; exact absurd (List.cons.inj h).1 hz
      · rename_i h; exact absurd (List.cons.inj h).1 hz
      · rename_i h
        obtain ⟨rfl, rfl⟩ := List.cons.inj h
        simp [hc, hsk]
      · rename_i h; simp at h
  unfold resolveTag
  rw [hm, e, (number_no_bool hs c r hc).1, int_no_float hs c r hc hr]
  simp

theorem hexVal_digit {c : Char} (h : c.isDigit = true) : (Verif.Model.hexVal c).getD 0 = c.toNat - '0'.toNat := by
  have h' : '0' ≤ c ∧ c ≤ '9' := by
    unfold Char.isDigit at h
    simp only [Bool.and_eq_true, decide_eq_true_eq] at h
    exact h
  unfold Verif.Model.hexVal
  rw [if_pos h']
  rfl

theorem numBase_digits (t : List Char) (ht : AllDigits t) : numBase 10 t = decValue t := by
  have : ∀ acc, t.foldl (fun n c => 10 * n + (Verif.Model.hexVal c).getD 0) acc = t.foldl (fun a c => 10 * a + (c.toNat - '0'.toNat)) acc := by
    induction t with
    | nil => intro acc; rfl
    | cons a t ih => intro acc; rw [List.foldl_cons, List.foldl_cons, hexVal_digit (ht a (by simp)), ih (fun c hc => ht c (by simp [hc]))]
  exact this 0

theorem intText_value (i : ℤ) : yamlInt (intText i) = i := by
  obtain ⟨s, c, r, e, hs, hneg, hd, hc, hr, h0⟩ := int_resolves i
  have hv : decValue (c :: r) = i.natAbs := by rw [← hd]; exact (decValue_dec _).1
  have hall : AllDigits (c :: r) := by
    intro x hx
    rcases List.mem_cons.mp hx with rfl | hx
    · exact hc
    · exact hr x hx
  have hf : (s ++ c :: r).filter (· ≠ '_') = s ++ c :: r := by
    rw [List.filter_eq_self]
    intro x hx
    rcases List.mem_append.mp hx with hx | hx
    · rcases hs with rfl | rfl
      · simp at hx
      · rw [List.mem_singleton.mp hx]; decide
    · simpa using digit_ne (hall x hx) (show '_'.isDigit = false by decide)
  have hsign : (if (s ++ c :: r).head? = some '-' then (-1 : ℤ) else 1) * i.natAbs = i := by
    rcases hs with rfl | rfl
    · have : ¬ i < 0 := fun h => by simpa using hneg.2 h
      have hm : c ≠ '-' := digit_ne hc (by decide)
      simp [hm]; omega
    · have : i < 0 := hneg.1 rfl
      simp only [List.cons_append, List.nil_append, List.head?_cons, if_true]; omega
  unfold yamlInt
  rw [e]
  simp only [hf, unsign_sign hs c r hc]
  by_cases hz : c = '0'
  · have hr0 := h0 hz
    subst hz
    subst hr0
    have hi : i.natAbs = 0 := by rw [← hv]; decide
    have hi' : i = 0 := by omega
    simp [numBase, hi']
  · split
    · rename_i h; exact absurd (List.cons.inj h).1 hz
    · rename_i h; exact absurd (List.cons.inj h).1 hz
    · rename_i h; exact absurd (List.cons.inj h).1 hz
    · have hcol : ':' ∉ c :: r := hall.no (by decide)
      rw [if_neg hcol, numBase_digits _ hall, hv]
      exact hsign

/-! ## Floats -/

theorem float_tag (t : Name) (h : YamlFloatText t) : resolveTag t = some .float := by
  obtain ⟨s, i, f, e, rfl, hs, hi, hdi, hdf, he⟩ := h
  cases i with
  | nil => exact absurd rfl hi
  | cons c r =>
    have hc := hdi c (by simp)
    have hr : AllDigits r := fun x hx => hdi x (by simp [hx])
    have e1 : s ++ (c :: r) ++ '.' :: f ++ e = s ++ c :: (r ++ '.' :: (f ++ e)) := by simp
    have hex : exponentOk (skipDigits (f ++ e)) = true := by
      rcases he with rfl | ⟨g, x, rfl, hg, hx, hdx⟩
      · rw [skipDigits_all f [] hdf (by simp)]; rfl
      · rw [skipDigits_all f _ hdf (by rintro c' r' h; rw [← (List.cons.inj h).1]; decide)]
        simp only [exponentOk]
        have hall : x.all Char.isDigit = true := List.all_eq_true.mpr hdx
        have hemp : x.isEmpty = false := by simpa using hx
        rcases hg with rfl | rfl <;> simp [hall, hemp]
    have hm : floatMatch (s ++ c :: (r ++ '.' :: (f ++ e))) = true := by
      unfold floatMatch
      have hsk := skipDigits_all r ('.' :: (f ++ e)) hr (by rintro c' r' h; rw [← (List.cons.inj h).1]; decide)
      simp only [unsign_sign hs c _ hc, hsk]
      simp [hc, hex]
    rw [e1]
    unfold resolveTag
    rw [(number_no_bool hs c _ hc).1, hm]
    simp

/-! ## Dates -/

theorem digitOf_isDigit (n : ℕ) : (digitOf n).isDigit = true := by
  have : ∀ a < 10, (digitOf a).isDigit = true := by decide +kernel
  rw [digitOf_mod]
  exact this _ (Nat.mod_lt _ (by norm_num))

theorem fixedDigits_all (k n : ℕ) : AllDigits (fixedDigits k n) := by
  induction k with
  | zero => simp [fixedDigits, AllDigits]
  | succ k ih =>
    intro c hc
    rcases List.mem_cons.mp hc with rfl | hc
    · exact digitOf_isDigit _
    · exact ih c hc

theorem iso_form (s : PyStamp) : ∃ (d : Ymd) (r : List Char), isoText s = fixedDigits 4 d.year ++ '-' :: r := by
  cases s with
  | date d => exact ⟨d, _, rfl⟩
  | time d h m s f off => exact ⟨d, _, by simp [isoText, isoDate]; rfl⟩

theorem iso_no_number (y : ℕ) (r : List Char) : floatMatch (fixedDigits 4 y ++ '-' :: r) = false ∧ intMatch (fixedDigits 4 y ++ '-' :: r) = false ∧
    boolMatch (fixedDigits 4 y ++ '-' :: r) = false ∧ nullMatch (fixedDigits 4 y ++ '-' :: r) = false := by
  have e : fixedDigits 4 y ++ '-' :: r = [] ++ digitOf (y / 10^3) :: (fixedDigits 3 y ++ '-' :: r) := rfl
  have hc := digitOf_isDigit (y / 10^3)
  have hsk : skipDigits (fixedDigits 3 y ++ '-' :: r) = '-' :: r := skipDigits_all _ _ (fixedDigits_all 3 y) (by rintro c' r' h; rw [← (List.cons.inj h).1]; decide)
  have hu : unsign (fixedDigits 4 y ++ '-' :: r) = digitOf (y / 10^3) :: (fixedDigits 3 y ++ '-' :: r) := by rw [e]; exact unsign_sign (Or.inl rfl) _ _ hc
  have hp : digitOf (y / 10^3) ≠ '.' := digit_ne hc (by decide)
  have hsix := sixties_none ('-' :: r) (by simp)
  refine ⟨?_, ?_, ?_, ?_⟩
  · unfold floatMatch
    simp only [hu, hsk, hsix]
    have h4 : digitOf (y / 10^3) :: (fixedDigits 3 y ++ '-' :: r) ∉ [".inf".toList, ".Inf".toList, ".INF".toList] := by
      intro h
      have : ∀ y ∈ [".inf".toList, ".Inf".toList, ".INF".toList], y.head? = some '.' := by decide
      exact hp (Option.some.inj (this _ h))
    have h5 : fixedDigits 4 y ++ '-' :: r ∉ [".nan".toList, ".NaN".toList, ".NAN".toList] := by
      intro h
      have : ∀ y ∈ [".nan".toList, ".NaN".toList, ".NAN".toList], y.head? = some '.' := by decide
      exact hp (Option.some.inj (this _ h))
    have h3 : pointFloat (fixedDigits 4 y ++ '-' :: r) = false := pointFloat_no _ fun r' h => hp (List.cons.inj h).1
    rw [h3, decide_eq_false h4, decide_eq_false h5]
    simp
  · unfold intMatch
    rw [hu]
    have hd2 : ∀ n, digitOf n ≠ 'b' ∧ digitOf n ≠ 'x' := fun n => ⟨digit_ne (digitOf_isDigit n) (by decide), digit_ne (digitOf_isDigit n) (by decide)⟩
    split
    · rename_i h; exact absurd (List.cons.inj (List.cons.inj h).2).1 (hd2 _).1
    · rename_i h; exact absurd (List.cons.inj (List.cons.inj h).2).1 (hd2 _).2
    · rename_i h
      obtain ⟨-, rfl⟩ := List.cons.inj h
      rw [List.all_append]
      simp only [List.all_cons]
      simp
    · rename_i h
      obtain ⟨rfl, rfl⟩ := List.cons.inj h
      rw [hsk, hsix]
      simp
    · rename_i h; simp at h
  · rw [e]; exact (number_no_bool (Or.inl rfl) _ _ hc).1
  · rw [e]; exact (number_no_bool (Or.inl rfl) _ _ hc).2

theorem iso_tag (s : PyStamp) (h : RealStamp s) (hw : WholeMinutes s) : resolveTag (isoText s) = some .timestamp := by
  classical
  have hr := read_iso s h
  rw [if_pos hw] at hr
  have hm : stampMatch (isoText s) = true := by
    unfold stampMatch
    cases s with
    | date d =>
      obtain ⟨hr', hy⟩ := h
      obtain ⟨-, hm, hd⟩ := dateOk_real hr' hy
      have := head_read d (by omega) hm hd []
      rw [List.append_nil] at this
      have hl : (isoDate d).length = 10 := by simp [isoDate, fixedDigits_length]
      simp [isoText, this, hl]
    | time d hh mm ss f off =>
      obtain ⟨⟨hr', hy⟩, -⟩ := h
      obtain ⟨-, hm, hd⟩ := dateOk_real hr' hy
      obtain ⟨x, hx⟩ : ∃ x, isoText (.time d hh mm ss f off) = isoDate d ++ ' ' :: x := ⟨_, rfl⟩
      rw [hr, hx, head_read d (by omega) hm hd]
  obtain ⟨d, r, e⟩ := iso_form s
  obtain ⟨h1, h2, h3, h4⟩ := iso_no_number d.year r
  rw [← e] at h1 h2 h3 h4
  have h5 : isoText s ≠ ['<', '<'] := by
    rw [e]; intro h
    exact digit_ne (digitOf_isDigit _) (show '<'.isDigit = false by decide) (List.cons.inj h).1
  unfold resolveTag
  simp [h1, h2, h3, h4, h5, hm]

/-! ## Written without quotes -/

theorem later_none (p : Bool) (r : List Char) (h1 : ':' ∉ r) (h2 : '#' ∉ r) : laterIndicator p r = false := by
  induction r generalizing p with
  | nil => rfl
  | cons c r ih =>
    simp only [List.mem_cons, not_or] at h1 h2
    rw [laterIndicator, ih _ h1.2 h2.2]
    simp [Ne.symm h1.1, Ne.symm h2.1]

theorem digit_ws {c : Char} (hc : c.isDigit = true) : isWs c = false := by
  unfold isWs
  simp [digit_ne hc (show ' '.isDigit = false by decide), digit_ne hc (show '\t'.isDigit = false by decide), digit_ne hc (show '\n'.isDigit = false by decide),
    digit_ne hc (show '\r'.isDigit = false by decide), digit_ne hc (show '\x00'.isDigit = false by decide)]

theorem digit_indicator {c : Char} (hc : c.isDigit = true) (r : List Char) : firstIndicator (c :: r) = false := by
  have h1 : ∀ x ∈ "#,[]{}&*!|>'\"%@`".toList, x.isDigit = false := by decide
  have h2 : ∀ x ∈ "?:".toList, x.isDigit = false := by decide
  simp only [firstIndicator]
  rw [decide_eq_false (fun h => digit_ne hc (h1 c h) rfl), decide_eq_false (fun h => digit_ne hc (h2 c h) rfl), decide_eq_false (digit_ne hc (show '-'.isDigit = false by decide))]
  rfl

theorem plain_number {s : List Char} (hs : Sign s) (c : Char) (r : List Char) (hc : c.isDigit = true) (hl : laterIndicator false r = false) (hlast : (c :: r).getLast (by simp) ≠ ' ') :
    plainOk (s ++ c :: r) = true := by
  have hb : c ≠ ' ' := digit_ne hc (by decide)
  have hm : c ≠ '-' := digit_ne hc (by decide)
  have hp : c ≠ '.' := digit_ne hc (by decide)
  have hco : c ≠ ':' := digit_ne hc (by decide)
  have hh : c ≠ '#' := digit_ne hc (by decide)
  rcases hs with rfl | rfl
  · have hmark : markAt (c :: r) = false := by unfold markAt; simp [hm, hp]
    simp only [List.nil_append, plainOk]
    rw [hmark, digit_indicator hc, digit_ws hc, hl, decide_eq_false hb, decide_eq_false hlast]
    rfl
  · have hmark : markAt ('-' :: c :: r) = false := by unfold markAt; simp [hm]
    have hfirst : firstIndicator ('-' :: c :: r) = false := by
      simp only [firstIndicator]
      have : followed (c :: r) = false := digit_ws hc
      rw [this, decide_eq_false (show '-' ∉ "#,[]{}&*!|>'\"%@`".toList by decide)]
      simp
    have hlat : laterIndicator (isWs '-') (c :: r) = false := by
      rw [laterIndicator, digit_ws hc, hl]
      simp [hco, hh]
    have hlast' : ('-' :: c :: r).getLast (by simp) ≠ ' ' := by rw [List.getLast_cons (by simp)]; exact hlast
    simp only [List.cons_append, List.nil_append, plainOk]
    rw [hmark, hfirst, hlat, decide_eq_false hlast']
    rfl

/-- Characters of numbers and dates. -/
def ValueChar (c : Char) : Prop := c.isDigit = true ∨ c ∈ "-+.:e ".toList

theorem value_special (t : List Char) (h : ∀ c ∈ t, ValueChar c) : specialText t = false ∧ mixedGaps t = false ∧ '\n' ∉ t := by
  have hch : ∀ c, ValueChar c → ' ' ≤ c ∧ c ≤ '~' ∧ c ≠ '\n' := by
    intro c hc
    rcases hc with hc | hc
    · have h' : '0' ≤ c ∧ c ≤ '9' := by
        unfold Char.isDigit at hc
        simp only [Bool.and_eq_true, decide_eq_true_eq] at hc
        exact hc
      exact ⟨le_trans (by decide) h'.1, le_trans h'.2 (by decide), digit_ne hc (by decide)⟩
    · have : ∀ x ∈ "-+.:e ".toList, ' ' ≤ x ∧ x ≤ '~' ∧ x ≠ '\n' := by decide
      exact this c hc
  have hn : '\n' ∉ t := fun hm => (hch _ (h _ hm)).2.2 rfl
  refine ⟨?_, ?_, hn⟩
  · unfold specialText
    rw [List.any_eq_false]
    intro c hc
    obtain ⟨a, b, -⟩ := hch c (h c hc)
    simp [a, b]
  · clear h hch
    induction t with
    | nil => rfl
    | cons c r ih =>
      simp only [List.mem_cons, not_or] at hn
      rw [mixedGaps, ih hn.2]
      have h1 : r.head? ≠ some '\n' := fun h => hn.2 (List.mem_of_mem_head? h)
      simp [h1, Ne.symm hn.1]

/-- A value whose text is not quoted. -/
def Unquoted (tag : YTag) (t : List Char) : Prop := resolveTag t = some tag ∧ plainOk t = true ∧ specialText t = false ∧ mixedGaps t = false ∧ '\n' ∉ t

theorem unquoted_int (i : ℤ) : Unquoted .int (intText i) := by
  obtain ⟨s, c, r, e, hs, -, -, hc, hr, -⟩ := int_resolves i
  have hall : ∀ x ∈ intText i, ValueChar x := by
    rw [e]
    intro x hx
    rcases List.mem_append.mp hx with hx | hx
    · rcases hs with rfl | rfl
      · simp at hx
      · rw [List.mem_singleton.mp hx]; exact Or.inr (by decide)
    · rcases List.mem_cons.mp hx with rfl | hx
      · exact Or.inl hc
      · exact Or.inl (hr x hx)
  refine ⟨intText_tag i, ?_, value_special _ hall⟩
  rw [e]
  refine plain_number hs c r hc (later_none _ _ (hr.no (by decide)) (hr.no (by decide))) ?_
  have := List.getLast_mem (l := c :: r) (by simp)
  rcases List.mem_cons.mp this with h | h
  · rw [h]; exact digit_ne hc (by decide)
  · exact digit_ne (hr _ h) (by decide)

theorem unquoted_float (t : Name) (h : YamlFloatText t) : Unquoted .float t := by
  refine ⟨float_tag t h, ?_⟩
  obtain ⟨s, i, f, e, rfl, hs, hi, hdi, hdf, he⟩ := h
  have hch : ∀ x ∈ i ++ '.' :: f ++ e, x.isDigit = true ∨ x ∈ "-+.e".toList := by
    intro x hx
    simp only [List.append_assoc, List.cons_append, List.mem_append, List.mem_cons] at hx
    rcases hx with hx | rfl | hx | hx
    · exact Or.inl (hdi x hx)
    · exact Or.inr (by decide)
    · exact Or.inl (hdf x hx)
    · rcases he with rfl | ⟨g, y, rfl, hg, -, hdy⟩
      · simp at hx
      · simp only [List.mem_cons] at hx
        rcases hx with rfl | rfl | hx
        · exact Or.inr (by decide)
        · rcases hg with rfl | rfl <;> exact Or.inr (by decide)
        · exact Or.inl (hdy x hx)
  have hno : ∀ d : Char, d.isDigit = false → d ∉ "-+.e".toList → d ∉ i ++ '.' :: f ++ e := by
    intro d h1 h2 hm
    rcases hch d hm with h | h
    · rw [h] at h1; exact absurd h1 (by decide)
    · exact h2 h
  have hall : ∀ x ∈ s ++ i ++ '.' :: f ++ e, ValueChar x := by
    intro x hx
    rw [List.append_assoc, List.append_assoc] at hx
    rcases List.mem_append.mp hx with hx | hx
    · rcases hs with rfl | rfl
      · simp at hx
      · rw [List.mem_singleton.mp hx]; exact Or.inr (by decide)
    · rcases hch x (by rw [List.append_assoc]; exact hx) with h | h
      · exact Or.inl h
      · have : ∀ y ∈ "-+.e".toList, y ∈ "-+.:e ".toList := by decide
        exact Or.inr (this x h)
  refine ⟨?_, value_special _ hall⟩
  cases i with
  | nil => exact absurd rfl hi
  | cons c r =>
    have e1 : s ++ (c :: r) ++ '.' :: f ++ e = s ++ c :: (r ++ '.' :: f ++ e) := by simp
    have e2 : (c :: r) ++ '.' :: f ++ e = c :: (r ++ '.' :: f ++ e) := by simp
    rw [e2] at hno
    rw [e1]
    refine plain_number hs c _ (hdi c (by simp)) (later_none _ _ ?_ ?_) ?_
    · exact fun h => hno ':' (by decide) (by decide) (List.mem_cons_of_mem _ h)
    · exact fun h => hno '#' (by decide) (by decide) (List.mem_cons_of_mem _ h)
    · intro h
      exact hno ' ' (by decide) (by decide) (h ▸ List.getLast_mem (l := c :: (r ++ '.' :: f ++ e)) (by simp))

theorem digitOf_marks (n : ℕ) : digitOf n ≠ ':' ∧ digitOf n ≠ '#' ∧ digitOf n ≠ ' ' ∧ isWs (digitOf n) = false :=
  ⟨digit_ne (digitOf_isDigit n) (by decide), digit_ne (digitOf_isDigit n) (by decide), digit_ne (digitOf_isDigit n) (by decide), digit_ws (digitOf_isDigit n)⟩

theorem unquoted_date (s : PyStamp) (h : RealStamp s) (hw : WholeMinutes s) : Unquoted .timestamp (isoText s) := by
  have hdig : ∀ k n, ∀ x ∈ fixedDigits k n, ValueChar x := fun k n x hx => Or.inl (fixedDigits_all k n x hx)
  have hoff : ∀ off : Option ℤ, (∀ us, off = some us → ∃ k : ℤ, us = k * 60000000) → off = none ∨ ∃ c a b, (c = '+' ∨ c = '-') ∧ offsetText off = c :: (fixedDigits 2 a ++ ':' :: fixedDigits 2 b) := by
    intro off ho
    cases off with
    | none => exact Or.inl rfl
    | some us =>
      obtain ⟨k, hk⟩ := ho us rfl
      have hz : us.natAbs % 60000000 = 0 := by omega
      refine Or.inr ⟨_, us.natAbs / 3600000000, us.natAbs / 60000000 % 60, sign_sign us, ?_⟩
      simp [offsetText, isoOffset, hz]
  refine ⟨iso_tag s h hw, ?_⟩
  cases s with
  | date d =>
    refine ⟨?_, value_special _ ?_⟩
    · have := plain_number (s := []) (Or.inl rfl) (digitOf (d.year / 10^3)) (fixedDigits 3 d.year ++ '-' :: (fixedDigits 2 d.month ++ '-' :: fixedDigits 2 d.day)) (digitOf_isDigit _)
        (by simp [fixedDigits, laterIndicator, digitOf_marks]) (by simp [fixedDigits, digitOf_marks])
      exact this
    · intro x hx
      simp only [isoText, isoDate, List.mem_append, List.mem_cons] at hx
      rcases hx with hx | rfl | hx | rfl | hx
      · exact hdig _ _ x hx
      · exact Or.inr (by decide)
      · exact hdig _ _ x hx
      · exact Or.inr (by decide)
      · exact hdig _ _ x hx
  | time d hh mm ss f off =>
    have e : isoText (.time d hh mm ss f off) = [] ++ digitOf (d.year / 10^3) :: (fixedDigits 3 d.year ++ '-' :: (fixedDigits 2 d.month ++ '-' :: (fixedDigits 2 d.day ++ ' ' :: (fixedDigits 2 hh ++ ':' :: (fixedDigits 2 mm ++
        ':' :: (fixedDigits 2 ss ++ ((if f = 0 then [] else '.' :: fixedDigits 6 f) ++ offsetText off))))))) := by
      cases off <;> simp [isoText, isoDate, offsetText, fixedDigits]
    have ho := hoff off hw
    refine ⟨?_, value_special _ ?_⟩
    · rw [e]
      refine plain_number (Or.inl rfl) _ _ (digitOf_isDigit _) ?_ ?_
      · rcases ho with rfl | ⟨c, a, b, hc, he⟩
        · by_cases hf : f = 0 <;> simp [hf, fixedDigits, laterIndicator, digitOf_marks, offsetText, followed]
        · rw [he]
          rcases hc with rfl | rfl <;> by_cases hf : f = 0 <;> simp [hf, fixedDigits, laterIndicator, digitOf_marks, followed]
      · rcases ho with rfl | ⟨c, a, b, hc, he⟩
        · by_cases hf : f = 0 <;> simp [hf, fixedDigits, digitOf_marks, offsetText]
        · rw [he]
          by_cases hf : f = 0 <;> simp [hf, fixedDigits, digitOf_marks]
    · rw [e]
      intro x hx
      simp only [List.nil_append, List.mem_append, List.mem_cons] at hx
      rcases hx with rfl | hx | rfl | hx | rfl | hx | rfl | hx | rfl | hx | rfl | hx | hx | hx
      · exact Or.inl (digitOf_isDigit _)
      · exact hdig _ _ x hx
      · exact Or.inr (by decide)
      · exact hdig _ _ x hx
      · exact Or.inr (by decide)
      · exact hdig _ _ x hx
      · exact Or.inr (by decide)
      · exact hdig _ _ x hx
      · exact Or.inr (by decide)
      · exact hdig _ _ x hx
      · exact Or.inr (by decide)
      · exact hdig _ _ x hx
      · by_cases hf : f = 0
        · simp [hf] at hx
        · rw [if_neg hf] at hx
          rcases List.mem_cons.mp hx with rfl | hx
          · exact Or.inr (by decide)
          · exact hdig _ _ x hx
      · rcases ho with rfl | ⟨c, a, b, hc, he⟩
        · simp [offsetText] at hx
        · rw [he] at hx
          simp only [List.mem_append, List.mem_cons] at hx
          rcases hx with rfl | hx | rfl | hx
          · rcases hc with rfl | rfl <;> exact Or.inr (by decide)
          · exact hdig _ _ x hx
          · exact Or.inr (by decide)
          · exact hdig _ _ x hx

/-! ## The claim -/

/-- Values that can be stored: floats are binary64 numbers, dates exist and have offsets of whole minutes; texts are any. -/
def Storable : PyObj → Prop
  | .none | .bool _ | .int _ | .text _ => True
  | .float q => b64 q = q
  | .datetime t => ∃ s, RealStamp s ∧ WholeMinutes s ∧ t = isoText s
  | _ => False

/-- The text `t` in a file, taken for the type `tag`, is read as the value. -/
def ReadAs : YTag → List Char → PyObj → Prop
  | .null, _, .none => True
  | .bool, t, .bool b => yamlBool t = some b
  | .int, t, .int i => yamlInt t = i
  | .float, t, .float q => readFloat t = q
  | .timestamp, t, .datetime d => ∃ s, readStamp t = .ok s ∧ d = isoText s
  | .str, t, .text s => t = s
  | _, _, _ => False

/-- **C124, types and values.**  Every flag, integer, float, date, text and `None` in a model gets a text that is read as the same value, and is laid out in the file so that the reader finds this text, takes it for a value of this type
and goes on with the next line: what is not a text is written without quotes and resolved to its type. -/
theorem C124_values (fl : ℚ → ℚ) (tx : YTexts) (htx : tx.float = yamlFloat) (x : PyObj) (hx : Storable x) :
    ∃ tag t, represent fl tx x = .ok (.scalar tag t) ∧ ReadAs tag t x ∧ (tag ≠ .str → resolveTag t = some tag) ∧
      ∀ i w col m tail, i ≤ w → w < 80 → i ≤ col → m < i → (∀ r, tail ≠ ' ' :: r) → (∀ r, tail ≠ '\n' :: r) → docSep (List.replicate m ' ' ++ tail) = false →
        (tag ≠ .str → ∀ r, writeText (fun t => resolveTag t = some tag) w col t ≠ '\'' :: r ∧ writeText (fun t => resolveTag t = some tag) w col t ≠ '"' :: r) ∧
        ∃ rest, readText (fun t => resolveTag t = some tag) i col (writeText (fun t => resolveTag t = some tag) w col t ++ '\n' :: (List.replicate m ' ' ++ tail)) = some (t, true, rest) ∧ dropBlank rest = tail := by
  have key : ∀ tag t, (tag = .str ∨ Unquoted tag t) → (tag ≠ .str → resolveTag t = some tag) ∧
      ∀ i w col m tail, i ≤ w → w < 80 → i ≤ col → m < i → (∀ r, tail ≠ ' ' :: r) → (∀ r, tail ≠ '\n' :: r) → docSep (List.replicate m ' ' ++ tail) = false →
        (tag ≠ .str → ∀ r, writeText (fun t => resolveTag t = some tag) w col t ≠ '\'' :: r ∧ writeText (fun t => resolveTag t = some tag) w col t ≠ '"' :: r) ∧
        ∃ rest, readText (fun t => resolveTag t = some tag) i col (writeText (fun t => resolveTag t = some tag) w col t ++ '\n' :: (List.replicate m ' ' ++ tail)) = some (t, true, rest) ∧ dropBlank rest = tail := by
    intro tag t h
    refine ⟨fun hne => ?_, fun i w col m tail a b c d e f g => ⟨fun hne => ?_, C123_text _ i w col m a b c d t tail e f g⟩⟩
    · rcases h with h | h
      · exact absurd h hne
      · exact h.1
    · rcases h with h | ⟨h1, h2, h3, h4, h5⟩
      · exact absurd h hne
      · have ht : writeText (fun t => resolveTag t = some tag) w col t = writePlain w col 0 t := by
          unfold writeText
          rw [h3, h4, h2, decide_eq_false h5]
          simp [h1]
        rw [ht]
        cases t with
        | nil => simp [plainOk] at h2
        | cons c r =>
          unfold plainOk at h2
          simp only [Bool.and_eq_true, Bool.not_eq_true', decide_eq_false_iff_not] at h2
          obtain ⟨⟨⟨⟨hc, -⟩, -⟩, hf⟩, -⟩ := h2
          unfold firstIndicator at hf
          simp only [Bool.or_eq_false_iff, decide_eq_false_iff_not] at hf
          have hform : writePlain w col 0 (c :: r) = c :: writePlain w (col + 1) 0 r := by
            rw [writePlain, if_neg hc]
            simp [writeBlanks]
          rw [hform]
          intro r'
          refine ⟨fun h => ?_, fun h => ?_⟩
          · exact hf.1.1 ((List.cons.inj h).1 ▸ by decide)
          · exact hf.1.1 ((List.cons.inj h).1 ▸ by decide)
  cases x with
  | none => exact ⟨.null, _, by rw [represent], trivial, key _ _ (Or.inr (by unfold Unquoted; decide +kernel))⟩
  | bool b =>
    refine ⟨.bool, _, by rw [represent], ?_, key _ _ (Or.inr ?_)⟩
    · cases b <;> (unfold ReadAs; decide +kernel)
    · cases b <;> (unfold Unquoted; decide +kernel)
  | int i => exact ⟨.int, _, by rw [represent], intText_value i, key _ _ (Or.inr (unquoted_int i))⟩
  | float q =>
    obtain ⟨h1, h2⟩ := C117_yaml q hx
    exact ⟨.float, yamlFloat q, by rw [represent, htx], h2, key _ _ (Or.inr (unquoted_float _ h1))⟩
  | text s => exact ⟨.str, s, by rw [represent], rfl, key _ _ (Or.inl rfl)⟩
  | datetime t =>
    obtain ⟨s, h1, h2, rfl⟩ := hx
    classical
    have hr := read_iso s h1
    rw [if_pos h2] at hr
    exact ⟨.timestamp, isoText s, by rw [represent], ⟨s, hr, rfl⟩, key _ _ (Or.inr (unquoted_date s h1 h2))⟩
  | _ => exact absurd hx (by simp [Storable])

/-- **C124, different values.**  A text of a type is read as one value only: no two different values share type and text in a file. -/
theorem C124_different (fl : ℚ → ℚ) (tx : YTexts) (htx : tx.float = yamlFloat) (x y : PyObj) (hx : Storable x) (hy : Storable y) (h : represent fl tx x = represent fl tx y) : x = y := by
  obtain ⟨tag, t, h1, h2, -⟩ := C124_values fl tx htx x hx
  obtain ⟨tag', t', h1', h2', -⟩ := C124_values fl tx htx y hy
  rw [h1, h1'] at h
  injection h with h
  injection h with ht htt
  subst ht htt
  cases x <;> cases tag <;> simp only [ReadAs] at h2 <;> cases y <;> simp only [ReadAs] at h2'
  · rfl
  · rw [h2] at h2'
    rw [Option.some.inj h2']
  · rw [← h2, ← h2']
  · rw [← h2, ← h2']
  · rw [← h2, ← h2']
  · obtain ⟨s, a, rfl⟩ := h2
    obtain ⟨s', a', rfl⟩ := h2'
    rw [a] at a'
    injection a' with a'
    rw [a']

/-- A date, a float, numbers and texts that look like them. -/
example : Storable (.datetime (isoText (.time ⟨2024, 2, 29⟩ 23 59 59 7 (some 7200000000)))) :=
  ⟨.time ⟨2024, 2, 29⟩ 23 59 59 7 (some 7200000000), ⟨⟨by unfold RealDate monthLength LeapYear; decide, by decide⟩, by decide, by decide, by decide, by decide, fun us h => by injection h with h; omega⟩,
    fun us h => ⟨120, by injection h with h; omega⟩, rfl⟩
example : resolveTag "-17".toList = some .int ∧ resolveTag "1.5".toList = some .float ∧ resolveTag "1e5".toList = some .str ∧ resolveTag "2024-02-29".toList = some .timestamp ∧ resolveTag "yes".toList = some .bool ∧
    resolveTag "~".toList = some .null ∧ resolveTag "12:30".toList = some .int ∧ resolveTag "010".toList = some .int ∧ yamlInt "010".toList = 8 ∧ yamlInt "-12:30".toList = -750 := by decide +kernel
example : writeText (fun t => resolveTag t = some .str) 2 10 "true".toList = "'true'".toList ∧ writeText (fun t => resolveTag t = some .bool) 2 10 "true".toList = "true".toList := by decide +kernel

end Verif.Props
