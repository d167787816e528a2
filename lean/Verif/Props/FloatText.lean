import Verif.Model.FloatText
import Verif.Props.YamlDump

/-!
# C117 Numbers written as text are read back exactly
-/

namespace Verif.Props
open Verif.Py Verif.Model

/-! ## Specification -/

/-- The value of digits with or without a point. -/
def mantissaValue (t : Name) : ℚ :=
  match splitText ['.'] t with
  | [i] => decValue i
  | [i, f] => decValue (i ++ f) / 10 ^ f.length
  | _ => 0

/-- The value of an exponent. -/
def exponentValue : Name → ℤ
  | '+' :: t => decValue t
  | '-' :: t => -decValue t
  | t => decValue t

/-- The value of a number without sign, with or without an exponent. -/
def unsignedValue (t : Name) : ℚ :=
  match splitText ['e'] t with
  | [m] => mantissaValue m
  | [m, e] => mantissaValue m * 10 ^ exponentValue e
  | _ => 0

/-- The decimal value of a text. -/
def decimalValue : Name → ℚ
  | '-' :: t => -unsignedValue t
  | t => unsignedValue t

/-- `float(text)`: the nearest binary64 of the decimal value. -/
def readFloat (t : Name) : ℚ := b64 (decimalValue t)

/-! ## Seventeen digits are enough -/

theorem pow10_eq (e : ℤ) : pow10 e = (10:ℚ)^e := by
  cases e with
  | ofNat n => simp [pow10]
  | negSucc n => simp [pow10, Rat.mkRat_eq_div, zpow_negSucc]

theorem b64_near {x y : ℚ} (hy : 0 < y) {m : ℤ} (hx : x = m * pow2 (ulpExp y)) (h : |y - x| < pow2 (ulpExp y) / 2) : b64 y = x := by
  rw [b64_of_pos hy]
  have hp := pow2_pos (ulpExp y)
  have : pyRound (y / pow2 (ulpExp y)) = m := by
    apply pyRound_eq_of_lt
    have e : y / pow2 (ulpExp y) - m = (y - x) / pow2 (ulpExp y) := by rw [hx]; field_simp
    rw [e, abs_div, abs_of_pos hp, div_lt_iff₀ hp]
    linarith
  rw [this, hx]

theorem ilog2_eq {x : ℚ} {k : ℤ} (h1 : pow2 k ≤ x) (h2 : x < pow2 (k + 1)) : ilog2 x = k := by
  have hx : 0 < x := lt_of_lt_of_le (pow2_pos k) h1
  obtain ⟨a, b⟩ := ilog2_spec hx
  have mono : ∀ {i j : ℤ}, pow2 i < pow2 j → i < j := by
    intro i j h
    rw [pow2_eq, pow2_eq] at h
    exact (zpow_lt_zpow_iff_right₀ (by norm_num)).1 h
  have := mono (lt_of_le_of_lt a h2)
  have := mono (lt_of_le_of_lt h1 b)
  omega

/-- A binary64 is a multiple of the unit in its last place, and of smaller ones. -/
theorem b64_grid {x : ℚ} (hx : 0 < x) (h : b64 x = x) {e : ℤ} (he : e ≤ ulpExp x) : ∃ m : ℤ, x = m * pow2 e := by
  rw [b64_of_pos hx] at h
  refine ⟨pyRound (x / pow2 (ulpExp x)) * 2 ^ (ulpExp x - e).toNat, ?_⟩
  generalize pyRound (x / pow2 (ulpExp x)) = m at *
  rw [pow2_eq_grid he] at h
  refine h.symm.trans ?_
  push_cast
  ring

/-- What is closer to a binary64 than 2^-54 of it is rounded to it. -/
theorem b64_close {x y : ℚ} (hx : 0 < x) (h : b64 x = x) (hd : |y - x| < x / 2^54) : b64 y = x := by
  obtain ⟨l1, l2⟩ := ilog2_spec hx
  set L := ilog2 x with hL
  have hu : ulpExp x = max (L - 52) (-1074) := by simp [ulpExp, abs_of_pos hx, hL]
  have hstep : ∀ k : ℤ, pow2 (k + 1) = 2 * pow2 k := by
    intro k; rw [pow2_eq, pow2_eq, zpow_add_one₀ (by norm_num)]; ring
  have hshift : ∀ k : ℤ, pow2 k = 2^52 * pow2 (k - 52) := by
    intro k; rw [pow2_eq, pow2_eq, ← zpow_natCast (2:ℚ) 52, ← zpow_add₀ (by norm_num)]; congr 1; push_cast; ring
  have hd' := abs_lt.1 hd
  have hy : 0 < y := by
    have : x / 2^54 < x := by rw [div_lt_iff₀ (by norm_num)]; nlinarith
    linarith
  have hp0 := pow2_pos L
  have hp1 := pow2_pos (L - 52)
  have hs := hshift L
  have hs1 := hstep L
  -- the distance is less than a quarter and, at the lower end, less than an eighth of the unit
  have hhalf : |y - x| < pow2 (L - 52) / 2 := by
    refine lt_trans hd ?_
    rw [div_lt_iff₀ (by norm_num)]
    nlinarith
  have hul : pow2 (L - 52) ≤ pow2 (ulpExp x) := pow2_le_pow2 (by rw [hu]; exact le_max_left _ _)
  rcases lt_or_ge y (pow2 L) with hlow | hlow
  · -- below the power of two: then x is the power of two
    have hx2 : x = pow2 L := by
      by_contra hne
      have hgt : pow2 L < x := lt_of_le_of_ne l1 (Ne.symm hne)
      -- x is a multiple of 2^(L-52), as is 2^L
      obtain ⟨m, hm⟩ := b64_grid hx h (e := L - 52) (by rw [hu]; exact le_max_left _ _)
      rw [hm, hs] at hgt
      have hm1 : (2^52 : ℤ) < m := by
        have : ((2^52 : ℤ) : ℚ) < m := by
          push_cast
          exact lt_of_mul_lt_mul_right hgt hp1.le
        exact_mod_cast this
      have hm2 : ((2^52 : ℤ) : ℚ) + 1 ≤ m := by exact_mod_cast hm1
      have : x ≥ pow2 L + pow2 (L - 52) := by
        rw [hm, hs]
        push_cast at hm2
        nlinarith
      have := abs_lt.1 hhalf
      linarith
    have hy2 : pow2 (L - 1) ≤ y := by
      have e : pow2 L = 2 * pow2 (L - 1) := by rw [← hstep]; congr 1; ring
      have : x / 2^54 < pow2 (L - 1) := by rw [div_lt_iff₀ (by norm_num), hx2, e]; nlinarith [pow2_pos (L - 1)]
      linarith
    have hly : ilog2 y = L - 1 := ilog2_eq hy2 (by rw [sub_add_cancel]; exact hlow)
    have huy : ulpExp y = max (L - 53) (-1074) := by
      simp only [ulpExp, abs_of_pos hy, hly]; congr 1; ring
    have hle : ulpExp y ≤ ulpExp x := by rw [hu, huy]; exact max_le_max (by omega) le_rfl
    obtain ⟨m, hm⟩ := b64_grid hx h hle
    refine b64_near hy hm (lt_of_lt_of_le hd ?_)
    have h53 : pow2 (L - 53) ≤ pow2 (ulpExp y) := pow2_le_pow2 (by rw [huy]; exact le_max_left _ _)
    have e : pow2 (L - 52) = 2 * pow2 (L - 53) := by rw [← hstep]; congr 1; ring
    rw [hx2, hs, e]
    have : (2:ℚ)^52 * (2 * pow2 (L - 53)) / 2^54 = pow2 (L - 53) / 2 := by ring
    rw [this]
    linarith
  · rcases lt_or_ge y (pow2 (L + 1)) with hup | hup
    · have hly : ilog2 y = L := ilog2_eq hlow hup
      have huy : ulpExp y = ulpExp x := by rw [hu]; simp only [ulpExp, abs_of_pos hy, hly]
      obtain ⟨m, hm⟩ := b64_grid hx h huy.le
      refine b64_near hy hm (lt_of_lt_of_le hhalf ?_)
      rw [huy]; linarith
    · -- above the next power of two: impossible
      exfalso
      obtain ⟨m, hm⟩ := b64_grid hx h (e := L - 52) (by rw [hu]; exact le_max_left _ _)
      have e : pow2 (L + 1) = 2^53 * pow2 (L - 52) := by rw [hs1, hs]; ring
      rw [hm, e] at l2
      have hm1 : m < (2^53 : ℤ) := by
        have : (m : ℚ) < ((2^53 : ℤ) : ℚ) := by
          push_cast
          exact lt_of_mul_lt_mul_right l2 hp1.le
        exact_mod_cast this
      have hm2 : (m : ℚ) + 1 ≤ ((2^53 : ℤ) : ℚ) := by exact_mod_cast hm1
      have : x ≤ pow2 (L + 1) - pow2 (L - 52) := by
        rw [hm, e]
        push_cast at hm2
        nlinarith
      have := abs_lt.1 hhalf
      linarith

theorem pyRound_floor_ceil (z : ℚ) : pyRound z = ⌊z⌋ ∨ pyRound z = ⌈z⌉ := by
  have h1 : ⌊z⌋ ≤ pyRound z := intCast_le_pyRound (Int.floor_le z)
  have h2 : pyRound z ≤ ⌈z⌉ := pyRound_le_intCast (Int.le_ceil z)
  have h3 := Int.ceil_le_floor_add_one z
  omega

/-- A decimal that was found is read as `x`. -/
theorem decimalAt_reads {x : ℚ} (hx : 0 < x) {n : ℕ} {d : ℕ × ℤ} (h : decimalAt x n = some d) : b64 (d.1 * pow10 d.2) = x ∧ d.2 = Int.log 10 x - n + 1 := by
  have hp : ∀ q, 0 < pow10 q := fun q => by rw [pow10_eq]; positivity
  have hz : 0 ≤ x / pow10 (Int.log 10 x - n + 1) := div_nonneg hx.le (hp _).le
  have nn : ∀ i : ℤ, 0 ≤ i → ((i.toNat : ℕ) : ℚ) = i := by
    intro i hi
    rw [← Int.cast_natCast, Int.toNat_of_nonneg hi]
  unfold decimalAt at h
  dsimp only at h
  split_ifs at h with h1 h2 h3
  · injection h with h; subst h
    refine ⟨?_, rfl⟩
    dsimp only
    rw [nn _ (pyRound_nonneg hz)]
    rcases pyRound_floor_ceil (x / pow10 (Int.log 10 x - n + 1)) with e | e <;> rw [e]
    · exact h1.1
    · exact h1.2
  · injection h with h; subst h
    refine ⟨?_, rfl⟩
    dsimp only
    rw [nn _ (Int.floor_nonneg.2 hz)]
    exact h2
  · injection h with h; subst h
    refine ⟨?_, rfl⟩
    dsimp only
    rw [nn _ (Int.ceil_nonneg hz)]
    exact h3

theorem decimalAt_17 {x : ℚ} (hx : 0 < x) (h : b64 x = x) : (decimalAt x 17).isSome = true := by
  have h10 : (10:ℚ) ^ Int.log 10 x ≤ x := by exact_mod_cast Int.zpow_log_le_self (b := 10) (by norm_num) hx
  have hp : 0 < pow10 (Int.log 10 x - (17:ℕ) + 1) := by rw [pow10_eq]; positivity
  have hpe : pow10 (Int.log 10 x - (17:ℕ) + 1) * 10^16 ≤ x := by
    rw [pow10_eq, ← zpow_natCast (10:ℚ) 16, ← zpow_add₀ (by norm_num)]
    have : Int.log 10 x - (17:ℕ) + 1 + (16:ℕ) = Int.log 10 x := by push_cast; ring
    rw [this]; exact h10
  have key : b64 ((pyRound (x / pow10 (Int.log 10 x - (17:ℕ) + 1)) : ℤ) * pow10 (Int.log 10 x - (17:ℕ) + 1)) = x := by
    refine b64_close hx h ?_
    generalize pow10 (Int.log 10 x - (17:ℕ) + 1) = p at *
    have h1 := abs_pyRound_sub_le (x / p)
    have e : (pyRound (x / p) : ℚ) * p - x = ((pyRound (x / p) : ℚ) - x / p) * p := by field_simp
    rw [e, abs_mul, abs_of_pos hp]
    calc _ ≤ 1/2 * p := mul_le_mul_of_nonneg_right h1 hp.le
      _ < x / 2^54 := by rw [lt_div_iff₀ (by norm_num)]; nlinarith
  unfold decimalAt
  dsimp only
  rcases pyRound_floor_ceil (x / pow10 (Int.log 10 x - (17:ℕ) + 1)) with e | e
  · rw [e] at key
    by_cases h2 : b64 ((⌈x / pow10 (Int.log 10 x - (17:ℕ) + 1)⌉ : ℤ) * pow10 (Int.log 10 x - (17:ℕ) + 1)) = x
    · rw [if_pos ⟨key, h2⟩]; rfl
    · rw [if_neg (fun h => h2 h.2), if_pos key]; rfl
  · rw [e] at key
    by_cases h2 : b64 ((⌊x / pow10 (Int.log 10 x - (17:ℕ) + 1)⌋ : ℤ) * pow10 (Int.log 10 x - (17:ℕ) + 1)) = x
    · rw [if_pos ⟨h2, key⟩]; rfl
    · rw [if_neg (fun h => h2 h.1), if_neg h2, if_pos key]; rfl

/-- The decimal that is written is one of the first 17 that was found. -/
theorem shortDecimal_spec {x : ℚ} (hx : 0 < x) (h : b64 x = x) : ∃ n, n < 17 ∧ decimalAt x (n + 1) = some (shortDecimal x) ∧ ∀ j < n, decimalAt x (j + 1) = none := by
  unfold shortDecimal
  cases hf : (List.range 17).findSome? fun i => decimalAt x (i + 1) with
  | none =>
    rw [List.findSome?_eq_none_iff] at hf
    have := hf 16 (by decide)
    have h17 := decimalAt_17 hx h
    rw [this] at h17
    exact absurd h17 (by simp)
  | some d =>
    rw [List.findSome?_eq_some_iff] at hf
    obtain ⟨l1, a, l2, he, h1, h2⟩ := hf
    have ha : l1.length = a := by
      have := congrArg (fun l => l[l1.length]?) he
      simp only [List.getElem?_append_right le_rfl, Nat.sub_self, List.getElem?_cons_zero] at this
      rw [List.getElem?_eq_some_iff] at this
      obtain ⟨hl, hr⟩ := this
      rw [List.getElem_range] at hr
      exact hr
    refine ⟨a, ?_, h1, ?_⟩
    · have : a ∈ List.range 17 := by rw [he]; simp
      exact List.mem_range.1 this
    · intro j hj
      have hm : j ∈ l1 := by
        have hj' : j < l1.length := by omega
        have := congrArg (fun l => l[j]?) he
        simp only [List.getElem?_append_left hj'] at this
        rw [List.getElem?_eq_getElem hj', List.getElem?_eq_some_iff] at this
        obtain ⟨hl, hr⟩ := this
        rw [List.getElem_range] at hr
        rw [hr]; exact List.getElem_mem hj'
      exact h2 j hm

/-! ## Texts of digits -/

/-- Decimal digits only. -/
def AllDigits (t : Name) : Prop := ∀ c ∈ t, c.isDigit = true

theorem AllDigits.no {t : Name} (h : AllDigits t) {c : Char} (hc : c.isDigit = false) : c ∉ t := fun hm => by
  rw [h c hm] at hc; exact absurd hc (by simp)

theorem decValue_append (a b : Name) : decValue (a ++ b) = decValue a * 10 ^ b.length + decValue b := by
  induction b using List.reverseRecOn generalizing a with
  | nil => simp [decValue]
  | append_singleton b c ih =>
    have st : ∀ t : Name, decValue (t ++ [c]) = 10 * decValue t + (c.toNat - '0'.toNat) := by
      intro t; simp [decValue, List.foldl_append]
    rw [← List.append_assoc, st, st, ih, List.length_append, List.length_singleton, pow_succ]
    ring

theorem decValue_zeros (k : ℕ) : decValue (List.replicate k '0') = 0 := by
  induction k with
  | zero => rfl
  | succ k ih => rw [List.replicate_succ', decValue_append, ih]; rfl

theorem decValue_zeros_append (k : ℕ) (t : Name) : decValue (List.replicate k '0' ++ t) = decValue t := by
  rw [decValue_append, decValue_zeros]; simp

theorem decValue_cons_zero (t : Name) : decValue ('0' :: t) = decValue t := decValue_zeros_append 1 t

theorem decValue_append_zeros (k : ℕ) (t : Name) : decValue (t ++ List.replicate k '0') = decValue t * 10 ^ k := by
  rw [decValue_append, decValue_zeros]; simp

theorem takeWhile_zeros : ∀ l : Name, ∃ k, l.takeWhile (· = '0') = List.replicate k '0'
  | [] => ⟨0, rfl⟩
  | c :: t => by
    by_cases h : c = '0'
    · obtain ⟨k, hk⟩ := takeWhile_zeros t
      exact ⟨k + 1, by rw [List.takeWhile_cons_of_pos (by simpa using h), hk, h, List.replicate_succ]⟩
    · exact ⟨0, by rw [List.takeWhile_cons_of_neg (by simpa using h)]; rfl⟩

/-- Only zeros at the end are missing. -/
theorem significant_spec (d : ℕ) : ∃ k, dec d = significant d ++ List.replicate k '0' := by
  obtain ⟨k, hk⟩ := takeWhile_zeros (dec d).reverse
  refine ⟨k, ?_⟩
  have h := congrArg List.reverse (List.takeWhile_append_dropWhile (p := fun c : Char => decide (c = '0')) (l := (dec d).reverse))
  rw [List.reverse_append, List.reverse_reverse, hk, List.reverse_replicate] at h
  exact h.symm

theorem significant_digits (d : ℕ) : AllDigits (significant d) := by
  obtain ⟨k, h⟩ := significant_spec d
  intro c hc
  exact (decValue_dec d).2 c (by rw [h]; exact List.mem_append_left _ hc)

theorem significant_ne {d : ℕ} (hd : d ≠ 0) : significant d ≠ [] := by
  intro he
  obtain ⟨k, h⟩ := significant_spec d
  rw [he, List.nil_append] at h
  have := (decValue_dec d).1
  rw [h, decValue_zeros] at this
  exact hd this.symm

theorem dec_ne (n : ℕ) : dec n ≠ [] := by
  unfold dec
  split_ifs with h
  · simp
  · simp [Nat.digits_ne_nil_iff_ne_zero.2 h]

theorem twoDigits_spec (n : ℕ) : decValue (twoDigits n) = n ∧ AllDigits (twoDigits n) ∧ twoDigits n ≠ [] := by
  unfold twoDigits
  split_ifs with h
  · refine ⟨by rw [decValue_cons_zero, (decValue_dec n).1], ?_, by simp⟩
    intro c hc
    rcases List.mem_cons.1 hc with rfl | hc
    · decide
    · exact (decValue_dec n).2 c hc
  · exact ⟨(decValue_dec n).1, (decValue_dec n).2, dec_ne n⟩

/-! ## Values of texts -/

theorem mantissa_plain {i : Name} (hi : AllDigits i) : mantissaValue i = decValue i := by
  unfold mantissaValue
  have := split_join '.' [] [i] (by simp) (by simpa using hi.no (by decide))
  simp only [joinWith] at this
  rw [this]

theorem mantissa_point {i f : Name} (hi : AllDigits i) (hf : AllDigits f) : mantissaValue (i ++ '.' :: f) = decValue (i ++ f) / 10 ^ f.length := by
  unfold mantissaValue
  have := split_join '.' [] [i, f] (by simp) (by
    intro c hc
    simp only [List.mem_cons, List.not_mem_nil, or_false] at hc
    rcases hc with rfl | rfl
    · exact hi.no (by decide)
    · exact hf.no (by decide))
  simp only [joinWith, List.append_assoc, List.singleton_append] at this
  rw [this]

theorem unsigned_plain {m : Name} (h : 'e' ∉ m) : unsignedValue m = mantissaValue m := by
  unfold unsignedValue
  have := split_join 'e' [] [m] (by simp) (by simpa using h)
  simp only [joinWith] at this
  rw [this]

theorem unsigned_exp {m e : Name} (hm : 'e' ∉ m) (he : 'e' ∉ e) : unsignedValue (m ++ 'e' :: e) = mantissaValue m * 10 ^ exponentValue e := by
  unfold unsignedValue
  have := split_join 'e' [] [m, e] (by simp) (by
    intro c hc
    simp only [List.mem_cons, List.not_mem_nil, or_false] at hc
    rcases hc with rfl | rfl
    · exact hm
    · exact he)
  simp only [joinWith, List.append_assoc, List.singleton_append] at this
  rw [this]

/-- The form of the text of a number without sign. -/
inductive NumText : Name → Prop
  | point {i f : Name} : i ≠ [] → AllDigits i → f ≠ [] → AllDigits f → NumText (i ++ '.' :: f)
  | pointExp {i f x : Name} {s : Char} : i ≠ [] → AllDigits i → f ≠ [] → AllDigits f → s = '+' ∨ s = '-' → x ≠ [] → AllDigits x → NumText (i ++ '.' :: f ++ 'e' :: s :: x)
  | exp {i x : Name} {s : Char} : i ≠ [] → AllDigits i → s = '+' ∨ s = '-' → x ≠ [] → AllDigits x → NumText (i ++ 'e' :: s :: x)

theorem exponent_reads (p : ℤ) : exponentValue ((if p < 0 then '-' else '+') :: twoDigits p.natAbs) = p := by
  by_cases h : p < 0
  · rw [if_pos h]; simp only [exponentValue, (twoDigits_spec _).1]; omega
  · rw [if_neg h]; simp only [exponentValue, (twoDigits_spec _).1]; omega

theorem no_e_point {i f : Name} (hi : AllDigits i) (hf : AllDigits f) : 'e' ∉ i ++ '.' :: f := by
  intro h
  rcases List.mem_append.1 h with h | h
  · exact hi.no (by decide) h
  · rcases List.mem_cons.1 h with h | h
    · exact absurd h (by decide)
    · exact hf.no (by decide) h

theorem no_e_exp (p : ℤ) : 'e' ∉ (if p < 0 then '-' else '+') :: twoDigits p.natAbs := by
  intro h
  rcases List.mem_cons.1 h with h | h
  · split_ifs at h <;> exact absurd h (by decide)
  · exact (twoDigits_spec _).2.1.no (by decide) h

/-- Digits with a point have the form and the value intended. -/
theorem placePoint_spec {ds : Name} (hne : ds ≠ []) (hd : AllDigits ds) (point : ℤ) :
    NumText (placePoint ds point) ∧ unsignedValue (placePoint ds point) = decValue ds * 10 ^ (point - ds.length) := by
  have ten : (10:ℚ) ≠ 0 := by norm_num
  have zd : ∀ k, AllDigits (List.replicate k '0') := fun k c hc => by rw [List.eq_of_mem_replicate hc]; decide
  have ad : ∀ {a b : Name}, AllDigits a → AllDigits b → AllDigits (a ++ b) := fun ha hb c hc => (List.mem_append.1 hc).elim (ha c) (hb c)
  unfold placePoint
  by_cases h1 : -4 < point ∧ point ≤ 16
  · rw [if_pos h1]
    by_cases h2 : point ≤ 0
    · rw [if_pos h2]
      have hi : AllDigits ['0'] := zd 1
      have hf := ad (zd (-point).toNat) hd
      refine ⟨NumText.point (i := ['0']) (by simp) hi (by simp [hne]) hf, ?_⟩
      have e1 := unsigned_plain (no_e_point hi hf)
      have e2 := mantissa_point hi hf
      simp only [List.cons_append, List.nil_append] at e1 e2
      rw [e1, e2, decValue_cons_zero, decValue_zeros_append, div_eq_mul_inv, ← zpow_natCast, ← zpow_neg]
      congr 2
      simp only [List.length_append, List.length_replicate]
      push_cast
      omega
    · rw [if_neg h2]
      by_cases h3 : point < ds.length
      · rw [if_pos h3]
        have hi : AllDigits (ds.take point.toNat) := fun c hc => hd c (List.mem_of_mem_take hc)
        have hf : AllDigits (ds.drop point.toNat) := fun c hc => hd c (List.mem_of_mem_drop hc)
        have l1 : 0 < (ds.take point.toNat).length := by rw [List.length_take]; omega
        have l2 : 0 < (ds.drop point.toNat).length := by rw [List.length_drop]; omega
        refine ⟨NumText.point (List.length_pos_iff.1 l1) hi (List.length_pos_iff.1 l2) hf, ?_⟩
        rw [unsigned_plain (no_e_point hi hf), mantissa_point hi hf, List.take_append_drop, div_eq_mul_inv, ← zpow_natCast, ← zpow_neg]
        congr 2
        rw [List.length_drop]
        omega
      · rw [if_neg h3]
        have hi := ad hd (zd (point.toNat - ds.length))
        have hf : AllDigits ['0'] := zd 1
        refine ⟨NumText.point (by simp [hne]) hi (by simp) hf, ?_⟩
        rw [unsigned_plain (no_e_point hi hf), mantissa_point hi hf]
        have : decValue (ds ++ List.replicate (point.toNat - ds.length) '0' ++ ['0']) = decValue ds * 10 ^ (point.toNat - ds.length) * 10 := by
          rw [decValue_append _ ['0'], decValue_append_zeros]; rfl
        rw [this]
        push_cast
        rw [← zpow_natCast (10:ℚ) (point.toNat - ds.length)]
        have e : ((point.toNat - ds.length : ℕ) : ℤ) = point - ds.length := by omega
        rw [e]
        simp
  · rw [if_neg h1]
    obtain ⟨t1, t2, t3⟩ := twoDigits_spec (point - 1).natAbs
    have hs : ∀ p : ℤ, (if p < 0 then '-' else '+') = '+' ∨ (if p < 0 then '-' else '+') = '-' := by
      intro p; split_ifs <;> simp
    match ds, hne, hd with
    | [c], _, hd =>
      refine ⟨NumText.exp (by simp) hd (hs _) t3 t2, ?_⟩
      dsimp only
      rw [unsigned_exp (hd.no (by decide)) (no_e_exp _), exponent_reads, mantissa_plain hd]
      simp
    | c :: d :: r, _, hd =>
      have hi : AllDigits [c] := fun x hx => hd x (by simp only [List.mem_singleton] at hx; simp [hx])
      have hf : AllDigits (d :: r) := fun x hx => hd x (List.mem_cons_of_mem _ hx)
      refine ⟨NumText.pointExp (i := [c]) (by simp) hi (by simp) hf (hs _) t3 t2, ?_⟩
      dsimp only
      have e1 := unsigned_exp (no_e_point hi hf) (no_e_exp (point - 1))
      have e2 := mantissa_point hi hf
      simp only [List.cons_append, List.nil_append] at e1 e2 ⊢
      rw [e1, e2, exponent_reads, div_eq_mul_inv, ← zpow_natCast, ← zpow_neg, mul_assoc, ← zpow_add₀ ten]
      congr 2
      simp only [List.length_cons]
      push_cast
      ring

/-- The text of a float above zero. -/
theorem positiveText_spec {x : ℚ} (hx : 0 < x) (h : b64 x = x) : NumText (positiveText x) ∧ b64 (unsignedValue (positiveText x)) = x := by
  obtain ⟨n, hn, h1, h2⟩ := shortDecimal_spec hx h
  obtain ⟨h3, h4⟩ := decimalAt_reads hx h1
  unfold positiveText
  dsimp only
  generalize shortDecimal x = d at *
  have hd : d.1 ≠ 0 := by
    intro h0
    rw [h0] at h3
    simp only [Nat.cast_zero, zero_mul] at h3
    have : b64 0 = 0 := by decide +kernel
    rw [this] at h3
    exact hx.ne h3
  obtain ⟨k, hk⟩ := significant_spec d.1
  obtain ⟨p1, p2⟩ := placePoint_spec (significant_ne hd) (significant_digits d.1) ((dec d.1).length + d.2)
  refine ⟨p1, ?_⟩
  rw [p2]
  have hv : (d.1 : ℚ) = decValue (significant d.1) * 10 ^ k := by
    have := (decValue_dec d.1).1
    rw [hk, decValue_append_zeros] at this
    exact_mod_cast this.symm
  have hl : ((dec d.1).length : ℤ) + d.2 - (significant d.1).length = k + d.2 := by
    rw [hk, List.length_append, List.length_replicate]; push_cast; ring
  rw [hl, zpow_add₀ (by norm_num), zpow_natCast, ← mul_assoc, ← hv, ← pow10_eq]
  exact h3

theorem numText_head {t : Name} (h : NumText t) : ∃ c r, t = c :: r ∧ c.isDigit = true := by
  have key : ∀ {i : Name} (r : Name), i ≠ [] → AllDigits i → ∃ c r', i ++ r = c :: r' ∧ c.isDigit = true := by
    intro i r hi hd
    cases i with
    | nil => exact absurd rfl hi
    | cons c i => exact ⟨c, i ++ r, rfl, hd c (by simp)⟩
  cases h with
  | point a b c d => exact key _ a b
  | pointExp a b c d e f g => rw [List.append_assoc]; exact key _ a b
  | exp a b c d e => exact key _ a b

theorem decimalValue_unsigned {t : Name} (h : NumText t) : decimalValue t = unsignedValue t := by
  obtain ⟨c, r, rfl, hc⟩ := numText_head h
  unfold decimalValue
  split
  · next heq => simp only [List.cons.injEq] at heq; rw [heq.1] at hc; exact absurd hc (by decide)
  · rfl

theorem floatText_cases (x : ℚ) (h : b64 x = x) : (x ≥ 0 ∧ NumText (floatText x) ∧ b64 (unsignedValue (floatText x)) = x) ∨
    (x < 0 ∧ ∃ t, floatText x = '-' :: t ∧ NumText t ∧ b64 (unsignedValue t) = -x) := by
  unfold floatText
  by_cases h0 : x = 0
  · left
    rw [if_pos h0, h0]
    refine ⟨le_rfl, NumText.point (i := ['0']) (f := ['0']) (by simp) ?_ (by simp) ?_, by decide +kernel⟩ <;> (intro c hc; simp only [List.mem_singleton] at hc; subst hc; decide)
  · rw [if_neg h0]
    by_cases h1 : x < 0
    · right
      rw [if_pos h1]
      obtain ⟨a, b⟩ := positiveText_spec (x := -x) (by linarith) (by rw [b64_neg, h])
      exact ⟨h1, _, rfl, a, b⟩
    · left
      rw [if_neg h1]
      have hx : 0 < x := lt_of_le_of_ne (not_lt.1 h1) (Ne.symm h0)
      obtain ⟨a, b⟩ := positiveText_spec hx h
      exact ⟨hx.le, a, b⟩

/-- **C117**: the text of a float is read back as the same float. -/
theorem C117_number (x : ℚ) (h : b64 x = x) : readFloat (floatText x) = x := by
  unfold readFloat
  rcases floatText_cases x h with ⟨_, a, b⟩ | ⟨_, t, e, a, b⟩
  · rw [decimalValue_unsigned a, b]
  · rw [e, decimalValue, b64_neg, b]; ring

/-- **C117**: negative numbers, and only these, have a sign. -/
theorem C117_sign (x : ℚ) (h : b64 x = x) : (floatText x).head? = some '-' ↔ x < 0 := by
  rcases floatText_cases x h with ⟨h0, a, b⟩ | ⟨h0, t, e, a, b⟩
  · obtain ⟨c, r, e, hc⟩ := numText_head a
    rw [e]
    simp only [List.head?_cons, Option.some.injEq]
    constructor
    · rintro rfl; exact absurd hc (by decide)
    · intro h1; exact absurd h0 (not_le.2 h1)
  · simp [e, h0]

/-- Characters of numbers. -/
def FloatChar (c : Char) : Prop := c.isDigit = true ∨ c = '.' ∨ c = 'e' ∨ c = '+' ∨ c = '-'

theorem digits_chars {t : Name} (h : AllDigits t) : ∀ c ∈ t, FloatChar c := fun c hc => .inl (h c hc)

theorem placePoint_chars {ds : Name} (hd : AllDigits ds) (point : ℤ) : ∀ c ∈ placePoint ds point, FloatChar c := by
  have zc : FloatChar '0' := .inl (by decide)
  have pc : FloatChar '.' := .inr (.inl rfl)
  have ec : FloatChar 'e' := .inr (.inr (.inl rfl))
  have ap : ∀ {a b : Name}, (∀ c ∈ a, FloatChar c) → (∀ c ∈ b, FloatChar c) → ∀ c ∈ a ++ b, FloatChar c := fun ha hb c hc => (List.mem_append.1 hc).elim (ha c) (hb c)
  have cn : ∀ {x : Char} {b : Name}, FloatChar x → (∀ c ∈ b, FloatChar c) → ∀ c ∈ x :: b, FloatChar c := fun hx hb c hc => (List.mem_cons.1 hc).elim (fun h => h ▸ hx) (hb c)
  have nl : ∀ c ∈ ([] : Name), FloatChar c := by simp
  have zs : ∀ k, ∀ c ∈ List.replicate k '0', FloatChar c := fun k c hc => by rw [List.eq_of_mem_replicate hc]; exact zc
  have dd := digits_chars hd
  unfold placePoint
  by_cases h1 : -4 < point ∧ point ≤ 16
  · rw [if_pos h1]
    by_cases h2 : point ≤ 0
    · rw [if_pos h2]; exact cn zc (cn pc (ap (zs _) dd))
    · rw [if_neg h2]
      by_cases h3 : point < ds.length
      · rw [if_pos h3]
        exact ap (fun c hc => dd c (List.mem_of_mem_take hc)) (cn pc fun c hc => dd c (List.mem_of_mem_drop hc))
      · rw [if_neg h3]; exact ap (ap dd (zs _)) (cn pc (cn zc nl))
  · rw [if_neg h1]
    refine ap ?_ (cn ec (cn ?_ (digits_chars (twoDigits_spec _).2.1)))
    · match ds, dd with
      | [], _ => exact nl
      | [c], dd => exact dd
      | c :: d :: r, dd => exact cn (dd c (by simp)) (cn pc fun x hx => dd x (List.mem_cons_of_mem _ hx))
    · split_ifs
      · exact .inr (.inr (.inr (.inr rfl)))
      · exact .inr (.inr (.inr (.inl rfl)))

/-- **C117**: the text of a float has only digits, a point, a sign and the letter of the exponent. -/
theorem C117_chars (x : ℚ) : ∀ c ∈ floatText x, FloatChar c := by
  have key : ∀ y, ∀ c ∈ positiveText y, FloatChar c := fun y => placePoint_chars (significant_digits _) _
  unfold floatText
  split_ifs
  · intro c hc
    simp only [List.mem_cons, List.not_mem_nil, or_false] at hc
    rcases hc with rfl | rfl | rfl
    · exact .inl (by decide)
    · exact .inr (.inl rfl)
    · exact .inl (by decide)
  · intro c hc
    rcases List.mem_cons.1 hc with rfl | hc
    · exact .inr (.inr (.inr (.inr rfl)))
    · exact key _ c hc
  · exact key _

/-! ## YAML -/

/-- What YAML 1.1 takes for a float (the resolver of PyYAML): digits, a point, digits, and an exponent with sign or none. -/
def YamlFloatText (t : Name) : Prop :=
  ∃ sign i f e, t = sign ++ i ++ '.' :: f ++ e ∧ (sign = [] ∨ sign = ['-']) ∧ i ≠ [] ∧ AllDigits i ∧ AllDigits f ∧
    (e = [] ∨ ∃ s x, e = 'e' :: s :: x ∧ (s = '+' ∨ s = '-') ∧ x ≠ [] ∧ AllDigits x)

/-- The text with the point that is missing. -/
def pointed (s : Name) : Name := if '.' ∉ s ∧ 'e' ∈ s then s.takeWhile (· ≠ 'e') ++ ['.', '0'] ++ s.dropWhile (· ≠ 'e') else s

theorem pointed_minus (t : Name) : pointed ('-' :: t) = '-' :: pointed t := by
  have e1 : ('.' ∉ '-' :: t ∧ 'e' ∈ '-' :: t) ↔ ('.' ∉ t ∧ 'e' ∈ t) := by simp
  unfold pointed
  by_cases h : '.' ∉ t ∧ 'e' ∈ t
  · rw [if_pos h, if_pos (e1.2 h), List.takeWhile_cons_of_pos (by decide), List.dropWhile_cons_of_pos (by decide)]
    rfl
  · rw [if_neg h, if_neg (fun h' => h (e1.1 h'))]

theorem takeWhile_digits {i r : Name} (hi : AllDigits i) : (i ++ 'e' :: r).takeWhile (· ≠ 'e') = i ∧ (i ++ 'e' :: r).dropWhile (· ≠ 'e') = 'e' :: r := by
  induction i with
  | nil => exact ⟨by rw [List.nil_append, List.takeWhile_cons_of_neg (by simp)], by rw [List.nil_append, List.dropWhile_cons_of_neg (by simp)]⟩
  | cons c i ih =>
    have hc : c ≠ 'e' := by rintro rfl; exact absurd (hi 'e' (by simp)) (by decide)
    obtain ⟨a, b⟩ := ih (fun x hx => hi x (List.mem_cons_of_mem _ hx))
    rw [List.cons_append, List.takeWhile_cons_of_pos (by simpa using hc), List.dropWhile_cons_of_pos (by simpa using hc)]
    exact ⟨by rw [a], b⟩

theorem pointed_spec {t : Name} (h : NumText t) : ∃ i f e, pointed t = i ++ '.' :: f ++ e ∧ i ≠ [] ∧ AllDigits i ∧ AllDigits f ∧
    (e = [] ∨ ∃ s x, e = 'e' :: s :: x ∧ (s = '+' ∨ s = '-') ∧ x ≠ [] ∧ AllDigits x) ∧ unsignedValue (pointed t) = unsignedValue t ∧ NumText (pointed t) := by
  have hz : AllDigits ['0'] := by intro c hc; simp only [List.mem_singleton] at hc; subst hc; decide
  cases h with
  | @point i f a b c d =>
    have : pointed (i ++ '.' :: f) = i ++ '.' :: f := if_neg (by simp)
    rw [this]
    exact ⟨i, f, [], by simp, a, b, d, .inl rfl, rfl, .point a b c d⟩
  | @pointExp i f x s a b c d e g k =>
    have : pointed (i ++ '.' :: f ++ 'e' :: s :: x) = i ++ '.' :: f ++ 'e' :: s :: x := if_neg (by simp)
    rw [this]
    exact ⟨i, f, _, rfl, a, b, d, .inr ⟨s, x, rfl, e, g, k⟩, rfl, .pointExp a b c d e g k⟩
  | @exp i x s a b c d e =>
    have hs : '.' ≠ s := by rcases c with rfl | rfl <;> decide
    have hs' : 'e' ≠ s := by rcases c with rfl | rfl <;> decide
    have hno : '.' ∉ i ++ 'e' :: s :: x := by
      simp only [List.mem_append, List.mem_cons, not_or]
      exact ⟨b.no (by decide), by decide, hs, e.no (by decide)⟩
    have : pointed (i ++ 'e' :: s :: x) = i ++ '.' :: ['0'] ++ 'e' :: s :: x := by
      unfold pointed
      obtain ⟨t1, t2⟩ := takeWhile_digits (r := s :: x) b
      rw [if_pos ⟨hno, by simp⟩, t1, t2]
    rw [this]
    refine ⟨i, ['0'], _, rfl, a, b, hz, .inr ⟨s, x, rfl, c, d, e⟩, ?_, .pointExp a b (by simp) hz c d e⟩
    have he : 'e' ∉ s :: x := by
      simp only [List.mem_cons, not_or]
      exact ⟨hs', e.no (by decide)⟩
    rw [unsigned_exp (no_e_point b hz) he, unsigned_exp (b.no (by decide)) he, mantissa_point b hz, mantissa_plain b, decValue_append]
    simp [decValue]

/-- **C117**: in the file of a model every float has the form YAML takes for a float - not for a text or an integer - and is read back as the same float. -/
theorem C117_yaml (x : ℚ) (h : b64 x = x) : YamlFloatText (yamlFloat x) ∧ readFloat (yamlFloat x) = x := by
  have e : yamlFloat x = pointed (floatText x) := rfl
  rw [e]
  rcases floatText_cases x h with ⟨_, a, b⟩ | ⟨_, t, e, a, b⟩
  · obtain ⟨i, f, g, h1, h2, h3, h4, h5, h6, h7⟩ := pointed_spec a
    refine ⟨⟨[], i, f, g, h1, .inl rfl, h2, h3, h4, h5⟩, ?_⟩
    unfold readFloat
    rw [decimalValue_unsigned h7, h6, b]
  · obtain ⟨i, f, g, h1, h2, h3, h4, h5, h6, h7⟩ := pointed_spec a
    rw [e, pointed_minus]
    refine ⟨⟨['-'], i, f, g, by rw [h1]; rfl, .inr rfl, h2, h3, h4, h5⟩, ?_⟩
    unfold readFloat
    rw [decimalValue, h6, b64_neg, b]; ring

/-- **C117**: so is the scalar that is written for a float. -/
theorem C117_scalar {fl : ℚ → ℚ} {t : YTexts} (ht : t.float = yamlFloat) (x : ℚ) (h : b64 x = x) :
    ∃ s, represent fl t (.float x) = .ok (.scalar .float s) ∧ YamlFloatText s ∧ readFloat s = x :=
  ⟨yamlFloat x, by rw [represent, ht], C117_yaml x h⟩

/-! ## Tables -/

theorem floatText_clean (x : ℚ) : ';' ∉ floatText x ∧ ',' ∉ floatText x ∧ '\n' ∉ floatText x := by
  have key : ∀ c, ¬ FloatChar c → c ∉ floatText x := fun c hc hm => hc (C117_chars x c hm)
  refine ⟨key _ ?_, key _ ?_, key _ ?_⟩ <;> (unfold FloatChar; decide)

/-- The numbers of a table: all lines but the header and what follows the last line break, all cells but the time stamp. -/
def tableNumbers (separator : Char) (text : List Char) : List (List ℚ) :=
  (((splitText ['\n'] text).drop 1).dropLast).map fun line => (splitText [separator, ' '] line).tail.map readFloat

/-- **C117**: whoever reads an exported table gets the physical values of all samples of the recording, in order and without any loss. -/
theorem C117_table (separator : Char) (hsep : separator = ';' ∨ separator = ',') (z : Zone) (gt gc oc gv ov : ℚ) (samples : List (ℤ × ℚ × ℚ)) (hne : samples ≠ []) :
    ∃ file, saveCsv b64 false none (some (recordedGroup gt gc oc gv ov samples)) = (some file, .ok samples.length) ∧
      tableNumbers separator (csvText [separator] floatText z file) =
        samples.map fun s => [b64 (b64 (b64 s.2.1 * gc) + oc), b64 (b64 (b64 s.2.2 * gv) + ov)] := by
  obtain ⟨file, h1, h2⟩ := C113_export (fl := b64) [separator] (by rcases hsep with rfl | rfl <;> simp) floatText floatText_clean z gt gc oc gv ov samples hne
  refine ⟨file, h1, ?_⟩
  have hs : csvSeparator [separator] = [separator, ' '] := by rcases hsep with rfl | rfl <;> decide
  rw [hs] at h2
  unfold tableNumbers
  have h3 : (((splitText ['\n'] (csvText [separator] floatText z file)).drop 1).dropLast).map (splitText [separator, ' ']) =
      samples.map (fun s => [rowStamp z (microStamp b64 (b64 (b64 s.1 * gt))), floatText (b64 (b64 (b64 s.2.1 * gc) + oc)), floatText (b64 (b64 (b64 s.2.2 * gv) + ov))]) := by
    rw [List.map_dropLast, List.map_drop, h2, List.cons_append, List.drop_one, List.tail_cons, List.dropLast_concat]
  have h4 : (fun line : List Char => (splitText [separator, ' '] line).tail.map readFloat) = (fun r : List (List Char) => r.tail.map readFloat) ∘ splitText [separator, ' '] := rfl
  rw [h4, ← List.map_map, h3, List.map_map]
  apply List.map_congr_left
  intro s hs
  simp only [Function.comp, List.tail_cons, List.map_cons, List.map_nil]
  rw [C117_number _ (b64_idem _), C117_number _ (b64_idem _)]

/-! ## As few digits as possible -/

theorem dec_length {d n : ℕ} (hn : 0 < n) (h : d < 10 ^ n) : (dec d).length ≤ n := by
  unfold dec
  split_ifs with h0
  · simp only [List.length_singleton]; omega
  · rw [List.length_reverse, List.length_map]
    exact Nat.digits_length_le_iff (by norm_num) d |>.2 h

theorem significant_length {d n : ℕ} (hn : 0 < n) (h : d ≤ 10 ^ n) : (significant d).length ≤ n := by
  obtain ⟨k, hk⟩ := significant_spec d
  rcases lt_or_eq_of_le h with h | h
  · have := dec_length hn h
    rw [hk, List.length_append] at this
    omega
  · have hs : significant (10 ^ n) = ['1'] := by
      have : dec (10 ^ n) = '1' :: List.replicate n '0' := by
        have e : Nat.digits 10 (10 ^ n) = List.replicate n 0 ++ [1] := by
          have := Nat.digits_base_pow_mul (b := 10) (k := n) (m := 1) (by norm_num) (by norm_num)
          simpa using this
        unfold dec
        rw [if_neg (by positivity), e]
        simp
      unfold significant
      rw [this]
      simp
    rw [h, hs]
    simp only [List.length_singleton]; omega

theorem decimalAt_le {x : ℚ} {n : ℕ} {d : ℕ × ℤ} (h : decimalAt x n = some d) : d.1 ≤ 10 ^ n := by
  have hp : 0 < pow10 (Int.log 10 x - n + 1) := by rw [pow10_eq]; positivity
  have hz : x / pow10 (Int.log 10 x - n + 1) ≤ ((10 ^ n : ℕ) : ℤ) := by
    rw [div_le_iff₀ hp, pow10_eq]
    have h10 : x < (10:ℚ) ^ (Int.log 10 x + 1) := by exact_mod_cast Int.lt_zpow_succ_log_self (b := 10) (by norm_num) x
    push_cast
    rw [← zpow_natCast (10:ℚ) n, ← zpow_add₀ (by norm_num)]
    have : (n:ℤ) + (Int.log 10 x - n + 1) = Int.log 10 x + 1 := by ring
    rw [this]; exact h10.le
  have h1 := Int.ceil_le.2 hz
  have h2 := Int.floor_le_ceil (x / pow10 (Int.log 10 x - n + 1))
  have h3 := pyRound_le_intCast hz
  unfold decimalAt at h
  dsimp only at h
  generalize 10 ^ n = N at *
  split_ifs at h
  all_goals
    injection h with h; subst h
    dsimp only
    omega

/-- A decimal with `n` digits that is read as `x` is found with `n` digits. -/
theorem decimalAt_found {x : ℚ} (hx : 0 < x) (h : b64 x = x) {n d : ℕ} {e : ℤ} (hn : 0 < n) (hd : d < 10 ^ n) (hr : b64 (d * 10 ^ e) = x) : (decimalAt x n).isSome = true := by
  have ten : (10:ℚ) ≠ 0 := by norm_num
  have h10 : (10:ℚ) ^ Int.log 10 x ≤ x := by exact_mod_cast Int.zpow_log_le_self (b := 10) (by norm_num) hx
  have hp : 0 < pow10 (Int.log 10 x - n + 1) := by rw [pow10_eq]; positivity
  have hdq : (d:ℚ) < 10 ^ n := by exact_mod_cast hd
  have key : b64 ((⌊x / pow10 (Int.log 10 x - n + 1)⌋ : ℤ) * pow10 (Int.log 10 x - n + 1)) = x ∨ b64 ((⌈x / pow10 (Int.log 10 x - n + 1)⌉ : ℤ) * pow10 (Int.log 10 x - n + 1)) = x := by
    rcases lt_or_ge e (Int.log 10 x - n + 1) with he | he
    · -- too small to be on the grid
      left
      have hy : (d:ℚ) * 10 ^ e ≤ 10 ^ Int.log 10 x := by
        have e1 : (d:ℚ) * 10 ^ e ≤ 10 ^ n * 10 ^ e := mul_le_mul_of_nonneg_right hdq.le (by positivity)
        refine e1.trans ?_
        rw [← zpow_natCast (10:ℚ) n, ← zpow_add₀ ten]
        exact zpow_le_zpow_right₀ (by norm_num) (by omega)
      have hg : (10:ℚ) ^ Int.log 10 x = ((10 ^ (n - 1) : ℕ) : ℤ) * pow10 (Int.log 10 x - n + 1) := by
        rw [pow10_eq]
        push_cast
        rw [← zpow_natCast (10:ℚ) (n - 1), ← zpow_add₀ ten]
        congr 1
        omega
      have hf : ((10 ^ (n - 1) : ℕ) : ℤ) ≤ ⌊x / pow10 (Int.log 10 x - n + 1)⌋ := by
        rw [Int.le_floor, le_div_iff₀ hp, ← hg]; exact h10
      have hf' : (((10 ^ (n - 1) : ℕ) : ℤ) : ℚ) ≤ ⌊x / pow10 (Int.log 10 x - n + 1)⌋ := by exact_mod_cast hf
      apply le_antisymm
      · conv_rhs => rw [← h]
        apply b64_mono
        rw [← le_div_iff₀ hp]
        exact Int.floor_le _
      · conv_lhs => rw [← hr]
        apply b64_mono
        refine hy.trans ?_
        rw [hg]
        exact mul_le_mul_of_nonneg_right hf' hp.le
    · -- on the grid
      obtain ⟨m, hm⟩ : ∃ m : ℤ, (d:ℚ) * 10 ^ e = m * pow10 (Int.log 10 x - n + 1) := by
        refine ⟨d * 10 ^ (e - (Int.log 10 x - n + 1)).toNat, ?_⟩
        rw [pow10_eq]
        push_cast
        rw [mul_assoc, ← zpow_natCast (10:ℚ), ← zpow_add₀ ten]
        congr 2
        omega
      rw [hm] at hr
      rcases le_total ((m:ℚ) * pow10 (Int.log 10 x - n + 1)) x with hle | hle
      · left
        have hf : m ≤ ⌊x / pow10 (Int.log 10 x - n + 1)⌋ := by rw [Int.le_floor, le_div_iff₀ hp]; exact hle
        have hf' : (m:ℚ) ≤ ⌊x / pow10 (Int.log 10 x - n + 1)⌋ := by exact_mod_cast hf
        apply le_antisymm
        · conv_rhs => rw [← h]
          apply b64_mono
          rw [← le_div_iff₀ hp]
          exact Int.floor_le _
        · conv_lhs => rw [← hr]
          exact b64_mono (mul_le_mul_of_nonneg_right hf' hp.le)
      · right
        have hf : ⌈x / pow10 (Int.log 10 x - n + 1)⌉ ≤ m := by rw [Int.ceil_le, div_le_iff₀ hp]; exact hle
        have hf' : (⌈x / pow10 (Int.log 10 x - n + 1)⌉ : ℚ) ≤ m := by exact_mod_cast hf
        apply le_antisymm
        · conv_rhs => rw [← hr]
          exact b64_mono (mul_le_mul_of_nonneg_right hf' hp.le)
        · conv_lhs => rw [← h]
          apply b64_mono
          rw [← div_le_iff₀ hp]
          exact Int.le_ceil _
  unfold decimalAt
  dsimp only
  generalize (⌊x / pow10 (Int.log 10 x - n + 1)⌋ : ℤ) = lo at *
  generalize (⌈x / pow10 (Int.log 10 x - n + 1)⌉ : ℤ) = hi at *
  by_cases h1 : b64 (lo * pow10 (Int.log 10 x - n + 1)) = x
  · by_cases h2 : b64 (hi * pow10 (Int.log 10 x - n + 1)) = x
    · rw [if_pos ⟨h1, h2⟩]; rfl
    · rw [if_neg (fun h => h2 h.2), if_pos h1]; rfl
  · have h2 := key.resolve_left h1
    rw [if_neg (fun h => h1 h.1), if_neg h1, if_pos h2]; rfl

/-- **C117**: no decimal that is read as the same float has fewer digits, and there are never more than 17. -/
theorem C117_shortest (x : ℚ) (hx : 0 < x) (h : b64 x = x) : (significant (shortDecimal x).1).length ≤ 17 ∧
    ∀ (n d : ℕ) (e : ℤ), d < 10 ^ n → b64 (d * 10 ^ e) = x → (significant (shortDecimal x).1).length ≤ n := by
  obtain ⟨N, hN, h1, h2⟩ := shortDecimal_spec hx h
  have h3 := significant_length (Nat.succ_pos N) (decimalAt_le h1)
  refine ⟨by omega, ?_⟩
  intro n d e hd hr
  have hn : 0 < n := by
    rcases Nat.eq_zero_or_pos n with rfl | hn
    · have : d = 0 := by simpa using hd
      subst this
      simp only [Nat.cast_zero, zero_mul] at hr
      have h0 : b64 0 = 0 := by decide +kernel
      rw [h0] at hr
      exact absurd hr hx.ne
    · exact hn
  have hf := decimalAt_found hx h hn hd hr
  by_contra hlt
  have := h2 (n - 1) (by omega)
  rw [Nat.sub_add_cancel hn] at this
  rw [this] at hf
  exact absurd hf (by simp)

theorem pyRound_nearest (z : ℚ) (m : ℤ) : |(pyRound z : ℚ) - z| ≤ |(m : ℚ) - z| := by
  by_cases h : m = pyRound z
  · rw [h]
  · have h1 := abs_pyRound_sub_le z
    have h2 : (1:ℚ) ≤ |(m : ℚ) - pyRound z| := by
      have : (1:ℤ) ≤ |m - pyRound z| := Int.one_le_abs (sub_ne_zero.2 h)
      exact_mod_cast this
    have h3 : |(m : ℚ) - pyRound z| ≤ |(m : ℚ) - z| + |z - pyRound z| := abs_sub_le _ _ _
    rw [abs_sub_comm z] at h3
    linarith

/-- **C117**: among the decimals with as many digits that are read as the same float, the one written is the closest. -/
theorem C117_closest (x : ℚ) (hx : 0 < x) (h : b64 x = x) (m : ℤ) (hm : b64 (m * 10 ^ (shortDecimal x).2) = x) :
    |(shortDecimal x).1 * 10 ^ (shortDecimal x).2 - x| ≤ |m * 10 ^ (shortDecimal x).2 - x| := by
  obtain ⟨n, hn, h1, -⟩ := shortDecimal_spec hx h
  obtain ⟨-, hq⟩ := decimalAt_reads hx h1
  generalize shortDecimal x = d at *
  rw [← pow10_eq] at *
  have hp : 0 < pow10 d.2 := by rw [pow10_eq]; positivity
  have hz : 0 ≤ x / pow10 d.2 := div_nonneg hx.le hp.le
  have nn : ∀ i : ℤ, 0 ≤ i → ((i.toNat : ℕ) : ℚ) = i := by
    intro i hi
    rw [← Int.cast_natCast, Int.toNat_of_nonneg hi]
  have sc : ∀ k : ℚ, |k * pow10 d.2 - x| = |k - x / pow10 d.2| * pow10 d.2 := by
    intro k
    rw [← abs_of_pos hp, ← abs_mul, abs_of_pos hp]
    congr 1
    field_simp
  rw [sc, sc]
  refine mul_le_mul_of_nonneg_right ?_ hp.le
  -- other candidates lie beyond the two neighbours
  have below : (m : ℚ) * pow10 d.2 ≤ x → b64 ((⌊x / pow10 d.2⌋ : ℤ) * pow10 d.2) = x := fun hle => by
    have hf : m ≤ ⌊x / pow10 d.2⌋ := by rw [Int.le_floor, le_div_iff₀ hp]; exact hle
    have hf' : (m:ℚ) ≤ ⌊x / pow10 d.2⌋ := by exact_mod_cast hf
    apply le_antisymm
    · conv_rhs => rw [← h]
      apply b64_mono
      rw [← le_div_iff₀ hp]
      exact Int.floor_le _
    · conv_lhs => rw [← hm]
      exact b64_mono (mul_le_mul_of_nonneg_right hf' hp.le)
  have above : x ≤ (m : ℚ) * pow10 d.2 → b64 ((⌈x / pow10 d.2⌉ : ℤ) * pow10 d.2) = x := fun hle => by
    have hf : ⌈x / pow10 d.2⌉ ≤ m := by rw [Int.ceil_le, div_le_iff₀ hp]; exact hle
    have hf' : (⌈x / pow10 d.2⌉ : ℚ) ≤ m := by exact_mod_cast hf
    apply le_antisymm
    · conv_rhs => rw [← hm]
      exact b64_mono (mul_le_mul_of_nonneg_right hf' hp.le)
    · conv_lhs => rw [← h]
      apply b64_mono
      rw [← div_le_iff₀ hp]
      exact Int.le_ceil _
  unfold decimalAt at h1
  dsimp only at h1
  rw [← hq] at h1
  by_cases hlo : b64 ((⌊x / pow10 d.2⌋ : ℤ) * pow10 d.2) = x
  · by_cases hhi : b64 ((⌈x / pow10 d.2⌉ : ℤ) * pow10 d.2) = x
    · rw [if_pos ⟨hlo, hhi⟩] at h1
      have := congrArg Prod.fst (Option.some.inj h1)
      dsimp only at this
      rw [← this, nn _ (pyRound_nonneg hz)]
      exact pyRound_nearest _ m
    · rw [if_neg (fun h => hhi h.2), if_pos hlo] at h1
      have := congrArg Prod.fst (Option.some.inj h1)
      dsimp only at this
      rw [← this, nn _ (Int.floor_nonneg.2 hz)]
      have hmx : (m : ℚ) * pow10 d.2 < x := by
        by_contra hc; exact hhi (above (not_lt.1 hc))
      have hf : m ≤ ⌊x / pow10 d.2⌋ := by rw [Int.le_floor, le_div_iff₀ hp]; exact hmx.le
      have hf' : (m:ℚ) ≤ ⌊x / pow10 d.2⌋ := by exact_mod_cast hf
      have hfl := Int.floor_le (x / pow10 d.2)
      rw [abs_of_nonpos (by linarith), abs_of_nonpos (by linarith)]
      linarith
  · have hmx : x < (m : ℚ) * pow10 d.2 := by
      by_contra hc; exact hlo (below (not_lt.1 hc))
    have hhi := above hmx.le
    rw [if_neg (fun h => hlo h.1), if_neg hlo, if_pos hhi] at h1
    have := congrArg Prod.fst (Option.some.inj h1)
    dsimp only at this
    rw [← this, nn _ (Int.ceil_nonneg hz)]
    have hf : ⌈x / pow10 d.2⌉ ≤ m := by rw [Int.ceil_le, div_le_iff₀ hp]; exact hmx.le
    have hf' : (⌈x / pow10 d.2⌉ : ℚ) ≤ m := by exact_mod_cast hf
    have hcl := Int.le_ceil (x / pow10 d.2)
    rw [abs_of_nonneg (by linarith), abs_of_nonneg (by linarith)]
    linarith

/-! ## Examples -/

example : b64 (1/3) ≠ 1/3 ∧ b64 (b64 (1/3)) = b64 (1/3) := by decide +kernel

/-- A third. -/
example : floatText (b64 (1/3)) = "0.3333333333333333".toList ∧ shortDecimal (b64 (1/3)) = (3333333333333333, -16) := by decide +kernel

/-- The gain of the current converter of the cape and powers of ten at the limits of the notation. -/
example : floatText (b64 (1/1000)) = "0.001".toList ∧ floatText (-b64 (1/100000)) = "-1e-05".toList ∧ floatText (b64 (10^16)) = "1e+16".toList ∧ floatText (b64 (10^15)) = "1000000000000000.0".toList ∧
    yamlFloat (-b64 (1/100000)) = "-1.0e-05".toList ∧ yamlFloat (b64 (5/4)) = "1.25".toList ∧ floatText (b64 (123456789/10^13)) = "1.23456789e-05".toList := by decide +kernel

/-- Seventeen digits are needed. -/
example : floatText (b64 (1/10) + b64 (2/10)) ≠ floatText (b64 (b64 (1/10) + b64 (2/10))) ∧ floatText (b64 (b64 (1/10) + b64 (2/10))) = "0.30000000000000004".toList := by decide +kernel

/-- Without the point YAML would take the number for a text. -/
example : ¬ YamlFloatText "1e-05".toList := by
  rintro ⟨sg, i, f, e, h, _⟩
  have : '.' ∈ "1e-05".toList := by rw [h]; simp
  exact absurd this (by decide)

example : tableNumbers ';' "time [s]; current [A]\n2023-01-01 00:00:00; 1e-05; -0.25\n".toList = [[b64 (1/100000), -1/4]] := by decide +kernel

end Verif.Props
