import Mathlib.Tactic
import Verif.Model.Fingerprint

/-!
# What `repr` prints can be read back
-/

namespace Verif.Props
open Verif.Py Verif.Model

/-! ## Texts -/

/-- Value of a digit of base sixteen. -/
def hexOf (c : Char) : ℕ := "0123456789abcdef".toList.idxOf c

theorem hexOf_hexChar : ∀ n, n < 16 → hexOf (hexChar n) = n := by decide +kernel

/-- Value of digits of base sixteen. -/
def hexVal (l : List Char) : ℕ := l.foldl (fun a c => 16 * a + hexOf c) 0

theorem hexVal_hexFixed : ∀ k n, n < 16 ^ k → hexVal (hexFixed k n) = n
  | 0, n, h => by
    have : n = 0 := by simpa using h
    subst this; rfl
  | k + 1, n, h => by
    have ih := hexVal_hexFixed k (n / 16) (by rw [Nat.div_lt_iff_lt_mul (by norm_num)]; rw [pow_succ] at h; exact h)
    unfold hexVal at ih ⊢
    rw [hexFixed, List.foldl_append, ih]
    simp only [List.foldl_cons, List.foldl_nil, hexOf_hexChar (n % 16) (Nat.mod_lt _ (by norm_num))]
    omega

theorem hexFixed_length : ∀ k n, (hexFixed k n).length = k
  | 0, _ => rfl
  | k + 1, n => by rw [hexFixed, List.length_append, hexFixed_length]; rfl

/-- Reads one printed character. -/
def readChar : List Char → Char × List Char
  | '\\' :: 'n' :: t => ('\n', t)
  | '\\' :: 'r' :: t => ('\r', t)
  | '\\' :: 't' :: t => ('\t', t)
  | '\\' :: 'x' :: t => (Char.ofNat (hexVal (t.take 2)), t.drop 2)
  | '\\' :: 'u' :: t => (Char.ofNat (hexVal (t.take 4)), t.drop 4)
  | '\\' :: 'U' :: t => (Char.ofNat (hexVal (t.take 8)), t.drop 8)
  | '\\' :: c :: t => (c, t)
  | c :: t => (c, t)
  | [] => ('0', [])

theorem read_hex (k : ℕ) (c : Char) (x : List Char) (h : c.toNat < 16 ^ k) :
    (Char.ofNat (hexVal ((hexFixed k c.toNat ++ x).take k)), (hexFixed k c.toNat ++ x).drop k) = (c, x) := by
  have hl := hexFixed_length k c.toNat
  rw [List.take_left' hl, List.drop_left' hl, hexVal_hexFixed k _ h, Char.ofNat_toNat]

theorem char_lt (c : Char) : c.toNat < 16 ^ 8 := by
  have := c.valid
  have h2 : c.toNat < 0x110000 := by
    rcases this with h | ⟨-, h⟩
    · exact lt_trans h (by norm_num)
    · exact h
  norm_num
  omega

theorem readChar_esc (pr : Char → Bool) (q c : Char) (x : List Char) (hq : q = '\'' ∨ q = '"') :
    readChar (escChar pr q c ++ x) = (c, x) := by
  unfold escChar
  by_cases h1 : c = q ∨ c = '\\'
  · rw [if_pos h1]
    rcases h1 with h | h
    · rcases hq with e | e <;> subst h <;> subst e <;> rfl
    · subst h; rfl
  rw [if_neg h1]
  by_cases h2 : c = '\n'
  · rw [if_pos h2]; subst h2; rfl
  rw [if_neg h2]
  by_cases h3 : c = '\r'
  · rw [if_pos h3]; subst h3; rfl
  rw [if_neg h3]
  by_cases h4 : c = '\t'
  · rw [if_pos h4]; subst h4; rfl
  rw [if_neg h4]
  by_cases h5 : pr c = true
  · rw [if_pos h5]
    have : c ≠ '\\' := fun e => h1 (Or.inr e)
    simp only [List.cons_append, List.nil_append]
    unfold readChar
    split <;> simp_all
  rw [if_neg h5]
  by_cases h6 : c.toNat < 0x100
  · rw [if_pos h6]; exact read_hex 2 c x (by norm_num; exact h6)
  rw [if_neg h6]
  by_cases h7 : c.toNat < 0x10000
  · rw [if_pos h7]; exact read_hex 4 c x (by norm_num; exact h7)
  rw [if_neg h7]
  exact read_hex 8 c x (char_lt c)

theorem esc_head (pr : Char → Bool) (q c : Char) (hq : q = '\'' ∨ q = '"') : ∃ a t, escChar pr q c = a :: t ∧ a ≠ q := by
  have hb : ('\\' : Char) ≠ q := by rcases hq with e | e <;> subst e <;> decide
  unfold escChar
  split_ifs with h1
  · exact ⟨_, _, rfl, hb⟩
  · exact ⟨_, _, rfl, hb⟩
  · exact ⟨_, _, rfl, hb⟩
  · exact ⟨_, _, rfl, hb⟩
  · exact ⟨_, _, rfl, fun e => h1 (Or.inl e)⟩
  · exact ⟨_, _, rfl, hb⟩
  · exact ⟨_, _, rfl, hb⟩
  · exact ⟨_, _, rfl, hb⟩

theorem body_inj (pr : Char → Bool) (q : Char) (hq : q = '\'' ∨ q = '"') (r r' : List Char) : ∀ s s' : List Char,
    s.flatMap (escChar pr q) ++ q :: r = s'.flatMap (escChar pr q) ++ q :: r' → s = s' ∧ r = r'
  | [], [], h => by simpa using h
  | [], d :: s', h => by
    obtain ⟨a, t, e, ha⟩ := esc_head pr q d hq
    simp only [List.flatMap_nil, List.nil_append, List.flatMap_cons, e, List.cons_append, List.cons.injEq] at h
    exact absurd h.1.symm ha
  | c :: s, [], h => by
    obtain ⟨a, t, e, ha⟩ := esc_head pr q c hq
    simp only [List.flatMap_nil, List.nil_append, List.flatMap_cons, e, List.cons_append, List.cons.injEq] at h
    exact absurd h.1 ha
  | c :: s, d :: s', h => by
    simp only [List.flatMap_cons, List.append_assoc] at h
    have h2 := congrArg readChar h
    rw [readChar_esc pr q c _ hq, readChar_esc pr q d _ hq, Prod.mk.injEq] at h2
    obtain ⟨hs, hr⟩ := body_inj pr q hq r r' s s' h2.2
    exact ⟨by rw [h2.1, hs], hr⟩

theorem quoteOf_cases (s : List Char) : quoteOf s = '\'' ∨ quoteOf s = '"' := by
  unfold quoteOf
  split_ifs
  · exact Or.inr rfl
  · exact Or.inl rfl

theorem str_inj (pr : Char → Bool) (s s' r r' : List Char) (h : reprText pr s ++ r = reprText pr s' ++ r') : s = s' ∧ r = r' := by
  unfold reprText at h
  simp only [List.cons_append, List.cons.injEq, List.append_assoc, List.nil_append] at h
  obtain ⟨hq, hb⟩ := h
  rw [← hq] at hb
  exact body_inj pr _ (quoteOf_cases s) r r' s s' hb

/-! ## Numbers -/

/-- Value of a decimal digit. -/
def decOf (c : Char) : ℕ := "0123456789".toList.idxOf c

theorem decOf_decChar : ∀ n, n < 10 → decOf (decChar n) = n := by decide +kernel

/-- Value of decimal digits. -/
def decVal (l : List Char) : ℕ := l.foldr (fun c a => decOf c + 10 * a) 0

theorem decVal_digits : ∀ l : List ℕ, (∀ d ∈ l, d < 10) → decVal (l.map decChar) = Nat.ofDigits 10 l
  | [], _ => rfl
  | d :: l, h => by
    have ih := decVal_digits l (fun x hx => h x (List.mem_cons_of_mem _ hx))
    unfold decVal at ih ⊢
    rw [List.map_cons, List.foldr_cons, ih, decOf_decChar d (h d List.mem_cons_self), Nat.ofDigits_cons]

theorem reprNat_val (n : ℕ) : decVal (reprNat n).reverse = n := by
  unfold reprNat
  split_ifs with h
  · subst h; decide
  · rw [List.reverse_reverse, decVal_digits _ (fun d hd => Nat.digits_lt_base (by norm_num) hd), Nat.ofDigits_digits]

/-- A decimal digit. -/
def IsDigit (c : Char) : Prop := c ∈ "0123456789".toList

theorem decChar_digit : ∀ n, n < 10 → IsDigit (decChar n) := by unfold IsDigit; decide +kernel

theorem reprNat_digits (n : ℕ) : ∀ c ∈ reprNat n, IsDigit c := by
  unfold reprNat
  split_ifs with h
  · intro c hc
    rw [List.mem_singleton] at hc
    subst hc
    unfold IsDigit; decide
  · intro c hc
    rw [List.mem_reverse, List.mem_map] at hc
    obtain ⟨d, hd, rfl⟩ := hc
    exact decChar_digit d (Nat.digits_lt_base (by norm_num) hd)

theorem reprNat_ne (n : ℕ) : reprNat n ≠ [] := by
  unfold reprNat
  split_ifs with h
  · simp
  · simp [Nat.digits_eq_nil_iff_eq_zero, h]

theorem reprNat_inj (m n : ℕ) (h : reprNat m = reprNat n) : m = n := by
  rw [← reprNat_val m, ← reprNat_val n, h]

theorem reprInt_inj (y z : ℤ) (h : reprInt y = reprInt z) : y = z := by
  have neg : ∀ a b : ℕ, reprNat a ≠ '-' :: reprNat b := by
    intro a b e
    have : IsDigit '-' := reprNat_digits a '-' (by rw [e]; exact List.mem_cons_self)
    revert this; unfold IsDigit; decide
  cases y with
  | ofNat a =>
    cases z with
    | ofNat b => rw [reprNat_inj a b h]
    | negSucc b => exact absurd h (neg a (b + 1))
  | negSucc a =>
    cases z with
    | ofNat b => exact absurd h.symm (neg b (a + 1))
    | negSucc b =>
      simp only [reprInt, List.cons.injEq, true_and] at h
      have := reprNat_inj _ _ h
      rw [show a = b by omega]

theorem reprInt_chars (z : ℤ) : ∀ c ∈ reprInt z, IsDigit c ∨ c = '-' := by
  cases z with
  | ofNat a => exact fun c hc => Or.inl (reprNat_digits a c hc)
  | negSucc a =>
    intro c hc
    rcases List.mem_cons.mp hc with h | h
    · exact Or.inr h
    · exact Or.inl (reprNat_digits _ c h)

theorem reprInt_ne (z : ℤ) : reprInt z ≠ [] := by
  cases z with
  | ofNat a => exact reprNat_ne a
  | negSucc a => exact List.cons_ne_nil _ _

/-! ## Words -/

/-- A character of a name or number: no bracket, quote, comma, equals sign or blank. -/
def WordChar (c : Char) : Prop := c ∉ ",)]}([{'\"= ".toList

instance (c : Char) : Decidable (WordChar c) := inferInstanceAs (Decidable (_ ∉ _))

/-- A character of a number. -/
def NumChar (c : Char) : Prop := c ∈ "0123456789.e+-".toList

instance (c : Char) : Decidable (NumChar c) := inferInstanceAs (Decidable (_ ∈ _))

theorem num_word : ∀ c, NumChar c → WordChar c := by
  intro c h
  unfold NumChar at h
  have : ∀ c ∈ "0123456789.e+-".toList, WordChar c := by decide +kernel
  exact this c h

/-- The text does not go on with a character of a word. -/
def WordEnd (r : List Char) : Prop := ∀ c t, r = c :: t → ¬ WordChar c

theorem word_inj : ∀ (t t' r r' : List Char), (∀ c ∈ t, WordChar c) → (∀ c ∈ t', WordChar c) → WordEnd r → WordEnd r' → t ++ r = t' ++ r' → t = t' ∧ r = r'
  | [], [], r, r', _, _, _, _, h => ⟨rfl, by simpa using h⟩
  | [], c :: t', r, r', _, h2, h3, _, h => absurd (h2 c List.mem_cons_self) (h3 c (t' ++ r') (by simpa using h))
  | c :: t, [], r, r', h1, _, _, h4, h => absurd (h1 c List.mem_cons_self) (h4 c (t ++ r) (by simpa using h.symm))
  | c :: t, d :: t', r, r', h1, h2, h3, h4, h => by
    simp only [List.cons_append, List.cons.injEq] at h
    obtain ⟨e, f⟩ := word_inj t t' r r' (fun x hx => h1 x (List.mem_cons_of_mem _ hx)) (fun x hx => h2 x (List.mem_cons_of_mem _ hx)) h3 h4 h.2
    exact ⟨by rw [h.1, e], f⟩

end Verif.Props
