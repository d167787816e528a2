import Verif.Model.YamlText

/-!
# Texts in the files of models (C123)
-/

namespace Verif.Props
open Verif.Model Verif.Py

/-- The characters of `SafeStr`: printable ASCII with blanks. -/
def Printable (t : List Char) : Prop := ∀ c ∈ t, ' ' ≤ c ∧ c ≤ '~'

theorem printable_ws {c : Char} (h : ' ' ≤ c ∧ c ≤ '~') (hs : c ≠ ' ') : isWs c = false ∧ c ≠ '\n' := by
  have h1 : ' '.toNat ≤ c.toNat := h.1
  have hn : ∀ d : Char, d.toNat < 32 → c ≠ d := by
    rintro d hd rfl
    have : ' '.toNat = 32 := rfl
    omega
  refine ⟨?_, hn _ (by decide)⟩
  unfold isWs
  simp [hs, hn '\t' (by decide), hn '\n' (by decide), hn '\r' (by decide), hn '\x00' (by decide)]

theorem readQuoted_cons (f : Option ℕ) (k : ℕ) (c : Char) (r : List Char) : readQuoted f k (c :: r) =
    if c = ' ' then readQuoted f (k + 1) r
    else if c = '\n' then (if docSep r then none else readQuoted (foldMore f) 0 r)
    else if c = '\'' then
      match r with
      | [] => some (pendText f k, [])
      | c2 :: r2 => if c2 = '\'' then (readQuoted none 0 r2).map (fun x => (pendText f k ++ '\'' :: x.1, x.2)) else some (pendText f k, c2 :: r2)
    else (readQuoted none 0 r).map (fun x => (pendText f k ++ c :: x.1, x.2)) := by
  rw [readQuoted.eq_def]
  rfl

theorem quoted_blanks (f : Option ℕ) (n k : ℕ) (t : List Char) : readQuoted f k (List.replicate n ' ' ++ t) = readQuoted f (k + n) t := by
  induction n generalizing k with
  | zero => simp
  | succ n ih =>
    rw [List.replicate_succ, List.cons_append, readQuoted_cons, if_pos rfl, ih]
    congr 1
    omega

theorem plain_blanks (indent : ℕ) (f : Option ℕ) (n k col : ℕ) (t : List Char) : readPlain indent f k col (List.replicate n ' ' ++ t) = readPlain indent f (k + n) (col + n) t := by
  induction n generalizing k col with
  | zero => simp
  | succ n ih =>
    rw [List.replicate_succ, List.cons_append, readPlain, if_pos rfl, ih]
    congr 1 <;> omega

theorem docSep_blank (n : ℕ) (hn : 1 ≤ n) (t : List Char) : docSep (List.replicate n ' ' ++ t) = false := by
  obtain ⟨m, rfl⟩ : ∃ m, n = m + 1 := ⟨n - 1, by omega⟩
  rw [List.replicate_succ, List.cons_append]
  unfold docSep markAt
  simp

/-! ## Quoted texts -/

/-- The text a gap stands for. -/
def gapText : Gap → List Char
  | .blanks k => List.replicate k ' '
  | .breaks n => List.replicate n '\n'

/-- Gaps that occur before a text: no blanks before a line break, no line break before a blank. -/
def gapFits : Gap → List Char → Prop
  | .blanks k, t => k = 0 ∨ t.head? ≠ some '\n'
  | .breaks n, t => 1 ≤ n ∧ t.head? ≠ some ' '

theorem docSep_break (t : List Char) : docSep ('\n' :: t) = false := by
  unfold docSep markAt
  simp

theorem quoted_breaks (w n : ℕ) (hw : 1 ≤ w) (t : List Char) : ∀ f j, readQuoted f j (List.replicate (n + 1) '\n' ++ (List.replicate w ' ' ++ t)) = readQuoted (some (match f with | none => n | some m => m + 1 + n)) w t := by
  induction n with
  | zero =>
    intro f j
    simp only [Nat.zero_add, List.replicate_one, List.singleton_append]
    rw [readQuoted_cons, if_neg (by decide), if_pos rfl, docSep_blank w hw]
    simp only [Bool.false_eq_true, if_false]
    rw [quoted_blanks, Nat.zero_add]
    cases f <;> rfl
  | succ n ih =>
    intro f j
    rw [List.replicate_succ, List.cons_append, readQuoted_cons, if_neg (by decide), if_pos rfl]
    have hd : docSep (List.replicate (n + 1) '\n' ++ (List.replicate w ' ' ++ t)) = false := by
      rw [List.replicate_succ, List.cons_append]
      exact docSep_break _
    rw [hd]
    simp only [Bool.false_eq_true, if_false]
    rw [ih]
    cases f with
    | none => simp [foldMore, Nat.add_comm]
    | some m => simp only [foldMore]; congr 2; omega

/-- The reader after the gap before a word. -/
theorem quoted_word (w col : ℕ) (g : Gap) (may : Bool) (hw : 1 ≤ w) (hg : ∀ n, g = .breaks n → 1 ≤ n) (r : List Char) :
    ∃ f j, readQuoted none 0 ((writeGap w col may g).1 ++ r) = readQuoted f j r ∧ pendText f j = gapText g := by
  cases g with
  | blanks k =>
    unfold writeGap writeBlanks
    by_cases h : k = 1 ∧ 80 < col ∧ may = true
    · simp only [if_pos h]
      refine ⟨some 0, w, ?_, by rw [h.1]; rfl⟩
      simp only [List.cons_append]
      rw [readQuoted_cons, if_neg (by decide), if_pos rfl, docSep_blank w hw]
      simp only [Bool.false_eq_true, if_false]
      rw [quoted_blanks]
      simp [foldMore]
    · simp only [if_neg h]
      exact ⟨none, k, by rw [quoted_blanks, Nat.zero_add], rfl⟩
  | breaks n =>
    have hn := hg n rfl
    refine ⟨some n, w, ?_, ?_⟩
    · simp only [writeGap, List.append_assoc]
      rw [quoted_breaks w n hw]
    · cases n with
      | zero => omega
      | succ n => rfl

theorem quoted_back (w : ℕ) (hw : 1 ≤ w) (rest : List Char) (hrest : ∀ r, rest ≠ '\'' :: r) (t : List Char) :
    ∀ started col g, mixedGaps t = false → gapFits g t → readQuoted none 0 (writeQuoted w started col g t ++ rest) = some (gapText g ++ t, rest) := by
  induction t with
  | nil =>
    intro started col g _ hg
    have hb : ∀ n, g = .breaks n → 1 ≤ n := by rintro n rfl; exact hg.1
    rw [writeQuoted, List.append_assoc]
    obtain ⟨f, j, h1, h2⟩ := quoted_word w col g false hw hb (['\''] ++ rest)
    rw [h1]
    simp only [List.singleton_append]
    rw [readQuoted_cons, if_neg (by decide), if_neg (by decide), if_pos rfl]
    cases rest with
    | nil => simp [h2]
    | cons c r =>
      have : c ≠ '\'' := fun h => hrest r (by rw [h])
      simp [h2, this]
  | cons c t ih =>
    intro started col g hm hg
    have hb : ∀ n, g = .breaks n → 1 ≤ n := by rintro n rfl; exact hg.1
    rw [mixedGaps] at hm
    simp only [Bool.or_eq_false_iff] at hm
    obtain ⟨⟨hm1, hm2⟩, hm3⟩ := hm
    rw [writeQuoted.eq_def]
    simp only
    by_cases hc : c = ' '
    · subst hc
      rw [if_pos rfl]
      cases g with
      | breaks n => exact absurd rfl hg.2
      | blanks k =>
        simp only
        rw [ih started col (.blanks (k + 1)) hm3 (Or.inr (by simpa using hm1))]
        simp [gapText, List.replicate_succ']
    · rw [if_neg hc]
      by_cases hn : c = '\n'
      · subst hn
        rw [if_pos rfl]
        cases g with
        | breaks n =>
          simp only
          rw [ih started col (.breaks (n + 1)) hm3 ⟨by omega, by simpa using hm2⟩]
          simp [gapText, List.replicate_succ']
        | blanks k =>
          have hk : k = 0 := by
            rcases hg with h | h
            · exact h
            · exact absurd rfl h
          subst hk
          simp only [writeBlanks]
          rw [if_neg (by omega)]
          simp only [List.replicate_zero, List.nil_append]
          rw [ih true _ (.breaks 1) hm3 ⟨le_refl 1, by simpa using hm2⟩]
          simp [gapText]
      · rw [if_neg hn]
        by_cases hq : c = '\''
        · rw [if_pos hq, List.append_assoc]
          obtain ⟨f, j, h1, h2⟩ := quoted_word w col g started hw hb ('\'' :: '\'' :: writeQuoted w true ((writeGap w col started g).2 + 2) (.blanks 0) t ++ rest)
          rw [h1]
          simp only [List.cons_append]
          rw [readQuoted_cons, if_neg (by decide), if_neg (by decide), if_pos rfl]
          simp only [if_true]
          rw [ih true _ (.blanks 0) hm3 (Or.inl rfl), h2, hq]
          simp [gapText]
        · rw [if_neg hq, List.append_assoc]
          obtain ⟨f, j, h1, h2⟩ := quoted_word w col g started hw hb (c :: writeQuoted w true ((writeGap w col started g).2 + 1) (.blanks 0) t ++ rest)
          rw [h1]
          simp only [List.cons_append]
          rw [readQuoted_cons, if_neg hc, if_neg hn, if_neg hq, ih true _ (.blanks 0) hm3 (Or.inl rfl), h2]
          simp [gapText]

/-! ## Double quoted texts -/

theorem double_blanks (n : ℕ) (t : List Char) : readDouble .skip (List.replicate n ' ' ++ t) = readDouble .skip t := by
  induction n with
  | zero => simp
  | succ n ih => rw [List.replicate_succ, List.cons_append, readDouble, if_pos rfl, ih]

theorem skip_text (c : Char) (r : List Char) (hs : c ≠ ' ') (hn : c ≠ '\n') : readDouble .skip (c :: r) = readDouble (.text none 0) (c :: r) := by
  rw [readDouble, readDouble, if_neg hs, if_neg hn, if_neg hs, if_neg hn]
  by_cases hq : c = '"'
  · rw [if_pos hq, if_pos hq]; rfl
  · rw [if_neg hq, if_neg hq]
    by_cases hb : c = '\\'
    · rw [if_pos hb, if_pos hb]
      simp [pendText]
    · rw [if_neg hb, if_neg hb]
      simp [pendText]

theorem hexVal_upper (n : ℕ) : hexVal (hexUpper n) = some (n % 16) := by
  have h : ∀ a < 16, hexVal (hexUpper a) = some a := by decide +kernel
  have e : hexUpper n = hexUpper (n % 16) := by simp [hexUpper]
  rw [e, h _ (Nat.mod_lt _ (by norm_num))]

theorem hex_back (k n : ℕ) (X : List Char) : ∀ acc, readDouble (.hex (k + 1) acc) (hexDigits (k + 1) n ++ X) =
    (readDouble (.text none 0) X).map (fun x => (Char.ofNat (acc * 16 ^ (k + 1) + n % 16 ^ (k + 1)) :: x.1, x.2)) := by
  induction k with
  | zero =>
    intro acc
    simp only [hexDigits, List.cons_append, List.nil_append, readDouble, hexVal_upper]
    simp [Nat.mul_comm]
  | succ k ih =>
    intro acc
    rw [hexDigits, List.cons_append]
    simp only [readDouble, hexVal_upper]
    rw [if_neg (by omega), Nat.add_sub_cancel, ih]
    have : (16 * acc + n / 16 ^ (k + 1) % 16) * 16 ^ (k + 1) + n % 16 ^ (k + 1) = acc * 16 ^ (k + 1 + 1) + n % 16 ^ (k + 1 + 1) := by
      rw [Nat.mod_pow_succ (x := n) (b := 16) (k := k + 1)]
      ring
    rw [this]

theorem escTable_ok : ∀ p ∈ escTable, p.2 ≠ 'x' ∧ p.2 ≠ 'u' ∧ p.2 ≠ 'U' ∧ p.2 ≠ '\n' ∧ unescTable.find? (fun q => q.1 = p.2) = some (p.2, p.1) := by decide +kernel

theorem esc_back (c : Char) (X : List Char) : readDouble .esc (escCode c ++ X) = (readDouble (.text none 0) X).map (fun x => (c :: x.1, x.2)) := by
  unfold escCode
  cases hf : escTable.find? (fun p => p.1 = c) with
  | some p =>
    obtain ⟨h1, h2, h3, h4, h5⟩ := escTable_ok p (List.mem_of_find?_eq_some hf)
    have hc : p.1 = c := by simpa using List.find?_some hf
    simp only [List.singleton_append]
    rw [readDouble, if_neg h1, if_neg h2, if_neg h3, if_neg h4, h5, hc]
  | none =>
    have hlt : c.toNat < 16 ^ 8 := by
      have := c.valid
      have h : c.toNat < 0x110000 := by
        rcases this with h | h
        · have : c.toNat < 0xd800 := h
          omega
        · exact h.2
      omega
    simp only
    by_cases h1 : c.toNat ≤ 0xFF
    · rw [if_pos h1, List.cons_append, readDouble, if_pos rfl, hex_back 1]
      simp [Nat.mod_eq_of_lt (show c.toNat < 256 by omega), Char.ofNat_toNat]
    · rw [if_neg h1]
      by_cases h2 : c.toNat ≤ 0xFFFF
      · rw [if_pos h2, List.cons_append, readDouble, if_neg (by decide), if_pos rfl, hex_back 3]
        simp [Nat.mod_eq_of_lt (show c.toNat < 65536 by omega), Char.ofNat_toNat]
      · rw [if_neg h2, List.cons_append, readDouble, if_neg (by decide), if_neg (by decide), if_pos rfl, hex_back 7]
        simp [Nat.mod_eq_of_lt (show c.toNat < 4294967296 by omega), Char.ofNat_toNat]

/-- After a line that ends with a backslash. -/
theorem break_back (w k : ℕ) (hw : 1 ≤ w) (t : List Char) : readDouble (.text none k) ('\\' :: '\n' :: (List.replicate w ' ' ++ t)) = (readDouble .skip t).map (fun x => (List.replicate k ' ' ++ x.1, x.2)) := by
  rw [readDouble, if_neg (by decide), if_neg (by decide), if_neg (by decide), if_pos rfl, readDouble, if_neg (by decide), if_neg (by decide), if_neg (by decide), if_pos rfl, docSep_blank w hw]
  simp only [Bool.false_eq_true, if_false]
  rw [double_blanks]
  rfl

theorem esc_blank (X : List Char) : readDouble .esc (' ' :: X) = (readDouble (.text none 0) X).map (fun x => (' ' :: x.1, x.2)) := by
  rw [readDouble, if_neg (by decide), if_neg (by decide), if_neg (by decide), if_neg (by decide)]
  have : unescTable.find? (fun q => q.1 = ' ') = some (' ', ' ') := by decide +kernel
  rw [this]

theorem asItIs_char {c : Char} (h : asItIs c = true) : c ≠ '\n' ∧ c ≠ '"' ∧ c ≠ '\\' := by
  unfold asItIs at h
  simp only [Bool.and_eq_true, decide_eq_true_eq, Bool.not_eq_true', decide_eq_false_iff_not] at h
  refine ⟨?_, h.1.2, h.2⟩
  rintro rfl
  exact absurd h.1.1.1 (by decide)

theorem double_back (w : ℕ) (hw : 1 ≤ w) (hw' : w < 80) (rest : List Char) (n : ℕ) : ∀ t : List Char, t.length ≤ n → ∀ started fresh col k,
    readDouble (.text none k) (writeDouble w started fresh col t ++ rest) = some (List.replicate k ' ' ++ t, rest) := by
  induction n with
  | zero =>
    intro t ht started fresh col k
    obtain rfl := List.length_eq_zero_iff.mp (Nat.le_zero.mp ht)
    rw [writeDouble, List.singleton_append, readDouble, if_neg (by decide), if_neg (by decide), if_pos rfl]
    simp [pendText]
  | succ n ih =>
    intro t ht started fresh col k
    cases t with
    | nil =>
      rw [writeDouble, List.singleton_append, readDouble, if_neg (by decide), if_neg (by decide), if_pos rfl]
      simp [pendText]
    | cons c r =>
      have hr : r.length ≤ n := by simpa using ht
      rw [writeDouble]
      by_cases ha : asItIs c = true
      · obtain ⟨c1, c2, c3⟩ := asItIs_char ha
        rw [if_pos ha]
        by_cases hbr : started = true ∧ r ≠ [] ∧ (c = ' ' ∨ fresh = true) ∧ 80 < col
        · rw [if_pos hbr]
          unfold escBreak
          by_cases hc : c = ' '
          · simp only [hc, decide_true, if_true, List.cons_append, List.append_assoc, List.nil_append]
            rw [break_back w k hw, readDouble, if_neg (by decide), if_neg (by decide), if_neg (by decide), if_pos rfl, esc_blank, ih r hr]
            simp
          · simp only [hc, decide_false, Bool.false_eq_true, if_false, List.cons_append, List.append_assoc]
            rw [break_back w k hw, skip_text c _ hc c1, readDouble, if_neg hc, if_neg c1, if_neg c2, if_neg c3, ih r hr]
            simp [pendText]
        · rw [if_neg hbr, List.cons_append]
          by_cases hc : c = ' '
          · rw [readDouble, if_pos hc, ih r hr, hc]
            simp [List.replicate_succ']
          · rw [readDouble, if_neg hc, if_neg c1, if_neg c2, if_neg c3, ih r hr]
            simp [pendText]
      · rw [if_neg ha]
        have hstep : ∀ X, readDouble (.text none 0) X = some (r, rest) → readDouble (.text none k) ('\\' :: escCode c ++ X) = some (List.replicate k ' ' ++ c :: r, rest) := by
          intro X hX
          rw [List.cons_append, readDouble, if_neg (by decide), if_neg (by decide), if_neg (by decide), if_pos rfl, esc_back, hX]
          simp [pendText]
        by_cases hbr : started = true ∧ r ≠ [] ∧ 80 < col + (escCode c).length
        · rw [if_pos hbr, List.append_assoc]
          refine hstep _ ?_
          obtain ⟨-, hne, -⟩ := hbr
          cases r with
          | nil => exact absurd rfl hne
          | cons d r =>
            unfold escBreak
            by_cases hd : d = ' '
            · have hw2 : writeDouble w true true (w + 1) (' ' :: r) = ' ' :: writeDouble w true false (w + 1 + 1) r := by
                rw [writeDouble, if_pos (by decide), if_neg (by omega)]
              simp only [hd, List.head?_cons, decide_true, if_true, List.cons_append, List.append_assoc, List.nil_append, hw2]
              rw [break_back w 0 hw, readDouble, if_neg (by decide), if_neg (by decide), if_neg (by decide), if_pos rfl, esc_blank, ih r (by simp at hr; omega)]
              simp
            · have hh : ¬ ((d :: r).head? = some ' ') := by simpa using hd
              simp only [hh, decide_false, Bool.false_eq_true, if_false, List.cons_append, List.append_assoc]
              rw [break_back w 0 hw]
              have hform : ∃ e X, writeDouble w true true w (d :: r) ++ rest = e :: X ∧ e ≠ ' ' ∧ e ≠ '\n' := by
                rw [writeDouble]
                by_cases hda : asItIs d = true
                · rw [if_pos hda, if_neg (by omega)]
                  exact ⟨d, _, rfl, hd, (asItIs_char hda).1⟩
                · rw [if_neg hda]
                  by_cases hb2 : true = true ∧ r ≠ [] ∧ 80 < w + (escCode d).length
                  · rw [if_pos hb2]; exact ⟨'\\', _, rfl, by decide, by decide⟩
                  · rw [if_neg hb2]; exact ⟨'\\', _, rfl, by decide, by decide⟩
              obtain ⟨e, X, he, e1, e2⟩ := hform
              rw [he, skip_text e X e1 e2, ← he, ih (d :: r) hr]
              simp
        · rw [if_neg hbr, List.append_assoc]
          exact hstep _ (by rw [ih r hr]; simp)

/-! ## Plain texts -/

theorem plain_word (i w col k : ℕ) (hw : 1 ≤ w) (hi : i ≤ w) (hcol : i ≤ col) (c : Char) (r : List Char) :
    ∃ f j, readPlain i none 0 col ((writeBlanks w col k true).1 ++ c :: r) = readPlain i f j (writeBlanks w col k true).2 (c :: r) ∧ pendText f j = List.replicate k ' ' ∧
      i ≤ (writeBlanks w col k true).2 := by
  unfold writeBlanks
  by_cases h : k = 1 ∧ 80 < col ∧ true = true
  · rw [if_pos h]
    refine ⟨some 0, w, ?_, by rw [h.1]; rfl, hi⟩
    simp only [List.cons_append]
    rw [readPlain, if_neg (by decide), if_pos rfl, docSep_blank w hw]
    simp only [Bool.false_eq_true, if_false]
    rw [plain_blanks]
    simp [foldMore]
  · rw [if_neg h]
    exact ⟨none, k, by rw [plain_blanks, Nat.zero_add], rfl, by simp only; omega⟩

/-- What follows a plain text: the end of the line, then a line that is indented less. -/
theorem plain_end (i m col : ℕ) (hm : m < i) (tail : List Char) (h1 : ∀ r, tail ≠ ' ' :: r) (h2 : ∀ r, tail ≠ '\n' :: r) (h3 : docSep (List.replicate m ' ' ++ tail) = false) :
    readPlain i none 0 col ('\n' :: (List.replicate m ' ' ++ tail)) = ([], tail) := by
  rw [readPlain, if_neg (by decide), if_pos rfl, h3]
  simp only [Bool.false_eq_true, if_false]
  rw [plain_blanks]
  cases tail with
  | nil => rw [readPlain]
  | cons c r =>
    rw [readPlain, if_neg (fun h => h1 r (by rw [h])), if_neg (fun h => h2 r (by rw [h])), if_pos ⟨by simp [foldMore, pendText], Or.inr (by omega)⟩]

theorem plain_back (i w : ℕ) (hw : 1 ≤ w) (hi : i ≤ w) (rest tail : List Char) (hrest : ∀ col, readPlain i none 0 col rest = ([], tail)) (t : List Char) (ht : Printable t) :
    ∀ col k p, i ≤ col → (t = [] → k = 0) → (∀ h : t ≠ [], t.getLast h ≠ ' ') → laterIndicator p t = false → (0 < k → p = true) →
      readPlain i none 0 col (writePlain w col k t ++ rest) = (List.replicate k ' ' ++ t, tail) := by
  induction t with
  | nil =>
    intro col k p hcol hk _ _ _
    rw [hk rfl, writePlain]
    simp [writeBlanks, hrest]
  | cons c t ih =>
    intro col k p hcol hk hl hp hkp
    have ih := ih (fun x hx => ht x (by simp [hx]))
    have hl' : ∀ h : t ≠ [], t.getLast h ≠ ' ' := by
      intro h
      have := hl (by simp)
      rwa [List.getLast_cons h] at this
    rw [laterIndicator] at hp
    simp only [Bool.or_eq_false_iff] at hp
    obtain ⟨⟨hp1, hp2⟩, hp3⟩ := hp
    rw [writePlain]
    by_cases hc : c = ' '
    · rw [if_pos hc, ih col (k + 1) (isWs c) hcol (fun h => ?_) hl' hp3 (fun _ => by rw [hc]; rfl), hc]
      · simp [List.replicate_succ']
      · subst h; exact absurd hc (by simpa using hl (by simp))
    · obtain ⟨hws, hnl⟩ := printable_ws (ht c (by simp)) hc
      rw [if_neg hc, List.append_assoc, List.cons_append]
      obtain ⟨f, j, h1, h2, h3⟩ := plain_word i w col k hw hi hcol c (writePlain w ((writeBlanks w col k true).2 + 1) 0 t ++ rest)
      have hrec := ih ((writeBlanks w col k true).2 + 1) 0 (isWs c) (by omega) (fun _ => rfl) hl' hp3 (by omega)
      rw [h1, readPlain, if_neg hc, if_neg hnl, if_neg, if_neg, hrec, h2]
      · simp
      · rintro ⟨rfl, hf⟩
        simp only [decide_true, Bool.true_and] at hp1
        cases t with
        | nil => simp [followed] at hp1
        | cons x t =>
          have hx : isWs x = false := hp1
          have hx' : x ≠ ' ' := by rintro rfl; simp [isWs] at hx
          rw [writePlain, if_neg hx'] at hf
          simp [writeBlanks, followed, hx] at hf
      · rintro ⟨hne, hh⟩
        rw [h2] at hne
        have hk : 0 < k := by
          rcases Nat.eq_zero_or_pos k with h | h
          · rw [h] at hne; simp at hne
          · exact h
        rw [hkp hk] at hp2
        rcases hh with hh | hh
        · rw [hh] at hp2; simp at hp2
        · omega

/-! ## The claim -/

/-- Dropping blanks and line breaks. -/
def dropBlank (t : List Char) : List Char := t.dropWhile (fun c => c = ' ' || c = '\n')

/-- **C123, texts are read back.**  Whatever a plain text would be taken for (`isStr`), at whatever column `col` and with whatever indentation `w` below the width of a line, any text of any length is written so that reading gives the same text,
taken for a text, and goes on with the next line (`tail`), if that is indented less than the values of the block (`i`). -/
theorem C123_text (isStr : List Char → Bool) (i w col m : ℕ) (hw : i ≤ w) (hw' : w < 80) (hcol : i ≤ col) (hm : m < i) (t tail : List Char)
    (h1 : ∀ r, tail ≠ ' ' :: r) (h2 : ∀ r, tail ≠ '\n' :: r) (h3 : docSep (List.replicate m ' ' ++ tail) = false) :
    ∃ rest, readText isStr i col (writeText isStr w col t ++ '\n' :: (List.replicate m ' ' ++ tail)) = some (t, true, rest) ∧ dropBlank rest = tail := by
  have hdrop : dropBlank tail = tail := by
    unfold dropBlank
    cases tail with
    | nil => rfl
    | cons c r =>
      have a : c ≠ ' ' := fun h => h1 r (by rw [h])
      have b : c ≠ '\n' := fun h => h2 r (by rw [h])
      simp [a, b]
  have hafter : dropBlank ('\n' :: (List.replicate m ' ' ++ tail)) = tail := by
    have : ∀ n, dropBlank (List.replicate n ' ' ++ tail) = tail := by
      intro n
      induction n with
      | zero => simpa using hdrop
      | succ n ih => rw [List.replicate_succ, List.cons_append]; unfold dropBlank at ih ⊢; rw [List.dropWhile_cons_of_pos (by simp)]; exact ih
    have h := this m
    unfold dropBlank at h ⊢
    rw [List.dropWhile_cons_of_pos (by simp)]
    exact h
  unfold writeText
  by_cases hsp : (specialText t || mixedGaps t) = true
  · rw [if_pos hsp]
    refine ⟨'\n' :: (List.replicate m ' ' ++ tail), ?_, hafter⟩
    rw [List.cons_append, readText, double_back w (by omega) hw' _ _ t (le_refl _)]
    simp
  rw [if_neg hsp]
  simp only [Bool.or_eq_true, not_or, Bool.not_eq_true] at hsp
  obtain ⟨hsp, hmix⟩ := hsp
  by_cases hp : (plainOk t && !('\n' ∈ t) && isStr t) = true
  · rw [if_pos hp]
    simp only [Bool.and_eq_true, Bool.not_eq_true', decide_eq_false_iff_not] at hp
    obtain ⟨⟨hpl, hnobr⟩, hstr⟩ := hp
    have ht : Printable t := by
      intro c hc
      unfold specialText at hsp
      rw [List.any_eq_false] at hsp
      have := hsp c hc
      have hn : c ≠ '\n' := by rintro rfl; exact hnobr hc
      simpa [hn] using this
    cases t with
    | nil => simp [plainOk] at hpl
    | cons c t =>
      unfold plainOk at hpl
      simp only [Bool.and_eq_true, Bool.not_eq_true', decide_eq_false_iff_not] at hpl
      obtain ⟨⟨⟨⟨hc, hlast⟩, -⟩, hfirst⟩, hlater⟩ := hpl
      obtain ⟨hws, hnl⟩ := printable_ws (ht c (by simp)) hc
      unfold firstIndicator at hfirst
      simp only [Bool.or_eq_false_iff, decide_eq_false_iff_not] at hfirst
      obtain ⟨⟨hf1, hf2⟩, hf3⟩ := hfirst
      have hlat : laterIndicator true (c :: t) = false := by
        rw [laterIndicator, hlater]
        have hh : c ≠ '#' := by rintro rfl; exact hf1 (by decide)
        simp only [hh, decide_false, Bool.false_and, Bool.or_false]
        by_cases h : c = ':'
        · subst h
          simpa using hf2
        · simp [h]
      have hback := plain_back i w (by omega) hw ('\n' :: (List.replicate m ' ' ++ tail)) tail (fun col => plain_end i m col hm tail h1 h2 h3) (c :: t) ht col 0 true hcol (by simp) (fun _ => hlast) hlat (by omega)
      simp only [List.replicate_zero, List.nil_append] at hback
      have hq : c ≠ '\'' := by rintro rfl; exact hf1 (by decide)
      have hform : writePlain w col 0 (c :: t) = c :: writePlain w (col + 1) 0 t := by
        rw [writePlain, if_neg hc]
        simp [writeBlanks]
      have hcheck : checkPlain (writePlain w col 0 (c :: t) ++ '\n' :: (List.replicate m ' ' ++ tail)) = true := by
        rw [hform, List.cons_append, checkPlain]
        by_cases hd : c ∈ "-?:".toList
        · have hnf : followed t = false := by
            have : c = '-' ∨ c = '?' ∨ c = ':' := by simpa using hd
            rcases this with rfl | rfl | rfl
            · simpa using hf3
            · simpa using hf2
            · simpa using hf2
          cases t with
          | nil => simp [followed] at hnf
          | cons x t =>
            have hx : isWs x = false := hnf
            have hx' : x ≠ ' ' := by rintro rfl; simp [isWs] at hx
            have : followed (writePlain w (col + 1) 0 (x :: t) ++ '\n' :: (List.replicate m ' ' ++ tail)) = false := by
              rw [writePlain, if_neg hx']
              simp [writeBlanks, followed, hx]
            rw [this, decide_eq_true hd]
            simp
        · have : c ∉ "-?:,[]{}#&*!|>'\"%@`".toList := by
            intro h
            have hsplit : ∀ x ∈ "-?:,[]{}#&*!|>'\"%@`".toList, x ∈ "-?:".toList ∨ x ∈ "#,[]{}&*!|>'\"%@`".toList := by decide
            rcases hsplit c h with h | h
            · exact hd h
            · exact hf1 h
          simp only [this, hws]
          rfl
      refine ⟨tail, ?_, hdrop⟩
      have hread : readText isStr i col (writePlain w col 0 (c :: t) ++ '\n' :: (List.replicate m ' ' ++ tail)) =
          if checkPlain (writePlain w col 0 (c :: t) ++ '\n' :: (List.replicate m ' ' ++ tail)) then
            some ((readPlain i none 0 col (writePlain w col 0 (c :: t) ++ '\n' :: (List.replicate m ' ' ++ tail))).1, isStr (readPlain i none 0 col (writePlain w col 0 (c :: t) ++ '\n' :: (List.replicate m ' ' ++ tail))).1,
              (readPlain i none 0 col (writePlain w col 0 (c :: t) ++ '\n' :: (List.replicate m ' ' ++ tail))).2) else none := by
        rw [hform]
        unfold readText
        split
        · rename_i r h
          exact absurd (List.cons.inj h).1 hq
        · rename_i r h
          exact absurd (List.cons.inj h).1 (by rintro rfl; exact hf1 (by decide))
        · rfl
      rw [hread, hcheck, hback, hstr]
      rfl
  · rw [if_neg hp]
    refine ⟨'\n' :: (List.replicate m ' ' ++ tail), ?_, hafter⟩
    rw [List.cons_append, readText, quoted_back w (by omega) _ (by simp) t false (col + 1) (.blanks 0) hmix (Or.inl rfl)]
    simp [gapText]

/-- A text of 24 words. -/
def longText : List Char := "it's a text: with words # and more of them so that the line becomes longer than the limit of eighty columns".toList

/-- Non-vacuity: a text of two paragraphs, one with other characters, one with a blank before a line break, one with an escape at the end of the line. -/
example : writeText (fun _ => true) 2 9 "one\n\ntwo".toList = "'one\n\n\n  two'".toList ∧ writeText (fun _ => true) 2 9 "Größe \"1\"".toList = "\"Gr\\xF6\\xDFe \\\"1\\\"\"".toList ∧
    writeText (fun _ => true) 2 9 "a \nb".toList = "\"a \\nb\"".toList ∧ writeText (fun _ => true) 2 76 "aé b c".toList = "\"a\\xE9\\\n  \\ b c\"".toList ∧
    readText (fun _ => true) 1 76 "\"a\\xE9\\\n  \\ b c\"\nnext".toList = some ("aé b c".toList, true, "\nnext".toList) := by
  refine ⟨by decide +kernel, by decide +kernel, by decide +kernel, by decide +kernel, by decide +kernel⟩

/-- Non-vacuity: a text with quotes and indicators that is folded, one that is plain and folded, one that looks like a number, a list and one with blanks at both ends. -/
example : Printable longText ∧ docSep (List.replicate 0 ' ' ++ "next: 1".toList) = false ∧
    writeText (fun _ => true) 2 9 longText = "'it''s a text: with words # and more of them so that the line becomes longer\n  than the limit of eighty columns'".toList ∧
    writeText (fun _ => true) 2 78 "some words and more".toList = "some\n  words and more".toList ∧ writeText (fun _ => true) 2 78 "some  words and more".toList = "some  words\n  and more".toList ∧
    writeText (fun t => t ≠ "1.5".toList) 2 9 "1.5".toList = "'1.5'".toList ∧ writeText (fun _ => true) 2 9 "- x".toList = "'- x'".toList ∧ writeText (fun _ => true) 2 9 "-x".toList = "-x".toList ∧
    writeText (fun _ => true) 2 90 " x ".toList = "' x '".toList := by
  refine ⟨by unfold Printable; decide +kernel, by decide +kernel, by decide +kernel, by decide +kernel, by decide +kernel, by decide +kernel, by decide +kernel, by decide +kernel, by decide +kernel⟩

end Verif.Props
