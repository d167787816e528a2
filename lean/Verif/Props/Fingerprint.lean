import Verif.Lemmas.Fingerprint

/-!
# C101 — models as mappings, and their fingerprint
-/

namespace Verif.Props
open Verif.Py Verif.Model

/-- A name, as `repr` prints it: not a number and not one of the constants. -/
def ReprName (w : List Char) : Prop :=
  w ≠ [] ∧ (∀ c ∈ w, WordChar c) ∧ (∃ c ∈ w, ¬ NumChar c) ∧ w ≠ "None".toList ∧ w ≠ "True".toList ∧ w ≠ "False".toList

/-- The text of a finite float, as `repr` prints it. -/
def ReprFloat (t : List Char) : Prop := (∀ c ∈ t, NumChar c) ∧ ('.' ∈ t ∨ 'e' ∈ t)

mutual
/-- Specification: a value as it occurs in a dump, without secrets. -/
def PlainVal : PVal → Prop
  | .float t => ReprFloat t
  | .name w => ReprName w
  | .secret _ => False
  | .list l => PlainVals l
  | .dict l => PlainPairs l
  | .obj c l => (c ≠ [] ∧ ∀ x ∈ c, WordChar x) ∧ PlainArgs l
  | .none => True
  | .bool _ => True
  | .int _ => True
  | .str _ => True
/-- All elements are plain. -/
def PlainVals : PVals → Prop
  | .nil => True
  | .cons v l => PlainVal v ∧ PlainVals l
/-- All entries are plain. -/
def PlainPairs : PPairs → Prop
  | .nil => True
  | .cons _ v l => PlainVal v ∧ PlainPairs l
/-- All arguments are plain. -/
def PlainArgs : PArgs → Prop
  | .nil => True
  | .pos v l => PlainVal v ∧ PlainArgs l
  | .kw k v l => (k ≠ [] ∧ ∀ x ∈ k, WordChar x) ∧ PlainVal v ∧ PlainArgs l
end

/-- The value is printed as one word. -/
def Atom : PVal → Prop
  | .none | .bool _ | .int _ | .float _ | .name _ => True
  | _ => False

/-- What follows a value: nothing, a comma or a closing bracket. -/
def Stop (r : List Char) : Prop := r = [] ∨ ∃ c t, r = c :: t ∧ c ∈ ",)]}".toList

/-- A closing bracket follows. -/
def Close (r : List Char) : Prop := ∃ c t, r = c :: t ∧ c ∈ ")]}".toList

theorem Stop.wordEnd {r : List Char} (h : Stop r) : WordEnd r := by
  rintro c t rfl hw
  rcases h with h | ⟨d, u, h, hd⟩
  · simp at h
  · simp only [List.cons.injEq] at h
    rw [← h.1] at hd
    have : ∀ c ∈ ",)]}".toList, ¬ WordChar c := by decide +kernel
    exact this c hd hw

theorem Close.stop {r : List Char} (h : Close r) : Stop r := by
  obtain ⟨c, t, e, hc⟩ := h
  refine Or.inr ⟨c, t, e, ?_⟩
  have : ∀ c ∈ ")]}".toList, c ∈ ",)]}".toList := by decide +kernel
  exact this c hc

theorem wordEnd_cons {c : Char} (h : ¬ WordChar c) (t : List Char) : WordEnd (c :: t) := by
  rintro d u e
  simp only [List.cons.injEq] at e
  rw [← e.1]; exact h

theorem digit_num {c : Char} (h : IsDigit c ∨ c = '-') : NumChar c ∧ c ≠ '.' ∧ c ≠ 'e' := by
  rcases h with h | rfl
  · have : ∀ c ∈ "0123456789".toList, NumChar c ∧ c ≠ '.' ∧ c ≠ 'e' := by decide +kernel
    exact this c h
  · decide +kernel

/-- The text of an atom. -/
theorem atom_text (pr : Char → Bool) (v : PVal) (ha : Atom v) (hp : PlainVal v) : pyRepr pr v ≠ [] ∧ ∀ c ∈ pyRepr pr v, WordChar c := by
  cases v with
  | none =>
    have : "None".toList ≠ [] ∧ ∀ c ∈ "None".toList, WordChar c := by decide +kernel
    simp only [pyRepr, reprNone]; exact this
  | bool b =>
    have h1 : "True".toList ≠ [] ∧ ∀ c ∈ "True".toList, WordChar c := by decide +kernel
    have h2 : "False".toList ≠ [] ∧ ∀ c ∈ "False".toList, WordChar c := by decide +kernel
    cases b
    · simp only [pyRepr]; exact h2
    · simp only [pyRepr]; exact h1
  | int z => simp only [pyRepr]; exact ⟨reprInt_ne z, fun c hc => num_word c (digit_num (reprInt_chars z c hc)).1⟩
  | float t =>
    simp only [pyRepr]
    simp only [PlainVal] at hp
    refine ⟨?_, fun c hc => num_word c (hp.1 c hc)⟩
    rintro rfl
    rcases hp.2 with h | h <;> simp at h
  | name w => simp only [pyRepr]; simp only [PlainVal] at hp; exact ⟨hp.1, hp.2.1⟩
  | str _ => exact ha.elim
  | secret _ => exact ha.elim
  | list _ => exact ha.elim
  | dict _ => exact ha.elim
  | obj _ _ => exact ha.elim

theorem num_ne (t : List Char) (h : ∀ c ∈ t, NumChar c) : t ≠ "None".toList ∧ t ≠ "True".toList ∧ t ≠ "False".toList := by
  have cn : ¬ ∀ c ∈ "None".toList, NumChar c := by decide +kernel
  have ct : ¬ ∀ c ∈ "True".toList, NumChar c := by decide +kernel
  have cf : ¬ ∀ c ∈ "False".toList, NumChar c := by decide +kernel
  refine ⟨fun e => cn ?_, fun e => ct ?_, fun e => cf ?_⟩ <;> (rw [← e]; exact h)

theorem bool_text (pr : Char → Bool) (b : Bool) : pyRepr pr (.bool b) = "True".toList ∧ b = true ∨ pyRepr pr (.bool b) = "False".toList ∧ b = false := by
  cases b
  · exact Or.inr ⟨by rw [pyRepr]; rfl, rfl⟩
  · exact Or.inl ⟨by rw [pyRepr]; rfl, rfl⟩

theorem word_none_ne (pr : Char → Bool) (w : PVal) (hb : Atom w) (hq : PlainVal w) (h : pyRepr pr w = "None".toList) : w = .none := by
  cases w with
  | none => rfl
  | bool b =>
    rcases bool_text pr b with ⟨e, -⟩ | ⟨e, -⟩ <;> rw [e] at h <;> exact absurd h (by decide +kernel)
  | int z => simp only [pyRepr] at h; exact absurd h (num_ne _ (fun c hc => (digit_num (reprInt_chars z c hc)).1)).1
  | float t => simp only [pyRepr] at h; simp only [PlainVal] at hq; exact absurd h (num_ne _ hq.1).1
  | name t => simp only [pyRepr] at h; simp only [PlainVal] at hq; exact absurd h hq.2.2.2.1
  | str _ => exact hb.elim
  | secret _ => exact hb.elim
  | list _ => exact hb.elim
  | dict _ => exact hb.elim
  | obj _ _ => exact hb.elim

theorem word_bool (pr : Char → Bool) (w : PVal) (hb : Atom w) (hq : PlainVal w) :
    (pyRepr pr w = "True".toList → w = .bool true) ∧ (pyRepr pr w = "False".toList → w = .bool false) := by
  cases w with
  | none => constructor <;> intro h <;> simp only [pyRepr, reprNone] at h <;> exact absurd h (by decide +kernel)
  | bool b =>
    rcases bool_text pr b with ⟨e, rfl⟩ | ⟨e, rfl⟩ <;> rw [e]
    · exact ⟨fun _ => rfl, fun h => absurd h (by decide +kernel)⟩
    · exact ⟨fun h => absurd h (by decide +kernel), fun _ => rfl⟩
  | int z =>
    simp only [pyRepr]
    have := num_ne _ (fun c hc => (digit_num (reprInt_chars z c hc)).1)
    exact ⟨fun h => absurd h this.2.1, fun h => absurd h this.2.2⟩
  | float t => simp only [pyRepr]; simp only [PlainVal] at hq; exact ⟨fun h => absurd h (num_ne _ hq.1).2.1, fun h => absurd h (num_ne _ hq.1).2.2⟩
  | name t => simp only [pyRepr]; simp only [PlainVal] at hq; exact ⟨fun h => absurd h hq.2.2.2.2.1, fun h => absurd h hq.2.2.2.2.2⟩
  | str _ => exact hb.elim
  | secret _ => exact hb.elim
  | list _ => exact hb.elim
  | dict _ => exact hb.elim
  | obj _ _ => exact hb.elim

theorem word_num (pr : Char → Bool) (w : PVal) (hb : Atom w) (hq : PlainVal w) (hn : ∀ c ∈ pyRepr pr w, NumChar c) :
    (∃ z, w = .int z) ∨ ∃ t, w = .float t := by
  cases w with
  | none => exact absurd (by rw [pyRepr]; rfl) (num_ne _ hn).1
  | bool b =>
    rcases bool_text pr b with ⟨e, -⟩ | ⟨e, -⟩
    · exact absurd e (num_ne _ hn).2.1
    · exact absurd e (num_ne _ hn).2.2
  | int z => exact Or.inl ⟨z, rfl⟩
  | float t => exact Or.inr ⟨t, rfl⟩
  | name t =>
    simp only [PlainVal] at hq
    simp only [pyRepr] at hn
    obtain ⟨c, h1, h2⟩ := hq.2.2.1
    exact absurd (hn c h1) h2
  | str _ => exact hb.elim
  | secret _ => exact hb.elim
  | list _ => exact hb.elim
  | dict _ => exact hb.elim
  | obj _ _ => exact hb.elim

/-- Words tell the values apart. -/
theorem atom_inj (pr : Char → Bool) (v w : PVal) (ha : Atom v) (hb : Atom w) (hp : PlainVal v) (hq : PlainVal w) (h : pyRepr pr v = pyRepr pr w) : v = w := by
  have int_float : ∀ z t, ReprFloat t → reprInt z ≠ t := by
    rintro z t ⟨-, h | h⟩ e
    · exact (digit_num (reprInt_chars z _ (e.symm ▸ h))).2.1 rfl
    · exact (digit_num (reprInt_chars z _ (e.symm ▸ h))).2.2 rfl
  have txt : ∀ t, pyRepr pr (.float t) = t := fun t => by simp only [pyRepr]
  have itx : ∀ z, pyRepr pr (.int z) = reprInt z := fun t => by simp only [pyRepr]
  have ntx : ∀ z, pyRepr pr (.name z) = z := fun t => by simp only [pyRepr]
  cases v with
  | none => exact (word_none_ne pr w hb hq (by rw [← h, pyRepr]; rfl)).symm
  | bool b =>
    rcases bool_text pr b with ⟨e, rfl⟩ | ⟨e, rfl⟩
    · exact ((word_bool pr w hb hq).1 (by rw [← h, e])).symm
    · exact ((word_bool pr w hb hq).2 (by rw [← h, e])).symm
  | int z =>
    rcases word_num pr w hb hq (by rw [← h, itx]; exact fun c hc => (digit_num (reprInt_chars z c hc)).1) with ⟨y, rfl⟩ | ⟨t, rfl⟩
    · rw [itx, itx] at h
      rw [reprInt_inj _ _ h]
    · rw [itx, txt] at h
      simp only [PlainVal] at hq
      exact absurd h (int_float z t hq)
  | float t =>
    simp only [PlainVal] at hp
    rcases word_num pr w hb hq (by rw [← h, txt]; exact hp.1) with ⟨y, rfl⟩ | ⟨t', rfl⟩
    · rw [itx, txt] at h
      exact absurd h.symm (int_float y t hp)
    · rw [txt, txt] at h
      rw [h]
  | name t =>
    simp only [PlainVal] at hp
    cases w with
    | none => exact (word_none_ne pr _ ha (by simp only [PlainVal]; exact hp) (by rw [h, pyRepr]; rfl))
    | bool b =>
      rcases bool_text pr b with ⟨e, rfl⟩ | ⟨e, rfl⟩
      · exact ((word_bool pr _ ha (by simp only [PlainVal]; exact hp)).1 (by rw [h, e]))
      · exact ((word_bool pr _ ha (by simp only [PlainVal]; exact hp)).2 (by rw [h, e]))
    | int z' =>
      rw [ntx, itx] at h
      obtain ⟨c, h1, h2⟩ := hp.2.2.1
      exact absurd (digit_num (reprInt_chars z' c (by rw [← h]; exact h1))).1 h2
    | float t' =>
      rw [ntx, txt] at h
      simp only [PlainVal] at hq
      obtain ⟨c, h1, h2⟩ := hp.2.2.1
      exact absurd (hq.1 c (by rw [← h]; exact h1)) h2
    | name t' => rw [ntx, ntx] at h; rw [h]
    | str _ => exact hb.elim
    | secret _ => exact hb.elim
    | list _ => exact hb.elim
    | dict _ => exact hb.elim
    | obj _ _ => exact hb.elim
  | str _ => exact ha.elim
  | secret _ => exact ha.elim
  | list _ => exact ha.elim
  | dict _ => exact ha.elim
  | obj _ _ => exact ha.elim

/-- How the text of a plain value begins. -/
theorem val_head (pr : Char → Bool) (v : PVal) (hp : PlainVal v) : ∃ c t, pyRepr pr v = c :: t ∧ c ∉ ",)]}".toList := by
  have hw : ∀ c, WordChar c → c ∉ ",)]}".toList := by
    intro c h1 h2
    have : ∀ c ∈ ",)]}".toList, ¬ WordChar c := by decide +kernel
    exact this c h2 h1
  have at_ : Atom v → ∃ c t, pyRepr pr v = c :: t ∧ c ∉ ",)]}".toList := by
    intro ha
    obtain ⟨hn, hc⟩ := atom_text pr v ha hp
    obtain ⟨c, t, e⟩ := List.exists_cons_of_ne_nil hn
    exact ⟨c, t, e, hw c (hc c (by rw [e]; exact List.mem_cons_self))⟩
  cases v with
  | none => exact at_ trivial
  | bool b => exact at_ trivial
  | int z => exact at_ trivial
  | float t => exact at_ trivial
  | name w => exact at_ trivial
  | str s =>
    simp only [pyRepr, reprText]
    refine ⟨_, _, rfl, ?_⟩
    rcases quoteOf_cases s with e | e <;> rw [e] <;> decide +kernel
  | secret s => exact hp.elim
  | list l => simp only [pyRepr]; exact ⟨_, _, rfl, by decide +kernel⟩
  | dict l => simp only [pyRepr]; exact ⟨_, _, rfl, by decide +kernel⟩
  | obj c l =>
    simp only [PlainVal] at hp
    obtain ⟨d, t, e⟩ := List.exists_cons_of_ne_nil hp.1.1
    refine ⟨d, _, by simp only [pyRepr, e]; rfl, hw d (hp.1.2 d (by rw [e]; exact List.mem_cons_self))⟩

theorem comma_false (x : List Char) : comma false ++ x = ',' :: ' ' :: x := rfl

theorem Close.head_ne {pr : Char → Bool} {r : List Char} (h : Close r) (v : PVal) (hp : PlainVal v) (x : List Char) : r ≠ pyRepr pr v ++ x := by
  intro e
  obtain ⟨c, t, e1, hc⟩ := h
  obtain ⟨d, u, e2, hd⟩ := val_head pr v hp
  rw [e1, e2, List.cons_append, List.cons.injEq] at e
  rw [e.1] at hc
  have : ∀ c ∈ ")]}".toList, c ∈ ",)]}".toList := by decide +kernel
  exact hd (this d hc)

theorem Close.comma_ne {r : List Char} (h : Close r) (x : List Char) : r ≠ comma false ++ x := by
  intro e
  obtain ⟨c, t, e1, hc⟩ := h
  rw [e1, comma_false, List.cons.injEq] at e
  rw [e.1] at hc
  revert hc
  decide +kernel

theorem stop_vals (pr : Char → Bool) (l : PVals) {r : List Char} (h : Close r) : Stop (reprVals pr false l ++ r) := by
  cases l with
  | nil => rw [reprVals]; exact h.stop
  | cons v l => rw [reprVals, List.append_assoc, comma_false]; exact Or.inr ⟨_, _, rfl, by decide +kernel⟩

theorem stop_pairs (pr : Char → Bool) (l : PPairs) {r : List Char} (h : Close r) : Stop (reprPairs pr false l ++ r) := by
  cases l with
  | nil => rw [reprPairs]; exact h.stop
  | cons k v l => rw [reprPairs, List.append_assoc, comma_false]; exact Or.inr ⟨_, _, rfl, by decide +kernel⟩

theorem stop_args (pr : Char → Bool) (l : PArgs) {r : List Char} (h : Close r) : Stop (reprArgs pr false l ++ r) := by
  cases l with
  | nil => rw [reprArgs]; exact h.stop
  | pos v l => rw [reprArgs, List.append_assoc, comma_false]; exact Or.inr ⟨_, _, rfl, by decide +kernel⟩
  | kw k v l => rw [reprArgs, List.append_assoc, comma_false]; exact Or.inr ⟨_, _, rfl, by decide +kernel⟩

/-- A value that is no word, as to how its text begins: with a word and an opening bracket or with a character that begins no word. -/
theorem kind (v : PVal) (hp : PlainVal v) (r : List Char) (hr : Stop r) :
    (Atom v ∧ WordEnd r) ∨ (∃ s, v = .str s) ∨ (∃ l, v = .list l) ∨ (∃ l, v = .dict l) ∨ ∃ c l, v = .obj c l := by
  cases v with
  | none => exact Or.inl ⟨trivial, hr.wordEnd⟩
  | bool b => exact Or.inl ⟨trivial, hr.wordEnd⟩
  | int z => exact Or.inl ⟨trivial, hr.wordEnd⟩
  | float t => exact Or.inl ⟨trivial, hr.wordEnd⟩
  | name w => exact Or.inl ⟨trivial, hr.wordEnd⟩
  | str s => exact Or.inr (Or.inl ⟨s, rfl⟩)
  | secret s => exact hp.elim
  | list l => exact Or.inr (Or.inr (Or.inl ⟨l, rfl⟩))
  | dict l => exact Or.inr (Or.inr (Or.inr (Or.inl ⟨l, rfl⟩)))
  | obj c l => exact Or.inr (Or.inr (Or.inr (Or.inr ⟨c, l, rfl⟩)))

/-- The first character of the text of a value, by kind: `0` for a word, else the bracket or quote. -/
def mark (c : Char) : ℕ := if c = '[' then 1 else if c = '{' then 2 else if c = '\'' then 3 else if c = '"' then 3 else 0

theorem mark_word (c : Char) (h : WordChar c) : mark c = 0 := by
  unfold mark
  split_ifs with h1 h2 h3 h4
  · rw [h1] at h; revert h; decide +kernel
  · rw [h2] at h; revert h; decide +kernel
  · rw [h3] at h; revert h; decide +kernel
  · rw [h4] at h; revert h; decide +kernel
  · rfl

/-- Kind of a value by number. -/
def kindNo : PVal → ℕ
  | .list _ => 1
  | .dict _ => 2
  | .str _ => 3
  | _ => 0

theorem val_mark (pr : Char → Bool) (v : PVal) (hp : PlainVal v) : ∃ c t, pyRepr pr v = c :: t ∧ mark c = kindNo v := by
  have at_ : Atom v → ∃ c t, pyRepr pr v = c :: t ∧ mark c = 0 := by
    intro ha
    obtain ⟨hn, hc⟩ := atom_text pr v ha hp
    obtain ⟨c, t, e⟩ := List.exists_cons_of_ne_nil hn
    exact ⟨c, t, e, mark_word c (hc c (by rw [e]; exact List.mem_cons_self))⟩
  cases v with
  | none => exact at_ trivial
  | bool b => exact at_ trivial
  | int z => exact at_ trivial
  | float t => exact at_ trivial
  | name w => exact at_ trivial
  | str s =>
    rw [pyRepr, reprText]
    refine ⟨_, _, rfl, ?_⟩
    rcases quoteOf_cases s with e | e <;> rw [e] <;> rfl
  | secret s => exact hp.elim
  | list l => rw [pyRepr]; exact ⟨_, _, rfl, rfl⟩
  | dict l => rw [pyRepr]; exact ⟨_, _, rfl, rfl⟩
  | obj c l =>
    simp only [PlainVal] at hp
    obtain ⟨d, t, e⟩ := List.exists_cons_of_ne_nil hp.1.1
    exact ⟨d, _, by rw [pyRepr, e]; rfl, mark_word d (hp.1.2 d (by rw [e]; exact List.mem_cons_self))⟩

theorem kind_eq (pr : Char → Bool) (v w : PVal) (hp : PlainVal v) (hq : PlainVal w) (r r' : List Char) (h : pyRepr pr v ++ r = pyRepr pr w ++ r') : kindNo v = kindNo w := by
  obtain ⟨c, t, e, m⟩ := val_mark pr v hp
  obtain ⟨d, u, f, n⟩ := val_mark pr w hq
  rw [e, f, List.cons_append, List.cons_append, List.cons.injEq] at h
  rw [← m, ← n, h.1]

theorem open_end (x : List Char) : WordEnd ('(' :: x) := wordEnd_cons (by decide +kernel) x

theorem stop_ne_open {r : List Char} (h : Stop r) (x : List Char) : r ≠ '(' :: x := by
  rintro rfl
  rcases h with h | ⟨c, t, e, hc⟩
  · simp at h
  · simp only [List.cons.injEq] at e
    rw [← e.1] at hc
    revert hc
    decide +kernel

theorem stop_ne_eq {r : List Char} (h : Stop r) (x : List Char) : r ≠ '=' :: x := by
  rintro rfl
  rcases h with h | ⟨c, t, e, hc⟩
  · simp at h
  · simp only [List.cons.injEq] at e
    rw [← e.1] at hc
    revert hc
    decide +kernel

theorem close_paren (r : List Char) : Close (')' :: r) := ⟨_, _, rfl, by decide +kernel⟩
theorem close_brack (r : List Char) : Close (']' :: r) := ⟨_, _, rfl, by decide +kernel⟩
theorem close_brace (r : List Char) : Close ('}' :: r) := ⟨_, _, rfl, by decide +kernel⟩

/-- An atom and an object do not print the same. -/
theorem atom_obj (pr : Char → Bool) (v : PVal) (c : List Char) (l : PArgs) (ha : Atom v) (hp : PlainVal v) (hq : PlainVal (.obj c l)) (r r' : List Char) (hr : Stop r) :
    pyRepr pr v ++ r ≠ pyRepr pr (.obj c l) ++ r' := by
  intro h
  simp only [PlainVal] at hq
  rw [show pyRepr pr (.obj c l) = c ++ '(' :: (reprArgs pr true l ++ [')']) by rw [pyRepr], List.append_assoc, List.cons_append] at h
  have := word_inj _ _ _ _ (atom_text pr v ha hp).2 hq.1.2 hr.wordEnd (open_end _) h
  exact stop_ne_open hr _ this.2

/-- A value never looks like an argument with a keyword. -/
theorem val_kw (pr : Char → Bool) (v : PVal) (hp : PlainVal v) (k : List Char) (hk : k ≠ [] ∧ ∀ x ∈ k, WordChar x) (r x : List Char) (hr : Stop r) :
    pyRepr pr v ++ r ≠ k ++ '=' :: x := by
  intro h
  have he : WordEnd ('=' :: x) := wordEnd_cons (by decide +kernel) x
  rcases kind v hp r hr with ⟨ha, -⟩ | hn
  · have := word_inj _ _ _ _ (atom_text pr v ha hp).2 hk.2 hr.wordEnd he h
    exact stop_ne_eq hr _ this.2
  · obtain ⟨d, t, e⟩ := List.exists_cons_of_ne_nil hk.1
    have hd : mark d = 0 := mark_word d (hk.2 d (by rw [e]; exact List.mem_cons_self))
    obtain ⟨c, u, f, m⟩ := val_mark pr v hp
    have hc : c = d := by
      rw [f, e, List.cons_append, List.cons_append, List.cons.injEq] at h
      exact h.1
    rw [hc, hd] at m
    rcases hn with ⟨s, rfl⟩ | ⟨l, rfl⟩ | ⟨l, rfl⟩ | ⟨c', l, rfl⟩
    · exact absurd m (by simp [kindNo])
    · exact absurd m (by simp [kindNo])
    · exact absurd m (by simp [kindNo])
    · simp only [PlainVal] at hp
      rw [show pyRepr pr (.obj c' l) = c' ++ '(' :: (reprArgs pr true l ++ [')']) by rw [pyRepr], List.append_assoc, List.cons_append] at h
      have := word_inj _ _ _ _ hp.1.2 hk.2 (open_end _) he h
      simp at this

mutual
theorem val_inj (pr : Char → Bool) (v w : PVal) (hp : PlainVal v) (hq : PlainVal w) (r r' : List Char) (hr : Stop r) (hr' : Stop r')
    (h : pyRepr pr v ++ r = pyRepr pr w ++ r') : v = w ∧ r = r' := by
  have hk := kind_eq pr v w hp hq r r' h
  have word : Atom v → v = w ∧ r = r' := by
    intro ha
    rcases kind w hq r' hr' with ⟨hb, -⟩ | ⟨s, rfl⟩ | ⟨l, rfl⟩ | ⟨l, rfl⟩ | ⟨c, l, rfl⟩
    · obtain ⟨e, f⟩ := word_inj _ _ _ _ (atom_text pr v ha hp).2 (atom_text pr w hb hq).2 hr.wordEnd hr'.wordEnd h
      exact ⟨atom_inj pr v w ha hb hp hq e, f⟩
    · cases v <;> first | exact ha.elim | simp [kindNo] at hk
    · cases v <;> first | exact ha.elim | simp [kindNo] at hk
    · cases v <;> first | exact ha.elim | simp [kindNo] at hk
    · exact absurd h (atom_obj pr v c l ha hp hq r r' hr)
  match v with
  | .none => exact word trivial
  | .bool b => exact word trivial
  | .int z => exact word trivial
  | .float t => exact word trivial
  | .name t => exact word trivial
  | .secret s => exact hp.elim
  | .str s =>
    cases w with
    | str s' =>
      rw [pyRepr, pyRepr] at h
      obtain ⟨e, f⟩ := str_inj pr s s' r r' h
      exact ⟨by rw [e], f⟩
    | _ => simp [kindNo] at hk
  | .list l =>
    cases w with
    | list l' =>
      rw [pyRepr, pyRepr] at h
      simp only [List.cons_append, List.append_assoc, List.cons.injEq, true_and, List.nil_append] at h
      simp only [PlainVal] at hp hq
      obtain ⟨e, f⟩ := vals_inj pr true l l' hp hq _ _ (close_brack r) (close_brack r') h
      exact ⟨by rw [e], by simpa using f⟩
    | _ => simp [kindNo] at hk
  | .dict l =>
    cases w with
    | dict l' =>
      rw [pyRepr, pyRepr] at h
      simp only [List.cons_append, List.append_assoc, List.cons.injEq, true_and, List.nil_append] at h
      simp only [PlainVal] at hp hq
      obtain ⟨e, f⟩ := pairs_inj pr true l l' hp hq _ _ (close_brace r) (close_brace r') h
      exact ⟨by rw [e], by simpa using f⟩
    | _ => simp [kindNo] at hk
  | .obj c l =>
    rcases kind w hq r' hr' with ⟨hb, -⟩ | ⟨s, rfl⟩ | ⟨l, rfl⟩ | ⟨l, rfl⟩ | ⟨c', l', rfl⟩
    · exact absurd h.symm (atom_obj pr w c l hb hq hp r' r hr')
    · simp [kindNo] at hk
    · simp [kindNo] at hk
    · simp [kindNo] at hk
    · rw [pyRepr, pyRepr] at h
      simp only [PlainVal] at hp hq
      simp only [List.cons_append, List.append_assoc, List.nil_append] at h
      obtain ⟨e, f⟩ := word_inj _ _ _ _ hp.1.2 hq.1.2 (open_end _) (open_end _) h
      simp only [List.cons.injEq, true_and] at f
      obtain ⟨e2, f2⟩ := args_inj pr true l l' hp.2 hq.2 _ _ (close_paren r) (close_paren r') f
      exact ⟨by rw [e, e2], by simpa using f2⟩
termination_by structural v
theorem vals_inj (pr : Char → Bool) (b : Bool) (l l' : PVals) (hp : PlainVals l) (hq : PlainVals l') (r r' : List Char) (hr : Close r) (hr' : Close r')
    (h : reprVals pr b l ++ r = reprVals pr b l' ++ r') : l = l' ∧ r = r' := by
  match l, l' with
  | .nil, .nil => exact ⟨rfl, by simpa [reprVals] using h⟩
  | .nil, .cons v m =>
    rw [reprVals, reprVals, List.nil_append, List.append_assoc, List.append_assoc] at h
    simp only [PlainVals] at hq
    cases b
    · exact absurd h (hr.comma_ne _)
    · exact absurd h (hr.head_ne v hq.1 _)
  | .cons v m, .nil =>
    rw [reprVals, reprVals, List.nil_append, List.append_assoc, List.append_assoc] at h
    simp only [PlainVals] at hp
    cases b
    · exact absurd h.symm (hr'.comma_ne _)
    · exact absurd h.symm (hr'.head_ne v hp.1 _)
  | .cons v m, .cons v' m' =>
    rw [reprVals, reprVals, List.append_assoc, List.append_assoc, List.append_assoc, List.append_assoc] at h
    simp only [PlainVals] at hp hq
    obtain ⟨e, f⟩ := val_inj pr v v' hp.1 hq.1 _ _ (stop_vals pr m hr) (stop_vals pr m' hr') (List.append_cancel_left h)
    obtain ⟨e2, f2⟩ := vals_inj pr false m m' hp.2 hq.2 r r' hr hr' f
    exact ⟨by rw [e, e2], f2⟩
termination_by structural l
theorem pairs_inj (pr : Char → Bool) (b : Bool) (l l' : PPairs) (hp : PlainPairs l) (hq : PlainPairs l') (r r' : List Char) (hr : Close r) (hr' : Close r')
    (h : reprPairs pr b l ++ r = reprPairs pr b l' ++ r') : l = l' ∧ r = r' := by
  have key : ∀ (r : List Char), Close r → ∀ k x, r ≠ reprText pr k ++ x := by
    intro r hr k x e
    exact hr.head_ne (pr := pr) (.str k) trivial x (by rw [pyRepr]; exact e)
  match l, l' with
  | .nil, .nil => exact ⟨rfl, by simpa [reprPairs] using h⟩
  | .nil, .cons k v m =>
    rw [reprPairs, reprPairs, List.nil_append, List.append_assoc, List.append_assoc] at h
    cases b
    · exact absurd h (hr.comma_ne _)
    · exact absurd h (key r hr k _)
  | .cons k v m, .nil =>
    rw [reprPairs, reprPairs, List.nil_append, List.append_assoc, List.append_assoc] at h
    cases b
    · exact absurd h.symm (hr'.comma_ne _)
    · exact absurd h.symm (key r' hr' k _)
  | .cons k v m, .cons k' v' m' =>
    rw [reprPairs, reprPairs, List.append_assoc, List.append_assoc, List.append_assoc, List.append_assoc] at h
    simp only [PlainPairs] at hp hq
    obtain ⟨ek, h2⟩ := str_inj pr k k' _ _ (List.append_cancel_left h)
    simp only [List.cons_append, List.cons.injEq, true_and, List.append_assoc] at h2
    obtain ⟨e, f⟩ := val_inj pr v v' hp.1 hq.1 _ _ (stop_pairs pr m hr) (stop_pairs pr m' hr') h2
    obtain ⟨e2, f2⟩ := pairs_inj pr false m m' hp.2 hq.2 r r' hr hr' f
    exact ⟨by rw [ek, e, e2], f2⟩
termination_by structural l
theorem args_inj (pr : Char → Bool) (b : Bool) (l l' : PArgs) (hp : PlainArgs l) (hq : PlainArgs l') (r r' : List Char) (hr : Close r) (hr' : Close r')
    (h : reprArgs pr b l ++ r = reprArgs pr b l' ++ r') : l = l' ∧ r = r' := by
  have key : ∀ (r : List Char), Close r → ∀ k x, (k ≠ [] ∧ ∀ x ∈ k, WordChar x) → r ≠ k ++ '=' :: x := by
    rintro r ⟨c, t, rfl, hc⟩ k x hk e
    obtain ⟨d, u, f⟩ := List.exists_cons_of_ne_nil hk.1
    rw [f, List.cons_append, List.cons.injEq] at e
    have h1 := hk.2 d (by rw [f]; exact List.mem_cons_self)
    rw [← e.1] at h1
    have : ∀ c ∈ ")]}".toList, ¬ WordChar c := by decide +kernel
    exact this c hc h1
  match l, l' with
  | .nil, .nil => exact ⟨rfl, by simpa [reprArgs] using h⟩
  | .nil, .pos v m =>
    rw [reprArgs, reprArgs, List.nil_append, List.append_assoc, List.append_assoc] at h
    simp only [PlainArgs] at hq
    cases b
    · exact absurd h (hr.comma_ne _)
    · exact absurd h (hr.head_ne v hq.1 _)
  | .nil, .kw k v m =>
    rw [reprArgs, reprArgs, List.nil_append, List.append_assoc, List.append_assoc] at h
    simp only [PlainArgs] at hq
    cases b
    · exact absurd h (hr.comma_ne _)
    · exact absurd h (key r hr k _ hq.1)
  | .pos v m, .nil =>
    rw [reprArgs, reprArgs, List.nil_append, List.append_assoc, List.append_assoc] at h
    simp only [PlainArgs] at hp
    cases b
    · exact absurd h.symm (hr'.comma_ne _)
    · exact absurd h.symm (hr'.head_ne v hp.1 _)
  | .kw k v m, .nil =>
    rw [reprArgs, reprArgs, List.nil_append, List.append_assoc, List.append_assoc] at h
    simp only [PlainArgs] at hp
    cases b
    · exact absurd h.symm (hr'.comma_ne _)
    · exact absurd h.symm (key r' hr' k _ hp.1)
  | .pos v m, .pos v' m' =>
    rw [reprArgs, reprArgs, List.append_assoc, List.append_assoc, List.append_assoc, List.append_assoc] at h
    simp only [PlainArgs] at hp hq
    obtain ⟨e, f⟩ := val_inj pr v v' hp.1 hq.1 _ _ (stop_args pr m hr) (stop_args pr m' hr') (List.append_cancel_left h)
    obtain ⟨e2, f2⟩ := args_inj pr false m m' hp.2 hq.2 r r' hr hr' f
    exact ⟨by rw [e, e2], f2⟩
  | .pos v m, .kw k v' m' =>
    rw [reprArgs, reprArgs, List.append_assoc, List.append_assoc, List.append_assoc, List.append_assoc] at h
    simp only [PlainArgs] at hp hq
    exact absurd (List.append_cancel_left h) (val_kw pr v hp.1 k hq.1 _ _ (stop_args pr m hr))
  | .kw k v m, .pos v' m' =>
    rw [reprArgs, reprArgs, List.append_assoc, List.append_assoc, List.append_assoc, List.append_assoc] at h
    simp only [PlainArgs] at hp hq
    exact absurd (List.append_cancel_left h).symm (val_kw pr v' hq.1 k hp.1 _ _ (stop_args pr m' hr'))
  | .kw k v m, .kw k' v' m' =>
    rw [reprArgs, reprArgs, List.append_assoc, List.append_assoc, List.append_assoc, List.append_assoc] at h
    simp only [PlainArgs] at hp hq
    have he : ∀ x, WordEnd ('=' :: x) := fun x => wordEnd_cons (by decide +kernel) x
    obtain ⟨ek, h2⟩ := word_inj _ _ _ _ hp.1.2 hq.1.2 (he _) (he _) (List.append_cancel_left h)
    have h2 : (pyRepr pr v ++ reprArgs pr false m) ++ r = (pyRepr pr v' ++ reprArgs pr false m') ++ r' := (List.cons.inj h2).2
    rw [List.append_assoc, List.append_assoc] at h2
    obtain ⟨e, f⟩ := val_inj pr v v' hp.2.1 hq.2.1 _ _ (stop_args pr m hr) (stop_args pr m' hr') h2
    obtain ⟨e2, f2⟩ := args_inj pr false m m' hp.2.2 hq.2.2 r r' hr hr' f
    exact ⟨by rw [ek, e, e2], f2⟩
termination_by structural l
end

/-- Specification: all values of the model are plain. -/
def PlainObj (m : ShpObj) : Prop := ∀ f ∈ m.fields, PlainVal f.2

theorem plain_pairs : ∀ l : List (List Char × PVal), (∀ f ∈ l, PlainVal f.2) → PlainPairs (l.foldr (fun f l => .cons f.1 f.2 l) .nil)
  | [], _ => by simp only [List.foldr_nil, PlainPairs]
  | f :: l, h => by
    rw [List.foldr_cons, PlainPairs]
    exact ⟨h f List.mem_cons_self, plain_pairs l (fun g hg => h g (List.mem_cons_of_mem _ hg))⟩

theorem pairs_of : ∀ l l' : List (List Char × PVal), l.foldr (fun f l => PPairs.cons f.1 f.2 l) .nil = l'.foldr (fun f l => PPairs.cons f.1 f.2 l) .nil → l = l'
  | [], [], _ => rfl
  | [], f :: l', h => by simp at h
  | f :: l, [], h => by simp at h
  | f :: l, g :: l', h => by
    simp only [List.foldr_cons, PPairs.cons.injEq] at h
    rw [pairs_of l l' h.2.2, show f = g from Prod.ext h.1 h.2.1]

/-- **C101** The fingerprint of a model stands for all of its fields: unless the hash function maps two different texts to the same value, two models (without secrets) have the same fingerprint if and
only if they have the same fields with the same values in the same order — at every depth, for all texts, numbers, lists and nested models. -/
theorem C101_fingerprint (pr : Char → Bool) (sha : List Char → List Char) (m n : ShpObj) (hm : PlainObj m) (hn : PlainObj n)
    (hs : sha (pyRepr pr m.dump) = sha (pyRepr pr n.dump) → pyRepr pr m.dump = pyRepr pr n.dump) :
    m.getHash pr sha = n.getHash pr sha ↔ m.fields = n.fields := by
  constructor
  · intro h
    have h2 := hs h
    have p1 : PlainVal m.dump := by unfold ShpObj.dump; rw [PlainVal]; exact plain_pairs _ hm
    have p2 : PlainVal n.dump := by unfold ShpObj.dump; rw [PlainVal]; exact plain_pairs _ hn
    have := (val_inj pr m.dump n.dump p1 p2 [] [] (Or.inl rfl) (Or.inl rfl) (by rw [h2])).1
    unfold ShpObj.dump at this
    simp only [PVal.dict.injEq] at this
    exact pairs_of _ _ this
  · intro h
    unfold ShpObj.getHash ShpObj.dump
    rw [h]

/-- **C101** Two plain values are the same if they print the same (the core of the claim above). -/
theorem C101_repr (pr : Char → Bool) (v w : PVal) (hv : PlainVal v) (hw : PlainVal w) : pyRepr pr v = pyRepr pr w ↔ v = w :=
  ⟨fun h => (val_inj pr v w hv hw [] [] (Or.inl rfl) (Or.inl rfl) (by rw [h])).1, fun h => by rw [h]⟩

/-- **C101** A model is a mapping: its keys are the names of its fields in order, `in` tells exactly whether a name is a key, looking up a key gives the value of that field, and the items are the pairs
of them. -/
theorem C101_mapping (m : ShpObj) (hn : (m.fields.map Prod.fst).Nodup) :
    m.keys = m.fields.map Prod.fst ∧ (∀ k, m.contains k = true ↔ ∃ v, (k, v) ∈ m.fields) ∧ (∀ k v, (k, v) ∈ m.fields → m.getItem k = .ok (.value v)) ∧
    m.items = m.fields.map (fun f => (f.1, .ok (.value f.2))) := by
  have look : ∀ (l : List (List Char × PVal)), (l.map Prod.fst).Nodup → ∀ k v, (k, v) ∈ l → l.lookup k = some v := by
    intro l
    induction l with
    | nil => simp
    | cons f t ih =>
      intro hd k v hm
      obtain ⟨a, b⟩ := f
      rw [List.map_cons, List.nodup_cons] at hd
      rcases List.mem_cons.mp hm with e | e
      · simp only [Prod.mk.injEq] at e
        rw [e.1, e.2, List.lookup_cons_self]
      · have : k ≠ a := by
          rintro rfl
          exact hd.1 (List.mem_map.mpr ⟨_, e, rfl⟩)
        rw [List.lookup_cons, beq_false_of_ne this]
        exact ih hd.2 k v e
  have get : ∀ k v, (k, v) ∈ m.fields → m.getItem k = .ok (.value v) := by
    intro k v h
    simp only [ShpObj.getItem, look m.fields hn k v h]
  refine ⟨rfl, ?_, get, ?_⟩
  · intro k
    refine ⟨fun h => ?_, fun ⟨v, hv⟩ => decide_eq_true (List.mem_map.mpr ⟨_, hv, rfl⟩)⟩
    obtain ⟨f, hf, rfl⟩ := List.mem_map.mp (of_decide_eq_true h)
    exact ⟨f.2, hf⟩
  · simp only [ShpObj.items, ShpObj.keys, List.map_map]
    exact List.map_congr_left (fun f hf => by simp only [Function.comp, get f.1 f.2 hf])

/-- Violated: a name that is no key is not refused as a mapping does: what the class holds under that name, as a method, is given out although `in` denies it, and a name unknown to it is an `AttributeError`
instead of a `KeyError`. -/
theorem C101_absent_violated (m : ShpObj) (k : List Char) (h : m.contains k = false) :
    (k ∈ m.attrs → m.getItem k = .ok (.ofClass k)) ∧ (k ∉ m.attrs → m.getItem k = .error .attributeError) := by
  have hl : m.fields.lookup k = none := by
    rw [List.lookup_eq_none_iff]
    intro f hf
    simp only [ShpObj.contains, ShpObj.keys, decide_eq_false_iff_not, List.mem_map, not_exists, not_and] at h
    have := h f hf
    simpa [bne_iff_ne] using fun e => this e.symm
  constructor <;> intro h1 <;> simp [ShpObj.getItem, hl, h1]

/-- Violated: the fingerprint does not depend on the class: models of different classes with the same fields share it. -/
theorem C101_class_violated (pr : Char → Bool) (sha : List Char → List Char) (m : ShpObj) (c : List Char) :
    ({ m with cls := c } : ShpObj).getHash pr sha = m.getHash pr sha := rfl

/-- Violated: nor does it depend on secrets, as the token of a user: any two that are not empty give the same fingerprint, wherever they stand. -/
theorem C101_secret_violated (pr : Char → Bool) (sha : List Char → List Char) (cls k : List Char) (pre post : List (List Char × PVal)) (attrs : List (List Char))
    (s t : List Char) (hs : s ≠ []) (ht : t ≠ []) :
    (⟨cls, pre ++ (k, .secret s) :: post, attrs⟩ : ShpObj).getHash pr sha = (⟨cls, pre ++ (k, .secret t) :: post, attrs⟩ : ShpObj).getHash pr sha := by
  have same : reprSecret pr s = reprSecret pr t := by
    unfold reprSecret
    rw [if_neg hs, if_neg ht]
  have key : ∀ (b : Bool) (pre : List (List Char × PVal)),
      reprPairs pr b ((pre ++ (k, PVal.secret s) :: post).foldr (fun f l => .cons f.1 f.2 l) .nil) =
      reprPairs pr b ((pre ++ (k, PVal.secret t) :: post).foldr (fun f l => .cons f.1 f.2 l) .nil) := by
    intro b pre
    induction pre generalizing b with
    | nil =>
      simp only [List.nil_append, List.foldr_cons]
      rw [reprPairs, reprPairs, pyRepr, pyRepr, same]
    | cons f l ih =>
      simp only [List.cons_append, List.foldr_cons]
      rw [reprPairs, reprPairs, ih]
  unfold ShpObj.getHash ShpObj.dump
  rw [pyRepr, pyRepr, key]

-- non-vacuity
/-- Printable characters of the examples. -/
def asciiPr (c : Char) : Bool := decide (32 ≤ c.toNat ∧ c.toNat < 127)

/-- A model with a value of every kind. -/
def sampleObj : ShpObj := ⟨"Experiment".toList, [("name".toList, .str "it's \"x\"\n".toList), ("id".toList, .int (-12)), ("abs".toList, .bool true), ("none".toList, .none),
  ("gain".toList, .float "1.5e-07".toList), ("lst".toList, .list (.cons (.int 0) (.cons (.dict .nil) .nil))),
  ("duration".toList, .obj "datetime.timedelta".toList (.kw "seconds".toList (.int 5) .nil)),
  ("tz".toList, .obj "TzInfo".toList (.pos (.name "+01:00".toList) .nil))], ["to_file".toList]⟩

example : String.ofList (pyRepr asciiPr sampleObj.dump) =
    "{'name': 'it\\'s \"x\"\\n', 'id': -12, 'abs': True, 'none': None, 'gain': 1.5e-07, 'lst': [0, {}], 'duration': datetime.timedelta(seconds=5), 'tz': TzInfo(+01:00)}" := by
  decide +kernel
example : String.ofList (reprText asciiPr "it's".toList) = "\"it's\"" := by decide +kernel
example : String.ofList (reprText asciiPr "\x01µ".toList) = "'\\x01\\xb5'" := by decide +kernel
example : PlainObj sampleObj := by
  have hf : ReprFloat "1.5e-07".toList := by unfold ReprFloat; decide +kernel
  have hc : "datetime.timedelta".toList ≠ [] ∧ ∀ x ∈ "datetime.timedelta".toList, WordChar x := by decide +kernel
  have hk : "seconds".toList ≠ [] ∧ ∀ x ∈ "seconds".toList, WordChar x := by decide +kernel
  have ht : "TzInfo".toList ≠ [] ∧ ∀ x ∈ "TzInfo".toList, WordChar x := by decide +kernel
  have hn : ReprName "+01:00".toList := by unfold ReprName; decide +kernel
  have nil : ∀ f ∈ ([] : List (List Char × PVal)), PlainVal f.2 := by simp
  exact List.forall_mem_cons.mpr ⟨trivial, List.forall_mem_cons.mpr ⟨trivial, List.forall_mem_cons.mpr ⟨trivial, List.forall_mem_cons.mpr ⟨trivial,
    List.forall_mem_cons.mpr ⟨hf, List.forall_mem_cons.mpr ⟨⟨trivial, trivial, trivial⟩, List.forall_mem_cons.mpr ⟨⟨hc, hk, trivial, trivial⟩,
    List.forall_mem_cons.mpr ⟨⟨ht, hn, trivial⟩, nil⟩⟩⟩⟩⟩⟩⟩⟩
example : (sampleObj.fields.map Prod.fst).Nodup := by decide +kernel
example : sampleObj.contains "to_file".toList = false ∧ "to_file".toList ∈ sampleObj.attrs := by decide +kernel

end Verif.Props
