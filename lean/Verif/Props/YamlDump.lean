import Verif.Model.YamlDump
import Verif.Lemmas.Fingerprint
import Verif.Props.CsvText
import Verif.Props.Reports

/-!
# C116 Every model can be written to a file
-/

namespace Verif.Props
open Verif.Py Verif.Model

/-! ## Specification -/

/-- The entries of a list. -/
def _root_.Verif.Model.PyObjs.entries : PyObjs → List PyObj
  | .nil => []
  | .cons x l => x :: l.entries

/-- The entries of a dictionary, in order. -/
def _root_.Verif.Model.PyItems.entries : PyItems → List (Name × PyObj)
  | .nil => []
  | .cons k x l => (k, x) :: l.entries

/-- The pairs of a mapping in a document, in order. -/
def _root_.Verif.Model.YPairs.entries : YPairs → List (Name × YNode)
  | .nil => []
  | .cons k x l => (k, x) :: l.entries

/-- `x` is `y` or somewhere inside of it. -/
inductive Inside (x : PyObj) : PyObj → Prop
  | self : Inside x x
  | list {y : PyObj} {l : PyObjs} : y ∈ l.entries → Inside x y → Inside x (.list l)
  | dict {k : Name} {y : PyObj} {l : PyItems} : (k, y) ∈ l.entries → Inside x y → Inside x (.dict l)

/-- An address of version 6, a URL or a secret. -/
def Foreign : PyObj → Prop
  | .ip6 _ => True
  | .url _ => True
  | .secret _ => True
  | _ => False

/-- `x` is of the type `k`. -/
def isOf : PyKind → PyObj → Prop
  | .none, .none => True
  | .bool, .bool _ => True
  | .int, .int _ => True
  | .float, .float _ => True
  | .text, .text _ => True
  | .bytes, .bytes _ => True
  | .date, .date _ => True
  | .datetime, .datetime _ => True
  | .path, .path _ _ => True
  | .span, .span _ => True
  | .ip4, .ip4 _ _ _ _ => True
  | .ip6, .ip6 _ => True
  | .uuid, .uuid _ => True
  | .url, .url _ => True
  | .secret, .secret _ => True
  | _, _ => False

/-- The names of the fields that are set in every instance. -/
def alwaysSet : PyFields → List Name
  | .nil => []
  | .cons k a _ l => if a then k :: alwaysSet l else alwaysSet l

mutual
/-- `x` is what the annotation allows: a model has values only for its fields, each as its annotation says, and one for each field that is always set. -/
def Fits : PyShape → PyObj → Prop
  | .one k, x => isOf k x
  | .either a b, x => Fits a x ∨ Fits b x
  | .list s, x => ∃ l, x = .list l ∧ ∀ y ∈ l.entries, Fits s y
  | .model f, x => ∃ l, x = .dict l ∧ (∀ e ∈ l.entries, FieldFits f e.1 e.2) ∧ ∀ k ∈ alwaysSet f, ∃ y, (k, y) ∈ l.entries
/-- One of the fields has the name `k` and allows `x`. -/
def FieldFits : PyFields → Name → PyObj → Prop
  | .nil, _, _ => False
  | .cons k' _ s l, k, x => (k = k' ∧ Fits s x) ∨ FieldFits l k x
end

/-- Reads an address of version 4. -/
def readIp (t : Name) : Option (ℕ × ℕ × ℕ × ℕ) :=
  match splitText ['.'] t with
  | [a, b, c, d] => some (decValue a, decValue b, decValue c, decValue d)
  | _ => none

/-- Reads the number of a UUID: hexadecimal digits, dashes are skipped. -/
def readUuid (t : Name) : ℕ := hexVal (t.filter (· ≠ '-'))

/-- Reads a path: whether it is absolute, and its parts; empty ones and single dots are skipped. -/
def readPosix (t : Name) : Bool × List Name := (t.head? = some '/', (splitText ['/'] t).filter (fun p => p ≠ [] ∧ p ≠ ['.']))

/-- Reads an integer. -/
def readInteger : Name → ℤ
  | '-' :: t => -(decValue t : ℤ)
  | t => (decValue t : ℤ)

/-- The values `pathlib` and `uuid` can make: parts of a path are not empty, no single dot and have no slash in them; a UUID has 128 bits. -/
def WellMade : PyObj → Prop
  | .path _ parts => ∀ x ∈ parts, x ≠ [] ∧ x ≠ ['.'] ∧ '/' ∉ x
  | .uuid n => n < 2 ^ 128
  | _ => True

mutual
/-- A node shows a value: the text is that of the value or is read as it (time spans as whole seconds), lists and dictionaries are complete and in order. -/
def YShows (fl : ℚ → ℚ) (t : YTexts) : PyObj → YNode → Prop
  | .none, .scalar .null _ => True
  | .bool b, .scalar .bool s => s = if b then "true".toList else "false".toList
  | .int i, .scalar .int s => readInteger s = i
  | .float q, .scalar .float s => s = t.float q
  | .text x, .scalar .str s => s = x
  | .bytes b, .scalar .binary s => s = t.binary b
  | .date x, .scalar .timestamp s => s = x
  | .datetime x, .scalar .timestamp s => s = x
  | .path a l, .scalar .str s => readPosix s = (a, l)
  | .span us, .scalar .int s => readInteger s = spanToInt fl us
  | .ip4 a b c d, .scalar .str s => readIp s = some (a, b, c, d)
  | .uuid n, .scalar .str s => readUuid s = n ∧ (splitText ['-'] s).map List.length = [8, 4, 4, 4, 12]
  | .list l, .seq m => ShowsList fl t l m
  | .dict l, .map m => ShowsItems fl t l m
  | _, _ => False
/-- The same for the entries of a list. -/
def ShowsList (fl : ℚ → ℚ) (t : YTexts) : PyObjs → YNodes → Prop
  | .nil, .nil => True
  | .cons x l, .cons y m => YShows fl t x y ∧ ShowsList fl t l m
  | _, _ => False
/-- The same for the entries of a dictionary. -/
def ShowsItems (fl : ℚ → ℚ) (t : YTexts) : PyItems → YPairs → Prop
  | .nil, .nil => True
  | .cons k x l, .cons k' y m => k = k' ∧ YShows fl t x y ∧ ShowsItems fl t l m
  | _, _ => False
end

/-! ## Dumping -/

/-- Nothing inside of `x` is foreign. -/
def AllKnown (x : PyObj) : Prop := ∀ y, Inside y x → ¬ Foreign y

theorem known_list (l : PyObjs) : AllKnown (.list l) ↔ ∀ y ∈ l.entries, AllKnown y :=
  ⟨fun h y hy z hz => h z (.list hy hz), fun h z hz => by
    cases hz with
    | self => exact id
    | list hy hz => exact h _ hy z hz⟩

theorem known_dict (l : PyItems) : AllKnown (.dict l) ↔ ∀ e ∈ l.entries, AllKnown e.2 :=
  ⟨fun h e he z hz => h z (.dict (k := e.1) he hz), fun h z hz => by
    cases hz with
    | self => exact id
    | dict hy hz => exact h _ hy z hz⟩

theorem known_leaf {x : PyObj} (h1 : ∀ l, x ≠ .list l) (h2 : ∀ l, x ≠ .dict l) : AllKnown x ↔ ¬ Foreign x :=
  ⟨fun h => h x .self, fun h z hz => by
    cases hz with
    | self => exact h
    | list => exact absurd rfl (h1 _)
    | dict => exact absurd rfl (h2 _)⟩

variable (fl : ℚ → ℚ) (t : YTexts)

mutual
theorem represent_iff : ∀ x : PyObj, (∃ n, represent fl t x = .ok n) ↔ AllKnown x
  | .none => by rw [known_leaf (by simp) (by simp)]; simp [represent, Foreign]
  | .bool _ => by rw [known_leaf (by simp) (by simp)]; simp [represent, Foreign]
  | .int _ => by rw [known_leaf (by simp) (by simp)]; simp [represent, Foreign]
  | .float _ => by rw [known_leaf (by simp) (by simp)]; simp [represent, Foreign]
  | .text _ => by rw [known_leaf (by simp) (by simp)]; simp [represent, Foreign]
  | .bytes _ => by rw [known_leaf (by simp) (by simp)]; simp [represent, Foreign]
  | .date _ => by rw [known_leaf (by simp) (by simp)]; simp [represent, Foreign]
  | .datetime _ => by rw [known_leaf (by simp) (by simp)]; simp [represent, Foreign]
  | .path _ _ => by rw [known_leaf (by simp) (by simp)]; simp [represent, Foreign]
  | .span _ => by rw [known_leaf (by simp) (by simp)]; simp [represent, Foreign]
  | .ip4 _ _ _ _ => by rw [known_leaf (by simp) (by simp)]; simp [represent, Foreign]
  | .ip6 _ => by rw [known_leaf (by simp) (by simp)]; simp [represent, Foreign]
  | .uuid _ => by rw [known_leaf (by simp) (by simp)]; simp [represent, Foreign]
  | .url _ => by rw [known_leaf (by simp) (by simp)]; simp [represent, Foreign]
  | .secret _ => by rw [known_leaf (by simp) (by simp)]; simp [represent, Foreign]
  | .list l => by
    rw [known_list, ← representList_iff l, represent]
    cases representList fl t l <;> simp [bind, Except.bind, pure, Except.pure]
  | .dict l => by
    rw [known_dict, ← representItems_iff l, represent]
    cases representItems fl t l <;> simp [bind, Except.bind, pure, Except.pure]
theorem representList_iff : ∀ l : PyObjs, (∃ n, representList fl t l = .ok n) ↔ ∀ y ∈ l.entries, AllKnown y
  | .nil => by simp [representList, PyObjs.entries]
  | .cons x l => by
    simp only [PyObjs.entries, List.forall_mem_cons]
    rw [← represent_iff x, ← representList_iff l, representList]
    cases represent fl t x <;> cases representList fl t l <;> simp [bind, Except.bind, pure, Except.pure]
theorem representItems_iff : ∀ l : PyItems, (∃ n, representItems fl t l = .ok n) ↔ ∀ e ∈ l.entries, AllKnown e.2
  | .nil => by simp [representItems, PyItems.entries]
  | .cons k x l => by
    simp only [PyItems.entries, List.forall_mem_cons]
    rw [← represent_iff x, ← representItems_iff l, representItems]
    cases represent fl t x <;> cases representItems fl t l <;> simp [bind, Except.bind, pure, Except.pure]
end

/-! ## Reading the texts -/

theorem dec_no (k : ℕ) {c : Char} (hc : c.isDigit = false) : c ∉ dec k := fun h => by
  rw [(decValue_dec k).2 c h] at hc
  exact absurd hc (by simp)

/-- **C116**: the text of an address of version 4 is read back as the same address. -/
theorem C116_ip (a b c d : ℕ) : represent fl t (.ip4 a b c d) = .ok (.scalar .str (ip4Text a b c d)) ∧ readIp (ip4Text a b c d) = some (a, b, c, d) := by
  refine ⟨by rw [represent], ?_⟩
  unfold readIp ip4Text
  rw [split_join '.' [] _ (by simp) (by simp only [List.mem_cons, List.not_mem_nil, or_false]; rintro x (rfl | rfl | rfl | rfl) <;> exact dec_no _ (by decide))]
  simp [(decValue_dec _).1]

theorem hexFixed_add (a : ℕ) : ∀ b n, hexFixed (a + b) n = hexFixed a (n / 16 ^ b) ++ hexFixed b n
  | 0, n => by simp [hexFixed]
  | b + 1, n => by
    rw [← Nat.add_assoc, hexFixed, hexFixed_add a b, hexFixed, List.append_assoc, Nat.div_div_eq_div_mul, pow_succ, Nat.mul_comm 16]

theorem hexChar_dash : ∀ n, n < 16 → hexChar n ≠ '-' := by decide +kernel

theorem hexFixed_dash : ∀ k n, '-' ∉ hexFixed k n
  | 0, _ => by simp [hexFixed]
  | k + 1, n => by
    rw [hexFixed, List.mem_append, not_or]
    exact ⟨hexFixed_dash k _, by simpa using (hexChar_dash (n % 16) (Nat.mod_lt _ (by norm_num))).symm⟩

/-- **C116**: the text of a UUID has 36 characters, five groups of 8, 4, 4, 4 and 12 digits, and is read back as the same number. -/
theorem C116_uuid (n : ℕ) (hn : n < 2 ^ 128) :
    represent fl t (.uuid n) = .ok (.scalar .str (uuidText n)) ∧ (splitText ['-'] (uuidText n)).map List.length = [8, 4, 4, 4, 12] ∧ readUuid (uuidText n) = n := by
  refine ⟨by rw [represent], ?_, ?_⟩
  · unfold uuidText
    rw [split_join '-' [] _ (by simp) (by simp only [List.mem_cons, List.not_mem_nil, or_false]; rintro x (rfl | rfl | rfl | rfl | rfl) <;> exact hexFixed_dash _ _)]
    simp [hexFixed_length]
  · have hf : ∀ k m, (hexFixed k m).filter (fun c => decide (c ≠ '-')) = hexFixed k m := by
      intro k m
      rw [List.filter_eq_self]
      intro c hc
      simpa using fun h : c = '-' => hexFixed_dash k m (h ▸ hc)
    have key : hexFixed 32 n = hexFixed 8 (n / 16 ^ 24) ++ (hexFixed 4 (n / 16 ^ 20) ++ (hexFixed 4 (n / 16 ^ 16) ++ (hexFixed 4 (n / 16 ^ 12) ++ hexFixed 12 n))) := by
      rw [← hexFixed_add 4 12, ← hexFixed_add 4 16, ← hexFixed_add 4 20, ← hexFixed_add 8 24]
    unfold readUuid uuidText
    simp only [joinWith, List.filter_append, hf, List.append_assoc]
    have hd : (['-'] : List Char).filter (fun c => decide (c ≠ '-')) = [] := by decide
    rw [hd]
    simp only [List.nil_append]
    rw [← key, hexVal_hexFixed 32 n (by rw [show (16 : ℕ) ^ 32 = 2 ^ 128 by norm_num]; exact hn)]

/-- **C116**: the text of a path is read back as the same path; parts of a path are not empty, no single dot and have no slash in them. -/
theorem C116_path (absolute : Bool) (parts : List Name) (hp : ∀ x ∈ parts, x ≠ [] ∧ x ≠ ['.'] ∧ '/' ∉ x) :
    represent fl t (.path absolute parts) = .ok (.scalar .str (asPosix absolute parts)) ∧ readPosix (asPosix absolute parts) = (absolute, parts) := by
  refine ⟨by rw [represent], ?_⟩
  have hfilt : parts.filter (fun p => decide (p ≠ [] ∧ p ≠ ['.'])) = parts := by
    rw [List.filter_eq_self]
    intro x hx
    simpa using ⟨(hp x hx).1, (hp x hx).2.1⟩
  cases parts with
  | nil => cases absolute <;> decide +kernel
  | cons a r =>
    have hs : splitText ['/'] (joinWith ['/'] (a :: r)) = a :: r := split_join '/' [] _ (by simp) (fun x hx => (hp x hx).2.2)
    cases absolute with
    | true =>
      have h2 : splitText ['/'] ('/' :: joinWith ['/'] (a :: r)) = [] :: a :: r := by
        have := split_join '/' [] ([] :: a :: r) (by simp) (by
          intro x hx
          rcases List.mem_cons.1 hx with rfl | hx
          · simp
          · exact (hp x hx).2.2)
        simpa [joinWith] using this
      unfold readPosix asPosix
      rw [if_pos rfl, h2, List.filter_cons_of_neg (by simp), hfilt]
      simp
    | false =>
      unfold readPosix asPosix
      rw [if_neg (by simp), if_neg (by simp), hs, hfilt]
      congr 1
      have ha := hp a (by simp)
      cases a with
      | nil => exact absurd rfl ha.1
      | cons c l =>
        have hc : c ≠ '/' := fun h => ha.2.2 (by simp [h])
        have : (joinWith ['/'] ((c :: l) :: r)).head? = some c := by cases r <;> simp [joinWith]
        rw [this]
        simpa using hc

theorem readInteger_text (i : ℤ) : readInteger (intText i) = i := by
  unfold intText
  by_cases h : i < 0
  · rw [if_pos h]
    show -(decValue (dec i.natAbs) : ℤ) = _
    rw [(decValue_dec _).1]
    omega
  · rw [if_neg h]
    have hne : ∀ k, readInteger (dec k) = decValue (dec k) := by
      intro k
      unfold readInteger
      split
      · rename_i heq
        exact absurd (by rw [heq]; simp) (dec_no k (c := '-') (by decide))
      · rfl
    rw [hne, (decValue_dec _).1]
    omega

/-- **C116**: the text of a time span is read as its whole seconds. -/
theorem C116_span (us : ℤ) : ∃ text, represent fl t (.span us) = .ok (.scalar .int text) ∧ readInteger text = spanToInt fl us :=
  ⟨_, by rw [represent], readInteger_text _⟩

mutual
theorem represent_shows : ∀ (x : PyObj) (n : YNode), represent fl t x = .ok n → (∀ y, Inside y x → WellMade y) → YShows fl t x n
  | .none, n, h, _ => by rw [represent] at h; injection h with h; subst h; simp only [YShows]
  | .bool b, n, h, _ => by rw [represent] at h; injection h with h; subst h; cases b <;> simp only [YShows] <;> decide
  | .int i, n, h, _ => by rw [represent] at h; injection h with h; subst h; simp only [YShows]; exact readInteger_text i
  | .float q, n, h, _ => by rw [represent] at h; injection h with h; subst h; simp only [YShows]
  | .text s, n, h, _ => by rw [represent] at h; injection h with h; subst h; simp only [YShows]
  | .bytes s, n, h, _ => by rw [represent] at h; injection h with h; subst h; simp only [YShows]
  | .date s, n, h, _ => by rw [represent] at h; injection h with h; subst h; simp only [YShows]
  | .datetime s, n, h, _ => by rw [represent] at h; injection h with h; subst h; simp only [YShows]
  | .path a l, n, h, hw => by
    rw [represent] at h; injection h with h; subst h; simp only [YShows]
    exact (C116_path fl t a l (hw _ .self)).2
  | .span us, n, h, _ => by rw [represent] at h; injection h with h; subst h; simp only [YShows]; exact readInteger_text _
  | .ip4 a b c d, n, h, _ => by rw [represent] at h; injection h with h; subst h; simp only [YShows]; exact (C116_ip fl t a b c d).2
  | .ip6 _, n, h, _ => by rw [represent] at h; exact absurd h (by simp)
  | .uuid k, n, h, hw => by
    rw [represent] at h; injection h with h; subst h; simp only [YShows]
    exact ⟨(C116_uuid fl t k (hw _ .self)).2.2, (C116_uuid fl t k (hw _ .self)).2.1⟩
  | .url _, n, h, _ => by rw [represent] at h; exact absurd h (by simp)
  | .secret _, n, h, _ => by rw [represent] at h; exact absurd h (by simp)
  | .list l, n, h, hw => by
    rw [represent] at h
    cases hl : representList fl t l with
    | error e => rw [hl] at h; simp [bind, Except.bind] at h
    | ok m =>
      rw [hl] at h
      simp only [bind, Except.bind, pure, Except.pure] at h
      injection h with h; subst h
      simp only [YShows]
      exact representList_shows l m hl fun y hy z hz => hw z (.list hy hz)
  | .dict l, n, h, hw => by
    rw [represent] at h
    cases hl : representItems fl t l with
    | error e => rw [hl] at h; simp [bind, Except.bind] at h
    | ok m =>
      rw [hl] at h
      simp only [bind, Except.bind, pure, Except.pure] at h
      injection h with h; subst h
      simp only [YShows]
      exact representItems_shows l m hl fun e he z hz => hw z (.dict (k := e.1) he hz)
theorem representList_shows : ∀ (l : PyObjs) (n : YNodes), representList fl t l = .ok n → (∀ y ∈ l.entries, ∀ z, Inside z y → WellMade z) → ShowsList fl t l n
  | .nil, n, h, _ => by rw [representList] at h; injection h with h; subst h; simp only [ShowsList]
  | .cons x l, n, h, hw => by
    rw [representList] at h
    simp only [PyObjs.entries, List.forall_mem_cons] at hw
    cases h1 : represent fl t x with
    | error e => rw [h1] at h; simp [bind, Except.bind] at h
    | ok y =>
      cases h2 : representList fl t l with
      | error e => rw [h1, h2] at h; simp [bind, Except.bind] at h
      | ok r =>
        rw [h1, h2] at h
        simp only [bind, Except.bind, pure, Except.pure] at h
        injection h with h; subst h
        simp only [ShowsList]
        exact ⟨represent_shows x y h1 hw.1, representList_shows l r h2 hw.2⟩
theorem representItems_shows : ∀ (l : PyItems) (n : YPairs), representItems fl t l = .ok n → (∀ e ∈ l.entries, ∀ z, Inside z e.2 → WellMade z) → ShowsItems fl t l n
  | .nil, n, h, _ => by rw [representItems] at h; injection h with h; subst h; simp only [ShowsItems]
  | .cons k x l, n, h, hw => by
    rw [representItems] at h
    simp only [PyItems.entries, List.forall_mem_cons] at hw
    cases h1 : represent fl t x with
    | error e => rw [h1] at h; simp [bind, Except.bind] at h
    | ok y =>
      cases h2 : representItems fl t l with
      | error e => rw [h1, h2] at h; simp [bind, Except.bind] at h
      | ok r =>
        rw [h1, h2] at h
        simp only [bind, Except.bind, pure, Except.pure] at h
        injection h with h; subst h
        simp only [ShowsItems]
        exact ⟨trivial, represent_shows x y h1 hw.1, representItems_shows l r h2 hw.2⟩
end

/-! ## Files -/

/-- **C116**: a value can be dumped exactly if there is no address of version 6, no URL and no secret in it, however deep. -/
theorem C116_written (x : PyObj) : (∃ n, represent fl t x = .ok n) ↔ ∀ y, Inside y x → ¬ Foreign y := represent_iff fl t x

/-- The entries the wrapper adds are known. -/
theorem known_wrap (cls : Name) (comment : Option Name) (created lib : Name) (minimal : Bool) (params : PyItems) :
    AllKnown (.dict (wrapItems cls comment created lib minimal params)) ↔ AllKnown (.dict params) := by
  have ht : ∀ s, AllKnown (.text s) := fun s => (known_leaf (by simp) (by simp)).2 (by simp [Foreign])
  have hd : ∀ s, AllKnown (.datetime s) := fun s => (known_leaf (by simp) (by simp)).2 (by simp [Foreign])
  have hn : AllKnown .none := (known_leaf (by simp) (by simp)).2 (by simp [Foreign])
  rw [known_dict]
  cases comment <;> cases minimal <;> simp [wrapItems, PyItems.entries, ht, hd, hn]

/-- The node of an entry of a mapping. -/
def _root_.Verif.Model.YNode.at (k : Name) : YNode → Option YNode
  | .map l => (l.entries.find? (fun p => p.1 = k)).map (·.2)
  | _ => none

/-- **C116**: `to_file` succeeds exactly if there is no address of version 6, no URL and no secret in the model.  Then the directory exists, and the file has the name of the class and the
complete parameters in it, in the order of the model and with texts that are read back as the values; otherwise the directory and the file are left as they were. -/
theorem C116_untouched (cls : Name) (comment : Option Name) (created lib : Name) (minimal : Bool) (params : PyItems) (p : YamlPlace) :
    ((∀ y, Inside y (.dict params) → ¬ Foreign y) ∧ ∃ n m, yamlToFile fl t cls comment created lib minimal params p = (.ok (), ⟨true, some n⟩) ∧
      n.at "datatype".toList = some (.scalar .str cls) ∧ n.at "parameters".toList = some m ∧
      ((∀ y, Inside y (.dict params) → WellMade y) → YShows fl t (.dict params) m)) ∨
    ((∃ y, Inside y (.dict params) ∧ Foreign y) ∧ ∃ e, yamlToFile fl t cls comment created lib minimal params p = (.error e, p)) := by
  by_cases hk : AllKnown (.dict params)
  · left
    refine ⟨hk, ?_⟩
    obtain ⟨m, hm⟩ := (represent_iff fl t _).2 hk
    have hm' := hm
    rw [represent] at hm'
    cases hp : representItems fl t params with
    | error e => rw [hp] at hm'; simp [bind, Except.bind] at hm'
    | ok pairs =>
      have hm2 : represent fl t (.dict params) = .ok (.map pairs) := by rw [represent, hp]; rfl
      have e : ∀ s r : String, s ≠ r → decide (s.toList = r.toList) = false := by
        intro s r hs
        exact decide_eq_false fun he => hs (String.toList_inj.1 he)
      have e1 := e "datatype" "parameters" (by decide)
      have e2 := e "comment" "parameters" (by decide)
      have e3 := e "created" "parameters" (by decide)
      have e4 := e "lib_ver" "parameters" (by decide)
      unfold yamlToFile wrapItems
      generalize "datatype".toList = kd at *
      generalize "comment".toList = kc at *
      generalize "created".toList = kr at *
      generalize "lib_ver".toList = kl at *
      generalize "parameters".toList = kp at *
      cases comment <;> cases minimal <;>
        · simp only [represent, representItems, hp, bind, Except.bind, pure, Except.pure, if_true, Bool.false_eq_true, if_false]
          exact ⟨_, .map pairs, rfl, by simp [YNode.at, YPairs.entries], by simp [YNode.at, YPairs.entries, e1, e2, e3, e4], represent_shows fl t _ _ hm2⟩
  · right
    constructor
    · unfold AllKnown at hk
      push Not at hk
      exact hk
    · have : ¬ ∃ n, represent fl t (.dict (wrapItems cls comment created lib minimal params)) = .ok n := by
        rw [represent_iff, known_wrap]; exact hk
      unfold yamlToFile
      cases h : represent fl t (.dict (wrapItems cls comment created lib minimal params)) with
      | ok n => exact absurd ⟨n, h⟩ this
      | error e => exact ⟨e, rfl⟩

/-! ## The classes -/

/-- Types of single values that can be dumped. -/
def kindOk : PyKind → Bool
  | .ip6 => false
  | .url => false
  | .secret => false
  | _ => true

mutual
/-- No type that cannot be dumped occurs in the annotation. -/
def shapeOk : PyShape → Bool
  | .one k => kindOk k
  | .either a b => shapeOk a && shapeOk b
  | .list s => shapeOk s
  | .model f => fieldsOk f
/-- The same for the fields of a model. -/
def fieldsOk : PyFields → Bool
  | .nil => true
  | .cons _ _ s l => shapeOk s && fieldsOk l
end

theorem leaf_known {k : PyKind} (hk : kindOk k = true) {x : PyObj} (h : isOf k x) : AllKnown x := by
  rw [known_leaf]
  · cases k <;> cases x <;> simp_all [isOf, Foreign, kindOk]
  · rintro l rfl; cases k <;> simp [isOf] at h
  · rintro l rfl; cases k <;> simp [isOf] at h

mutual
theorem shape_known : ∀ (s : PyShape), shapeOk s = true → ∀ x, Fits s x → AllKnown x
  | .one k, hs, x, h => leaf_known (by simpa [shapeOk] using hs) (by simpa [Fits] using h)
  | .either a b, hs, x, h => by
    rw [shapeOk, Bool.and_eq_true] at hs
    rw [Fits] at h
    exact h.elim (shape_known a hs.1 x) (shape_known b hs.2 x)
  | .list s, hs, x, h => by
    rw [shapeOk] at hs
    rw [Fits] at h
    obtain ⟨l, rfl, h⟩ := h
    rw [known_list]
    exact fun y hy => shape_known s hs y (h y hy)
  | .model f, hs, x, h => by
    rw [shapeOk] at hs
    rw [Fits] at h
    obtain ⟨l, rfl, h, -⟩ := h
    rw [known_dict]
    exact fun e he => fields_known f hs e.1 e.2 (h e he)
theorem fields_known : ∀ (f : PyFields), fieldsOk f = true → ∀ k x, FieldFits f k x → AllKnown x
  | .nil, _, k, x, h => by rw [FieldFits] at h; exact h.elim
  | .cons k' a s l, hs, k, x, h => by
    rw [fieldsOk, Bool.and_eq_true] at hs
    rw [FieldFits] at h
    exact h.elim (fun h => shape_known s hs.1 x h.2) (fields_known l hs.2 k x)
end

theorem toFile_ok {params : PyItems} (h : AllKnown (.dict params)) (cls : Name) (comment : Option Name) (created lib : Name) (minimal : Bool) (p : YamlPlace) :
    (yamlToFile fl t cls comment created lib minimal params p).1 = .ok () := by
  rcases C116_untouched fl t cls comment created lib minimal params p with ⟨-, n, q, h1, -⟩ | ⟨⟨y, h1, h2⟩, -⟩
  · rw [h1]
  · exact absurd h2 (h y h1)

theorem toFile_error {params : PyItems} (h : ¬ AllKnown (.dict params)) (cls : Name) (comment : Option Name) (created lib : Name) (minimal : Bool) (p : YamlPlace) :
    ∃ e, yamlToFile fl t cls comment created lib minimal params p = (.error e, p) := by
  rcases C116_untouched fl t cls comment created lib minimal params p with ⟨h1, -⟩ | ⟨-, h1⟩
  · exact absurd h1 h
  · exact h1

/-- **C116**: every instance of every class but `User`, `Observer` and `Testbed` can be written and printed, whatever the values of its fields are. -/
theorem C116_classes (name : String) (s : PyShape) (hc : (name, s) ∈ allClasses) (hn : name ∉ ["User", "Observer", "Testbed"]) (params : PyItems) (hf : Fits s (.dict params))
    (comment : Option Name) (created lib : Name) (minimal : Bool) (p : YamlPlace) :
    (yamlToFile fl t name.toList comment created lib minimal params p).1 = .ok () ∧ ∃ n, modelStr fl t params = .ok n := by
  have hs : shapeOk s = true := by
    have key : ∀ c ∈ allClasses, c.1 ∉ ["User", "Observer", "Testbed"] → shapeOk c.2 = true := by decide +kernel
    exact key (name, s) hc hn
  have hk := shape_known s hs _ hf
  exact ⟨toFile_ok fl t hk _ _ _ _ _ _, (represent_iff fl t _).2 hk⟩

theorem fieldFits_either (l2 : List (String × Bool × PyShape)) (k : String) (a : Bool) (s r : PyShape) (key : Name) (y : PyObj) : ∀ l1 : List (String × Bool × PyShape),
    FieldFits (.ofList (l1 ++ (k, a, .either s r) :: l2)) key y → FieldFits (.ofList (l1 ++ (k, a, s) :: l2)) key y ∨ (key = k.toList ∧ Fits r y)
  | [], h => by
    simp only [List.nil_append, PyFields.ofList, FieldFits, Fits] at h ⊢
    tauto
  | (k', a', s') :: l1, h => by
    simp only [List.cons_append, PyFields.ofList, FieldFits] at h ⊢
    have := fieldFits_either l2 k a s r key y l1
    tauto

theorem alwaysSet_same (l2 : List (String × Bool × PyShape)) (k : String) (a : Bool) (s r : PyShape) : ∀ l1 : List (String × Bool × PyShape),
    alwaysSet (.ofList (l1 ++ (k, a, s) :: l2)) = alwaysSet (.ofList (l1 ++ (k, a, r) :: l2))
  | [] => rfl
  | (k', a', s') :: l1 => by
    simp only [List.cons_append, PyFields.ofList, alwaysSet]
    rw [alwaysSet_same l2 k a s r l1]

/-- **C116**: an observer can be written exactly if its address is not one of version 6. -/
theorem C116_observer (params : PyItems) (hf : Fits shObserver (.dict params)) (comment : Option Name) (created lib : Name) (minimal : Bool) (p : YamlPlace) :
    (yamlToFile fl t "Observer".toList comment created lib minimal params p).1 = .ok () ↔ ∀ n, ("ip".toList, .ip6 n) ∉ params.entries := by
  constructor
  · intro h n hn
    obtain ⟨e, he⟩ := toFile_error fl t (params := params) (fun hk => hk (.ip6 n) (.dict hn .self) (by simp [Foreign])) "Observer".toList comment created lib minimal p
    rw [he] at h
    exact absurd h (by simp)
  · intro h
    refine toFile_ok fl t ?_ _ _ _ _ _ _
    refine shape_known (shObserverOf (.one .ip4)) (by decide +kernel) _ ?_
    unfold shObserver shObserverOf at hf
    rw [Fits] at hf
    obtain ⟨l, hl, h1, h2⟩ := hf
    injection hl with hl
    subst hl
    unfold shObserverOf
    rw [Fits]
    refine ⟨_, rfl, ?_, ?_⟩
    · intro e he
      rcases fieldFits_either observerTail "ip" true (.one .ip4) (.one .ip6) e.1 e.2 observerHead (h1 e he) with h3 | ⟨hk, hx⟩
      · exact h3
      · rw [Fits] at hx
        obtain ⟨k, x⟩ := e
        simp only at hk hx
        subst hk
        cases x <;> simp only [isOf] at hx
        exact absurd he (h _)
    · rwa [alwaysSet_same observerTail "ip" true (.one .ip4) (.either (.one .ip4) (.one .ip6)) observerHead]

/-- **C116**: a testbed without a URL whose observers have addresses of version 4 can be written and printed. -/
theorem C116_testbed (params : PyItems) (hf : Fits (shTestbedOf (.one .none) (shObserverOf (.one .ip4))) (.dict params)) (comment : Option Name) (created lib : Name) (minimal : Bool)
    (p : YamlPlace) :
    (yamlToFile fl t "Testbed".toList comment created lib minimal params p).1 = .ok () ∧ ∃ n, modelStr fl t params = .ok n := by
  have hk := shape_known _ (by decide +kernel) _ hf
  exact ⟨toFile_ok fl t hk _ _ _ _ _ _, (represent_iff fl t _).2 hk⟩

/-- **C116 is violated**: no `User` can be written or printed, since the token is always there and a secret. -/
theorem C116_user_violated (params : PyItems) (hf : Fits shUser (.dict params)) (comment : Option Name) (created lib : Name) (minimal : Bool) (p : YamlPlace) :
    (∃ e, yamlToFile fl t "User".toList comment created lib minimal params p = (.error e, p)) ∧ ∃ e, modelStr fl t params = .error e := by
  have hk : ¬ AllKnown (.dict params) := by
    unfold shUser at hf
    rw [Fits] at hf
    obtain ⟨l, hl, h1, h2⟩ := hf
    injection hl with hl
    subst hl
    obtain ⟨y, hy⟩ := h2 "token".toList (by decide +kernel)
    have h3 := h1 _ hy
    simp only [PyFields.ofList, FieldFits, Fits] at h3
    have e : ∀ s : String, s ≠ "token" → "token".toList ≠ s.toList := by
      intro s hs he
      exact hs (String.toList_inj.1 he.symm)
    simp only [e "id" (by decide), e "name" (by decide), e "description" (by decide), e "comment" (by decide), e "name_full" (by decide), e "group" (by decide), e "email" (by decide),
      e "pw_hash" (by decide), e "active" (by decide), false_and, false_or, or_false, true_and] at h3
    intro hk
    refine hk y (.dict hy .self) ?_
    cases y <;> simp_all [isOf, Foreign]
  refine ⟨toFile_error fl t hk _ _ _ _ _ _, ?_⟩
  unfold modelStr
  cases h : represent fl t (.dict params) with
  | error e => exact ⟨e, rfl⟩
  | ok n => exact absurd ((represent_iff fl t _).1 ⟨n, h⟩) hk

/-- **C116 is violated**: no testbed with a URL, or with an observer that has an address of version 6, can be written or printed. -/
theorem C116_url_violated (params : PyItems) (comment : Option Name) (created lib : Name) (minimal : Bool) (p : YamlPlace)
    (h : (∃ u, ("url".toList, .url u) ∈ params.entries) ∨
      ∃ obs o n, ("observers".toList, .list obs) ∈ params.entries ∧ .dict o ∈ obs.entries ∧ ("ip".toList, .ip6 n) ∈ o.entries) :
    (∃ e, yamlToFile fl t "Testbed".toList comment created lib minimal params p = (.error e, p)) ∧ ∃ e, modelStr fl t params = .error e := by
  have hk : ¬ AllKnown (.dict params) := by
    rcases h with ⟨u, h⟩ | ⟨obs, o, n, h1, h2, h3⟩
    · exact fun hk => hk (.url u) (.dict h .self) (by simp [Foreign])
    · exact fun hk => hk (.ip6 n) (.dict h1 (.list h2 (.dict h3 .self))) (by simp [Foreign])
  refine ⟨toFile_error fl t hk _ _ _ _ _ _, ?_⟩
  unfold modelStr
  cases h : represent fl t (.dict params) with
  | error e => exact ⟨e, rfl⟩
  | ok n => exact absurd ((represent_iff fl t _).1 ⟨n, h⟩) hk

/-! ## The statements are not empty -/

/-- A user with the fields every user has. -/
def someUser : PyItems := .cons "name".toList (.text "a".toList) (.cons "group".toList (.text "b".toList)
  (.cons "email".toList (.text "a@b.c".toList) (.cons "token".toList (.secret "x".toList) .nil)))

example : Fits shUser (.dict someUser) := by
  refine ⟨_, rfl, ?_, ?_⟩
  · intro e he
    simp only [someUser, PyItems.entries, List.mem_cons, List.not_mem_nil, or_false] at he
    rcases he with rfl | rfl | rfl | rfl <;> simp [PyFields.ofList, FieldFits, Fits, isOf, PyShape.text]
  · simp [someUser, PyItems.entries, PyFields.ofList, alwaysSet]

example : Fits shPower (.dict (.cons "delay".toList (.span 2000000) (.cons "samplerate".toList (.int 1000) .nil))) := by
  refine ⟨_, rfl, ?_, ?_⟩
  · intro e he
    simp only [PyItems.entries, List.mem_cons, List.not_mem_nil, or_false] at he
    rcases he with rfl | rfl <;> simp [PyFields.ofList, FieldFits, Fits, isOf, PyShape.span, PyShape.int]
  · simp [PyFields.ofList, alwaysSet]

example : ip4Text 192 168 1 20 = "192.168.1.20".toList := by decide +kernel
example : uuidText 0x12345678123456781234567812345678 = "12345678-1234-5678-1234-567812345678".toList := by decide +kernel
example : asPosix true ["var".toList, "shepherd".toList] = "/var/shepherd".toList := by decide +kernel

end Verif.Props
