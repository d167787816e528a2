import Verif.Model.YamlTree
import Verif.Props.YamlTypes
import Verif.Props.YamlDump
import Verif.Props.FwTools

/-!
# C125: whole files of models are read back
-/

namespace Verif.Props
open Verif.Py Verif.Model

/-! ## Specification -/

/-- Names of fields: letters, digits and underscores, not like a number or a flag, not longer than a simple key. -/
def KeyOk (k : Name) : Prop := k ≠ [] ∧ (∀ c ∈ k, c.isAlphanum = true ∨ c = '_') ∧ resolveTag k = some .str ∧ k.length < 128

/-- Lines that are not empty and do not start with a blank, each with a line break at its end, as `base64.encodebytes` makes them; the flag: at the start of a line. -/
def litOk : Bool → List Char → Bool
  | start, [] => start
  | true, c :: r => !(c = '\n') && !(c = ' ') && litOk false r
  | false, c :: r => if c = '\n' then litOk true r else litOk false r

mutual
/-- Single values as C124 writes them, bytes in lines, keys as names. -/
def GoodNode : YNode → Prop
  | .scalar tag t => tag = .str ∨ Unquoted tag t ∨ (tag = .binary ∧ t ≠ [] ∧ litOk true t = true)
  | .seq l => GoodNodes l
  | .map l => GoodPairs l
def GoodNodes : YNodes → Prop
  | .nil => True
  | .cons x l => GoodNode x ∧ GoodNodes l
def GoodPairs : YPairs → Prop
  | .nil => True
  | .cons k x l => KeyOk k ∧ GoodNode x ∧ GoodPairs l
end

mutual
/-- Nesting. -/
def depthNode : YNode → ℕ
  | .scalar _ _ => 0
  | .seq l => depthNodes l + 1
  | .map l => depthPairs l + 1
def depthNodes : YNodes → ℕ
  | .nil => 0
  | .cons x l => max (depthNode x) (depthNodes l)
def depthPairs : YPairs → ℕ
  | .nil => 0
  | .cons _ x l => max (depthNode x) (depthPairs l)
end

/-! ## Places -/

theorem skip_blanks (n : ℕ) (t : List Char) : skipBlank (List.replicate n ' ' ++ t) = skipBlank t := by
  induction n with
  | zero => rfl
  | succ n ih =>
    rw [List.replicate_succ, List.cons_append]
    unfold skipBlank at *
    rw [List.dropWhile_cons_of_pos (by simp)]
    exact ih

theorem skip_line (n : ℕ) (t : List Char) : skipBlank ('\n' :: (List.replicate n ' ' ++ t)) = skipBlank t := by
  have := skip_blanks n t
  unfold skipBlank at *
  rw [List.dropWhile_cons_of_pos (by simp)]
  exact this

theorem skip_blank (t : List Char) : skipBlank (' ' :: t) = skipBlank t := by
  unfold skipBlank
  rw [List.dropWhile_cons_of_pos (by simp)]

theorem skip_none {t : List Char} (h1 : ∀ r, t ≠ ' ' :: r) (h2 : ∀ r, t ≠ '\n' :: r) : skipBlank t = t := by
  unfold skipBlank
  cases t with
  | nil => rfl
  | cons c r =>
    have a : c ≠ ' ' := fun h => h1 r (by rw [h])
    have b : c ≠ '\n' := fun h => h2 r (by rw [h])
    rw [List.dropWhile_cons_of_neg (by simp [a, b])]

theorem fold_blanks (n col : ℕ) (b : Bool) : (List.replicate n ' ').foldl (fun (p : ℕ × Bool) c => if c = '\n' then (0, true) else (p.1 + 1, p.2)) (col, b) = (col + n, b) := by
  induction n generalizing col with
  | zero => rfl
  | succ n ih =>
    rw [List.replicate_succ, List.foldl_cons, if_neg (by decide), ih]
    congr 1; omega

theorem place_app (col : ℕ) (x r : List Char) : place col (x ++ r) r = x.foldl (fun (p : ℕ × Bool) c => if c = '\n' then (0, true) else (p.1 + 1, p.2)) (col, false) := by
  unfold place
  rw [List.length_append, Nat.add_sub_cancel, List.take_left]

theorem place_line (col : ℕ) (x : List Char) (m : ℕ) (tail : List Char) : place col (x ++ '\n' :: (List.replicate m ' ' ++ tail)) tail = (m, true) := by
  have : x ++ '\n' :: (List.replicate m ' ' ++ tail) = (x ++ '\n' :: List.replicate m ' ') ++ tail := by simp
  rw [this, place_app, List.foldl_append, List.foldl_cons, if_pos rfl, fold_blanks, Nat.zero_add]

theorem place_none (col : ℕ) (x r : List Char) (h : '\n' ∉ x) : place col (x ++ r) r = (col + x.length, false) := by
  rw [place_app]
  induction x generalizing col with
  | nil => rfl
  | cons c x ih =>
    simp only [List.mem_cons, not_or] at h
    rw [List.foldl_cons, if_neg (Ne.symm h.1), ih _ h.2, List.length_cons]
    congr 1; omega

theorem place_blank (col : ℕ) (r : List Char) : place col (' ' :: r) r = (col + 1, false) := place_none col [' '] r (by decide)

theorem place_break (col m : ℕ) (r : List Char) : place col ('\n' :: (List.replicate m ' ' ++ r)) r = (m, true) := place_line col [] m r

/-- What follows a value: a line that is not a separator, at the column `m`. -/
def NextLine (m : ℕ) (tail : List Char) : Prop :=
  (∀ r, tail ≠ ' ' :: r) ∧ (∀ r, tail ≠ '\n' :: r) ∧ (∀ r, tail ≠ ':' :: r) ∧ docSep (List.replicate m ' ' ++ tail) = false

theorem next_line (m : ℕ) {c : Char} {r : List Char} (h1 : c ≠ ' ') (h2 : c ≠ '\n') (h3 : c ≠ ':') (h4 : docSep (c :: r) = false) : NextLine m (c :: r) := by
  refine ⟨?_, ?_, ?_, ?_⟩
  · intro r' h; exact h1 (List.cons.inj h).1
  · intro r' h; exact h2 (List.cons.inj h).1
  · intro r' h; exact h3 (List.cons.inj h).1
  · cases m with
    | zero => exact h4
    | succ m => exact docSep_blank (m + 1) (by omega) _

/-! ## Keys -/

theorem key_char {c : Char} (h : c.isAlphanum = true ∨ c = '_') : isWs c = false ∧ c ≠ ' ' ∧ c ≠ '\n' ∧ c ≠ ':' ∧ c ≠ '-' ∧ c ≠ '.' ∧ c ∉ "-?:,[]{}#&*!|>'\"%@`".toList := by
  have key : ∀ d : Char, d.isAlphanum = false → d ≠ '_' → c ≠ d := by
    rintro d h1 h2 rfl
    rcases h with h | h
    · rw [h] at h1; exact absurd h1 (by decide)
    · exact h2 h
  refine ⟨?_, key _ (by decide) (by decide), key _ (by decide) (by decide), key _ (by decide) (by decide), key _ (by decide) (by decide), key _ (by decide) (by decide), ?_⟩
  · unfold isWs
    simp [key ' ' (by decide) (by decide), key '\t' (by decide) (by decide), key '\n' (by decide) (by decide), key '\r' (by decide) (by decide), key '\x00' (by decide) (by decide)]
  · intro hm
    have : ∀ d ∈ "-?:,[]{}#&*!|>'\"%@`".toList, d.isAlphanum = false ∧ d ≠ '_' := by decide
    exact key c (this c hm).1 (this c hm).2 rfl

theorem read_key (i : ℕ) (k r : List Char) (hr : followed r = true) : ∀ col, (∀ c ∈ k, c.isAlphanum = true ∨ c = '_') → readPlain i none 0 col (k ++ ':' :: r) = (k, ':' :: r) := by
  induction k with
  | nil =>
    intro col _
    rw [List.nil_append, readPlain, if_neg (by decide), if_neg (by decide), if_neg (by simp [pendText]), if_pos ⟨rfl, hr⟩]
  | cons c k ih =>
    intro col h
    obtain ⟨-, h1, h2, h3, -⟩ := key_char (h c (by simp))
    rw [List.cons_append, readPlain, if_neg h1, if_neg h2, if_neg (by simp [pendText]), if_neg (fun h => h3 h.1), ih _ (fun x hx => h x (by simp [hx]))]
    simp [pendText]

theorem key_read (i col : ℕ) (k r : List Char) (hk : KeyOk k) (hr : followed r = true) : keyAt i col (k ++ ':' :: r) = some (k, r) := by
  obtain ⟨h1, h2, h3, -⟩ := hk
  have hp := read_key i k r hr col h2
  have hn : '\n' ∉ k := fun h => (key_char (h2 _ h)).2.2.1 rfl
  have hpl := place_none col k (':' :: r) hn
  have ht : readText (fun t => resolveTag t = some .str) i col (k ++ ':' :: r) = some (k, true, ':' :: r) := by
    cases k with
    | nil => exact absurd rfl h1
    | cons c k =>
      obtain ⟨a, -, -, -, -, -, b⟩ := key_char (h2 c (by simp))
      have q1 : c ≠ '\'' := by rintro rfl; exact b (by decide)
      have q2 : c ≠ '"' := by rintro rfl; exact b (by decide)
      have hc : checkPlain (c :: (k ++ ':' :: r)) = true := by
        unfold checkPlain
        simp only [a, decide_eq_false b]
        rfl
      rw [List.cons_append] at hp ⊢
      unfold readText
      split
      · rename_i e; exact absurd (List.cons.inj e).1 q1
      · rename_i e; exact absurd (List.cons.inj e).1 q2
      · rw [if_pos hc, hp]
        simp [h3]
  unfold keyAt
  rw [ht]
  simp [hr, hpl]

theorem key_head (k r : List Char) (hk : KeyOk k) : ∃ c s, k ++ r = c :: s ∧ c ≠ ' ' ∧ c ≠ '\n' ∧ c ≠ ':' ∧ c ≠ '-' ∧ c ≠ '.' ∧ c ≠ '[' ∧ c ≠ '{' ∧ c ≠ '!' := by
  obtain ⟨h1, h2, -⟩ := hk
  cases k with
  | nil => exact absurd rfl h1
  | cons c k =>
    obtain ⟨-, b, d, e, f, g, h⟩ := key_char (h2 c (by simp))
    exact ⟨c, k ++ r, rfl, b, d, e, f, g, by rintro rfl; exact h (by decide), by rintro rfl; exact h (by decide), by rintro rfl; exact h (by decide)⟩

/-! ## Single values -/

theorem entry_false {s : List Char} (h : ∀ r, s = '-' :: r → followed r = false) : isEntry s = false := by
  unfold isEntry
  split
  · exact h _ rfl
  · rfl

theorem empty_none {s : List Char} (h1 : ∀ r, s ≠ '[' :: r) (h2 : ∀ r, s ≠ '{' :: r) : emptyAt s = none := by
  unfold emptyAt
  split
  · exact absurd rfl (h1 _)
  · exact absurd rfl (h2 _)
  · rfl

theorem binary_none {i : ℕ} {s : List Char} (h : ∀ r, s ≠ '!' :: r) : binaryAt i s = none := by
  unfold binaryAt
  rw [if_neg]
  rintro ⟨h1, -⟩
  cases s with
  | nil => exact absurd h1 (by decide)
  | cons c r =>
    have : (c :: r).take 11 = c :: r.take 10 := rfl
    rw [this] at h1
    have e : "!!binary |\n".toList = '!' :: "!binary |\n".toList := by decide +kernel
    rw [e] at h1
    exact h r (by rw [(List.cons.inj h1).1])

theorem text_head {f : List Char → Bool} {i col : ℕ} {s : List Char} {x : List Char × Bool × List Char} (h : readText f i col s = some x) :
    (∀ r, s ≠ ' ' :: r) ∧ (∀ r, s ≠ '\n' :: r) ∧ isEntry s = false ∧ ∀ j, (emptyAt s).or (binaryAt j s) = none := by
  unfold readText at h
  split at h
  · exact ⟨by simp, by simp, entry_false (by simp), fun j => by rw [empty_none (by simp) (by simp), binary_none (by simp)]; rfl⟩
  · exact ⟨by simp, by simp, entry_false (by simp), fun j => by rw [empty_none (by simp) (by simp), binary_none (by simp)]; rfl⟩
  · split at h
    · rename_i hc
      have key : ∀ d r, s = d :: r → isWs d = true ∨ d ∈ ",[]{}#&*!|>'\"%@`".toList → False := by
        rintro d r rfl hd
        unfold checkPlain at hc
        rcases hd with hd | hd
        · have : ∀ e ∈ "-?:".toList, isWs e = false := by decide
          have hn : d ∉ "-?:".toList := fun hm => by rw [this d hm] at hd; exact absurd hd (by decide)
          simp only [hd, decide_eq_false hn] at hc
          simp at hc
        · have : ∀ e ∈ ",[]{}#&*!|>'\"%@`".toList, e ∈ "-?:,[]{}#&*!|>'\"%@`".toList ∧ e ∉ "-?:".toList := by decide
          simp only [decide_eq_false (this d hd).2, decide_eq_true (this d hd).1] at hc
          simp at hc
      refine ⟨fun r e => key _ r e (Or.inl (by decide)), fun r e => key _ r e (Or.inl (by decide)), entry_false ?_, fun j => by
        rw [empty_none (fun r e => key _ r e (Or.inr (by decide))) (fun r e => key _ r e (Or.inr (by decide))), binary_none (fun r e => key _ r e (Or.inr (by decide)))]; rfl⟩
      rintro r rfl
      unfold checkPlain at hc
      simp only [decide_eq_true (show '-' ∈ "-?:,[]{}#&*!|>'\"%@`".toList by decide)] at hc
      simpa using hc
    · exact absurd h (by simp)

theorem scalar_read (tag : YTag) (t : List Char) (i col : ℕ) (s rest : List Char) (h : readText (fun t => resolveTag t = some tag) i col s = some (t, true, rest))
    (hq : tag ≠ .str → ∀ r, s ≠ '\'' :: r ∧ s ≠ '"' :: r) (hrest : ∀ r, rest ≠ ':' :: r) : keyAt i col s = none ∧ scalarAt i col s = some (.scalar tag t, rest) := by
  constructor
  · unfold keyAt
    split
    · rename_i k r hk
      refine absurd rfl (hrest r |> fun hh => fun e => ?_)
      have : (readText (fun t => resolveTag t = some tag) i col s).map (fun x => x.2.2) = (readText (fun t => resolveTag t = some .str) i col s).map (fun x => x.2.2) := by
        unfold readText
        split
        · simp [Option.map_map, Function.comp_def]
        · simp [Option.map_map, Function.comp_def]
        · split <;> rfl
      rw [h, hk] at this
      simp only [Option.map_some, Option.some.injEq] at this
      exact hh this
    · rfl
  · unfold scalarAt
    unfold readText at h ⊢
    split at h
    · have : tag = .str := by
        by_contra hne
        exact (hq hne _).1 rfl
      subst this
      rw [Option.map_eq_some_iff] at h
      obtain ⟨a, h1, h2⟩ := h
      simp only [h1]
      simp only [Prod.mk.injEq] at h2
      simp [h2.1, h2.2.2]
    · have : tag = .str := by
        by_contra hne
        exact (hq hne _).2 rfl
      subst this
      rw [Option.map_eq_some_iff] at h
      obtain ⟨a, h1, h2⟩ := h
      simp only [h1]
      simp only [Prod.mk.injEq] at h2
      simp [h2.1, h2.2.2]
    · rename_i q1 q2
      split at h
      · rename_i hc
        simp only [Option.some.injEq, Prod.mk.injEq, decide_eq_true_eq] at h
        obtain ⟨h1, h2, h3⟩ := h
        rw [if_pos hc]
        simp [h1, h3]
        rw [h1] at h2
        simp [h2]
      · exact absurd h (by simp)

theorem quotes_none (tag : YTag) (t : List Char) (h : tag = .str ∨ Unquoted tag t) (w col : ℕ) (X : List Char) (hne : tag ≠ .str) :
    ∀ r, writeText (fun t => resolveTag t = some tag) w col t ++ X ≠ '\'' :: r ∧ writeText (fun t => resolveTag t = some tag) w col t ++ X ≠ '"' :: r := by
  rcases h with h | ⟨h1, h2, h3, h4, h5⟩
  · exact absurd h hne
  · have ht : writeText (fun t => resolveTag t = some tag) w col t = writePlain w col 0 t := by
      unfold writeText
      rw [h3, h4, h2, decide_eq_false h5]
      simp [h1]
    rw [ht]
    cases t with
    | nil => simp [plainOk] at h2
    | cons c r =>
      unfold plainOk at h2
      simp only [Bool.and_eq_true, Bool.not_eq_true', decide_eq_false_iff_not] at h2
      obtain ⟨⟨⟨⟨hc, -⟩, -⟩, hf⟩, -⟩ := h2
      unfold firstIndicator at hf
      simp only [Bool.or_eq_false_iff, decide_eq_false_iff_not] at hf
      have hform : writePlain w col 0 (c :: r) = c :: writePlain w (col + 1) 0 r := by
        rw [writePlain, if_neg hc]
        simp [writeBlanks]
      rw [hform]
      intro r'
      refine ⟨fun h => ?_, fun h => ?_⟩
      · exact hf.1.1 ((List.cons.inj h).1 ▸ by decide)
      · exact hf.1.1 ((List.cons.inj h).1 ▸ by decide)

/-! ## Blocks -/

theorem val_line {n : ℕ} {dash : Bool} {c col p : ℕ} {r s : List Char} (h1 : skipBlank r = s) (h2 : place col r s = (p, false)) : readValue (n + 1) dash c col r = readNode n dash (c + 1) p s := by
  simp only [readValue, h1, h2]
  rfl

theorem val_right {n : ℕ} {dash : Bool} {c col p : ℕ} {r s : List Char} (h1 : skipBlank r = s) (h2 : place col r s = (p, true)) (h3 : c < p) : readValue (n + 1) dash c col r = readNode n true (c + 1) p s := by
  simp only [readValue, h1, h2, if_pos h3]
  rfl

theorem val_seq {n : ℕ} {c col : ℕ} {r s : List Char} (h1 : skipBlank r = s) (h2 : place col r s = (c, true)) (h3 : isEntry s = true) :
    readValue (n + 1) false c col r = (readSeq n c s).map (fun x => (.seq x.1, x.2)) := by
  simp only [readValue, h1, h2, h3]
  simp

theorem node_dash (c col : ℕ) (x : YNode) : ∃ r, writeNode true c col x = ' ' :: r := by
  cases x with
  | scalar tag t =>
    by_cases h : tag = .binary
    · exact ⟨_, by rw [writeNode, if_pos h]⟩
    · exact ⟨_, by rw [writeNode, if_neg h]⟩
  | seq l => cases l <;> exact ⟨_, by rw [writeNode]; try rfl⟩
  | map l => cases l <;> exact ⟨_, by rw [writeNode]; try rfl⟩

theorem seq_line (c : ℕ) (x : YNode) (l : YNodes) (X : List Char) : writeSeq true c (.cons x l) ++ X = '\n' :: (List.replicate c ' ' ++ (writeSeq false c (.cons x l) ++ X)) := by
  simp [writeSeq]

theorem map_line (c : ℕ) (k : Name) (x : YNode) (l : YPairs) (X : List Char) : writeMap true c (.cons k x l) ++ X = '\n' :: (List.replicate c ' ' ++ (writeMap false c (.cons k x l) ++ X)) := by
  simp [writeMap]

theorem node_follow (c col : ℕ) (x : YNode) (X : List Char) : followed (writeNode false c col x ++ X) = true := by
  cases x with
  | scalar tag t =>
    rw [writeNode]
    by_cases h : tag = .binary
    · rw [if_pos h]; rfl
    · rw [if_neg h]; rfl
  | seq l =>
    cases l with
    | nil => rw [writeNode]; rfl
    | cons x l => rw [writeNode, if_neg (by decide), seq_line]; rfl
  | map l =>
    cases l with
    | nil => rw [writeNode]; rfl
    | cons k x l => rw [writeNode, if_neg (by decide), map_line]; rfl

theorem seq_head (c : ℕ) (x : YNode) (l : YNodes) (X : List Char) : ∃ r, writeSeq false c (.cons x l) ++ X = '-' :: ' ' :: r := by
  obtain ⟨r, hr⟩ := node_dash c (c + 1) x
  exact ⟨r ++ writeSeq true c l ++ X, by simp [writeSeq, hr]⟩

theorem seq_next (m c : ℕ) (x : YNode) (l : YNodes) (X : List Char) : NextLine m (writeSeq false c (.cons x l) ++ X) ∧ isEntry (writeSeq false c (.cons x l) ++ X) = true := by
  obtain ⟨r, hr⟩ := seq_head c x l X
  rw [hr]
  exact ⟨next_line m (by decide) (by decide) (by decide) (by simp [docSep, markAt]), rfl⟩

theorem map_head (c : ℕ) (k : Name) (x : YNode) (l : YPairs) (X : List Char) (hk : KeyOk k) :
    ∃ a s, writeMap false c (.cons k x l) ++ X = a :: s ∧ a ≠ ' ' ∧ a ≠ '\n' ∧ a ≠ ':' ∧ a ≠ '-' ∧ a ≠ '.' ∧ a ≠ '[' ∧ a ≠ '{' ∧ a ≠ '!' := by
  have : writeMap false c (.cons k x l) ++ X = k ++ (':' :: (writeNode false c (c + k.length + 1) x ++ writeMap true c l) ++ X) := by simp [writeMap]
  rw [this]
  exact key_head k _ hk

theorem map_next (m c : ℕ) (k : Name) (x : YNode) (l : YPairs) (X : List Char) (hk : KeyOk k) :
    NextLine m (writeMap false c (.cons k x l) ++ X) ∧ isEntry (writeMap false c (.cons k x l) ++ X) = false ∧ (∀ i, (emptyAt (writeMap false c (.cons k x l) ++ X)).or (binaryAt i (writeMap false c (.cons k x l) ++ X)) = none) ∧ writeMap false c (.cons k x l) ++ X ≠ [] := by
  obtain ⟨a, s, e, h1, h2, h3, h4, h5, h6, h7, h8⟩ := map_head c k x l X hk
  rw [e]
  refine ⟨next_line m h1 h2 h3 (by simp [docSep, markAt, h4, h5]), entry_false ?_, fun i => ?_, by simp⟩
  · intro r h; exact absurd (List.cons.inj h).1 h4
  · rw [empty_none (fun r h => h6 (List.cons.inj h).1) (fun r h => h7 (List.cons.inj h).1), binary_none (fun r h => h8 (List.cons.inj h).1)]
    rfl

theorem node_map (n i col c : ℕ) (k : Name) (x : YNode) (l : YPairs) (X : List Char) (hk : KeyOk k) :
    readNode (n + 1) true i col (writeMap false c (.cons k x l) ++ X) = (readMap n col (writeMap false c (.cons k x l) ++ X)).map (fun x => (.map x.1, x.2)) := by
  obtain ⟨-, h1, h2, -⟩ := map_next 0 c k x l X hk
  have h3 : keyAt i col (writeMap false c (.cons k x l) ++ X) = some (k, writeNode false c (c + k.length + 1) x ++ (writeMap true c l ++ X)) := by
    have : writeMap false c (.cons k x l) ++ X = k ++ ':' :: (writeNode false c (c + k.length + 1) x ++ (writeMap true c l ++ X)) := by simp [writeMap]
    rw [this]
    exact key_read i col k _ hk (node_follow _ _ _ _)
  simp only [readNode, h1, h2, h3]
  simp

theorem node_seq (n i col : ℕ) (s : List Char) (h : isEntry s = true) : readNode (n + 1) true i col s = (readSeq n col s).map (fun x => (.seq x.1, x.2)) := by
  simp only [readNode, h]
  simp

theorem next_skip {m : ℕ} {tail : List Char} (h : NextLine m tail) : skipBlank tail = tail := skip_none h.1 h.2.1

/-! ## Bytes -/

theorem tag_binary (t : List Char) : resolveTag t ≠ some .binary := by
  unfold resolveTag
  split_ifs <;> simp

theorem lit_blanks (w n : ℕ) (r : List Char) : ∀ k, k + n ≤ w → readLit w k (List.replicate n ' ' ++ r) = readLit w (k + n) r := by
  induction n with
  | zero => intro k _; rfl
  | succ n ih =>
    intro k h
    rw [List.replicate_succ, List.cons_append, readLit, if_pos (by omega), if_pos rfl, ih (k + 1) (by omega)]
    congr 1; omega

theorem lit_end (w m : ℕ) (hm : m < w) (tail : List Char) (h : ∀ r, tail ≠ ' ' :: r) : readLit w 0 (List.replicate m ' ' ++ tail) = ([], tail) := by
  rw [lit_blanks w m tail 0 (by omega)]
  cases tail with
  | nil => rfl
  | cons c r => rw [readLit, if_pos (by omega), if_neg (fun e => h r (by rw [e]))]

theorem lit_back (w m : ℕ) (hm : m < w) (tail : List Char) (h : ∀ r, tail ≠ ' ' :: r) (t : List Char) (ht : litOk false t = true) :
    readLit w w (writeLit w false t ++ '\n' :: (List.replicate m ' ' ++ tail)) = (t, tail) := by
  induction t with
  | nil => exact absurd ht (by decide)
  | cons c r ih =>
    by_cases hc : c = '\n'
    · subst hc
      rw [litOk, if_pos rfl] at ht
      rw [writeLit, if_pos rfl]
      cases r with
      | nil =>
        rw [writeLit, List.nil_append, readLit, if_neg (by omega), if_pos rfl, lit_end w m hm tail h]
      | cons d r =>
        rw [litOk] at ht
        simp only [Bool.and_eq_true, Bool.not_eq_true', decide_eq_false_iff_not] at ht
        have hi := ih (by rw [litOk, if_neg ht.1.1]; exact ht.2)
        rw [writeLit, if_neg ht.1.1] at hi
        rw [writeLit, List.cons_append, readLit, if_neg (by omega), if_pos rfl, List.append_assoc, lit_blanks w w _ 0 (by omega), Nat.zero_add, hi]
    · rw [litOk, if_neg hc] at ht
      rw [writeLit, if_neg hc, List.cons_append, readLit, if_neg (by omega), if_neg hc, ih ht]

theorem binary_back (i w m : ℕ) (hw : i ≤ w) (hm : m < w) (tail : List Char) (h : ∀ r, tail ≠ ' ' :: r) (t : List Char) (hne : t ≠ []) (ht : litOk true t = true) :
    binaryAt i ("!!binary |".toList ++ writeLit w true t ++ '\n' :: (List.replicate m ' ' ++ tail)) = some (.scalar .binary t, tail) := by
  cases t with
  | nil => exact absurd rfl hne
  | cons c r =>
    rw [litOk] at ht
    simp only [Bool.and_eq_true, Bool.not_eq_true', decide_eq_false_iff_not] at ht
    have hi := lit_back w m hm tail h (c :: r) (by rw [litOk, if_neg ht.1.1]; exact ht.2)
    have e : "!!binary |".toList ++ writeLit w true (c :: r) ++ '\n' :: (List.replicate m ' ' ++ tail) =
        "!!binary |\n".toList ++ (List.replicate w ' ' ++ (writeLit w false (c :: r) ++ '\n' :: (List.replicate m ' ' ++ tail))) := by
      have e1 : "!!binary |\n".toList = "!!binary |".toList ++ ['\n'] := by decide +kernel
      rw [writeLit, e1, writeLit, if_neg ht.1.1]
      simp only [List.append_assoc, List.cons_append, List.nil_append]
    have hl : "!!binary |\n".toList.length = 11 := by decide +kernel
    have htk : ∀ X : List Char, ("!!binary |\n".toList ++ X).take 11 = "!!binary |\n".toList ∧ ("!!binary |\n".toList ++ X).drop 11 = X := by
      intro X
      rw [← hl]
      exact ⟨List.take_left, List.drop_left⟩
    have hlen : ((List.replicate w ' ' ++ (writeLit w false (c :: r) ++ '\n' :: (List.replicate m ' ' ++ tail))).takeWhile (· = ' ')).length = w := by
      rw [writeLit, if_neg ht.1.1, List.cons_append]
      have : ∀ n (X : List Char), ((List.replicate n ' ' ++ c :: X).takeWhile (· = ' ')).length = n := by
        intro n X
        induction n with
        | zero => simp [ht.1.2]
        | succ n ih => rw [List.replicate_succ, List.cons_append, List.takeWhile_cons_of_pos (by simp), List.length_cons, ih]
      exact this w _
    unfold binaryAt
    rw [e, (htk _).1, (htk _).2, hlen, if_pos ⟨rfl, hw⟩, lit_blanks w w _ 0 (by omega), Nat.zero_add, hi]

mutual
theorem value_back (x : YNode) (hx : GoodNode x) (dash : Bool) (c col m : ℕ) (tail : List Char) (hd : c + 2 + 2 * depthNode x < 80) (hcol : c + 1 ≤ col) (hdash : dash = true → col = c + 1) (hm : m ≤ c)
    (hn : NextLine m tail) (he : dash = false → m = c → isEntry tail = false) :
    ∃ N, ∀ n, N ≤ n → ∃ rest, readValue n dash c col (writeNode dash c col x ++ '\n' :: (List.replicate m ' ' ++ tail)) = some (x, rest) ∧ skipBlank rest = tail := by
  match x, hx, hd with
  | .scalar tag t, hx, hd =>
    rw [GoodNode] at hx
    rw [depthNode] at hd
    by_cases hb : tag = .binary
    · subst hb
      obtain ⟨ht1, ht2⟩ : t ≠ [] ∧ litOk true t = true := by
        rcases hx with h | h | h
        · exact absurd h (by decide)
        · exact absurd h.1 (tag_binary t)
        · exact h.2
      have hbin := binary_back (c + 1) (c + 2) m (by omega) (by omega) tail hn.1 t ht1 ht2
      refine ⟨2, fun n hnn => ⟨tail, ?_, next_skip hn⟩⟩
      obtain ⟨n, rfl⟩ : ∃ k, n = k + 2 := ⟨n - 2, by omega⟩
      obtain ⟨X, hX⟩ : ∃ X, "!!binary |".toList ++ writeLit (c + 2) true t ++ '\n' :: (List.replicate m ' ' ++ tail) = '!' :: X := ⟨_, rfl⟩
      rw [writeNode, if_pos rfl, List.cons_append]
      rw [hX] at hbin ⊢
      rw [val_line (s := '!' :: X) (p := col + 1) (by rw [skip_blank, skip_none (by simp) (by simp)]) (place_blank col _)]
      simp [readNode, isEntry, emptyAt, hbin]
    have hx : tag = .str ∨ Unquoted tag t := by
      rcases hx with h | h | h
      · exact Or.inl h
      · exact Or.inr h
      · exact absurd h.1 hb
    obtain ⟨rest, h1, h2⟩ := C123_text (fun t => resolveTag t = some tag) (c + 1) (c + 2) (col + 1) m (by omega) (by omega) (by omega) (by omega) t tail hn.1 hn.2.1 hn.2.2.2
    obtain ⟨a1, a2, a3, a4⟩ := text_head h1
    have hr : ∀ r, rest ≠ ':' :: r := by
      rintro r rfl
      have : dropBlank (':' :: r) = ':' :: r := by unfold dropBlank; rw [List.dropWhile_cons_of_neg (by decide)]
      rw [this] at h2
      exact hn.2.2.1 r h2.symm
    obtain ⟨b1, b2⟩ := scalar_read tag t _ _ _ rest h1 (fun hne => quotes_none tag t hx _ _ _ hne) hr
    refine ⟨2, fun n hnn => ⟨rest, ?_, h2⟩⟩
    obtain ⟨n, rfl⟩ : ∃ k, n = k + 2 := ⟨n - 2, by omega⟩
    rw [writeNode, if_neg hb, List.cons_append, val_line (s := writeText (fun t => resolveTag t = some tag) (c + 2) (col + 1) t ++ '\n' :: (List.replicate m ' ' ++ tail)) (p := col + 1)
      (by rw [skip_blank, skip_none a1 a2]) (place_blank col _)]
    simp only [readNode, a3, a4, b1, b2]
    simp
  | .seq .nil, _, _ =>
    refine ⟨2, fun n hnn => ⟨'\n' :: (List.replicate m ' ' ++ tail), ?_, by rw [skip_line, next_skip hn]⟩⟩
    obtain ⟨n, rfl⟩ : ∃ k, n = k + 2 := ⟨n - 2, by omega⟩
    rw [writeNode, List.cons_append, val_line (s := ['[', ']'] ++ '\n' :: (List.replicate m ' ' ++ tail)) (p := col + 1)
      (by rw [skip_blank, skip_none (by simp) (by simp)]) (place_blank col _)]
    simp [readNode, isEntry, emptyAt]
  | .map .nil, _, _ =>
    refine ⟨2, fun n hnn => ⟨'\n' :: (List.replicate m ' ' ++ tail), ?_, by rw [skip_line, next_skip hn]⟩⟩
    obtain ⟨n, rfl⟩ : ∃ k, n = k + 2 := ⟨n - 2, by omega⟩
    rw [writeNode, List.cons_append, val_line (s := ['{', '}'] ++ '\n' :: (List.replicate m ' ' ++ tail)) (p := col + 1)
      (by rw [skip_blank, skip_none (by simp) (by simp)]) (place_blank col _)]
    simp [readNode, isEntry, emptyAt]
  | .seq (.cons y l), hx, hd =>
    rw [GoodNode] at hx
    rw [depthNode] at hd
    cases dash with
    | true =>
      obtain ⟨N, hN⟩ := seq_back (.cons y l) hx (by simp) (c + 2) m tail (by omega) (by omega) hn (fun h => absurd h (by omega))
      refine ⟨N + 2, fun n hnn => ?_⟩
      obtain ⟨n, rfl⟩ : ∃ k, n = k + 2 := ⟨n - 2, by omega⟩
      obtain ⟨rest, h1, h2⟩ := hN n (by omega)
      obtain ⟨s1, s2⟩ := seq_next 0 (c + 2) y l ('\n' :: (List.replicate m ' ' ++ tail))
      refine ⟨rest, ?_, h2⟩
      rw [writeNode, if_pos rfl, List.cons_append, val_line (s := writeSeq false (c + 2) (.cons y l) ++ '\n' :: (List.replicate m ' ' ++ tail)) (p := c + 2)
        (by rw [skip_blank, next_skip s1]) (by rw [hdash rfl]; exact place_blank (c + 1) _), node_seq _ _ _ _ s2, h1]
      rfl
    | false =>
      obtain ⟨N, hN⟩ := seq_back (.cons y l) hx (by simp) c m tail (by omega) (by omega) hn (he rfl)
      refine ⟨N + 1, fun n hnn => ?_⟩
      obtain ⟨n, rfl⟩ : ∃ k, n = k + 1 := ⟨n - 1, by omega⟩
      obtain ⟨rest, h1, h2⟩ := hN n (by omega)
      obtain ⟨s1, s2⟩ := seq_next 0 c y l ('\n' :: (List.replicate m ' ' ++ tail))
      refine ⟨rest, ?_, h2⟩
      rw [writeNode, if_neg (by decide), seq_line, val_seq (s := writeSeq false c (.cons y l) ++ '\n' :: (List.replicate m ' ' ++ tail))
        (by rw [skip_line, next_skip s1]) (place_break col c _) s2, h1]
      rfl
  | .map (.cons k y l), hx, hd =>
    rw [GoodNode] at hx
    rw [depthNode] at hd
    obtain ⟨N, hN⟩ := map_back (.cons k y l) hx (by simp) (c + 2) m tail (by omega) (by omega) hn (fun h => absurd h (by omega))
    have hk : KeyOk k := by rw [GoodPairs] at hx; exact hx.1
    refine ⟨N + 2, fun n hnn => ?_⟩
    obtain ⟨n, rfl⟩ : ∃ k, n = k + 2 := ⟨n - 2, by omega⟩
    obtain ⟨rest, h1, h2⟩ := hN n (by omega)
    obtain ⟨s1, -⟩ := map_next 0 (c + 2) k y l ('\n' :: (List.replicate m ' ' ++ tail)) hk
    refine ⟨rest, ?_, h2⟩
    cases dash with
    | true =>
      rw [writeNode, if_pos rfl, List.cons_append, val_line (s := writeMap false (c + 2) (.cons k y l) ++ '\n' :: (List.replicate m ' ' ++ tail)) (p := c + 2)
        (by rw [skip_blank, next_skip s1]) (by rw [hdash rfl]; exact place_blank (c + 1) _), node_map _ _ _ _ _ _ _ _ hk, h1]
      rfl
    | false =>
      rw [writeNode, if_neg (by decide), map_line, val_right (s := writeMap false (c + 2) (.cons k y l) ++ '\n' :: (List.replicate m ' ' ++ tail)) (p := c + 2)
        (by rw [skip_line, next_skip s1]) (place_break col (c + 2) _) (by omega), node_map _ _ _ _ _ _ _ _ hk, h1]
      rfl
theorem seq_back (l : YNodes) (hl : GoodNodes l) (hne : l ≠ .nil) (c m : ℕ) (tail : List Char) (hd : c + 2 + 2 * depthNodes l < 80) (hm : m ≤ c) (hn : NextLine m tail) (he : m = c → isEntry tail = false) :
    ∃ N, ∀ n, N ≤ n → ∃ rest, readSeq n c (writeSeq false c l ++ '\n' :: (List.replicate m ' ' ++ tail)) = some (l, rest) ∧ skipBlank rest = tail := by
  match l, hl, hne, hd with
  | .nil, _, hne, _ => exact absurd rfl hne
  | .cons x .nil, hl, _, hd =>
    rw [GoodNodes] at hl
    simp only [depthNodes] at hd
    obtain ⟨N, hN⟩ := value_back x hl.1 true c (c + 1) m tail (by omega) (by omega) (fun _ => rfl) hm hn (fun h => absurd h (by decide))
    refine ⟨N + 1, fun n hnn => ?_⟩
    obtain ⟨n, rfl⟩ : ∃ k, n = k + 1 := ⟨n - 1, by omega⟩
    obtain ⟨rest, h1, h2⟩ := hN n (by omega)
    refine ⟨rest, ?_, h2⟩
    have e : writeSeq false c (.cons x .nil) ++ '\n' :: (List.replicate m ' ' ++ tail) = '-' :: (writeNode true c (c + 1) x ++ '\n' :: (List.replicate m ' ' ++ tail)) := by simp [writeSeq]
    have hp : place c ('-' :: (writeNode true c (c + 1) x ++ '\n' :: (List.replicate m ' ' ++ tail))) tail = (m, true) := place_line c ('-' :: writeNode true c (c + 1) x) m tail
    have hstop : ¬ ((m, true) = (c, true) ∧ isEntry tail = true) := by
      rintro ⟨a, b⟩
      rw [he (by simpa using a)] at b
      exact absurd b (by decide)
    rw [e]
    simp only [readSeq, List.drop_succ_cons, List.drop_zero, h1, h2, hp, if_neg hstop]
  | .cons x (.cons y l), hl, _, hd =>
    rw [GoodNodes] at hl
    have hd1 : c + 2 + 2 * depthNode x < 80 ∧ c + 2 + 2 * depthNodes (.cons y l) < 80 := by
      rw [depthNodes] at hd
      omega
    obtain ⟨s1, s2⟩ := seq_next c c y l ('\n' :: (List.replicate m ' ' ++ tail))
    obtain ⟨N, hN⟩ := value_back x hl.1 true c (c + 1) c _ hd1.1 (by omega) (fun _ => rfl) le_rfl s1 (fun h => absurd h (by decide))
    obtain ⟨N', hN'⟩ := seq_back (.cons y l) hl.2 (by simp) c m tail hd1.2 hm hn he
    refine ⟨N + N' + 1, fun n hnn => ?_⟩
    obtain ⟨n, rfl⟩ : ∃ k, n = k + 1 := ⟨n - 1, by omega⟩
    obtain ⟨rest, h1, h2⟩ := hN n (by omega)
    obtain ⟨rest', h1', h2'⟩ := hN' n (by omega)
    refine ⟨rest', ?_, h2'⟩
    have e : writeSeq false c (.cons x (.cons y l)) ++ '\n' :: (List.replicate m ' ' ++ tail) =
        '-' :: (writeNode true c (c + 1) x ++ '\n' :: (List.replicate c ' ' ++ (writeSeq false c (.cons y l) ++ '\n' :: (List.replicate m ' ' ++ tail)))) := by
      rw [writeSeq, ← seq_line]
      simp
    have hp : place c ('-' :: (writeNode true c (c + 1) x ++ '\n' :: (List.replicate c ' ' ++ (writeSeq false c (.cons y l) ++ '\n' :: (List.replicate m ' ' ++ tail))))) (writeSeq false c (.cons y l) ++ '\n' :: (List.replicate m ' ' ++ tail)) = (c, true) :=
      place_line c ('-' :: writeNode true c (c + 1) x) c _
    rw [e]
    simp only [readSeq, List.drop_succ_cons, List.drop_zero, h1, h2, hp, s2, h1']
    simp
theorem map_back (l : YPairs) (hl : GoodPairs l) (hne : l ≠ .nil) (c m : ℕ) (tail : List Char) (hd : c + 2 + 2 * depthPairs l < 80) (hm : m ≤ c) (hn : NextLine m tail) (he : m = c → tail = []) :
    ∃ N, ∀ n, N ≤ n → ∃ rest, readMap n c (writeMap false c l ++ '\n' :: (List.replicate m ' ' ++ tail)) = some (l, rest) ∧ skipBlank rest = tail := by
  match l, hl, hne, hd with
  | .nil, _, hne, _ => exact absurd rfl hne
  | .cons k x .nil, hl, _, hd =>
    rw [GoodPairs] at hl
    simp only [depthPairs] at hd
    obtain ⟨N, hN⟩ := value_back x hl.2.1 false c (c + k.length + 1) m tail (by omega) (by omega) (fun h => absurd h (by decide)) hm hn (fun _ h => by rw [he h]; rfl)
    refine ⟨N + 1, fun n hnn => ?_⟩
    obtain ⟨n, rfl⟩ : ∃ k, n = k + 1 := ⟨n - 1, by omega⟩
    obtain ⟨rest, h1, h2⟩ := hN n (by omega)
    refine ⟨rest, ?_, h2⟩
    have e : writeMap false c (.cons k x .nil) ++ '\n' :: (List.replicate m ' ' ++ tail) = k ++ ':' :: (writeNode false c (c + k.length + 1) x ++ '\n' :: (List.replicate m ' ' ++ tail)) := by simp [writeMap]
    have hp : place c (k ++ ':' :: (writeNode false c (c + k.length + 1) x ++ '\n' :: (List.replicate m ' ' ++ tail))) tail = (m, true) := by
      have := place_line c (k ++ ':' :: writeNode false c (c + k.length + 1) x) m tail
      simpa using this
    have hk := key_read (c + 1) c k _ hl.1 (node_follow c (c + k.length + 1) x ('\n' :: (List.replicate m ' ' ++ tail)))
    have hlen : ∀ r : List Char, c + ((k ++ ':' :: r).length - r.length) = c + k.length + 1 := by intro r; simp only [List.length_append, List.length_cons]; omega
    have hstop : ¬ ((m, true) = (c, true) ∧ tail ≠ []) := by
      rintro ⟨a, b⟩
      exact b (he (by simpa using a))
    rw [e]
    simp only [readMap, hk, hlen, h1, h2, hp, if_neg hstop]
  | .cons k x (.cons k2 y l), hl, _, hd =>
    rw [GoodPairs] at hl
    have hd1 : c + 2 + 2 * depthNode x < 80 ∧ c + 2 + 2 * depthPairs (.cons k2 y l) < 80 := by
      rw [depthPairs] at hd
      omega
    have hk2 : KeyOk k2 := by have := hl.2.2; rw [GoodPairs] at this; exact this.1
    obtain ⟨s1, s2, -, s3⟩ := map_next c c k2 y l ('\n' :: (List.replicate m ' ' ++ tail)) hk2
    obtain ⟨N, hN⟩ := value_back x hl.2.1 false c (c + k.length + 1) c _ hd1.1 (by omega) (fun h => absurd h (by decide)) le_rfl s1 (fun _ _ => s2)
    obtain ⟨N', hN'⟩ := map_back (.cons k2 y l) hl.2.2 (by simp) c m tail hd1.2 hm hn he
    refine ⟨N + N' + 1, fun n hnn => ?_⟩
    obtain ⟨n, rfl⟩ : ∃ k, n = k + 1 := ⟨n - 1, by omega⟩
    obtain ⟨rest, h1, h2⟩ := hN n (by omega)
    obtain ⟨rest', h1', h2'⟩ := hN' n (by omega)
    refine ⟨rest', ?_, h2'⟩
    generalize hM : writeMap false c (.cons k2 y l) ++ '\n' :: (List.replicate m ' ' ++ tail) = M at *
    have e : writeMap false c (.cons k x (.cons k2 y l)) ++ '\n' :: (List.replicate m ' ' ++ tail) =
        k ++ ':' :: (writeNode false c (c + k.length + 1) x ++ '\n' :: (List.replicate c ' ' ++ M)) := by
      rw [writeMap, ← hM, ← map_line]
      simp
    have hp : place c (k ++ ':' :: (writeNode false c (c + k.length + 1) x ++ '\n' :: (List.replicate c ' ' ++ M))) M = (c, true) := by
      have := place_line c (k ++ ':' :: writeNode false c (c + k.length + 1) x) c M
      simpa using this
    have hk := key_read (c + 1) c k _ hl.1 (node_follow c (c + k.length + 1) x ('\n' :: (List.replicate c ' ' ++ M)))
    have hlen : ∀ r : List Char, c + ((k ++ ':' :: r).length - r.length) = c + k.length + 1 := by intro r; simp only [List.length_append, List.length_cons]; omega
    rw [e]
    simp only [readMap, hk, hlen, h1, h2, hp, h1']
    rw [if_pos ⟨trivial, s3⟩]
    rfl
end

/-- **C125, files.**  The file of every mapping, nested up to 38 levels with sequences, mappings, texts and values of all types, is read as exactly this mapping: same keys in the same order, same nesting, same types and texts; the reader
needs a finite number of steps only. -/
theorem C125_file (l : YPairs) (hl : GoodPairs l) (hd : depthPairs l < 39) : ∃ N, ∀ n, N ≤ n → readFile n (writeFile l) = some (.map l) := by
  cases l with
  | nil =>
    refine ⟨1, fun n hn => ?_⟩
    obtain ⟨n, rfl⟩ : ∃ k, n = k + 1 := ⟨n - 1, by omega⟩
    simp [readFile, writeFile, skipBlank, readNode, isEntry, emptyAt]
  | cons k x l =>
    have hk : KeyOk k := by rw [GoodPairs] at hl; exact hl.1
    obtain ⟨N, hN⟩ := map_back (.cons k x l) hl (by simp) 0 0 [] (by omega) le_rfl ⟨by simp, by simp, by simp, by decide⟩ (fun _ => rfl)
    refine ⟨N + 1, fun n hn => ?_⟩
    obtain ⟨n, rfl⟩ : ∃ k, n = k + 1 := ⟨n - 1, by omega⟩
    obtain ⟨rest, h1, h2⟩ := hN n (by omega)
    obtain ⟨s1, -⟩ := map_next 0 0 k x l ('\n' :: (List.replicate 0 ' ' ++ [])) hk
    have e : writeFile (.cons k x l) = writeMap false 0 (.cons k x l) ++ '\n' :: (List.replicate 0 ' ' ++ []) := rfl
    unfold readFile
    rw [e, next_skip s1, node_map _ _ _ _ _ _ _ _ hk, h1]
    simp [h2]

/-- **C125, different contents.**  Two different mappings never get the same file. -/
theorem C125_different (l l' : YPairs) (hl : GoodPairs l) (hl' : GoodPairs l') (hd : depthPairs l < 39) (hd' : depthPairs l' < 39) (h : writeFile l = writeFile l') : l = l' := by
  obtain ⟨N, hN⟩ := C125_file l hl hd
  obtain ⟨N', hN'⟩ := C125_file l' hl' hd'
  have h1 := hN (N + N') (by omega)
  have h2 := hN' (N + N') (by omega)
  rw [h, h2] at h1
  injection h1 with h1
  injection h1 with h1
  exact h1.symm

/-! ## Models -/

/-- Values of fields: those of C124, bytes, and durations, paths, identifiers and addresses, which a file has as numbers and texts. -/
def StorableField : PyObj → Prop
  | .span _ | .path _ _ | .uuid _ | .ip4 _ _ _ _ => True
  | .bytes b => b ≠ [] ∧ ∀ x ∈ b, x < 256
  | .date t => ∃ d, RealStamp (.date d) ∧ t = isoText (.date d)
  | x => Storable x

/-- The text `t`, taken for the type `tag`, is read as the value of a field; durations as seconds, paths, identifiers and addresses as their texts. -/
def FieldReads (fl : ℚ → ℚ) (tag : YTag) (t : List Char) : PyObj → Prop
  | .bytes b => tag = .binary ∧ readBinary t = .ok b
  | .span us => tag = .int ∧ yamlInt t = spanToInt fl us
  | .path a p => tag = .str ∧ t = asPosix a p
  | .uuid n => tag = .str ∧ t = uuidText n
  | .ip4 a b c d => tag = .str ∧ t = ip4Text a b c d
  | .date d => tag = .timestamp ∧ ∃ s, readStamp t = .ok (.date s) ∧ d = isoText (.date s)
  | x => ReadAs tag t x

mutual
/-- Storable values in lists and dictionaries whose keys are names of fields. -/
def StorableTree : PyObj → Prop
  | .list l => StorableList l
  | .dict l => StorableItems l
  | x => StorableField x
def StorableList : PyObjs → Prop
  | .nil => True
  | .cons x l => StorableTree x ∧ StorableList l
def StorableItems : PyItems → Prop
  | .nil => True
  | .cons k x l => KeyOk k ∧ StorableTree x ∧ StorableItems l
end

mutual
/-- Nesting of values. -/
def depthObj : PyObj → ℕ
  | .list l => depthObjs l + 1
  | .dict l => depthItems l + 1
  | _ => 0
def depthObjs : PyObjs → ℕ
  | .nil => 0
  | .cons x l => max (depthObj x) (depthObjs l)
def depthItems : PyItems → ℕ
  | .nil => 0
  | .cons _ x l => max (depthObj x) (depthItems l)
end

mutual
/-- The nodes are read as the value: single values as in C124, lists and dictionaries entry by entry in their order, with their keys. -/
def TreeReads (fl : ℚ → ℚ) : YNode → PyObj → Prop
  | .scalar tag t, x => FieldReads fl tag t x
  | .seq l, .list l' => ListReads fl l l'
  | .map l, .dict l' => ItemsRead fl l l'
  | _, _ => False
def ListReads (fl : ℚ → ℚ) : YNodes → PyObjs → Prop
  | .nil, .nil => True
  | .cons x l, .cons y l' => TreeReads fl x y ∧ ListReads fl l l'
  | _, _ => False
def ItemsRead (fl : ℚ → ℚ) : YPairs → PyItems → Prop
  | .nil, .nil => True
  | .cons k x l, .cons k' y l' => k = k' ∧ TreeReads fl x y ∧ ItemsRead fl l l'
  | _, _ => False
end

theorem value_stored (fl : ℚ → ℚ) (tx : YTexts) (htx : tx.float = yamlFloat) (x : PyObj) (hx : Storable x) :
    ∃ tag t, represent fl tx x = .ok (.scalar tag t) ∧ ReadAs tag t x ∧ (tag = .str ∨ Unquoted tag t) := by
  cases x with
  | none => exact ⟨.null, _, by rw [represent], trivial, Or.inr (by unfold Unquoted; decide +kernel)⟩
  | bool b =>
    refine ⟨.bool, _, by rw [represent], ?_, Or.inr ?_⟩
    · cases b <;> (unfold ReadAs; decide +kernel)
    · cases b <;> (unfold Unquoted; decide +kernel)
  | int i => exact ⟨.int, _, by rw [represent], intText_value i, Or.inr (unquoted_int i)⟩
  | float q =>
    obtain ⟨h1, h2⟩ := C117_yaml q hx
    exact ⟨.float, yamlFloat q, by rw [represent, htx], h2, Or.inr (unquoted_float _ h1)⟩
  | text s => exact ⟨.str, s, by rw [represent], rfl, Or.inl rfl⟩
  | datetime t =>
    obtain ⟨s, h1, h2, rfl⟩ := hx
    classical
    have hr := read_iso s h1
    rw [if_pos h2] at hr
    exact ⟨.timestamp, isoText s, by rw [represent], ⟨s, hr, rfl⟩, Or.inr (unquoted_date s h1 h2)⟩
  | _ => exact absurd hx (by simp [Storable])

theorem loop_then : ∀ (n : ℕ) (l X : List ℕ), l.length = 3 * n → (∀ b ∈ l, b < 256) → b64Loop 0 0 0 (b64Encode l ++ X) = (b64Loop 0 0 0 X).map (l ++ ·) := by
  intro n
  induction n with
  | zero =>
    intro l X hl _
    have : l = [] := List.length_eq_zero_iff.mp (by omega)
    subst this
    rw [b64Encode, List.nil_append]
    cases b64Loop 0 0 0 X <;> rfl
  | succ n ih =>
    intro l X hl hb
    match l, hl, hb with
    | [], hl, _ => exact absurd hl (by simp)
    | [a], hl, _ => exact absurd hl (by simp only [List.length_cons, List.length_nil]; omega)
    | [a, b], hl, _ => exact absurd hl (by simp only [List.length_cons, List.length_nil]; omega)
    | a :: b :: c :: t, hl, hb =>
      have ha : a < 256 := hb a (by simp)
      have hb' : b < 256 := hb b (by simp)
      have hc : c < 256 := hb c (by simp)
      rw [b64Encode, List.cons_append, loop_char _ _ _ _ (by omega)]
      simp only
      rw [List.cons_append, loop_char _ _ _ _ (by omega)]
      simp only
      rw [List.cons_append, loop_char _ _ _ _ (by omega)]
      simp only
      rw [List.cons_append, loop_char _ _ _ _ (by omega)]
      simp only
      rw [ih t X (by simp only [List.length_cons] at hl; omega) (fun x hx => hb x (by simp [hx]))]
      have e1 : a / 4 * 4 + (a % 4 * 16 + b / 16) / 16 = a := by omega
      have e2 : (a % 4 * 16 + b / 16) % 16 * 16 + (b % 16 * 4 + c / 64) / 4 = b := by omega
      have e3 : (b % 16 * 4 + c / 64) % 4 * 64 + c % 64 = c := by omega
      cases b64Loop 0 0 0 X with
      | error e => rfl
      | ok y => simp only [Except.map, e1, e2, e3, List.cons_append]

theorem loop_line (X : List ℕ) : b64Loop 0 0 0 (10 :: X) = b64Loop 0 0 0 X := by
  rw [b64Loop, if_neg (by decide)]
  rfl

theorem loop_last (l : List ℕ) (hb : ∀ b ∈ l, b < 256) : b64Loop 0 0 0 (b64Encode l ++ [10]) = .ok l := by
  induction l using b64Encode.induct with
  | case1 => rfl
  | case2 a =>
    have ha : a < 256 := hb a (by simp)
    rw [b64Encode, List.cons_append, loop_char _ _ _ _ (by omega)]
    simp only
    rw [List.cons_append, loop_char _ _ _ _ (by omega)]
    simp only
    simp [b64Loop, Except.map]
    omega
  | case3 a b =>
    have ha : a < 256 := hb a (by simp)
    have hb' : b < 256 := hb b (by simp)
    rw [b64Encode, List.cons_append, loop_char _ _ _ _ (by omega)]
    simp only
    rw [List.cons_append, loop_char _ _ _ _ (by omega)]
    simp only
    rw [List.cons_append, loop_char _ _ _ _ (by omega)]
    simp only
    simp [b64Loop, Except.map]
    omega
  | case4 a b c t ih =>
    have := loop_then 1 [a, b, c] (b64Encode t ++ [10]) rfl (fun x hx => hb x (by simp only [List.mem_cons, List.not_mem_nil, or_false] at hx ⊢; tauto))
    rw [ih (fun x hx => hb x (by simp [hx]))] at this
    exact this

theorem codes_back (n : ℕ) : ∀ b : List ℕ, b.length ≤ n → (∀ x ∈ b, x < 256) → b64Loop 0 0 0 (byteCodes b) = .ok b := by
  induction n with
  | zero =>
    intro b hl _
    have : b = [] := List.length_eq_zero_iff.mp (by omega)
    subst this
    rw [byteCodes]; rfl
  | succ n ih =>
    intro b hl hb
    rw [byteCodes]
    by_cases h : b = []
    · rw [dif_pos h, h]; rfl
    · rw [dif_neg h]
      by_cases h57 : b.length ≤ 57
      · rw [List.drop_eq_nil_of_le h57, List.take_of_length_le h57, byteCodes, dif_pos rfl]
        exact loop_last b hb
      · have hpos := List.length_pos_of_ne_nil h
        rw [loop_then 19 _ _ (by rw [List.length_take]; omega) (fun x hx => hb x (List.mem_of_mem_take hx)), loop_line, ih (b.drop 57) (by rw [List.length_drop]; omega) (fun x hx => hb x (List.mem_of_mem_drop hx))]
        simp only [Except.map, List.take_append_drop]

theorem b64_ge (i : ℕ) : 43 ≤ b64Char i := by
  unfold b64Char
  split_ifs <;> omega

theorem encode_ge (l : List ℕ) : ∀ c ∈ b64Encode l, 43 ≤ c := by
  induction l using b64Encode.induct with
  | case1 => simp [b64Encode]
  | case2 a => intro c hc; simp only [b64Encode, List.mem_cons, List.not_mem_nil, or_false] at hc; rcases hc with rfl | rfl | rfl | rfl <;> first | exact b64_ge _ | omega
  | case3 a b => intro c hc; simp only [b64Encode, List.mem_cons, List.not_mem_nil, or_false] at hc; rcases hc with rfl | rfl | rfl | rfl <;> first | exact b64_ge _ | omega
  | case4 a b d t ih =>
    intro c hc
    simp only [b64Encode, List.mem_cons] at hc
    rcases hc with rfl | rfl | rfl | rfl | hc
    · exact b64_ge _
    · exact b64_ge _
    · exact b64_ge _
    · exact b64_ge _
    · exact ih c hc

theorem encode_ne (l : List ℕ) (h : l ≠ []) : b64Encode l ≠ [] := by
  match l, h with
  | [], h => exact absurd rfl h
  | [a], _ => simp [b64Encode]
  | [a, b], _ => simp [b64Encode]
  | a :: b :: c :: t, _ => simp [b64Encode]

theorem ascii_nat (n : ℕ) (h : n < 128) : (Char.ofNat n).toNat = n := by
  have : ∀ k : Fin 128, (Char.ofNat k.1).toNat = k.1 := by decide +kernel
  exact this ⟨n, h⟩

theorem lit_seg (seg r : List Char) (h : ∀ c ∈ seg, c ≠ '\n') : litOk false (seg ++ '\n' :: r) = litOk true r := by
  induction seg with
  | nil => rw [List.nil_append, litOk, if_pos rfl]
  | cons c seg ih => rw [List.cons_append, litOk, if_neg (h c (by simp)), ih (fun x hx => h x (by simp [hx]))]

theorem bytes_lines (n : ℕ) : ∀ b : List ℕ, b.length ≤ n → (∀ x ∈ b, x < 256) → litOk true (binaryText b) = true ∧ ∀ c ∈ byteCodes b, c < 128 := by
  induction n with
  | zero =>
    intro b hl _
    have : b = [] := List.length_eq_zero_iff.mp (by omega)
    subst this
    unfold binaryText
    rw [byteCodes]
    simp [litOk]
  | succ n ih =>
    intro b hl hb
    unfold binaryText
    rw [byteCodes]
    by_cases h : b = []
    · rw [dif_pos h]; simp [litOk]
    · rw [dif_neg h]
      have hpos := List.length_pos_of_ne_nil h
      obtain ⟨i1, i2⟩ := ih (b.drop 57) (by rw [List.length_drop]; omega) (fun x hx => hb x (List.mem_of_mem_drop hx))
      have hasc := encode_ascii _ (b.take 57) le_rfl (fun x hx => hb x (List.mem_of_mem_take hx))
      have hge := encode_ge (b.take 57)
      have hne := encode_ne (b.take 57) (by
        intro e
        have := congrArg List.length e
        rw [List.length_take, List.length_nil] at this
        omega)
      have hch : ∀ c ∈ (b64Encode (b.take 57)).map Char.ofNat, c ≠ '\n' ∧ c ≠ ' ' := by
        intro c hc
        obtain ⟨k, hk, rfl⟩ := List.mem_map.mp hc
        have h1 := hasc k hk
        have h2 := hge k hk
        have h3 := ascii_nat k h1
        constructor
        · intro e; rw [e] at h3; have : ('\n').toNat = 10 := rfl; omega
        · intro e; rw [e] at h3; have : (' ').toNat = 32 := rfl; omega
      refine ⟨?_, ?_⟩
      · rw [List.map_append, List.map_cons]
        have e10 : Char.ofNat 10 = '\n' := by decide
        rw [e10]
        generalize he : (b64Encode (b.take 57)).map Char.ofNat = seg at *
        cases seg with
        | nil => exact absurd (List.map_eq_nil_iff.mp he) hne
        | cons c seg =>
          obtain ⟨c1, c2⟩ := hch c (by simp)
          rw [List.cons_append, litOk, lit_seg _ _ (fun x hx => (hch x (by simp [hx])).1)]
          simp only [c1, c2]
          exact i1
      · intro c hc
        rcases List.mem_append.mp hc with hc | hc
        · exact hasc c hc
        · rcases List.mem_cons.mp hc with rfl | hc
          · omega
          · exact i2 c hc

/-- **C125, bytes.**  The lines for bytes of any length are decoded to the same bytes. -/
theorem C125_bytes (b : List ℕ) (h : ∀ x ∈ b, x < 256) : readBinary (binaryText b) = .ok b := by
  obtain ⟨-, h2⟩ := bytes_lines _ b le_rfl h
  have e : (binaryText b).map Char.toNat = byteCodes b := by
    unfold binaryText
    rw [List.map_map]
    conv_rhs => rw [← List.map_id (byteCodes b)]
    exact List.map_congr_left (fun c hc => ascii_nat c (h2 c hc))
  unfold readBinary b64Decode
  rw [e, if_pos (List.all_eq_true.mpr (fun c hc => decide_eq_true (h2 c hc))), codes_back _ b le_rfl h]

theorem binaryText_ne (b : List ℕ) (h : b ≠ []) : binaryText b ≠ [] := by
  unfold binaryText
  rw [byteCodes, dif_neg h]
  simp

theorem field_stored (fl : ℚ → ℚ) (tx : YTexts) (htx : tx.float = yamlFloat) (hbin : tx.binary = binaryText) (x : PyObj) (hx : StorableField x) :
    ∃ tag t, represent fl tx x = .ok (.scalar tag t) ∧ FieldReads fl tag t x ∧ (tag = .str ∨ Unquoted tag t ∨ (tag = .binary ∧ t ≠ [] ∧ litOk true t = true)) := by
  cases x with
  | bytes b => exact ⟨.binary, binaryText b, by rw [represent, hbin], ⟨rfl, C125_bytes b hx.2⟩, Or.inr (Or.inr ⟨rfl, binaryText_ne b hx.1, (bytes_lines _ b le_rfl hx.2).1⟩)⟩
  | span us => exact ⟨.int, _, by rw [represent], ⟨rfl, intText_value _⟩, Or.inr (Or.inl (unquoted_int _))⟩
  | path a p => exact ⟨.str, _, by rw [represent], ⟨rfl, rfl⟩, Or.inl rfl⟩
  | uuid n => exact ⟨.str, _, by rw [represent], ⟨rfl, rfl⟩, Or.inl rfl⟩
  | ip4 a b c d => exact ⟨.str, _, by rw [represent], ⟨rfl, rfl⟩, Or.inl rfl⟩
  | date t =>
    obtain ⟨d, h1, rfl⟩ := hx
    classical
    have hr := read_iso (.date d) h1
    rw [if_pos (show WholeMinutes (.date d) from trivial)] at hr
    exact ⟨.timestamp, _, by rw [represent], ⟨rfl, d, hr, rfl⟩, Or.inr (Or.inl (unquoted_date _ h1 trivial))⟩
  | _ =>
    obtain ⟨tag, t, a, b, c⟩ := value_stored fl tx htx _ (by simpa only [StorableField] using hx)
    exact ⟨tag, t, a, b, c.elim Or.inl (fun h => Or.inr (Or.inl h))⟩

mutual
theorem tree_stored (fl : ℚ → ℚ) (tx : YTexts) (htx : tx.float = yamlFloat) (hbin : tx.binary = binaryText) (x : PyObj) (hx : StorableTree x) :
    ∃ y, represent fl tx x = .ok y ∧ TreeReads fl y x ∧ GoodNode y ∧ depthNode y = depthObj x := by
  match x, hx with
  | .list l, hx =>
    rw [StorableTree] at hx
    obtain ⟨y, h1, h2, h3, h4⟩ := list_stored fl tx htx hbin l hx
    exact ⟨.seq y, by rw [represent, h1]; rfl, by rw [TreeReads]; exact h2, by rw [GoodNode]; exact h3, by rw [depthNode, depthObj, h4]⟩
  | .dict l, hx =>
    rw [StorableTree] at hx
    obtain ⟨y, h1, h2, h3, h4⟩ := items_stored fl tx htx hbin l hx
    exact ⟨.map y, by rw [represent, h1]; rfl, by rw [TreeReads]; exact h2, by rw [GoodNode]; exact h3, by rw [depthNode, depthObj, h4]⟩
  | .none, hx | .bool _, hx | .int _, hx | .text _, hx | .float _, hx | .datetime _, hx | .path _ _, hx | .span _, hx | .ip4 _ _ _ _, hx | .uuid _, hx | .date _, hx | .bytes _, hx =>
    obtain ⟨tag, t, h1, h2, h3⟩ := field_stored fl tx htx hbin _ (by simpa only [StorableTree] using hx)
    exact ⟨.scalar tag t, h1, by rw [TreeReads]; exact h2, by rw [GoodNode]; exact h3, by simp only [depthNode, depthObj]⟩
  | .ip6 _, hx | .url _, hx | .secret _, hx => exact absurd hx (by simp [StorableTree, StorableField, Storable])
theorem list_stored (fl : ℚ → ℚ) (tx : YTexts) (htx : tx.float = yamlFloat) (hbin : tx.binary = binaryText) (l : PyObjs) (hl : StorableList l) :
    ∃ y, representList fl tx l = .ok y ∧ ListReads fl y l ∧ GoodNodes y ∧ depthNodes y = depthObjs l := by
  match l, hl with
  | .nil, _ => exact ⟨.nil, by rw [representList], by rw [ListReads]; trivial, by rw [GoodNodes]; trivial, by rw [depthNodes, depthObjs]⟩
  | .cons x l, hl =>
    rw [StorableList] at hl
    obtain ⟨y, h1, h2, h3, h4⟩ := tree_stored fl tx htx hbin x hl.1
    obtain ⟨z, g1, g2, g3, g4⟩ := list_stored fl tx htx hbin l hl.2
    exact ⟨.cons y z, by rw [representList, h1, g1]; rfl, by rw [ListReads]; exact ⟨h2, g2⟩, by rw [GoodNodes]; exact ⟨h3, g3⟩, by rw [depthNodes, depthObjs, h4, g4]⟩
theorem items_stored (fl : ℚ → ℚ) (tx : YTexts) (htx : tx.float = yamlFloat) (hbin : tx.binary = binaryText) (l : PyItems) (hl : StorableItems l) :
    ∃ y, representItems fl tx l = .ok y ∧ ItemsRead fl y l ∧ GoodPairs y ∧ depthPairs y = depthItems l := by
  match l, hl with
  | .nil, _ => exact ⟨.nil, by rw [representItems], by rw [ItemsRead]; trivial, by rw [GoodPairs]; trivial, by rw [depthPairs, depthItems]⟩
  | .cons k x l, hl =>
    rw [StorableItems] at hl
    obtain ⟨y, h1, h2, h3, h4⟩ := tree_stored fl tx htx hbin x hl.2.1
    obtain ⟨z, g1, g2, g3, g4⟩ := items_stored fl tx htx hbin l hl.2.2
    exact ⟨.cons k y z, by rw [representItems, h1, g1]; rfl, by rw [ItemsRead]; exact ⟨rfl, h2, g2⟩, by rw [GoodPairs]; exact ⟨hl.1, h3, g3⟩, by rw [depthPairs, depthItems, h4, g4]⟩
end

/-- **C125, models.**  A model whose fields are storable values, lists and dictionaries of them (nested up to 38 levels) can be written, and what is read from its file are the same fields in the same order with the same values. -/
theorem C125_model (fl : ℚ → ℚ) (tx : YTexts) (htx : tx.float = yamlFloat) (hbin : tx.binary = binaryText) (items : PyItems) (h : StorableItems items) (hd : depthItems items < 39) :
    ∃ l, represent fl tx (.dict items) = .ok (.map l) ∧ ∃ N, ∀ n, N ≤ n → ∃ y, readFile n (writeFile l) = some y ∧ TreeReads fl y (.dict items) := by
  obtain ⟨l, h1, h2, h3, h4⟩ := items_stored fl tx htx hbin items h
  obtain ⟨N, hN⟩ := C125_file l h3 (by omega)
  exact ⟨l, by rw [represent, h1]; rfl, N, fun n hn => ⟨_, hN n hn, by rw [TreeReads]; exact h2⟩⟩

instance (k : Name) : Decidable (KeyOk k) := by unfold KeyOk; infer_instance

/-! ## The classes -/

/-- Types of single values in fields that can be stored. -/
def storeKind : PyKind → Bool
  | .ip6 | .url | .secret => false
  | _ => true

mutual
/-- Only such types, and keys that are names, occur in the annotation. -/
def storeShape : PyShape → Bool
  | .one k => storeKind k
  | .either a b => storeShape a && storeShape b
  | .list s => storeShape s
  | .model f => storeFields f
def storeFields : PyFields → Bool
  | .nil => true
  | .cons k _ s l => decide (KeyOk k) && storeShape s && storeFields l
end

mutual
/-- Nesting of an annotation. -/
def depthShape : PyShape → ℕ
  | .one _ => 0
  | .either a b => max (depthShape a) (depthShape b)
  | .list s => depthShape s + 1
  | .model f => depthFields f + 1
def depthFields : PyFields → ℕ
  | .nil => 0
  | .cons _ _ s l => max (depthShape s) (depthFields l)
end

/-- Floats are binary64 numbers; dates exist, those with time with offsets of whole minutes; bytes are not empty. -/
def RealLeaves (x : PyObj) : Prop :=
  (∀ q, Inside (.float q) x → b64 q = q) ∧ (∀ d, Inside (.datetime d) x → ∃ s, RealStamp s ∧ WholeMinutes s ∧ d = isoText s) ∧
    (∀ t, Inside (.date t) x → ∃ d, RealStamp (.date d) ∧ t = isoText (.date d)) ∧ ∀ b, Inside (.bytes b) x → b ≠ [] ∧ ∀ k ∈ b, k < 256

theorem leaf_store {k : PyKind} (hk : storeKind k = true) {x : PyObj} (h : isOf k x) (hr : RealLeaves x) : StorableTree x ∧ depthObj x = 0 := by
  cases k <;> simp only [storeKind, Bool.false_eq_true] at hk <;> cases x <;> simp only [isOf] at h <;> simp only [StorableTree, StorableField, Storable, depthObj, and_true, and_self]
  · exact hr.1 _ .self
  · exact hr.2.2.2 _ .self
  · exact hr.2.2.1 _ .self
  · exact hr.2.1 _ .self

theorem list_store (d : ℕ) : ∀ l : PyObjs, (∀ y ∈ l.entries, StorableTree y ∧ depthObj y ≤ d) → StorableList l ∧ depthObjs l ≤ d
  | .nil, _ => by simp [StorableList, depthObjs]
  | .cons x l, h => by
    have h1 := h x (by simp [PyObjs.entries])
    have h2 := list_store d l (fun y hy => h y (by simp [PyObjs.entries, hy]))
    rw [StorableList, depthObjs]
    exact ⟨⟨h1.1, h2.1⟩, max_le h1.2 h2.2⟩

theorem items_store (d : ℕ) : ∀ l : PyItems, (∀ e ∈ l.entries, KeyOk e.1 ∧ StorableTree e.2 ∧ depthObj e.2 ≤ d) → StorableItems l ∧ depthItems l ≤ d
  | .nil, _ => by simp [StorableItems, depthItems]
  | .cons k x l, h => by
    have h1 := h (k, x) (by simp [PyItems.entries])
    have h2 := items_store d l (fun y hy => h y (by simp [PyItems.entries, hy]))
    rw [StorableItems, depthItems]
    exact ⟨⟨h1.1, h1.2.1, h2.1⟩, max_le h1.2.2 h2.2⟩

mutual
theorem shape_store : ∀ (s : PyShape), storeShape s = true → ∀ x, Fits s x → RealLeaves x → StorableTree x ∧ depthObj x ≤ depthShape s
  | .one k, hs, x, h, hr => by
    have := leaf_store (by simpa [storeShape] using hs) (by simpa [Fits] using h) hr
    exact ⟨this.1, by rw [this.2]; omega⟩
  | .either a b, hs, x, h, hr => by
    rw [storeShape, Bool.and_eq_true] at hs
    rw [Fits] at h
    rw [depthShape]
    rcases h with h | h
    · have := shape_store a hs.1 x h hr; exact ⟨this.1, le_trans this.2 (le_max_left _ _)⟩
    · have := shape_store b hs.2 x h hr; exact ⟨this.1, le_trans this.2 (le_max_right _ _)⟩
  | .list s, hs, x, h, hr => by
    rw [storeShape] at hs
    rw [Fits] at h
    obtain ⟨l, rfl, h⟩ := h
    have := list_store (depthShape s) l (fun y hy => shape_store s hs y (h y hy) ⟨fun q hq => hr.1 q (.list hy hq), fun d hd => hr.2.1 d (.list hy hd), fun d hd => hr.2.2.1 d (.list hy hd), fun d hd => hr.2.2.2 d (.list hy hd)⟩)
    rw [StorableTree, depthShape, depthObj]
    exact ⟨this.1, by omega⟩
  | .model f, hs, x, h, hr => by
    rw [storeShape] at hs
    rw [Fits] at h
    obtain ⟨l, rfl, h, -⟩ := h
    have := items_store (depthFields f) l (fun e he => fields_store f hs e.1 e.2 (h e he) ⟨fun q hq => hr.1 q (.dict he hq), fun d hd => hr.2.1 d (.dict he hd), fun d hd => hr.2.2.1 d (.dict he hd), fun d hd => hr.2.2.2 d (.dict he hd)⟩)
    rw [StorableTree, depthShape, depthObj]
    exact ⟨this.1, by omega⟩
theorem fields_store : ∀ (f : PyFields), storeFields f = true → ∀ k x, FieldFits f k x → RealLeaves x → KeyOk k ∧ StorableTree x ∧ depthObj x ≤ depthFields f
  | .nil, _, k, x, h, _ => by rw [FieldFits] at h; exact h.elim
  | .cons k' a s l, hs, k, x, h, hr => by
    rw [storeFields, Bool.and_eq_true, Bool.and_eq_true, decide_eq_true_eq] at hs
    rw [FieldFits] at h
    rw [depthFields]
    rcases h with h | h
    · have := shape_store s hs.1.2 x h.2 hr
      exact ⟨h.1 ▸ hs.1.1, this.1, le_trans this.2 (le_max_left _ _)⟩
    · have := fields_store l hs.2 k x h hr
      exact ⟨this.1, this.2.1, le_trans this.2.2 (le_max_right _ _)⟩
end

/-- **C125, to and from files.**  A model of the class `cls`, written by `to_file` with or without comment, minimal or not, is loaded by `from_file` of its class with the same fields in the same order with the same values, and refused by
every other class. -/
theorem C125_roundtrip (fl : ℚ → ℚ) (tx : YTexts) (htx : tx.float = yamlFloat) (hbin : tx.binary = binaryText) (cls : Name) (comment : Option Name) (created : PyStamp) (lib : Name) (minimal : Bool) (params : PyItems) (p : YamlPlace)
    (hcr : RealStamp created) (hcm : WholeMinutes created) (h : StorableItems params) (hd : depthItems params < 38) :
    ∃ l, yamlToFile fl tx cls comment (isoText created) lib minimal params p = (.ok (), { dirExists := true, file := some (.map l) }) ∧
      ∃ N, ∀ n, N ≤ n → (∃ y, yamlFromFile n cls (writeFile l) = .ok y ∧ TreeReads fl y (.dict params)) ∧ ∀ other, other ≠ cls → yamlFromFile n other (writeFile l) = .error .otherClass := by
  have k1 : KeyOk "datatype".toList := by decide +kernel
  have k2 : KeyOk "comment".toList := by decide +kernel
  have k3 : KeyOk "created".toList := by decide +kernel
  have k4 : KeyOk "lib_ver".toList := by decide +kernel
  have k5 : KeyOk "parameters".toList := by decide +kernel
  have e : ∀ s r : String, s ≠ r → s.toList ≠ r.toList := fun s r hs he => hs (String.toList_inj.1 he)
  have e1 := e "datatype" "parameters" (by decide)
  have e2 := e "parameters" "comment" (by decide)
  have e3 := e "parameters" "created" (by decide)
  have e4 := e "parameters" "lib_ver" (by decide)
  have e5 := e "datatype" "comment" (by decide)
  have e6 := e "datatype" "created" (by decide)
  have e7 := e "datatype" "lib_ver" (by decide)
  obtain ⟨pairs, p1, p2, -, -⟩ := items_stored fl tx htx hbin params h
  have hst : StorableItems (wrapItems cls comment (isoText created) lib minimal params) ∧ depthItems (wrapItems cls comment (isoText created) lib minimal params) = depthItems params + 1 := by
    have hs : Storable (.datetime (isoText created)) := ⟨created, hcr, hcm, rfl⟩
    unfold wrapItems
    cases comment <;> cases minimal <;> simp only [StorableItems, StorableTree, StorableField, depthItems, depthObj, if_true, Bool.false_eq_true, if_false] <;>
      refine ⟨?_, by omega⟩ <;> simp only [k1, k2, k3, k4, k5, h, hs, true_and, and_true] <;> simp [Storable]
  obtain ⟨l, h1, h2, h3, h4⟩ := items_stored fl tx htx hbin _ hst.1
  have hget : pairGet "datatype".toList l = some (.scalar .str cls) ∧ pairGet "parameters".toList l = some (.map pairs) := by
    clear h2 h3 h4 hst k1 k2 k3 k4 k5 e
    unfold wrapItems at h1
    generalize "datatype".toList = kd at *
    generalize "comment".toList = kc at *
    generalize "created".toList = kr at *
    generalize "lib_ver".toList = kl at *
    generalize "parameters".toList = kp at *
    cases comment <;> cases minimal <;>
      · simp only [represent, representItems, p1, bind, Except.bind, pure, Except.pure, if_true, Bool.false_eq_true, if_false, Except.ok.injEq] at h1
        subst h1
        simp [pairGet, e1, Ne.symm e1, e2, e3, e4, e5, e6, e7]
  obtain ⟨N, hN⟩ := C125_file l h3 (by omega)
  refine ⟨l, ?_, N, fun n hn => ⟨⟨.map pairs, ?_, by rw [TreeReads]; exact p2⟩, fun other ho => ?_⟩⟩
  · unfold yamlToFile
    rw [represent, h1]
    rfl
  · unfold yamlFromFile
    rw [hN n hn]
    simp only [hget]
    simp
  · unfold yamlFromFile
    rw [hN n hn]
    simp only [hget]
    simp [Ne.symm ho]

/-- **C125, classes.**  This holds for every instance of every class of the library but those with addresses of version 6, URLs or secrets in their fields. -/
theorem C125_classes (fl : ℚ → ℚ) (tx : YTexts) (htx : tx.float = yamlFloat) (hbin : tx.binary = binaryText) (name : String) (s : PyShape) (hc : (name, s) ∈ allClasses)
    (hn : name ∉ ["User", "Observer", "Testbed"]) (params : PyItems) (hf : Fits s (.dict params)) (hr : RealLeaves (.dict params))
    (comment : Option Name) (created : PyStamp) (hcr : RealStamp created) (hcm : WholeMinutes created) (lib : Name) (minimal : Bool) (p : YamlPlace) :
    ∃ l, yamlToFile fl tx name.toList comment (isoText created) lib minimal params p = (.ok (), { dirExists := true, file := some (.map l) }) ∧
      ∃ N, ∀ n, N ≤ n → (∃ y, yamlFromFile n name.toList (writeFile l) = .ok y ∧ TreeReads fl y (.dict params)) ∧
        ∀ other ∈ allClasses, other.1 ≠ name → yamlFromFile n other.1.toList (writeFile l) = .error .otherClass := by
  have hs : storeShape s = true ∧ depthShape s < 38 := by
    have key : ∀ c ∈ allClasses, c.1 ∉ ["User", "Observer", "Testbed"] → storeShape c.2 = true ∧ depthShape c.2 < 38 := by decide +kernel
    exact key (name, s) hc hn
  obtain ⟨h1, h2⟩ := shape_store s hs.1 _ hf hr
  rw [StorableTree] at h1
  rw [depthObj] at h2
  obtain ⟨l, g1, N, g2⟩ := C125_roundtrip fl tx htx hbin name.toList comment created lib minimal params p hcr hcm h1 (by omega)
  exact ⟨l, g1, N, fun n hnn => ⟨(g2 n hnn).1, fun other _ ho => (g2 n hnn).2 _ (fun he => ho (String.toList_inj.1 he))⟩⟩

instance (tag : YTag) (t : List Char) : Decidable (Unquoted tag t) := by unfold Unquoted; infer_instance

/-- A model with nested lists and dictionaries, its file, and what is read from it. -/
def sampleTree : YPairs :=
  .cons "name".toList (.scalar .str "Task one: #1".toList) (.cons "parameters".toList (.map (.cons "list".toList (.seq (.cons (.scalar .int "1".toList)
    (.cons (.map (.cons "a".toList (.scalar .str "12".toList) (.cons "b".toList (.seq .nil) .nil))) (.cons (.seq (.cons (.scalar .int "5".toList) (.cons (.seq (.cons (.map .nil) .nil)) .nil))) .nil))))
    (.cons "z".toList (.scalar .float "1.5".toList) .nil))) .nil)

example : writeFile sampleTree = "name: 'Task one: #1'\nparameters:\n  list:\n  - 1\n  - a: '12'\n    b: []\n  - - 5\n    - - {}\n  z: 1.5\n".toList := by decide +kernel
example : GoodPairs sampleTree ∧ depthPairs sampleTree < 39 := by
  refine ⟨?_, by decide +kernel⟩
  simp only [sampleTree, GoodPairs, GoodNode, GoodNodes]
  decide +kernel
example : StorableItems (.cons "duration".toList (.int 30) (.cons "targets".toList (.list (.cons (.text "7".toList) (.cons .none .nil))) (.cons "scale".toList (.float 1.5) (.cons "timeout".toList (.span 1500000) .nil)))) := by
  simp only [StorableItems, StorableTree, StorableList, StorableField, Storable]
  decide +kernel

example : Fits shCalPair (.dict (.cons "gain".toList (.float 1.5) (.cons "unit".toList (.text "V".toList) .nil))) ∧ RealLeaves (.dict (.cons "gain".toList (.float 1.5) (.cons "unit".toList (.text "V".toList) .nil))) := by
  refine ⟨⟨_, rfl, ?_, ?_⟩, ?_, ?_, ?_, ?_⟩
  · intro e he
    simp only [PyItems.entries, List.mem_cons, List.not_mem_nil, or_false] at he
    rcases he with rfl | rfl <;> simp [PyFields.ofList, FieldFits, Fits, isOf, PyShape.float, PyShape.opt, PyShape.text]
  · simp [PyItems.entries, PyFields.ofList, alwaysSet]
  · intro q h
    cases h with
    | dict hm hi =>
      simp only [PyItems.entries, List.mem_cons, List.not_mem_nil, or_false, Prod.mk.injEq] at hm
      rcases hm with ⟨-, rfl⟩ | ⟨-, rfl⟩ <;> cases hi
      decide +kernel
  · intro q h
    cases h with
    | dict hm hi =>
      simp only [PyItems.entries, List.mem_cons, List.not_mem_nil, or_false, Prod.mk.injEq] at hm
      rcases hm with ⟨-, rfl⟩ | ⟨-, rfl⟩ <;> cases hi
  · intro q h
    cases h with
    | dict hm hi =>
      simp only [PyItems.entries, List.mem_cons, List.not_mem_nil, or_false, Prod.mk.injEq] at hm
      rcases hm with ⟨-, rfl⟩ | ⟨-, rfl⟩ <;> cases hi
  · intro q h
    cases h with
    | dict hm hi =>
      simp only [PyItems.entries, List.mem_cons, List.not_mem_nil, or_false, Prod.mk.injEq] at hm
      rcases hm with ⟨-, rfl⟩ | ⟨-, rfl⟩ <;> cases hi

example : binaryText [0xAA, 0x55, 0x33, 0xEE] = "qlUz7g==\n".toList ∧ writeFile (.cons "header".toList (.scalar .binary "qlUz7g==\n".toList) (.cons "version".toList (.scalar .str "00B0".toList) .nil)) =
    "header: !!binary |\n  qlUz7g==\nversion: 00B0\n".toList := by
  refine ⟨?_, by decide +kernel⟩
  unfold binaryText
  rw [byteCodes, byteCodes]
  decide +kernel

end Verif.Props
